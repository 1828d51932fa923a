import Verif.Native.Steps

/-!
# Each step keeps the two compilers together, second part

Auxiliary to C25.
-/

namespace FB.Native

open FB.Parse

variable {E : Enc} {reloc base : Nat} {x : X} {n : NS} {f : Nat}

theorem Core.word_old {os : List (Str × Nat)} {m m' : Nat → Nat} {cp : Nat} {T : List It} {K : Nat → Nat → Prop}
    {Pd : Str → Nat → Prop} {C : Str → List CW} (h : Core E reloc base C os m cp T K Pd) {l : Str} {a : Nat} (ha : Pd l a)
    (hm : ∀ y, y < cp → m' y = m y) : word m' a = word m a := by
  obtain ⟨⟨q0, c0, h0, k0, j0⟩, _⟩ := h.pend l a ha
  have s0 : (It.cw q0 c0).size E = 2 := by simp only [It.size, k0]; exact csize_ref j0
  have := h0.range
  have := h.cp_eq
  exact word_congr (hm _ (by omega)) (hm _ (by omega))

/-- The end of a structure that jumps forward. -/
theorem Inv.endFwd (h : Inv E reloc base x n f) {j : Jump} {js : List Jump} (hj : x.jumps = j :: js)
    (hjt : j.type ∈ [LT.IF, .ELSE, .ELIF]) (ln : Nat) :
    ∃ e es, n.loops = e :: es ∧ e.type = ltNum j.type ∧
      Inv E reloc base ({ x with jumps := js }.emit ⟨.label j.label, ln⟩) (NS.patch reloc { n with loops := es } e.pos) 0 := by
  obtain ⟨T, K, Fs, h1, h2, h3, h4⟩ := h
  obtain ⟨t, m, l0, p, Fs, rfl, rfl, rfl⟩ := h2.topFwd hj (by revert hjt; generalize j.type = t; cases t <;> decide)
  refine ⟨⟨ltNum t, p⟩, Fs.flatMap Frame.es, h2.es, rfl, ?_⟩
  have hp : pending (.fwd t m l0 p :: Fs) n (PS.jumpLabel m) p := pending_cons.2 (.inl ⟨rfl, rfl⟩)
  have c1 := h1.patch hp ((n.cp + reloc) % 65536)
  have c2 := Core.label (x := { x with jumps := Fs.flatMap Frame.js }) c1 (l := PS.jumpLabel m) h2.cur ln (lbl_jump m)
    (h2.und _ List.mem_cons_self _ List.mem_cons_self) ?_
  rotate_left
  · intro a ha
    rw [h1.word_patch hp ha]
    rcases pending_cons.1 ha with g | g
    · rw [if_pos g.2]
    · exact absurd g (h2.sep (m := m) (by simp [Frame.nums]) (.inl rfl))
  refine ⟨_, K, Fs, c2.congr ?_, ?_, ?_, .zero _ _⟩
  · intro l a
    rw [pending_congr (n := n) rfl rfl, pending_cons]
    constructor
    · rintro ⟨g | g, hne⟩
      · exact absurd g.1 hne
      · exact g
    · intro g
      exact ⟨.inr g, by rintro rfl; exact h2.sep (m := m) (by simp [Frame.nums]) (.inl rfl) g⟩
  · refine FInv.repl (D := [.fwd t m l0 p]) (N := []) (cs := [⟨.label (PS.jumpLabel m), ln⟩]) h2
      h2.curOk (Nat.le_refl _) rfl rfl h2.ps ?_ nofun nofun .nil nofun
    intro c hc l k
    rw [List.mem_singleton.1 hc] at k; cases k
    exact .inr ⟨m, .inl rfl, h2.le m (by simp [Frame.nums]), .inl (by simp [Frame.nums])⟩
  · refine LInv.add (cs := [⟨.label (PS.jumpLabel m), ln⟩]) h3 rfl rfl rfl rfl ?_
    intro c hc nm k
    rw [List.mem_singleton.1 hc] at k
    injection k with k; exact jumpLabel_ne_prefix _ _ k

/-- `ELSE` and `ELIF`. -/
theorem Inv.elseIf (h : Inv E reloc base x n f) {j : Jump} {js : List Jump} (hj : x.jumps = j :: js) (hjt : j.type = .IF)
    {t : LT} (ht : t ∈ [LT.ELSE, .ELIF]) (a1 a2 : Nat) :
    ∃ e es, n.loops = e :: es ∧ e.type = ltNum .IF ∧
      Inv E reloc base (((X.open_ { x with jumps := js } t a1).emit ⟨.wordStr (PS.jumpLabel (x.num + 1)), a2⟩).emit ⟨.label j.label, a2⟩)
        (NS.patch reloc (NS.pushE { n with loops := es } t 2) e.pos) 0 := by
  obtain ⟨T, K, Fs, h1, h2, h3, h4⟩ := h
  obtain ⟨t', m, l0, p, Fs, rfl, rfl, rfl⟩ := h2.topFwd hj (by rw [hjt]; decide)
  change t' = _ at hjt
  subst hjt
  refine ⟨⟨ltNum .IF, p⟩, Fs.flatMap Frame.es, h2.es, rfl, ?_⟩
  have hmn : m ≤ x.num := h2.le m (by simp [Frame.nums])
  have hne : PS.jumpLabel m ≠ PS.jumpLabel (x.num + 1) := fun g => by have := jumpLabel_inj g; omega
  have hl : IsLbl (x.num + 1) (PS.jumpLabel (x.num + 1)) := .inl rfl
  have hp : pending (.fwd .IF m l0 p :: Fs) n (PS.jumpLabel m) p := pending_cons.2 (.inl ⟨rfl, rfl⟩)
  have c1 := Core.refWait (x := X.open_ { x with jumps := Fs.flatMap Frame.js } t a1) (m' := n.mem) (E := E)
    (l := PS.jumpLabel (x.num + 1)) h1 h2.cur a2 (lbl_jump _) (new_undef h2 hl) fun _ _ => rfl
  have c2 := c1.patch (l := PS.jumpLabel m) (p := p) (.inl hp) ((n.cp + 2 + reloc) % 65536)
  have c3 := Core.label (x := (X.open_ { x with jumps := Fs.flatMap Frame.js } t a1).emit ⟨.wordStr (PS.jumpLabel (x.num + 1)), a2⟩)
    c2 (l := PS.jumpLabel m) h2.cur a2 (lbl_jump m) ?_ ?_
  rotate_left
  · intro g
    rcases addC_defined (cs := [_]) g with g | ⟨c, hc, k⟩
    · exact h2.und _ List.mem_cons_self _ List.mem_cons_self g
    · rw [List.mem_singleton.1 hc] at k; cases k
  · intro a ha
    rw [c1.word_patch (.inl hp) ha]
    rcases ha with ha | ⟨g, _⟩
    · rcases pending_cons.1 ha with g | g
      · rw [if_pos g.2]
      · exact absurd g (h2.sep (m := m) (by simp [Frame.nums]) (.inl rfl))
    · exact absurd g hne
  refine ⟨_, K, .fwd t (x.num + 1) a1 n.cp :: Fs, c3.congr ?_, ?_, ?_, .zero _ _⟩
  · intro l a
    rw [pending_cons, pending_congr (n := n) rfl rfl, pending_cons]
    constructor
    · rintro ⟨(g | g) | g, hne⟩
      · exact absurd g.1 hne
      · exact .inr g
      · exact .inl g
    · rintro (g | g)
      · exact ⟨.inr g, by rw [g.1]; exact hne.symm⟩
      · exact ⟨.inl (.inr g), by rintro rfl; exact h2.sep (m := m) (by simp [Frame.nums]) (.inl rfl) g⟩
  · refine FInv.repl (D := [.fwd .IF m l0 p]) (N := [.fwd t (x.num + 1) a1 n.cp])
      (cs := [⟨.label (PS.jumpLabel m), a2⟩, ⟨.wordStr (PS.jumpLabel (x.num + 1)), a2⟩]) h2
      (h2.curOk.imp id fun ⟨m, hm, e⟩ => ⟨m, Nat.le_succ_of_le hm, e⟩) (Nat.le_succ _) ?_ ?_ ?_ ?_ ?_ ?_ ?_ ?_
    · simp [X.open_, X.emit, Frame.js]
    · simp [NS.pushE, NS.patch, Frame.es]
    · simp [X.open_, X.emit, h2.ps, Frame.opn]
    · intro c hc l k
      simp only [List.mem_cons, List.not_mem_nil, or_false] at hc
      rcases hc with rfl | rfl
      · cases k
        exact .inr ⟨m, .inl rfl, Nat.le_succ_of_le hmn, .inl (by simp [Frame.nums])⟩
      · cases k
    · intro F hF
      rw [List.mem_singleton.1 hF]
      show t ∈ _
      revert ht; cases t <;> decide
    · intro F hF l hlu
      rw [List.mem_singleton.1 hF] at hlu
      rw [List.mem_singleton.1 hlu]
      refine ⟨new_undef h2 hl, fun c hc k => ?_⟩
      simp only [List.mem_cons, List.not_mem_nil, or_false] at hc
      rcases hc with rfl | rfl
      · injection k with k; exact hne k
      · cases k
    · simp [Frame.nums]
    · intro m' hm
      simp [Frame.nums] at hm
      subst hm
      exact ⟨Nat.le_refl _, .inr (Nat.lt_succ_self _)⟩
  · refine LInv.add (cs := [⟨.label (PS.jumpLabel m), a2⟩, ⟨.wordStr (PS.jumpLabel (x.num + 1)), a2⟩]) h3 rfl rfl rfl rfl ?_
    intro c hc nm k
    simp only [List.mem_cons, List.not_mem_nil, or_false] at hc
    rcases hc with rfl | rfl
    · injection k with k; exact jumpLabel_ne_prefix _ _ k
    · cases k

/-- `WEND`. -/
theorem Inv.popWhile (h : Inv E reloc base x n f) {j1 j2 : Jump} {js : List Jump} (hj : x.jumps = j2 :: j1 :: js)
    (hj2 : j2.type = .WHILE_2) (hj1 : j1.type = .WHILE_1) (ln : Nat) {n' : NS} (hn : n.ePopWhile reloc = some n') :
    Inv E reloc base ((({ x with jumps := js }.emit ⟨.wordStr j1.label, ln⟩).emit ⟨.label j2.label, ln⟩).emit
      ⟨.label (lblX j1.label), ln⟩) n' 0 := by
  obtain ⟨T, K, Fs, h1, h2, h3, h4⟩ := h
  obtain ⟨t2, m2, l2, p2, Fs, rfl, rfl, hjs⟩ := h2.topFwd hj (by rw [hj2]; decide)
  change t2 = _ at hj2
  subst hj2
  cases Fs with
  | nil => cases hjs
  | cons F Fs =>
    have hok := h2.ok F (by simp)
    cases F with
    | fwd t m l0 p =>
      obtain ⟨rfl, rfl⟩ := List.cons.inj hjs
      change t = _ at hj1; change t ∈ _ at hok
      exact absurd hj1 (by revert hok; cases t <;> decide)
    | for_ => obtain ⟨rfl, rfl⟩ := List.cons.inj hjs; cases hj1
    | data => obtain ⟨rfl, rfl⟩ := List.cons.inj hjs; cases hj1
    | loop t1 m1 l1 p1 xs =>
      obtain ⟨rfl, rfl⟩ := List.cons.inj hjs
      change t1 = _ at hj1
      subst hj1
      have hes : n.loops = ⟨ltNum .WHILE_2, p2⟩ :: ⟨ltNum .WHILE_1, p1⟩ :: (xs.map Frame.xent ++ Fs.flatMap Frame.es) := h2.es
      have hrest : noExit (Fs.flatMap Frame.es) := FInv.noExit fun F hF => h2.ok F (by simp [hF])
      simp only [NS.ePopWhile, NS.pop, hes, true_or, if_true, Option.some.injEq, NS.checkExit, NS.emitAddr, NS.emitB, NS.patch,
        checkExitL_eq hrest, wbytes_length, Nat.add_sub_cancel] at hn
      subst hn
      have hnd := h2.nodup
      have hm12 : m2 ≠ m1 := by
        rintro rfl
        simp [Frame.nums] at hnd
      have hs2 : ∀ l a, IsLbl m2 l → ¬ pending Fs n l a := fun l a hl g =>
        h2.sep (m := m2) (by simp [Frame.nums]) hl (pending_cons.2 (.inr g))
      have hs1 : ∀ l a, IsLbl m1 l → ¬ pending Fs n l a := fun l a hl g => by
        rcases g with ⟨G, hG, g⟩ | ⟨_, _, _, _, nm, _, e⟩
        · obtain ⟨m', hm', hl'⟩ := Frame.und_lbl (Frame.pend_und g)
          have := hl.uniq hl'; subst this
          rw [List.flatMap_cons, List.flatMap_cons, List.nodup_append, List.nodup_append] at hnd
          exact hnd.2.1.2.2 m1 (by simp [Frame.nums]) m1 (List.mem_flatMap.2 ⟨G, hG, hm'⟩) rfl
        · exact hl.ne_prefix nm e
      have hp : pending (.fwd .WHILE_2 m2 l2 p2 :: .loop .WHILE_1 m1 l1 p1 xs :: Fs) n (PS.jumpLabel m2) p2 := pending_cons.2 (.inl ⟨rfl, rfl⟩)
      have c0 := h1.patch hp ((n.cp + 2 + reloc) % 65536)
      have c1 := Core.refTo (x := { x with jumps := Fs.flatMap Frame.js }) (E := E) c0 h2.cur ln (lbl_jump m1) (hok.2 (by decide))
      obtain ⟨c2, w2⟩ := Core.patches (n.cp + 2 + reloc) xs c1 fun a ha => ⟨_, pending_cons.2 (.inr (pending_cons.2 (.inl ⟨rfl, ha⟩)))⟩
      have c3 := Core.label (x := { x with jumps := Fs.flatMap Frame.js }.emit ⟨.wordStr (PS.jumpLabel m1), ln⟩) c2
        (l := PS.jumpLabel m2) h2.cur ln (lbl_jump m2) ?_ ?_
      rotate_left
      · intro g
        rcases addC_defined (cs := [_]) g with g | ⟨c, hc, k⟩
        · exact h2.und _ List.mem_cons_self _ List.mem_cons_self g
        · rw [List.mem_singleton.1 hc] at k; cases k
      · intro a ha
        rw [w2 _ _ ha]
        rcases pending_cons.1 ha with g | g
        · split
          · rfl
          · rw [c0.word_old ha fun y hy => put_out (.inl hy), h1.word_patch hp ha, if_pos g.2]
        · rcases pending_cons.1 g with g | g
          · exact absurd g.1 (jumpLabel_ne_lblX _ _)
          · exact absurd g (hs2 _ _ (.inl rfl))
      have c4 := Core.label (x := ({ x with jumps := Fs.flatMap Frame.js }.emit ⟨.wordStr (PS.jumpLabel m1), ln⟩).emit ⟨.label (PS.jumpLabel m2), ln⟩) c3
        (l := lblX (PS.jumpLabel m1)) h2.cur ln (lblX_jump m1) ?_ ?_
      rotate_left
      · intro g
        rcases addC_defined (cs := [_, _]) g with g | ⟨c, hc, k⟩
        · exact h2.und (.loop .WHILE_1 m1 l1 p1 xs) (by simp) _ List.mem_cons_self g
        · simp only [List.mem_cons, List.not_mem_nil, or_false] at hc
          rcases hc with rfl | rfl
          · injection k with k; exact jumpLabel_ne_lblX _ _ k
          · cases k
      · intro a ha
        rw [w2 _ _ ha.1]
        rcases pending_cons.1 ha.1 with g | g
        · exact absurd g.1.symm (jumpLabel_ne_lblX _ _)
        · rcases pending_cons.1 g with g | g
          · rw [if_pos g.2]
          · exact absurd g (hs1 _ _ (.inr rfl))
      refine ⟨_, K, Fs, c4.congr ?_, ?_, ?_, .zero _ _⟩
      · intro l a
        rw [pending_congr (n := n) rfl rfl, pending_cons, pending_cons]
        constructor
        · rintro ⟨⟨g | g | g, hne⟩, hne'⟩
          · exact absurd g.1 hne
          · exact absurd g.1 hne'
          · exact g
        · intro g
          refine ⟨⟨.inr (.inr g), ?_⟩, ?_⟩
          · rintro rfl; exact hs2 _ _ (.inl rfl) g
          · rintro rfl; exact hs1 _ _ (.inr rfl) g
      · refine FInv.repl (D := [.fwd .WHILE_2 m2 l2 p2, .loop .WHILE_1 m1 l1 p1 xs]) (N := [])
          (cs := [⟨.label (lblX (PS.jumpLabel m1)), ln⟩, ⟨.label (PS.jumpLabel m2), ln⟩, ⟨.wordStr (PS.jumpLabel m1), ln⟩]) h2
          h2.curOk (Nat.le_refl _) rfl rfl h2.ps ?_ nofun nofun .nil nofun
        intro c hc l k
        simp only [List.mem_cons, List.not_mem_nil, or_false] at hc
        rcases hc with rfl | rfl | rfl
        · cases k
          exact .inr ⟨m1, .inr rfl, h2.le m1 (by simp [Frame.nums]), .inl (by simp [Frame.nums])⟩
        · cases k
          exact .inr ⟨m2, .inl rfl, h2.le m2 (by simp [Frame.nums]), .inl (by simp [Frame.nums])⟩
        · cases k
      · refine LInv.add (cs := [⟨.label (lblX (PS.jumpLabel m1)), ln⟩, ⟨.label (PS.jumpLabel m2), ln⟩, ⟨.wordStr (PS.jumpLabel m1), ln⟩]) h3
          rfl rfl rfl rfl ?_
        intro c hc nm k
        simp only [List.mem_cons, List.not_mem_nil, or_false] at hc
        rcases hc with rfl | rfl | rfl
        · injection k with k; exact lblX_ne_prefix _ _ k
        · injection k with k; exact jumpLabel_ne_prefix _ _ k
        · cases k

/-- `E_POP_FOR` after the last byte was taken. -/
def NS.popForTail (reloc : Nat) (n : NS) : Option NS :=
  match n.pop (ltNum .FOR_1) with
  | none => none
  | some (p, n) =>
    match (n.emitAddr reloc p).pop (ltNum .FOR_2) with
    | none => none
    | some (p, n) => some ((n.patch reloc p).checkExit reloc)

/-- `NEXT`. -/
theorem Inv.popFor (h : Inv E reloc base x n f) {j1 j2 : Jump} {js : List Jump} (hj : x.jumps = j1 :: j2 :: js)
    (hj1 : j1.type = .FOR_1) (ln : Nat) {n' : NS} (hn : n.popForTail reloc = some n') :
    Inv E reloc base ((({ x with jumps := js }.emit ⟨.wordStr j1.label, ln⟩).emit ⟨.label j2.label, ln⟩).emit
      ⟨.label (lblX j1.label), ln⟩) n' 0 := by
  obtain ⟨T, K, Fs, h1, h2, h3, h4⟩ := h
  obtain ⟨m1, l1, p1, m2, l2, p2, xs, Fs, rfl, rfl, hjs⟩ := h2.topFor hj hj1
  obtain ⟨rfl, rfl⟩ := List.cons.inj hjs
  have hok := h2.ok _ List.mem_cons_self
  have hes : n.loops = ⟨ltNum .FOR_1, p1⟩ :: ⟨ltNum .FOR_2, p2⟩ :: (xs.map Frame.xent ++ Fs.flatMap Frame.es) := h2.es
  have hrest : noExit (Fs.flatMap Frame.es) := FInv.noExit fun F hF => h2.ok F (by simp [hF])
  simp only [NS.popForTail, NS.pop, hes, true_or, if_true, Option.some.injEq, NS.checkExit, NS.emitAddr, NS.emitB, NS.patch,
    checkExitL_eq hrest, wbytes_length] at hn
  subst hn
  have hnd := h2.nodup
  have hm12 : m1 ≠ m2 := by
    rintro rfl
    simp [Frame.nums] at hnd
  have c1 := Core.refTo (x := { x with jumps := Fs.flatMap Frame.js }) (E := E) h1 h2.cur ln (lbl_jump m1) hok
  obtain ⟨c2, w2⟩ := Core.patches (n.cp + 2 + reloc) (p2 :: xs) c1 fun a ha => by
    rcases List.mem_cons.1 ha with rfl | ha
    · exact ⟨_, pending_cons.2 (.inl (.inr ⟨rfl, rfl⟩))⟩
    · exact ⟨_, pending_cons.2 (.inl (.inl ⟨rfl, ha⟩))⟩
  have c3 := Core.label (x := { x with jumps := Fs.flatMap Frame.js }.emit ⟨.wordStr (PS.jumpLabel m1), ln⟩) c2
    (l := PS.jumpLabel m2) h2.cur ln (lbl_jump m2) ?_ ?_
  rotate_left
  · intro g
    rcases addC_defined (cs := [_]) g with g | ⟨c, hc, k⟩
    · exact h2.und _ List.mem_cons_self _ (by simp [Frame.und]) g
    · rw [List.mem_singleton.1 hc] at k; cases k
  · intro a ha
    rw [w2 _ _ ha]
    rcases pending_cons.1 ha with (g | g) | g
    · exact absurd g.1 (jumpLabel_ne_lblX _ _)
    · rw [if_pos (by simp [g.2])]
    · exact absurd g (h2.sep (m := m2) (by simp [Frame.nums]) (.inl rfl))
  have c4 := Core.label (x := ({ x with jumps := Fs.flatMap Frame.js }.emit ⟨.wordStr (PS.jumpLabel m1), ln⟩).emit ⟨.label (PS.jumpLabel m2), ln⟩) c3
    (l := lblX (PS.jumpLabel m1)) h2.cur ln (lblX_jump m1) ?_ ?_
  rotate_left
  · intro g
    rcases addC_defined (cs := [_, _]) g with g | ⟨c, hc, k⟩
    · exact h2.und _ List.mem_cons_self _ (by simp [Frame.und]) g
    · simp only [List.mem_cons, List.not_mem_nil, or_false] at hc
      rcases hc with rfl | rfl
      · injection k with k; exact jumpLabel_ne_lblX _ _ k
      · cases k
  · intro a ha
    rw [w2 _ _ ha.1]
    rcases pending_cons.1 ha.1 with (g | g) | g
    · rw [if_pos (by simp [g.2])]
    · exact absurd g.1.symm (jumpLabel_ne_lblX _ _)
    · exact absurd g (h2.sep (m := m1) (by simp [Frame.nums]) (.inr rfl))
  refine ⟨_, K, Fs, c4.congr ?_, ?_, ?_, .zero _ _⟩
  · intro l a
    rw [pending_congr (n := n) rfl rfl, pending_cons]
    constructor
    · rintro ⟨⟨(g | g) | g, hne⟩, hne'⟩
      · exact absurd g.1 hne'
      · exact absurd g.1 hne
      · exact g
    · intro g
      refine ⟨⟨.inr g, ?_⟩, ?_⟩
      · rintro rfl; exact h2.sep (m := m2) (by simp [Frame.nums]) (.inl rfl) g
      · rintro rfl; exact h2.sep (m := m1) (by simp [Frame.nums]) (.inr rfl) g
  · refine FInv.repl (D := [.for_ m1 l1 p1 m2 l2 p2 xs]) (N := [])
      (cs := [⟨.label (lblX (PS.jumpLabel m1)), ln⟩, ⟨.label (PS.jumpLabel m2), ln⟩, ⟨.wordStr (PS.jumpLabel m1), ln⟩]) h2
      h2.curOk (Nat.le_refl _) rfl rfl h2.ps ?_ nofun nofun .nil nofun
    intro c hc l k
    simp only [List.mem_cons, List.not_mem_nil, or_false] at hc
    rcases hc with rfl | rfl | rfl
    · cases k
      exact .inr ⟨m1, .inr rfl, h2.le m1 (by simp [Frame.nums]), .inl (by simp [Frame.nums])⟩
    · cases k
      exact .inr ⟨m2, .inl rfl, h2.le m2 (by simp [Frame.nums]), .inl (by simp [Frame.nums])⟩
    · cases k
  · refine LInv.add (cs := [⟨.label (lblX (PS.jumpLabel m1)), ln⟩, ⟨.label (PS.jumpLabel m2), ln⟩, ⟨.wordStr (PS.jumpLabel m1), ln⟩]) h3
      rfl rfl rfl rfl ?_
    intro c hc nm k
    simp only [List.mem_cons, List.not_mem_nil, or_false] at hc
    rcases hc with rfl | rfl | rfl
    · injection k with k; exact lblX_ne_prefix _ _ k
    · injection k with k; exact jumpLabel_ne_prefix _ _ k
    · cases k

end FB.Native
