import Verif.Native.Steps2

/-!
# Each step keeps the two compilers together, third part

Auxiliary to C25.
-/

namespace FB.Native

open FB.Parse

variable {E : Enc} {reloc base : Nat} {x : X} {n : NS} {f : Nat}

/-- An `EXIT` added to a loop. -/
def Frame.addX (a : Nat) : Frame → Frame
  | .loop t m ln p xs => .loop t m ln p (a :: xs)
  | .for_ m1 ln1 p1 m2 ln2 p2 xs => .for_ m1 ln1 p1 m2 ln2 p2 (a :: xs)
  | F => F

theorem lt_loop {t : LT} (h : t ∈ [LT.DO_LOOP, .REPEAT, .WHILE_1, .PROC_2]) :
    ¬ (t = .ELIF ∨ t = .IF ∨ t = .ELSE ∨ t = .FOR_2 ∨ t = .WHILE_2) ∧ ¬ t.val ≤ LT.EXIT.val ∧ ¬ ltNum t ≥ 128 ∧
    ¬ ltNum t < ltNum .PROC_DATA + 1 := by
  revert h; cases t <;> decide

theorem lt_fwd {t : LT} (h : t ∈ [LT.WHILE_2, .IF, .ELSE, .ELIF]) :
    (t = .ELIF ∨ t = .IF ∨ t = .ELSE ∨ t = .FOR_2 ∨ t = .WHILE_2) ∧ ltNum t ≥ 128 := by
  revert h; cases t <;> decide

/-- The loop that `EXIT` leaves is the same in both compilers. -/
theorem exit_frame {T : List It} {j : Jump} (cp : Nat) (Fs : List Frame) : ∀ {a b : List Ent}, (∀ F ∈ Fs, F.ok E base T) →
    exitSearch (Fs.flatMap Frame.js) = some (some j) → NS.exitAt (Fs.flatMap Frame.es) = some (a, b) →
    ∃ A F B m, Fs = A ++ F :: B ∧ j.label = PS.jumpLabel m ∧ m ∈ F.nums ∧ lblX (PS.jumpLabel m) ∈ F.und ∧
      (∀ l c, (F.addX cp).pend l c ↔ F.pend l c ∨ (l = lblX (PS.jumpLabel m) ∧ c = cp)) ∧
      (F.addX cp).js = F.js ∧ (F.addX cp).opn = F.opn ∧ (F.addX cp).und = F.und ∧ (F.addX cp).nums = F.nums ∧
      (∀ T', (F.addX cp).ok E base T' ↔ F.ok E base T') ∧
      a ++ Frame.xent cp :: b = (A ++ F.addX cp :: B).flatMap Frame.es := by
  induction Fs with
  | nil => intro a b _ h _; cases h
  | cons F Fs ih =>
    intro a b hok h1 h2
    have ho := hok F List.mem_cons_self
    cases F with
    | loop t m ln p xs =>
      have ht := lt_loop ho.1
      rw [show (Frame.loop t m ln p xs :: Fs).flatMap Frame.js = ⟨t, PS.jumpLabel m, ln⟩ :: Fs.flatMap Frame.js from rfl, exitSearch,
        if_neg ht.1, if_neg ht.2.1] at h1
      rw [show (Frame.loop t m ln p xs :: Fs).flatMap Frame.es = ⟨ltNum t, p⟩ :: (xs.map Frame.xent ++ Fs.flatMap Frame.es) from rfl,
        NS.exitAt, if_neg ht.2.2.1, if_neg ht.2.2.2] at h2
      cases h1; cases h2
      refine ⟨[], _, Fs, m, rfl, rfl, by simp [Frame.nums], by simp [Frame.und], ?_, rfl, rfl, rfl, rfl, fun _ => Iff.rfl, rfl⟩
      intro l c
      simp only [Frame.addX, Frame.pend, List.mem_cons]
      constructor
      · rintro ⟨g, rfl | g'⟩
        · exact .inr ⟨g, rfl⟩
        · exact .inl ⟨g, g'⟩
      · rintro (⟨g, g'⟩ | ⟨g, rfl⟩)
        · exact ⟨g, .inr g'⟩
        · exact ⟨g, .inl rfl⟩
    | for_ m1 ln1 p1 m2 ln2 p2 xs =>
      rw [show (Frame.for_ m1 ln1 p1 m2 ln2 p2 xs :: Fs).flatMap Frame.js = ⟨.FOR_1, PS.jumpLabel m1, ln1⟩ ::
        ⟨.FOR_2, PS.jumpLabel m2, ln2⟩ :: Fs.flatMap Frame.js from rfl, exitSearch,
        if_neg (by show ¬ (LT.FOR_1 = _ ∨ LT.FOR_1 = _ ∨ LT.FOR_1 = _ ∨ LT.FOR_1 = _ ∨ LT.FOR_1 = _); decide),
        if_neg (by show ¬ LT.FOR_1.val ≤ _; decide)] at h1
      rw [show (Frame.for_ m1 ln1 p1 m2 ln2 p2 xs :: Fs).flatMap Frame.es = ⟨ltNum .FOR_1, p1⟩ :: ⟨ltNum .FOR_2, p2⟩ ::
        (xs.map Frame.xent ++ Fs.flatMap Frame.es) from rfl,
        NS.exitAt, if_pos (by show ltNum .FOR_1 ≥ 128; decide), NS.exitAt, if_neg (by show ¬ ltNum .FOR_2 ≥ 128; decide),
        if_neg (by show ¬ ltNum .FOR_2 < ltNum .PROC_DATA + 1; decide)] at h2
      cases h1; cases h2
      refine ⟨[], _, Fs, m1, rfl, rfl, by simp [Frame.nums], by simp [Frame.und], ?_, rfl, rfl, rfl, rfl, fun _ => Iff.rfl, rfl⟩
      intro l c
      simp only [Frame.addX, Frame.pend, List.mem_cons]
      constructor
      · rintro (⟨g, rfl | g'⟩ | g)
        · exact .inr ⟨g, rfl⟩
        · exact .inl (.inl ⟨g, g'⟩)
        · exact .inl (.inr g)
      · rintro ((⟨g, g'⟩ | g) | ⟨g, rfl⟩)
        · exact .inl ⟨g, .inr g'⟩
        · exact .inr g
        · exact .inl ⟨g, .inl rfl⟩
    | fwd t m ln p =>
      change t ∈ _ at ho
      rw [show (Frame.fwd t m ln p :: Fs).flatMap Frame.js = ⟨t, PS.jumpLabel m, ln⟩ :: Fs.flatMap Frame.js from rfl, exitSearch,
        if_pos (lt_fwd ho).1] at h1
      rw [show (Frame.fwd t m ln p :: Fs).flatMap Frame.es = ⟨ltNum t, p⟩ :: Fs.flatMap Frame.es from rfl, NS.exitAt,
        if_pos (lt_fwd ho).2] at h2
      cases he : NS.exitAt (Fs.flatMap Frame.es) with
      | none => rw [he] at h2; cases h2
      | some ab =>
        obtain ⟨a', b'⟩ := ab
        rw [he] at h2; cases h2
        obtain ⟨A, F, B, m', rfl, h⟩   := ih (fun F hF => hok F (List.mem_cons_of_mem _ hF)) h1 he
        obtain ⟨g1, g2, g3, g4, g5, g6, g7, g8, g9, g10⟩ := h
        exact ⟨.fwd t m ln p :: A, F, B, m', rfl, g1, g2, g3, g4, g5, g6, g7, g8, g9, by
          show _ :: (a' ++ _) = _ :: ((A ++ F.addX cp :: B).flatMap Frame.es); rw [g10]⟩
    | data m ln p =>
      rw [show (Frame.data m ln p :: Fs).flatMap Frame.js = ⟨.PROC_DATA, PS.jumpLabel m, ln⟩ :: Fs.flatMap Frame.js from rfl, exitSearch,
        if_neg (by show ¬ (LT.PROC_DATA = _ ∨ LT.PROC_DATA = _ ∨ LT.PROC_DATA = _ ∨ LT.PROC_DATA = _ ∨ LT.PROC_DATA = _); decide),
        if_pos (by show LT.PROC_DATA.val ≤ _; decide)] at h1
      cases h1

/-- `EXIT`. -/
theorem Inv.exit (h : Inv E reloc base x n f) {j : Jump} (hj : exitSearch x.jumps = some (some j)) (ln : Nat) {n' : NS}
    (hn : n.eExitLoop = some n') : Inv E reloc base (x.emit ⟨.wordStr (lblX j.label), ln⟩) n' 0 := by
  obtain ⟨T, K, Fs, h1, h2, h3, h4⟩ := h
  unfold NS.eExitLoop at hn
  cases he : NS.exitAt n.loops with
  | none => rw [he] at hn; cases hn
  | some ab =>
    obtain ⟨a, b⟩ := ab
    rw [he] at hn
    dsimp only at hn
    split at hn
    · cases hn
    cases hn
    rw [h2.js] at hj
    rw [h2.es] at he
    obtain ⟨A, F, B, m, rfl, hlab, hnum, hund, hpend, e1, e2, e3, e4, e5, e6⟩ := exit_frame n.cp Fs h2.ok hj he
    rw [hlab]
    have c1 := Core.refWait (x := x) (m' := n.mem) (E := E) (l := lblX (PS.jumpLabel m)) h1 h2.cur ln (lblX_jump m)
      (h2.und F (by simp) _ hund) fun _ _ => rfl
    have hop : (A ++ F.addX n.cp :: B).flatMap Frame.opn = (A ++ F :: B).flatMap Frame.opn := by simp [e2]
    have hnm : (A ++ F.addX n.cp :: B).flatMap Frame.nums = (A ++ F :: B).flatMap Frame.nums := by simp [e4]
    refine ⟨.cw x.cur ⟨.wordStr (lblX (PS.jumpLabel m)), ln⟩ :: T, K, A ++ F.addX n.cp :: B, ?_, ?_, ?_, .zero _ _⟩
    · rw [hop]
      refine c1.congr fun l c => ?_
      unfold pending
      dsimp only
      constructor
      · rintro ((⟨G, hG, g⟩ | g) | g)
        · rcases List.mem_append.1 hG with hG | hG
          · exact .inl ⟨G, by simp [hG], g⟩
          · rcases List.mem_cons.1 hG with rfl | hG
            · exact .inl ⟨_, by simp, (hpend _ _).2 (.inl g)⟩
            · exact .inl ⟨G, by simp [hG], g⟩
        · exact .inr g
        · exact .inl ⟨_, by simp, (hpend _ _).2 (.inr g)⟩
      · rintro (⟨G, hG, g⟩ | g)
        · rcases List.mem_append.1 hG with hG | hG
          · exact .inl (.inl ⟨G, by simp [hG], g⟩)
          · rcases List.mem_cons.1 hG with rfl | hG
            · rcases (hpend _ _).1 g with g | g
              · exact .inl (.inl ⟨F, by simp, g⟩)
              · exact .inr g
            · exact .inl (.inl ⟨G, by simp [hG], g⟩)
        · exact .inl (.inr g)
    · have hmem : ∀ G ∈ A ++ F.addX n.cp :: B, ∃ G' ∈ A ++ F :: B, G.und = G'.und ∧ ∀ T', G.ok E base T' ↔ G'.ok E base T' := by
        intro G hG
        rcases List.mem_append.1 hG with hG | hG
        · exact ⟨G, by simp [hG], rfl, fun _ => Iff.rfl⟩
        · rcases List.mem_cons.1 hG with rfl | hG
          · exact ⟨F, by simp, e3, e5⟩
          · exact ⟨G, by simp [hG], rfl, fun _ => Iff.rfl⟩
      have base' := FInv.repl (D := []) (N := []) (x' := x.emit ⟨.wordStr (lblX (PS.jumpLabel m)), ln⟩) (n' := n)
        (cs := [⟨.wordStr (lblX (PS.jumpLabel m)), ln⟩]) (q := x.cur) h2 h2.curOk
        (Nat.le_refl _) h2.js h2.es h2.ps (fun c hc l k => by rw [List.mem_singleton.1 hc] at k; cases k) nofun nofun .nil nofun
      refine ⟨?_, e6, ?_, ?_, ?_, ?_, ?_, base'.tl, base'.tp⟩
      · rw [base'.js]; simp [e1]
      · rw [hop]; exact base'.ps
      · intro G hG
        obtain ⟨G', hG', _, g⟩ := hmem G hG
        exact (g _).2 (base'.ok G' hG')
      · intro G hG l hl
        obtain ⟨G', hG', g, _⟩ := hmem G hG
        rw [g] at hl
        exact base'.und G' hG' l hl
      · rw [hnm]; exact base'.nodup
      · rw [hnm]; exact base'.le
    · exact LInv.add (cs := [⟨.wordStr (lblX (PS.jumpLabel m)), ln⟩]) h3 rfl rfl rfl rfl fun c hc nm k => by
        rw [List.mem_singleton.1 hc] at k; cases k

/-- The end of a procedure. -/
theorem Inv.popData (h : Inv E reloc base x n f) {j : Jump} {js : List Jump} (hj : x.jumps = j :: js) (hjt : j.type = .PROC_DATA)
    {n' : NS} (hn : n.ePopProcData reloc = some n') : Inv E reloc base { x with jumps := js, stack := x.stack.tail } n' 0 := by
  obtain ⟨T, K, Fs, h1, h2, h3, h4⟩ := h
  obtain ⟨m, l0, p, Fs, rfl, rfl, rfl⟩ := h2.topData hj hjt
  have hes : n.loops = ⟨ltNum .PROC_DATA, p⟩ :: Fs.flatMap Frame.es := h2.es
  simp only [NS.ePopProcData, NS.pop, hes, true_or, if_true, Option.some.injEq, NS.patch] at hn
  subst hn
  have c1 := Core.close (os := Fs.flatMap Frame.opn) (l := PS.jumpLabel m) (p := p) h1
  refine ⟨T, _, Fs, c1.congr ?_, ?_, ?_, .zero _ _⟩
  · intro l a
    rw [pending_congr (n := n) rfl rfl, pending_cons]
    exact ⟨fun g => g.elim (fun g => g.elim) id, .inr⟩
  · have hps : x.stack.tail = (Fs.flatMap Frame.opn).map Prod.fst := by rw [h2.ps]; rfl
    exact FInv.repl (D := [.data m l0 p]) (N := []) (cs := []) (q := x.cur) h2 h2.curOk (Nat.le_refl _) rfl rfl hps nofun nofun nofun .nil nofun
  · exact LInv.add (cs := []) (q := x.cur) h3 rfl rfl rfl rfl nofun

theorem nodup_getElem? {l : List Str} (h : l.Nodup) {i j : Nat} {a : Str} (hi : l[i]? = some a) (hj : l[j]? = some a) : i = j := by
  obtain ⟨h1, _⟩ := List.getElem?_eq_some_iff.1 hi
  exact (List.getElem?_inj h1 h).1 (hi.trans hj.symm)

/-- A reference to a name. -/
theorem Inv.ref (h : Inv E reloc base x n f) {num : Nat} {nm : Str} (hnm : n.names[num]? = some nm) (ln : Nat) :
    Inv E reloc base (x.emit ⟨.wordStr (labelPrefix ++ nm), ln⟩) (n.useLabel reloc num) 0 := by
  obtain ⟨T, K, Fs, h1, h2, h3, h4⟩ := h
  have hf : ∀ n' : NS, n'.loops = n.loops → FInv E base (x.emit ⟨.wordStr (labelPrefix ++ nm), ln⟩) n'
      (.cw x.cur ⟨.wordStr (labelPrefix ++ nm), ln⟩ :: T) Fs := fun n' hl =>
    FInv.repl (D := []) (N := []) (cs := [⟨.wordStr (labelPrefix ++ nm), ln⟩]) h2 h2.curOk
        (Nat.le_refl _) h2.js (hl.trans h2.es) h2.ps (fun c hc l k => by rw [List.mem_singleton.1 hc] at k; cases k) nofun nofun .nil nofun
  have hl : LInv E base (x.emit ⟨.wordStr (labelPrefix ++ nm), ln⟩) n (addC x.cur [⟨.wordStr (labelPrefix ++ nm), ln⟩] T) :=
    LInv.add h3 rfl rfl rfl rfl fun c hc nm k => by rw [List.mem_singleton.1 hc] at k; cases k
  unfold NS.useLabel
  cases hfd : n.lab.find? (fun e => e.num = num && e.st ≥ 128) with
  | some e =>
    have hmem := List.mem_of_find?_eq_some hfd
    have hprop := List.find?_some hfd
    simp only [Bool.and_eq_true, decide_eq_true_eq] at hprop
    obtain ⟨⟨nm', g1, g2⟩, g3⟩ := h3.ents e hmem
    rw [hprop.1, hnm] at g1
    cases g1
    have c1 := Core.refTo (x := x) (E := E) h1 h2.cur ln (name_jump nm) (g2 (by omega))
    exact ⟨_, K, Fs, c1, hf _ rfl, ⟨hl.nodup, hl.ents, hl.defs, hl.last, hl.res⟩, .zero _ _⟩
  | none =>
    have hno : ∀ e ∈ n.lab, ¬ (e.num = num ∧ e.st ≥ 128) := fun e he g => by
      have := List.find?_eq_none.1 hfd e he
      simp [g.1, g.2] at this
    have hnd : ¬ Defined T (labelPrefix ++ nm) := fun g => by
      obtain ⟨e, he, hs, hn⟩ := h3.defs nm g
      exact hno e he ⟨nodup_getElem? h3.nodup hn hnm, by omega⟩
    have c1 := Core.refWait (x := x) (m' := put n.mem n.cp (wbytes ((257 * (n.cp / 256) + reloc) % 65536))) (E := E) (l := labelPrefix ++ nm) h1 h2.cur ln
      (name_jump nm) hnd fun y hy => put_out (.inl hy)
    refine ⟨_, K, Fs, c1.congr ?_, hf _ rfl, ?_, .zero _ _⟩
    · intro l a
      unfold pending labPend
      simp only [NS.emitAddr, NS.emitB]
      constructor
      · rintro ((g | ⟨e, he, g⟩) | ⟨g1, g2⟩)
        · exact .inl g
        · exact .inr ⟨e, List.mem_append_left _ he, g⟩
        · exact .inr ⟨_, List.mem_append_right _ List.mem_cons_self, rfl, g2.symm, nm, hnm, g1⟩
      · rintro (g | ⟨e, he, g⟩)
        · exact .inl (.inl g)
        · rcases List.mem_append.1 he with he | he
          · exact .inl (.inr ⟨e, he, g⟩)
          · rw [List.mem_singleton.1 he] at g
            obtain ⟨_, g2, nm', g3, g4⟩ := g
            change n.names[num]? = _ at g3
            rw [hnm] at g3; cases g3
            exact .inr ⟨g4, g2.symm⟩
    · refine ⟨hl.nodup, ?_, ?_, hl.last, ?_⟩
      · intro e he
        rcases List.mem_append.1 he with he | he
        · exact hl.ents e he
        · rw [List.mem_singleton.1 he]
          exact ⟨⟨nm, hnm, nofun⟩, .inl rfl⟩
      · intro nm' g
        obtain ⟨e, he, g⟩ := hl.defs nm' g
        exact ⟨e, List.mem_append_left _ he, g⟩
      · intro e he g
        rcases List.mem_append.1 he with he | he
        · obtain ⟨e', he', g⟩ := hl.res e he g
          exact ⟨e', List.mem_append_left _ he', g⟩
        · rw [List.mem_singleton.1 he] at g; cases g

/-- A name is mentioned or created. -/
theorem Inv.create (h : Inv E reloc base x n f) (nm : Str) (hlen : (n.eLabelCreate nm).names.length ≤ 256) :
    Inv E reloc base { x with last := nm } (n.eLabelCreate nm) 0 := by
  obtain ⟨T, K, Fs, h1, h2, h3, h4⟩ := h
  have hsome : ∀ (i : Nat) (v : Str), n.names[i]? = some v → (n.eLabelCreate nm).names[i]? = some v := by
    intro i v hi
    unfold NS.eLabelCreate; dsimp only
    split
    · exact hi
    · obtain ⟨hlt, _⟩ := List.getElem?_eq_some_iff.1 hi
      rw [List.getElem?_append_left hlt]; exact hi
  have hback : ∀ e ∈ n.lab, ∀ v, (n.eLabelCreate nm).names[e.num]? = some v → n.names[e.num]? = some v := by
    intro e he v hv
    obtain ⟨⟨v', g, _⟩, _⟩ := h3.ents e he
    rw [hsome _ _ g] at hv; cases hv; exact g
  refine ⟨T, K, Fs, h1.congr ?_, ⟨h2.js, h2.es, h2.ps, h2.ok, h2.und, h2.nodup, h2.le, h2.tl, h2.tp⟩, ?_, .zero _ _⟩
  · intro l a
    unfold pending labPend
    constructor
    · rintro (g | ⟨e, he, g1, g2, v, g3, g4⟩)
      · exact .inl g
      · exact .inr ⟨e, he, g1, g2, v, hsome _ _ g3, g4⟩
    · rintro (g | ⟨e, he, g1, g2, v, g3, g4⟩)
      · exact .inl g
      · exact .inr ⟨e, he, g1, g2, v, hback e he _ g3, g4⟩
  · refine ⟨?_, ?_, ?_, ?_, h3.res⟩
    · unfold NS.eLabelCreate; dsimp only
      split
      · exact h3.nodup
      · next g =>
        rw [List.nodup_append]
        refine ⟨h3.nodup, by simp, ?_⟩
        rintro a ha b hb rfl
        exact g (by rw [← List.mem_singleton.1 hb]; exact ha)
    · intro e he
      obtain ⟨⟨v', g, g'⟩, g3⟩ := h3.ents e he
      exact ⟨⟨v', hsome _ _ g, g'⟩, g3⟩
    · intro v g
      obtain ⟨e, he, g1, g2⟩ := h3.defs v g
      exact ⟨e, he, g1, hsome _ _ g2⟩
    · intro _
      show (n.eLabelCreate nm).names[n.names.idxOf nm % 256]? = some nm
      unfold NS.eLabelCreate at hlen ⊢
      dsimp only at hlen ⊢
      split at hlen
      · next g =>
        rw [if_pos g]
        have hlt := List.idxOf_lt_length_of_mem g
        rw [Nat.mod_eq_of_lt (by omega), List.getElem?_eq_getElem hlt, List.getElem_idxOf]
      · next g =>
        rw [if_neg g]
        rw [List.length_append] at hlen
        simp only [List.length_cons, List.length_nil] at hlen
        have hi : n.names.idxOf nm = n.names.length := List.idxOf_eq_length g
        rw [hi, Nat.mod_eq_of_lt (by omega), List.getElem?_append_right (Nat.le_refl _)]
        simp

theorem defLoop_eq {num : Nat} : ∀ {es l : List LAd} {n n' : NS}, NS.defLoop reloc num es n = some (l, n') →
    (∀ e ∈ es, e.num = num → e.st < 128) ∧ l = es.map (fun e => if e.num = num then { e with st := 1 } else e) ∧
    n' = { n with mem := putAll n.mem (n.cp + reloc) ((es.filter fun e => e.num = num).map LAd.pos) }
  | [], l, n, n', h => by cases h; exact ⟨nofun, rfl, rfl⟩
  | e :: es, l, n, n', h => by
    unfold NS.defLoop at h
    split at h
    · next he =>
      split at h
      · cases h
      · next hs =>
        cases hr : NS.defLoop reloc num es (n.patch reloc e.pos) with
        | none => rw [hr] at h; cases h
        | some r =>
          obtain ⟨l', n''⟩ := r
          rw [hr] at h; cases h
          obtain ⟨g1, g2, g3⟩ := defLoop_eq hr
          refine ⟨?_, by simp [he, g2], ?_⟩
          · intro e' he' hn
            rcases List.mem_cons.1 he' with rfl | he'
            · omega
            · exact g1 e' he' hn
          · rw [g3]; simp [he, NS.patch, putAll]
    · next he =>
      cases hr : NS.defLoop reloc num es n with
      | none => rw [hr] at h; cases h
      | some r =>
        obtain ⟨l', n''⟩ := r
        rw [hr] at h; cases h
        obtain ⟨g1, g2, g3⟩ := defLoop_eq hr
        refine ⟨?_, by simp [he, g2], ?_⟩
        · intro e' he' hn
          rcases List.mem_cons.1 he' with rfl | he'
          · exact absurd hn he
          · exact g1 e' he' hn
        · rw [g3]; simp [he]

/-- The start of a procedure or `DATA`, after taking back the `TOK_JUMP`. -/
theorem Inv.labelDef (h : Inv E reloc base x n f) (hj : bytesAt n.mem n.cp (E.enc (.tok .JUMP))) (hlast : x.last ≠ []) (a1 a2 : Nat) {n' : NS}
    (hn : NS.eLabelDef reloc { n with cp := n.cp + 1 } = some n') :
    Inv E reloc base (X.emit { X.open_ x .PROC_DATA a1 with stack := PS.jumpLabel (x.num + 1) :: x.stack }
      ⟨.label (labelPrefix ++ x.last), a2⟩) n' 0 := by
  obtain ⟨T, K, Fs, h1, h2, h3, h4⟩ := h
  have hnm := h3.last hlast
  unfold NS.eLabelDef NS.push at hn
  dsimp only at hn
  split at hn
  · cases hn
  · next n1 hn1 =>
    split at hn1
    · cases hn1
    cases hn1
    dsimp only at hn
    split at hn
    · cases hn
    · next l n2 hd =>
      cases hn
      obtain ⟨g1, g2, g3⟩ := defLoop_eq hd
      rw [if_neg (by decide)] at g3
      dsimp only at g1 g2 g3
      -- every reference to the name waits
      have hst : ∀ e ∈ n.lab, e.num = n.last → e.st = 0 := by
        intro e he hen
        obtain ⟨_, g⟩ := h3.ents e he
        have := g1 e he hen
        rcases g with g | g | g
        · exact g
        · obtain ⟨e', he', g4, g5⟩ := h3.res e he g
          have := g1 e' he' (g5.trans hen)
          omega
        · omega
      have hnd : ¬ Defined T (labelPrefix ++ x.last) := fun g => by
        obtain ⟨e, he, hs, hn⟩ := h3.defs _ g
        have := g1 e he (nodup_getElem? h3.nodup hn hnm)
        omega
      have hlbl : PS.jumpLabel (x.num + 1) ∉ (Fs.flatMap Frame.opn).map Prod.fst ++ [[]] := by
        intro g
        rcases List.mem_append.1 g with g | g
        · obtain ⟨⟨q, p⟩, g, e⟩ := List.mem_map.1 g
          obtain ⟨F, hF, g⟩ := List.mem_flatMap.1 g
          cases F with
          | data m ln p' =>
            cases List.mem_singleton.1 g
            have := jumpLabel_inj e
            have := h2.le m (List.mem_flatMap.2 ⟨_, hF, by simp [Frame.nums]⟩)
            omega
          | _ => cases g
        · have := List.mem_singleton.1 g
          simp [PS.jumpLabel, ofS] at this
      have hnew : ∀ c, It.cw (PS.jumpLabel (x.num + 1)) c ∉ T := by
        intro c hc
        rcases h2.tp _ _ hc with e | ⟨m, hm, e⟩
        · simp [PS.jumpLabel, ofS] at e
        · have := jumpLabel_inj e; omega
      have c1 := h1.open_ hlbl hnew hj
      obtain ⟨c2, w2⟩ := Core.patches (x := x) (n.cp + 3 + reloc) ((n.lab.filter fun e => e.num = n.last).map LAd.pos) c1 fun a ha => by
        obtain ⟨e, he, rfl⟩ := List.mem_map.1 ha
        obtain ⟨he, hen⟩ := List.mem_filter.1 he
        simp only [decide_eq_true_eq] at hen
        exact ⟨_, .inr ⟨e, he, hst e he hen, rfl, x.last, by rw [hen]; exact hnm, rfl⟩⟩
      have c3 := Core.label (x := { X.open_ x .PROC_DATA a1 with stack := PS.jumpLabel (x.num + 1) :: x.stack }) c2 (l := labelPrefix ++ x.last)
        rfl a2 (name_jump _) ?_ ?_
      rotate_left
      · rintro ⟨q, c, hc, k⟩
        rcases List.mem_cons.1 hc with e | hc
        · cases e
        · exact hnd ⟨q, c, hc, k⟩
      · intro a ha
        rw [w2 _ _ ha, if_pos]
        rcases ha with ⟨F, hF, g⟩ | ⟨e, he, g4, g5, nm, g6, g7⟩
        · obtain ⟨m, _, hl⟩ := Frame.und_lbl (Frame.pend_und g)
          exact absurd rfl (hl.ne_prefix _)
        · have e1 : nm = x.last := (List.append_cancel_left g7).symm
          subst e1
          refine List.mem_map.2 ⟨e, List.mem_filter.2 ⟨he, ?_⟩, g5⟩
          simpa using nodup_getElem? h3.nodup g6 hnm
      have hcpe : n2.cp = n.cp + 3 := by rw [g3]
      have hmem : n2.mem = putAll n.mem (n.cp + 3 + reloc) ((n.lab.filter fun e => e.num = n.last).map LAd.pos) := by rw [g3]
      have hnames : n2.names = n.names := by rw [g3]
      have hlst : n2.last = n.last := by rw [g3]
      have hloops : n2.loops = ⟨ltNum .PROC_DATA, n.cp + 1⟩ :: n.loops := by rw [g3]
      refine ⟨.cw (PS.jumpLabel (x.num + 1)) ⟨.label (labelPrefix ++ x.last), a2⟩ :: .skip :: T, K, .data (x.num + 1) a1 (n.cp + 1) :: Fs, ?_, ?_, ?_, .zero _ _⟩
      · show Core E reloc base _ _ n2.mem n2.cp _ K _
        rw [hmem, hcpe]
        refine c3.congr fun l' a => ?_
        rw [pending_cons]
        unfold pending labPend
        dsimp only
        rw [hnames, g2, hlst]
        constructor
        · rintro ⟨g | ⟨e, he, g4, g5, nm, g6, g7⟩, hne⟩
          · exact .inr (.inl g)
          · refine .inr (.inr ⟨e, List.mem_append_left _ (List.mem_map.2 ⟨e, he, if_neg ?_⟩), g4, g5, nm, g6, g7⟩)
            intro hen
            rw [hen, hnm] at g6
            cases g6; exact hne g7
        · rintro (g | g | ⟨e, he, g4, g5, nm, g6, g7⟩)
          · exact g.elim
          · refine ⟨.inl g, ?_⟩
            rintro rfl
            obtain ⟨F, hF, g⟩ := g
            obtain ⟨m, _, hl⟩ := Frame.und_lbl (Frame.pend_und g)
            exact hl.ne_prefix _ rfl
          · rcases List.mem_append.1 he with he | he
            · obtain ⟨e', he', e1⟩ := List.mem_map.1 he
              split at e1
              · rw [← e1] at g4; cases g4
              · next hne =>
                subst e1
                refine ⟨.inr ⟨_, he', g4, g5, nm, g6, g7⟩, ?_⟩
                rintro rfl
                have e2 := List.append_cancel_left g7
                subst e2
                exact hne (nodup_getElem? h3.nodup g6 hnm)
            · rw [List.mem_singleton.1 he] at g4; cases g4
      · refine ⟨?_, ?_, ?_, ?_, ?_, ?_, ?_, ?_, ?_⟩
        · show _ :: x.jumps = _; rw [h2.js]; rfl
        · show n2.loops = _; rw [hloops, h2.es]; rfl
        · show _ :: x.stack = _; rw [h2.ps]; rfl
        · intro F hF
          rcases List.mem_cons.1 hF with rfl | hF
          · trivial
          · have := h2.ok F hF
            have hdef : ∀ l a, DefAt E base T l a → DefAt E base (.cw (PS.jumpLabel (x.num + 1)) ⟨.label (labelPrefix ++ x.last), a2⟩ :: .skip :: T) l a := by
              rintro l a ⟨q, c, hx, k⟩; exact ⟨q, c, .inr (.inr hx), k⟩
            cases F with
            | loop => exact ⟨this.1, fun g => hdef _ _ (this.2 g)⟩
            | for_ => exact hdef _ _ this
            | fwd => exact this
            | data => trivial
        · intro F hF l hl
          rcases List.mem_cons.1 hF with rfl | hF
          · cases hl
          · rintro ⟨q, c, hc, k⟩
            rcases List.mem_cons.1 hc with e | hc
            · cases e
              cases k
              obtain ⟨m, _, hl⟩ := Frame.und_lbl hl
              exact hl.ne_prefix _ rfl
            · rcases List.mem_cons.1 hc with e | hc
              · cases e
              · exact h2.und F hF l hl ⟨q, c, hc, k⟩
        · show ((x.num + 1) :: Fs.flatMap Frame.nums).Nodup
          refine List.nodup_cons.2 ⟨fun g => ?_, h2.nodup⟩
          have := h2.le _ g; omega
        · intro m hm
          rcases List.mem_cons.1 (show m ∈ (x.num + 1) :: Fs.flatMap Frame.nums from hm) with rfl | hm
          · exact Nat.le_refl _
          · exact Nat.le_succ_of_le (h2.le m hm)
        · rintro m l hl ⟨q, c, hc, k⟩
          rcases List.mem_cons.1 hc with e | hc
          · cases e; cases k
            exact absurd rfl (hl.ne_prefix _)
          · rcases List.mem_cons.1 hc with e | hc
            · cases e
            · exact Nat.le_succ_of_le (h2.tl m l hl ⟨q, c, hc, k⟩)
        · intro q c hc
          rcases List.mem_cons.1 hc with e | hc
          · cases e; exact .inr ⟨x.num + 1, Nat.le_refl _, rfl⟩
          · rcases List.mem_cons.1 hc with e | hc
            · cases e
            · exact (h2.tp q c hc).imp id fun ⟨m, hm, e⟩ => ⟨m, Nat.le_succ_of_le hm, e⟩
      · have hdef : ∀ l a, DefAt E base T l a → DefAt E base (.cw (PS.jumpLabel (x.num + 1)) ⟨.label (labelPrefix ++ x.last), a2⟩ :: .skip :: T) l a := by
          rintro l a ⟨q, c, hx, k⟩; exact ⟨q, c, .inr (.inr hx), k⟩
        have hnew : DefAt E base (.cw (PS.jumpLabel (x.num + 1)) ⟨.label (labelPrefix ++ x.last), a2⟩ :: .skip :: T) (labelPrefix ++ x.last) (n.cp + 3) :=
          ⟨_, _, .inl ⟨rfl, c1.cp_eq⟩, rfl⟩
        refine ⟨?_, ?_, ?_, ?_, ?_⟩
        · show n2.names.Nodup; rw [hnames]; exact h3.nodup
        · show ∀ e ∈ l ++ [⟨n2.last, 128, n2.cp⟩], (∃ nm, n2.names[e.num]? = some nm ∧ _) ∧ _
          rw [hnames, hlst, hcpe, g2]
          intro e he
          rcases List.mem_append.1 he with he | he
          · obtain ⟨e', he', e1⟩ := List.mem_map.1 he
            obtain ⟨⟨v, g4, g5⟩, g6⟩ := h3.ents e' he'
            split at e1
            · subst e1; exact ⟨⟨v, g4, nofun⟩, .inr (.inl rfl)⟩
            · subst e1; exact ⟨⟨v, g4, fun g => hdef _ _ (g5 g)⟩, g6⟩
          · rw [List.mem_singleton.1 he]
            exact ⟨⟨x.last, hnm, fun _ => hnew⟩, .inr (.inr rfl)⟩
        · show ∀ nm, _ → ∃ e ∈ l ++ [⟨n2.last, 128, n2.cp⟩], e.st = 128 ∧ n2.names[e.num]? = some nm
          rw [hnames, hlst, hcpe, g2]
          rintro nm ⟨q, c, hc, k⟩
          rcases List.mem_cons.1 hc with e | hc
          · cases e
            injection k with k
            have := List.append_cancel_left k
            subst this
            exact ⟨_, List.mem_append_right _ List.mem_cons_self, rfl, hnm⟩
          · rcases List.mem_cons.1 hc with e | hc
            · cases e
            · obtain ⟨e, he, hs, hn⟩ := h3.defs nm ⟨q, c, hc, k⟩
              refine ⟨e, List.mem_append_left _ (List.mem_map.2 ⟨e, he, if_neg fun hen => ?_⟩), hs, hn⟩
              have := g1 e he hen; omega
        · intro _
          show n2.names[n2.last]? = some x.last
          rw [hnames, hlst]; exact hnm
        · show ∀ e ∈ l ++ [⟨n2.last, 128, n2.cp⟩], e.st = 1 → ∃ e' ∈ l ++ [⟨n2.last, 128, n2.cp⟩], e'.st = 128 ∧ e'.num = e.num
          rw [hlst, hcpe, g2]
          intro e he hs
          rcases List.mem_append.1 he with he | he
          · obtain ⟨e', he', e1⟩ := List.mem_map.1 he
            split at e1
            · next hen =>
              subst e1
              exact ⟨_, List.mem_append_right _ List.mem_cons_self, rfl, hen.symm⟩
            · subst e1
              obtain ⟨e2, he2, g4, g5⟩ := h3.res _ he' hs
              refine ⟨e2, List.mem_append_left _ (List.mem_map.2 ⟨e2, he2, if_neg fun hen => ?_⟩), g4, g5⟩
              have := g1 e2 he2 hen; omega
          · rw [List.mem_singleton.1 he] at hs; cases hs

end FB.Native
