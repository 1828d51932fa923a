import Verif.Native.Frames

/-!
# Each step keeps the two compilers together

Auxiliary to C25.
-/

namespace FB.Native

open FB.Parse

section core
variable {E : Enc} {reloc base : Nat} {x : X} {os : List (Str × Nat)} {m m' : Nat → Nat} {cp : Nat}
  {T : List It} {K : Nat → Nat → Prop} {Pd Pd' : Str → Nat → Prop}

theorem Core.mem (h : Core E reloc base x.C os m cp T K Pd) (hm : ∀ y, y < cp → m' y = m y) :
    Core E reloc base x.C os m' cp T K Pd := by
  have old : ∀ x a, At E base x a T → ∀ i, i < x.size E → m' (a + i) = m (a + i) := by
    intro x a hx i hi
    have := hx.range
    exact hm _ (by have := h.cp_eq; omega)
  exact { h with
    bytes := fun q c a hx hpl i hi => by
      rw [old _ _ hx i (by simpa only [It.size, csize_plain hpl] using hi)]; exact h.bytes q c a hx hpl i hi
    jumps := fun a hx i hi => by
      rw [old _ _ hx i (by have := E.tok .JUMP; simp only [It.size]; omega)]; exact h.jumps a hx i hi
    closed := fun a b hk => by
      obtain ⟨hx, hw⟩ := h.closed a b hk
      exact ⟨hx, by rw [word_congr (old _ _ hx 1 (by simp [It.size])) (old _ _ hx 2 (by simp [It.size]))]; exact hw⟩
    refs := fun l a hr => by
      refine (h.refs l a hr).imp id fun ⟨p, hd, hw⟩ => ⟨p, hd, ?_⟩
      obtain ⟨q, c, hx, k, j⟩ := hr
      have s1 : (It.cw q c).size E = 2 := by simp only [It.size, k]; exact csize_ref j
      rw [word_congr (by simpa using old _ _ hx 0 (by omega)) (old _ _ hx 1 (by omega))]; exact hw }

theorem Core.plain (h : Core E reloc base x.C os m cp T K Pd) (hc : cur os = x.cur) (c : CW) (hp : plain c.k) :
    Core E reloc base (x.emit c).C os (put m cp (E.enc c.k)) (cp + (E.enc c.k).length) (.cw x.cur c :: T) K Pd := by
  have := h.cons (C' := (x.emit c).C) (m' := put m cp (E.enc c.k)) (Pd' := Pd) c False (fun y hy => put_out (.inl hy))
    (fun q => by rw [hc]; rfl) (fun _ => put_bytesAt _ _ _) (fun l k => absurd k (plain_not_label hp l))
    (fun l k j => absurd j (plain_not_ref hp k)) nofun
    (fun l a => ⟨fun g => .inl ⟨g, plain_not_label hp l⟩, fun g => g.elim (·.1) (·.1.elim)⟩)
  rwa [csize_plain hp, hc] at this

theorem Core.refWait (h : Core E reloc base x.C os m cp T K Pd) (hc : cur os = x.cur) {l : Str} (ln : Nat) (hl : IsJump l)
    (hd : ¬ Defined T l) (hm : ∀ y, y < cp → m' y = m y) :
    Core E reloc base (x.emit ⟨.wordStr l, ln⟩).C os m' (cp + 2) (.cw x.cur ⟨.wordStr l, ln⟩ :: T) K
      (fun l' a => Pd l' a ∨ (l' = l ∧ a = cp)) := by
  have := h.cons (C' := (x.emit ⟨.wordStr l, ln⟩).C) (m' := m') (Pd' := fun l' a => Pd l' a ∨ (l' = l ∧ a = cp))
    ⟨.wordStr l, ln⟩ True hm (fun q => by rw [hc]; rfl) (fun g => absurd g (ref_not_plain hl)) nofun
    (fun l' k _ => .inl ⟨trivial, by cases k; exact hd⟩) (fun _ => ⟨l, rfl, hl⟩)
    (fun l' a => by
      constructor
      · rintro (g | ⟨rfl, rfl⟩)
        · exact .inl ⟨g, nofun⟩
        · exact .inr ⟨trivial, rfl, rfl⟩
      · rintro (⟨g, _⟩ | ⟨_, rfl, e⟩)
        · exact .inl g
        · cases e; exact .inr ⟨rfl, rfl⟩)
  rwa [csize_ref hl, hc] at this

theorem Core.refTo (h : Core E reloc base x.C os m cp T K Pd) (hc : cur os = x.cur) {l : Str} (ln : Nat) {p : Nat} (hl : IsJump l)
    (hd : DefAt E base T l p) :
    Core E reloc base (x.emit ⟨.wordStr l, ln⟩).C os (put m cp (wbytes ((p + reloc) % 65536))) (cp + 2)
      (.cw x.cur ⟨.wordStr l, ln⟩ :: T) K Pd := by
  have := h.cons (C' := (x.emit ⟨.wordStr l, ln⟩).C) (m' := put m cp (wbytes ((p + reloc) % 65536))) (Pd' := Pd)
    ⟨.wordStr l, ln⟩ False (fun y hy => put_out (.inl hy)) (fun q => by rw [hc]; rfl) (fun g => absurd g (ref_not_plain hl)) nofun
    (fun l' k _ => .inr ⟨id, p, by cases k; exact hd, word_put _ _ _⟩) nofun
    (fun l' a => ⟨fun g => .inl ⟨g, nofun⟩, fun g => g.elim (·.1) (·.1.elim)⟩)
  rwa [csize_ref hl, hc] at this

theorem Core.label (h : Core E reloc base x.C os m cp T K Pd) (hc : cur os = x.cur) {l : Str} (ln : Nat) (hl : IsJump l)
    (hd : ¬ Defined T l) (hw : ∀ a, Pd l a → word m a = (cp + reloc) % 65536) :
    Core E reloc base (x.emit ⟨.label l, ln⟩).C os m cp (.cw x.cur ⟨.label l, ln⟩ :: T) K (fun l' a => Pd l' a ∧ l' ≠ l) := by
  have := h.cons (C' := (x.emit ⟨.label l, ln⟩).C) (m' := m) (Pd' := fun l' a => Pd l' a ∧ l' ≠ l)
    ⟨.label l, ln⟩ False (fun _ _ => rfl) (fun q => by rw [hc]; rfl) (fun g => g.elim)
    (fun l' k => by cases k; exact ⟨hl, hd, hw⟩) nofun nofun
    (fun l' a => by
      constructor
      · rintro ⟨g, hne⟩; exact .inl ⟨g, fun e => hne (by cases e; rfl)⟩
      · rintro (⟨g, hne⟩ | ⟨g, _⟩)
        · exact ⟨g, fun e => hne (by rw [e])⟩
        · exact g.elim)
  simp only [csize, Nat.add_zero] at this
  rwa [hc] at this

/-- Memory after writing a word at several addresses. -/
def putAll (m : Nat → Nat) (w : Nat) : List Nat → Nat → Nat
  | [] => m
  | p :: ps => putAll (put m p (wbytes (w % 65536))) w ps

theorem Core.patches (w : Nat) : ∀ (ps : List Nat) {m : Nat → Nat}, Core E reloc base x.C os m cp T K Pd → (∀ p ∈ ps, ∃ l, Pd l p) →
    Core E reloc base x.C os (putAll m w ps) cp T K Pd ∧
    ∀ l a, Pd l a → word (putAll m w ps) a = if a ∈ ps then w % 65536 else word m a
  | [], m, h, _ => ⟨h, fun l a _ => by simp [putAll]⟩
  | p :: ps, m, h, hp => by
    obtain ⟨l0, h0⟩ := hp p List.mem_cons_self
    obtain ⟨g1, g2⟩ := Core.patches w ps (h.patch h0 (w % 65536)) fun q hq => hp q (List.mem_cons_of_mem _ hq)
    refine ⟨g1, fun l a ha => ?_⟩
    rw [putAll, g2 l a ha, h.word_patch h0 ha]
    by_cases e : a = p
    · simp [e]
    · simp [e]

end core

variable {E : Enc} {reloc base : Nat} {x : X} {n : NS} {f : Nat}

theorem Fresh.cons {q : Str} {T : List It} (h : Fresh q f T) {c : CW} (hc : plain c.k) : Fresh q (f + 1) (.cw q c :: T) := by
  obtain ⟨A, B, rfl, rfl, h⟩ := h
  refine ⟨.cw q c :: A, B, rfl, rfl, fun x hx => ?_⟩
  rcases List.mem_cons.1 hx with rfl | hx
  · exact ⟨c, rfl, hc⟩
  · exact h x hx

theorem Inv.mem (h : Inv E reloc base x n f) {m' : Nat → Nat} (hm : ∀ y, y < n.cp → m' y = n.mem y) :
    Inv E reloc base x { n with mem := m' } f := by
  obtain ⟨T, K, Fs, hc, hf, hl, hr⟩ := h
  exact ⟨T, K, Fs, hc.mem hm, ⟨hf.js, hf.es, hf.ps, hf.ok, hf.und, hf.nodup, hf.le, hf.tl, hf.tp⟩, ⟨hl.nodup, hl.ents, hl.defs, hl.last, hl.res⟩, hr⟩

theorem Inv.fresh0 (h : Inv E reloc base x n f) : Inv E reloc base x n 0 := by
  obtain ⟨T, K, Fs, hc, hf, hl, hr⟩ := h
  exact ⟨T, K, Fs, hc, hf, hl, .zero _ _⟩

/-- The last of the fresh codes. -/
theorem Inv.last (h : Inv E reloc base x n f) (hf : 1 ≤ f) {c : CW} {cs : List CW} (hc : x.C x.cur = c :: cs) :
    plain c.k ∧ (E.enc c.k).length ≤ n.cp ∧ bytesAt n.mem (n.cp - (E.enc c.k).length) (E.enc c.k) ∧
    Inv E reloc base x.drop { n with cp := n.cp - (E.enc c.k).length } (f - 1) := by
  obtain ⟨T, K, Fs, h1, h2, h3, A, B, rfl, rfl, hA⟩ := h
  cases A with
  | nil => simp at hf
  | cons y A =>
    obtain ⟨c', rfl, hp⟩ := hA y List.mem_cons_self
    have hcc := h1.code x.cur
    rw [List.cons_append, layOf_cons_cw, if_pos rfl, hc] at hcc
    have hce : c = c' := by simpa using (List.cons.inj hcc).1
    subst hce
    have hcp := h1.cp_eq
    simp only [List.cons_append, len, It.size, csize_plain hp] at hcp
    have hdfd : ∀ l, Defined (.cw x.cur c :: (A ++ B)) l → Defined (A ++ B) l := by
      rintro l ⟨q, c', hx, k⟩
      rcases List.mem_cons.1 hx with e | hx
      · cases e; exact absurd k (plain_not_label hp l)
      · exact ⟨q, c', hx, k⟩
    have hdfd' : ∀ l, Defined (A ++ B) l → Defined (.cw x.cur c :: (A ++ B)) l := by
      rintro l ⟨q, c', hx, k⟩; exact ⟨q, c', List.mem_cons_of_mem _ hx, k⟩
    have hdef : ∀ l a, DefAt E base (.cw x.cur c :: (A ++ B)) l a → DefAt E base (A ++ B) l a := by
      rintro l a ⟨q, c', (⟨⟨⟩, rfl⟩ | hx), k⟩
      · exact absurd k (plain_not_label hp l)
      · exact ⟨q, c', hx, k⟩
    have hcore := h1
    rw [List.cons_append, ← h2.cur] at hcore
    refine ⟨hp, by omega, ?_, A ++ B, K, Fs, hcore.uncons (C' := x.drop.C) hp (fun q => by rw [h2.cur]; rfl), ?_, ?_, A, B, rfl, rfl, ?_⟩
    · have := h1.bytes x.cur c _ (.inl ⟨rfl, rfl⟩) hp
      have e : n.cp - (E.enc c.k).length = base + len E (A ++ B) := by omega
      rw [e]; exact this
    · refine ⟨h2.js, h2.es, h2.ps, ?_, ?_, h2.nodup, h2.le, ?_, ?_⟩
      · intro F hF
        have := h2.ok F hF
        cases F with
        | loop => exact ⟨this.1, fun g => hdef _ _ (this.2 g)⟩
        | for_ => exact hdef _ _ this
        | fwd => exact this
        | data => trivial
      · exact fun F hF l hl g => h2.und F hF l hl (hdfd' l g)
      · exact fun m l hl g => h2.tl m l hl (hdfd' l g)
      · exact fun q c' hx => h2.tp q c' (List.mem_cons_of_mem _ hx)
    · refine ⟨h3.nodup, ?_, ?_, h3.last, h3.res⟩
      · intro e he
        obtain ⟨⟨nm, g1, g2⟩, g3⟩ := h3.ents e he
        exact ⟨⟨nm, g1, fun g => hdef _ _ (g2 g)⟩, g3⟩
      · exact fun nm g => h3.defs nm (hdfd' _ g)
    · exact fun y hy => hA y (List.mem_cons_of_mem _ hy)

/-- A code that is neither a label nor a reference is emitted. -/
theorem Inv.emit (h : Inv E reloc base x n f) (c : CW) (hp : plain c.k) :
    Inv E reloc base (x.emit c) (n.emitB (E.enc c.k)) (f + 1) := by
  obtain ⟨T, K, Fs, h1, h2, h3, h4⟩ := h
  refine ⟨_, K, Fs, h1.plain h2.cur c hp, ?_, ?_, h4.cons hp⟩
  · exact FInv.repl (D := []) (N := []) (cs := [c]) h2 h2.curOk (Nat.le_refl _) h2.js h2.es h2.ps
      (fun c' hc l k => by rw [List.mem_singleton.1 hc] at k; exact absurd k (plain_not_label hp l)) nofun nofun .nil nofun
  · exact LInv.add (cs := [c]) h3 rfl rfl rfl rfl fun c' hc nm k => by
      rw [List.mem_singleton.1 hc] at k; exact absurd k (plain_not_label hp _)

/-- A new structure, with number `num + 1`. -/
def X.open_ (x : X) (t : LT) (ln : Nat) : X :=
  { x with num := x.num + 1, jumps := ⟨t, PS.jumpLabel (x.num + 1), ln⟩ :: x.jumps }

/-- An entry pushed in the native stack. -/
def NS.pushE (n : NS) (t : LT) (k : Nat) : NS := { n with loops := ⟨ltNum t, n.cp⟩ :: n.loops, cp := n.cp + k }

theorem new_undef (h2 : FInv E base x n T Fs) {l : Str} (hl : IsLbl (x.num + 1) l) : ¬ Defined T l := fun g => by
  have := h2.tl _ _ hl g; omega

theorem new_npend (h2 : FInv E base x n T Fs) {l : Str} (hl : IsLbl (x.num + 1) l) {a : Nat} : ¬ pending Fs n l a := fun g => by
  have := pend_le h2 hl g; omega

/-- `DO`, `REPEAT` and the first part of `WHILE`. -/
theorem Inv.loop (h : Inv E reloc base x n f) {t : LT} (ht : t ∈ [LT.DO_LOOP, .REPEAT, .WHILE_1]) (ln ln' : Nat) :
    Inv E reloc base ((x.open_ t ln).emit ⟨.label (PS.jumpLabel (x.num + 1)), ln'⟩) (n.pushE t 0) 0 := by
  obtain ⟨T, K, Fs, h1, h2, h3, h4⟩ := h
  have hl : IsLbl (x.num + 1) (PS.jumpLabel (x.num + 1)) := .inl rfl
  have hc := Core.label (x := x.open_ t ln) (E := E) (l := PS.jumpLabel (x.num + 1)) h1 h2.cur ln' (lbl_jump _) (new_undef h2 hl)
    fun a g => absurd g (new_npend h2 hl)
  refine ⟨_, K, .loop t (x.num + 1) ln n.cp [] :: Fs, hc.congr ?_, ?_, ?_, .zero _ _⟩
  · intro l a
    constructor
    · rintro ⟨g, _⟩
      exact g.imp (fun ⟨F, hF, g⟩ => ⟨F, List.mem_cons_of_mem _ hF, g⟩) id
    · intro g
      have g : pending Fs n l a := g.imp (fun ⟨F, hF, g⟩ => by
        rcases List.mem_cons.1 hF with rfl | hF
        · exact absurd g.2 (by simp)
        · exact ⟨F, hF, g⟩) id
      exact ⟨g, by rintro rfl; exact new_npend h2 hl g⟩
  · refine FInv.repl (D := []) (N := [.loop t (x.num + 1) ln n.cp []]) (cs := [⟨.label (PS.jumpLabel (x.num + 1)), ln'⟩]) h2
      (h2.curOk.imp id fun ⟨m, hm, e⟩ => ⟨m, Nat.le_succ_of_le hm, e⟩) (Nat.le_succ _) ?_ ?_ ?_ ?_ ?_ ?_ ?_ ?_
    · simp [X.open_, X.emit, h2.js, Frame.js]
    · simp [NS.pushE, h2.es, Frame.es]
    · simp [X.open_, X.emit, h2.ps, Frame.opn]
    · intro c hc l k
      rw [List.mem_singleton.1 hc] at k; cases k
      exact .inr ⟨_, hl, Nat.le_refl _, .inr (Nat.lt_succ_self _)⟩
    · intro F hF
      rw [List.mem_singleton.1 hF]
      refine ⟨?_, fun _ => ⟨_, _, .inl ⟨rfl, h1.cp_eq⟩, rfl⟩⟩
      revert ht; cases t <;> decide
    · intro F hF l hlu
      rw [List.mem_singleton.1 hF] at hlu
      rw [List.mem_singleton.1 hlu]
      refine ⟨new_undef h2 (.inr rfl), fun c hc k => ?_⟩
      rw [List.mem_singleton.1 hc] at k
      exact jumpLabel_ne_lblX _ _ (by injection k)
    · simp [Frame.nums]
    · intro m hm
      simp [Frame.nums] at hm
      subst hm
      exact ⟨Nat.le_refl _, .inr (Nat.lt_succ_self _)⟩
  · exact LInv.add (cs := [⟨.label (PS.jumpLabel (x.num + 1)), ln'⟩]) h3 rfl rfl rfl rfl fun c' hc nm k => by
      rw [List.mem_singleton.1 hc] at k; injection k with k; exact jumpLabel_ne_prefix _ _ k

theorem pending_cons {F : Frame} {Fs : List Frame} {l : Str} {a : Nat} : pending (F :: Fs) n l a ↔ F.pend l a ∨ pending Fs n l a := by
  unfold pending
  constructor
  · rintro (⟨G, hG, g⟩ | g)
    · rcases List.mem_cons.1 hG with rfl | hG
      · exact .inl g
      · exact .inr (.inl ⟨G, hG, g⟩)
    · exact .inr (.inr g)
  · rintro (g | ⟨G, hG, g⟩ | g)
    · exact .inl ⟨F, List.mem_cons_self, g⟩
    · exact .inl ⟨G, List.mem_cons_of_mem _ hG, g⟩
    · exact .inr g

theorem pending_congr {Fs : List Frame} {n' : NS} (h1 : n'.names = n.names) (h2 : n'.lab = n.lab) {l : Str} {a : Nat} :
    pending Fs n' l a ↔ pending Fs n l a := by unfold pending; rw [h1, h2]

/-- The labels of the top structure are not waited for by the others. -/
theorem FInv.sep {F : Frame} {Fs : List Frame} {T : List It} (h : FInv E base x n T (F :: Fs)) {m : Nat} (hm : m ∈ F.nums) {l : Str}
    (hl : IsLbl m l) {a : Nat} : ¬ pending Fs n l a := by
  rintro (⟨G, hG, g⟩ | ⟨_, _, _, _, nm, _, e⟩)
  · obtain ⟨m', hm', hl'⟩ := Frame.und_lbl (Frame.pend_und g)
    have := hl.uniq hl'; subst this
    have hd := h.nodup
    rw [List.flatMap_cons, List.nodup_append] at hd
    exact hd.2.2 m hm m (List.mem_flatMap.2 ⟨G, hG, hm'⟩) rfl
  · exact hl.ne_prefix nm e

/-- The head of the native stack is not an `EXIT`. -/
def noExit (l : List Ent) : Prop := ∀ e ∈ l.head?, e.type ≠ ltNum .EXIT

theorem FInv.noExit {Fs : List Frame} {T : List It} (h : ∀ F ∈ Fs, F.ok E base T) : noExit (Fs.flatMap Frame.es) := by
  cases Fs with
  | nil => exact nofun
  | cons F Fs =>
    have := h F List.mem_cons_self
    intro e he
    cases F with
    | loop t =>
      simp [Frame.es] at he; subst he
      have := this.1
      show ltNum t ≠ ltNum .EXIT
      revert this; cases t <;> decide
    | for_ => simp [Frame.es] at he; subst he; show ltNum .FOR_1 ≠ ltNum .EXIT; decide
    | fwd t =>
      simp [Frame.es] at he; subst he
      change t ∈ _ at this
      show ltNum t ≠ ltNum .EXIT
      revert this; cases t <;> decide
    | data => simp [Frame.es] at he; subst he; show ltNum .PROC_DATA ≠ ltNum .EXIT; decide

theorem checkExitL_eq {rest : List Ent} (hr : noExit rest) : ∀ (xs : List Nat) (n : NS),
    NS.checkExitL reloc (xs.map Frame.xent ++ rest) n = { n with mem := putAll n.mem (n.cp + reloc) xs, loops := rest }
  | [], n => by
    cases rest with
    | nil => rfl
    | cons e es =>
      show (if e.type = ltNum .EXIT then _ else _) = _
      rw [if_neg (hr e rfl)]; rfl
  | a :: xs, n => by
    show NS.checkExitL reloc (xs.map Frame.xent ++ rest) (n.patch reloc a) = _
    rw [checkExitL_eq hr xs]; rfl

section top
variable {Fs : List Frame} {T : List It} {j : Jump} {js : List Jump}

theorem FInv.topLoop (h : FInv E base x n T Fs) (hj : x.jumps = j :: js) (ht : j.type ∈ [LT.DO_LOOP, .REPEAT, .WHILE_1, .PROC_2]) :
    ∃ t m l0 p xs Fs', Fs = .loop t m l0 p xs :: Fs' ∧ j = ⟨t, PS.jumpLabel m, l0⟩ ∧ js = Fs'.flatMap Frame.js := by
  cases Fs with
  | nil => rw [h.js] at hj; cases hj
  | cons F Fs =>
    have hjs := h.js
    rw [hj] at hjs
    have hok := h.ok _ List.mem_cons_self
    cases F with
    | loop t' m l0 p xs => obtain ⟨rfl, rfl⟩ := List.cons.inj hjs; exact ⟨_, _, _, _, _, _, rfl, rfl, rfl⟩
    | fwd t' =>
      obtain ⟨rfl, rfl⟩ := List.cons.inj hjs
      change t' ∈ _ at hok ht
      exact absurd ht (by revert hok; cases t' <;> decide)
    | for_ => obtain ⟨rfl, rfl⟩ := List.cons.inj hjs; simp at ht
    | data => obtain ⟨rfl, rfl⟩ := List.cons.inj hjs; simp at ht

theorem FInv.topFwd (h : FInv E base x n T Fs) (hj : x.jumps = j :: js) (ht : j.type ∈ [LT.WHILE_2, .IF, .ELSE, .ELIF]) :
    ∃ t m l0 p Fs', Fs = .fwd t m l0 p :: Fs' ∧ j = ⟨t, PS.jumpLabel m, l0⟩ ∧ js = Fs'.flatMap Frame.js := by
  cases Fs with
  | nil => rw [h.js] at hj; cases hj
  | cons F Fs =>
    have hjs := h.js
    rw [hj] at hjs
    have hok := h.ok _ List.mem_cons_self
    cases F with
    | fwd t' m l0 p => obtain ⟨rfl, rfl⟩ := List.cons.inj hjs; exact ⟨_, _, _, _, _, rfl, rfl, rfl⟩
    | loop t' =>
      obtain ⟨rfl, rfl⟩ := List.cons.inj hjs
      have hok := hok.1
      change t' ∈ _ at ht
      exact absurd ht (by revert hok; cases t' <;> decide)
    | for_ => obtain ⟨rfl, rfl⟩ := List.cons.inj hjs; simp at ht
    | data => obtain ⟨rfl, rfl⟩ := List.cons.inj hjs; simp at ht

theorem FInv.topFor (h : FInv E base x n T Fs) (hj : x.jumps = j :: js) (ht : j.type = .FOR_1) :
    ∃ m1 l1 p1 m2 l2 p2 xs Fs', Fs = .for_ m1 l1 p1 m2 l2 p2 xs :: Fs' ∧ j = ⟨.FOR_1, PS.jumpLabel m1, l1⟩ ∧
      js = ⟨.FOR_2, PS.jumpLabel m2, l2⟩ :: Fs'.flatMap Frame.js := by
  cases Fs with
  | nil => rw [h.js] at hj; cases hj
  | cons F Fs =>
    have hjs := h.js
    rw [hj] at hjs
    have hok := h.ok _ List.mem_cons_self
    cases F with
    | fwd t' =>
      obtain ⟨rfl, rfl⟩ := List.cons.inj hjs
      change t' ∈ _ at hok
      change t' = _ at ht
      exact absurd ht (by revert hok; cases t' <;> decide)
    | loop t' =>
      obtain ⟨rfl, rfl⟩ := List.cons.inj hjs
      have hok := hok.1
      change t' = _ at ht
      exact absurd ht (by revert hok; cases t' <;> decide)
    | for_ => obtain ⟨rfl, rfl⟩ := List.cons.inj hjs; exact ⟨_, _, _, _, _, _, _, _, rfl, rfl, rfl⟩
    | data => obtain ⟨rfl, rfl⟩ := List.cons.inj hjs; cases ht

theorem FInv.topData (h : FInv E base x n T Fs) (hj : x.jumps = j :: js) (ht : j.type = .PROC_DATA) :
    ∃ m l0 p Fs', Fs = .data m l0 p :: Fs' ∧ j = ⟨.PROC_DATA, PS.jumpLabel m, l0⟩ ∧ js = Fs'.flatMap Frame.js := by
  cases Fs with
  | nil => rw [h.js] at hj; cases hj
  | cons F Fs =>
    have hjs := h.js
    rw [hj] at hjs
    have hok := h.ok _ List.mem_cons_self
    cases F with
    | fwd t' =>
      obtain ⟨rfl, rfl⟩ := List.cons.inj hjs
      change t' ∈ _ at hok
      change t' = _ at ht
      exact absurd ht (by revert hok; cases t' <;> decide)
    | loop t' =>
      obtain ⟨rfl, rfl⟩ := List.cons.inj hjs
      have hok := hok.1
      change t' = _ at ht
      exact absurd ht (by revert hok; cases t' <;> decide)
    | for_ => obtain ⟨rfl, rfl⟩ := List.cons.inj hjs; cases ht
    | data => obtain ⟨rfl, rfl⟩ := List.cons.inj hjs; exact ⟨_, _, _, _, rfl, rfl, rfl⟩

end top

/-- The end of a loop whose last part is a jump to the start: `LOOP` and `UNTIL`. -/
theorem Inv.popLoop (h : Inv E reloc base x n f) {t : LT} (ht : t ∈ [LT.DO_LOOP, .REPEAT]) {j : Jump} {js : List Jump}
    (hj : x.jumps = j :: js) (hjt : j.type = t) (ln : Nat) {n' : NS} (hn : n.ePopLoop reloc t = some n') :
    Inv E reloc base (({ x with jumps := js }.emit ⟨.wordStr j.label, ln⟩).emit ⟨.label (lblX j.label), ln⟩) n' 0 := by
  obtain ⟨T, K, Fs, h1, h2, h3, h4⟩ := h
  obtain ⟨t', m, l0, p, xs, Fs, rfl, rfl, rfl⟩ := h2.topLoop hj (by rw [hjt]; revert ht; cases t <;> decide)
  change t' = t at hjt
  subst hjt
  have hes : n.loops = ⟨ltNum t', p⟩ :: (xs.map Frame.xent ++ Fs.flatMap Frame.es) := h2.es
  have hok := h2.ok _ List.mem_cons_self
  have hpr : t' ≠ .PROC_2 := by rintro rfl; revert ht; decide
  have hrest : noExit (Fs.flatMap Frame.es) := FInv.noExit fun F hF => h2.ok F (List.mem_cons_of_mem _ hF)
  simp only [NS.ePopLoop, NS.pop, hes, true_or, if_true, Option.some.injEq, NS.checkExit, NS.emitAddr, NS.emitB,
    checkExitL_eq hrest, wbytes_length] at hn
  subst hn
  have c1 := Core.refTo (x := { x with jumps := Fs.flatMap Frame.js }) (E := E) h1 h2.cur ln (lbl_jump m) (hok.2 hpr)
  obtain ⟨c2, w2⟩ := Core.patches (n.cp + 2 + reloc) xs c1 fun a ha => ⟨_, pending_cons.2 (.inl ⟨rfl, ha⟩)⟩
  have c3 := Core.label (x := { x with jumps := Fs.flatMap Frame.js }.emit ⟨.wordStr (PS.jumpLabel m), ln⟩) c2
    (l := lblX (PS.jumpLabel m)) h2.cur ln (lblX_jump m) ?_ ?_
  rotate_left
  · intro g
    rcases addC_defined (cs := [_]) g with g | ⟨c, hc, k⟩
    · exact h2.und _ List.mem_cons_self _ List.mem_cons_self g
    · rw [List.mem_singleton.1 hc] at k; cases k
  · intro a ha
    rw [w2 _ _ ha]
    rcases pending_cons.1 ha with g | g
    · rw [if_pos g.2]
    · exact absurd g (h2.sep (m := m) (by simp [Frame.nums]) (.inr rfl))
  refine ⟨_, K, Fs, c3.congr ?_, ?_, ?_, .zero _ _⟩
  · intro l a
    rw [pending_congr (n := n) rfl rfl, pending_cons]
    constructor
    · rintro ⟨g | g, hne⟩
      · exact absurd g.1 hne
      · exact g
    · intro g
      exact ⟨.inr g, by rintro rfl; exact h2.sep (m := m) (by simp [Frame.nums]) (.inr rfl) g⟩
  · refine FInv.repl (D := [.loop t' m l0 p xs]) (N := [])
      (cs := [⟨.label (lblX (PS.jumpLabel m)), ln⟩, ⟨.wordStr (PS.jumpLabel m), ln⟩]) h2
      h2.curOk (Nat.le_refl _) rfl rfl h2.ps ?_ nofun nofun .nil nofun
    intro c hc l k
    simp only [List.mem_cons, List.not_mem_nil, or_false] at hc
    rcases hc with rfl | rfl
    · cases k
      exact .inr ⟨m, .inr rfl, h2.le m (by simp [Frame.nums]), .inl (by simp [Frame.nums])⟩
    · cases k
  · refine LInv.add (cs := [⟨.label (lblX (PS.jumpLabel m)), ln⟩, ⟨.wordStr (PS.jumpLabel m), ln⟩]) h3 rfl rfl rfl rfl ?_
    intro c hc nm k
    simp only [List.mem_cons, List.not_mem_nil, or_false] at hc
    rcases hc with rfl | rfl
    · injection k with k; exact lblX_ne_prefix _ _ k
    · cases k

/-- The end of the body of a `PROC`. -/
theorem Inv.popProc2 (h : Inv E reloc base x n f) {j : Jump} {js : List Jump} (hj : x.jumps = j :: js) (hjt : j.type = .PROC_2)
    (ln : Nat) {n' : NS} (hn : n.ePopProc2 reloc = some n') :
    Inv E reloc base ({ x with jumps := js }.emit ⟨.label (lblX j.label), ln⟩) n' 0 := by
  obtain ⟨T, K, Fs, h1, h2, h3, h4⟩ := h
  obtain ⟨t', m, l0, p, xs, Fs, rfl, rfl, rfl⟩ := h2.topLoop hj (by rw [hjt]; decide)
  change t' = _ at hjt
  subst hjt
  have hes : n.loops = ⟨ltNum .PROC_2, p⟩ :: (xs.map Frame.xent ++ Fs.flatMap Frame.es) := h2.es
  have hrest : noExit (Fs.flatMap Frame.es) := FInv.noExit fun F hF => h2.ok F (List.mem_cons_of_mem _ hF)
  simp only [NS.ePopProc2, NS.pop, hes, true_or, if_true, Option.some.injEq, NS.checkExit, checkExitL_eq hrest] at hn
  subst hn
  obtain ⟨c2, w2⟩ := Core.patches (n.cp + reloc) xs h1 fun a ha => ⟨_, pending_cons.2 (.inl ⟨rfl, ha⟩)⟩
  have c3 := Core.label (x := { x with jumps := Fs.flatMap Frame.js }) c2
    (l := lblX (PS.jumpLabel m)) h2.cur ln (lblX_jump m) (h2.und _ List.mem_cons_self _ List.mem_cons_self) ?_
  rotate_left
  · intro a ha
    rw [w2 _ _ ha]
    rcases pending_cons.1 ha with g | g
    · rw [if_pos g.2]
    · exact absurd g (h2.sep (m := m) (by simp [Frame.nums]) (.inr rfl))
  refine ⟨_, K, Fs, c3.congr ?_, ?_, ?_, .zero _ _⟩
  · intro l a
    rw [pending_congr (n := n) rfl rfl, pending_cons]
    constructor
    · rintro ⟨g | g, hne⟩
      · exact absurd g.1 hne
      · exact g
    · intro g
      exact ⟨.inr g, by rintro rfl; exact h2.sep (m := m) (by simp [Frame.nums]) (.inr rfl) g⟩
  · refine FInv.repl (D := [.loop .PROC_2 m l0 p xs]) (N := []) (cs := [⟨.label (lblX (PS.jumpLabel m)), ln⟩]) h2
      h2.curOk (Nat.le_refl _) rfl rfl h2.ps ?_ nofun nofun .nil nofun
    intro c hc l k
    rw [List.mem_singleton.1 hc] at k; cases k
    exact .inr ⟨m, .inr rfl, h2.le m (by simp [Frame.nums]), .inl (by simp [Frame.nums])⟩
  · refine LInv.add (cs := [⟨.label (lblX (PS.jumpLabel m)), ln⟩]) h3 rfl rfl rfl rfl ?_
    intro c hc nm k
    rw [List.mem_singleton.1 hc] at k
    injection k with k; exact lblX_ne_prefix _ _ k

/-- The second part of `WHILE`, and `IF`. -/
theorem Inv.fwd (h : Inv E reloc base x n f) {t : LT} (ht : t ∈ [LT.WHILE_2, .IF]) (ln ln' : Nat) :
    Inv E reloc base ((x.open_ t ln).emit ⟨.wordStr (PS.jumpLabel (x.num + 1)), ln'⟩) (n.pushE t 2) 0 := by
  obtain ⟨T, K, Fs, h1, h2, h3, h4⟩ := h
  have hl : IsLbl (x.num + 1) (PS.jumpLabel (x.num + 1)) := .inl rfl
  have hc := Core.refWait (x := x.open_ t ln) (m' := n.mem) (E := E) (l := PS.jumpLabel (x.num + 1)) h1 h2.cur ln' (lbl_jump _) (new_undef h2 hl)
    fun _ _ => rfl
  refine ⟨_, K, .fwd t (x.num + 1) ln n.cp :: Fs, hc.congr ?_, ?_, ?_, .zero _ _⟩
  · intro l a
    rw [pending_cons, pending_congr (n := n) rfl rfl]
    exact Or.comm
  · refine FInv.repl (D := []) (N := [.fwd t (x.num + 1) ln n.cp]) (cs := [⟨.wordStr (PS.jumpLabel (x.num + 1)), ln'⟩]) h2
      (h2.curOk.imp id fun ⟨m, hm, e⟩ => ⟨m, Nat.le_succ_of_le hm, e⟩) (Nat.le_succ _) ?_ ?_ ?_ ?_ ?_ ?_ ?_ ?_
    · simp [X.open_, X.emit, h2.js, Frame.js]
    · simp [NS.pushE, h2.es, Frame.es]
    · simp [X.open_, X.emit, h2.ps, Frame.opn]
    · intro c hc l k
      rw [List.mem_singleton.1 hc] at k; cases k
    · intro F hF
      rw [List.mem_singleton.1 hF]
      show t ∈ _
      revert ht; cases t <;> decide
    · intro F hF l hlu
      rw [List.mem_singleton.1 hF] at hlu
      rw [List.mem_singleton.1 hlu]
      refine ⟨new_undef h2 hl, fun c hc k => ?_⟩
      rw [List.mem_singleton.1 hc] at k; cases k
    · simp [Frame.nums]
    · intro m hm
      simp [Frame.nums] at hm
      subst hm
      exact ⟨Nat.le_refl _, .inr (Nat.lt_succ_self _)⟩
  · exact LInv.add (cs := [⟨.wordStr (PS.jumpLabel (x.num + 1)), ln'⟩]) h3 rfl rfl rfl rfl fun c' hc nm k => by
      rw [List.mem_singleton.1 hc] at k; cases k

/-- The start of the body of a `PROC`. -/
theorem Inv.proc2 (h : Inv E reloc base x n f) (ln : Nat) : Inv E reloc base (x.open_ .PROC_2 ln) (n.pushE .PROC_2 0) 0 := by
  obtain ⟨T, K, Fs, h1, h2, h3, h4⟩ := h
  have hl : IsLbl (x.num + 1) (PS.jumpLabel (x.num + 1)) := .inl rfl
  refine ⟨T, K, .loop .PROC_2 (x.num + 1) ln n.cp [] :: Fs, h1.congr ?_, ?_, ?_, .zero _ _⟩
  · intro l a
    rw [pending_cons, pending_congr (n := n) rfl rfl]
    exact ⟨.inr, fun g => g.elim (fun g => absurd g.2 (by simp)) id⟩
  · refine FInv.repl (D := []) (N := [.loop .PROC_2 (x.num + 1) ln n.cp []]) (cs := []) (q := x.cur) h2
      (h2.curOk.imp id fun ⟨m, hm, e⟩ => ⟨m, Nat.le_succ_of_le hm, e⟩) (Nat.le_succ _) ?_ ?_ ?_ nofun ?_ ?_ ?_ ?_
    · simp [X.open_, h2.js, Frame.js]
    · simp [NS.pushE, h2.es, Frame.es]
    · simp [X.open_, h2.ps, Frame.opn]
    · intro F hF
      rw [List.mem_singleton.1 hF]
      exact ⟨by decide, fun g => absurd rfl g⟩
    · intro F hF l hlu
      rw [List.mem_singleton.1 hF] at hlu
      rw [List.mem_singleton.1 hlu]
      exact ⟨new_undef h2 (.inr rfl), nofun⟩
    · simp [Frame.nums]
    · intro m hm
      simp [Frame.nums] at hm
      subst hm
      exact ⟨Nat.le_refl _, .inr (Nat.lt_succ_self _)⟩
  · exact LInv.add (cs := []) (q := x.cur) h3 rfl rfl rfl rfl nofun

/-- The start of a `FOR` loop. -/
theorem Inv.for_ (h : Inv E reloc base x n f) (a1 a2 a3 a4 : Nat) :
    Inv E reloc base ((((x.open_ .FOR_2 a1).emit ⟨.wordStr (PS.jumpLabel (x.num + 1)), a2⟩).open_ .FOR_1 a3).emit
      ⟨.label (PS.jumpLabel (x.num + 1 + 1)), a4⟩) ((n.pushE .FOR_2 2).pushE .FOR_1 0) 0 := by
  obtain ⟨T, K, Fs, h1, h2, h3, h4⟩ := h
  have hl : IsLbl (x.num + 1) (PS.jumpLabel (x.num + 1)) := .inl rfl
  have hu : ∀ l, IsLbl (x.num + 1 + 1) l → ¬ Defined T l := fun l hl g => by have := h2.tl _ _ hl g; omega
  have hnp : ∀ l a, IsLbl (x.num + 1 + 1) l → ¬ pending Fs n l a := fun l a hl g => by have := pend_le h2 hl g; omega
  have hne : PS.jumpLabel (x.num + 1) ≠ PS.jumpLabel (x.num + 1 + 1) := fun g => by have := jumpLabel_inj g; omega
  have c1 := Core.refWait (x := x.open_ .FOR_2 a1) (m' := n.mem) (E := E) (l := PS.jumpLabel (x.num + 1)) h1 h2.cur a2 (lbl_jump _)
    (new_undef h2 hl) fun _ _ => rfl
  have c2 := Core.label (x := ((x.open_ .FOR_2 a1).emit ⟨.wordStr (PS.jumpLabel (x.num + 1)), a2⟩).open_ .FOR_1 a3) (E := E)
    (l := PS.jumpLabel (x.num + 1 + 1)) c1 h2.cur a4 (lbl_jump _) ?_ ?_
  rotate_left
  · intro g
    rcases addC_defined (cs := [_]) g with g | ⟨c, hc, k⟩
    · exact hu _ (.inl rfl) g
    · rw [List.mem_singleton.1 hc] at k; cases k
  · rintro a (g | ⟨g, _⟩)
    · exact absurd g (hnp _ _ (.inl rfl))
    · exact absurd g.symm hne
  refine ⟨_, K, .for_ (x.num + 1 + 1) a3 (n.cp + 2) (x.num + 1) a1 n.cp [] :: Fs, c2.congr ?_, ?_, ?_, .zero _ _⟩
  · intro l a
    rw [pending_cons, pending_congr (n := n) rfl rfl]
    constructor
    · rintro ⟨g | g, _⟩
      · exact .inr g
      · exact .inl (.inr g)
    · rintro ((g | g) | g)
      · exact absurd g.2 (by simp)
      · exact ⟨.inr g, by rw [g.1]; exact hne⟩
      · exact ⟨.inl g, by rintro rfl; exact hnp _ _ (.inl rfl) g⟩
  · refine FInv.repl (D := []) (N := [.for_ (x.num + 1 + 1) a3 (n.cp + 2) (x.num + 1) a1 n.cp []])
      (cs := [⟨.label (PS.jumpLabel (x.num + 1 + 1)), a4⟩, ⟨.wordStr (PS.jumpLabel (x.num + 1)), a2⟩]) h2
      (h2.curOk.imp id fun ⟨m, hm, e⟩ => ⟨m, by show m ≤ x.num + 1 + 1; omega, e⟩) (by show x.num ≤ x.num + 1 + 1; omega) ?_ ?_ ?_ ?_ ?_ ?_ ?_ ?_
    · simp [X.open_, X.emit, h2.js, Frame.js]
    · simp [NS.pushE, h2.es, Frame.es]
    · simp [X.open_, X.emit, h2.ps, Frame.opn]
    · intro c hc l k
      simp only [List.mem_cons, List.not_mem_nil, or_false] at hc
      rcases hc with rfl | rfl
      · cases k
        exact .inr ⟨_, .inl rfl, Nat.le_refl _, .inr (by omega)⟩
      · cases k
    · intro F hF
      rw [List.mem_singleton.1 hF]
      exact ⟨_, _, .inl ⟨rfl, c1.cp_eq⟩, rfl⟩
    · intro F hF l hlu
      rw [List.mem_singleton.1 hF] at hlu
      simp only [Frame.und, List.mem_cons, List.not_mem_nil, or_false] at hlu
      constructor
      · rcases hlu with rfl | rfl
        · exact hu _ (.inr rfl)
        · exact new_undef h2 hl
      · intro c hc k
        simp only [List.mem_cons, List.not_mem_nil, or_false] at hc
        rcases hc with rfl | rfl
        · injection k with k
          rcases hlu with rfl | rfl
          · exact jumpLabel_ne_lblX _ _ k
          · exact hne k.symm
        · cases k
    · simp [Frame.nums]
    · intro m hm
      simp [Frame.nums] at hm
      show m ≤ x.num + 1 + 1 ∧ _
      exact ⟨by omega, .inr (by omega)⟩
  · refine LInv.add (cs := [⟨.label (PS.jumpLabel (x.num + 1 + 1)), a4⟩, ⟨.wordStr (PS.jumpLabel (x.num + 1)), a2⟩]) h3 rfl rfl rfl rfl
      fun c hc nm k => ?_
    simp only [List.mem_cons, List.not_mem_nil, or_false] at hc
    rcases hc with rfl | rfl
    · injection k with k; exact jumpLabel_ne_prefix _ _ k
    · cases k

end FB.Native
