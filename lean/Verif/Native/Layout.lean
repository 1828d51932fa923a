import Verif.Native.Jumps

/-!
# The code of both compilers, side by side

The code written by the native compiler is described by one list of items, the last one first: codes of
the procedures of the cross compiler, and jumps over a procedure or data. `Core` says what holds of that
list at any time of a compilation, with `Pd l a` telling that the reference at `a` to the label `l` is
waiting for the label.
-/

namespace FB.Native

open FB.Parse

/-- Sequences of bytes in memory. -/
def bytesAt (m : Nat → Nat) (a : Nat) (bs : List Nat) : Prop := ∀ i (h : i < bs.length), m (a + i) = bs[i]

theorem put_out {m : Nat → Nat} {a : Nat} {bs : List Nat} {x : Nat} (h : x < a ∨ a + bs.length ≤ x) : put m a bs x = m x := by
  unfold put; rw [if_neg (by omega)]

theorem put_in {m : Nat → Nat} {a : Nat} {bs : List Nat} {i : Nat} (h : i < bs.length) : put m a bs (a + i) = bs[i] := by
  unfold put; rw [if_pos (by omega), Nat.add_sub_cancel_left, List.getD_eq_getElem?_getD, List.getElem?_eq_getElem h]; rfl

theorem put_bytesAt (m : Nat → Nat) (a : Nat) (bs : List Nat) : bytesAt (put m a bs) a bs := fun _ h => put_in h

theorem wbytes_length (w : Nat) : (wbytes w).length = 2 := rfl

theorem word_put (m : Nat → Nat) (a w : Nat) : word (put m a (wbytes (w % 65536))) a = w % 65536 := by
  have h0 := put_in (m := m) (a := a) (bs := wbytes (w % 65536)) (i := 0) (by simp [wbytes])
  have h1 := put_in (m := m) (a := a) (bs := wbytes (w % 65536)) (i := 1) (by simp [wbytes])
  simp only [Nat.add_zero] at h0
  unfold word; rw [h0, h1]; simp only [wbytes, List.getElem_cons_zero, List.getElem_cons_succ]; omega

theorem word_congr {m m' : Nat → Nat} {a : Nat} (h0 : m' a = m a) (h1 : m' (a + 1) = m (a + 1)) : word m' a = word m a := by
  unfold word; rw [h0, h1]

/-- One item of the native code: a code of procedure `q`, or a jump over a procedure (`TOK_JUMP` and an
address). -/
inductive It
  | cw (q : Str) (c : CW)
  | skip
deriving DecidableEq

open Classical in
/-- Size in the native code of a code of the cross compiler: labels have none, references two bytes. -/
noncomputable def csize (E : Enc) (k : CK) : Nat :=
  match k with
  | .label _ => 0
  | .wordStr l => if IsJump l then 2 else (E.enc (.wordStr l)).length
  | k => (E.enc k).length

theorem csize_plain {E : Enc} {k : CK} (h : plain k) : csize E k = (E.enc k).length := by
  cases k with
  | label l => exact h.elim
  | wordStr l => exact if_neg h
  | _ => rfl

theorem csize_ref {E : Enc} {l : Str} (h : IsJump l) : csize E (.wordStr l) = 2 := by simp [csize, h]

/-- Size of an item. -/
noncomputable def It.size (E : Enc) : It → Nat
  | .cw _ c => csize E c.k
  | .skip => 3

/-- Size of a list of items. -/
noncomputable def len (E : Enc) : List It → Nat
  | [] => 0
  | x :: T => x.size E + len E T

/-- Item `x` is at address `a`. -/
def At (E : Enc) (base : Nat) (x : It) (a : Nat) : List It → Prop
  | [] => False
  | y :: T => (y = x ∧ a = base + len E T) ∨ At E base x a T

/-- The codes of procedure `q` with their addresses, last one first. -/
noncomputable def layOf (E : Enc) (base : Nat) (q : Str) : List It → List (CW × Nat)
  | [] => []
  | .cw q' c :: T => if q' = q then (c, base + len E T) :: layOf E base q T else layOf E base q T
  | .skip :: T => layOf E base q T

/-- Address `b` is reached from `a` by jumps over procedures. -/
inductive Flows (K : Nat → Nat → Prop) : Nat → Nat → Prop
  | refl {a} : Flows K a a
  | jump {a b c} : Flows K a b → K b c → Flows K a c

/-- The codes of a procedure follow one another from address `b`, and go on at address `e`. -/
def Chain (sz : CK → Nat) (K : Nat → Nat → Prop) (b : Nat) : List (CW × Nat) → Nat → Prop
  | [], e => Flows K b e
  | (c, a) :: l, e => Flows K (a + sz c.k) e ∧ Chain sz K b l a

theorem Flows.mono {K K' : Nat → Nat → Prop} (h : ∀ a b, K a b → K' a b) {a b : Nat} (f : Flows K a b) : Flows K' a b := by
  induction f with
  | refl => exact .refl
  | jump _ k ih => exact .jump ih (h _ _ k)

theorem Chain.mono {sz : CK → Nat} {K K' : Nat → Nat → Prop} (h : ∀ a b, K a b → K' a b) {b : Nat} :
    ∀ {l : List (CW × Nat)} {e : Nat}, Chain sz K b l e → Chain sz K' b l e
  | [], _, c => Flows.mono h c
  | (_, _) :: _, _, c => ⟨c.1.mono h, Chain.mono h c.2⟩

theorem Chain.jump {sz : CK → Nat} {K : Nat → Nat → Prop} {b : Nat} {l : List (CW × Nat)} {e e' : Nat} (c : Chain sz K b l e)
    (k : K e e') : Chain sz K b l e' := by
  cases l with
  | nil => exact Flows.jump c k
  | cons x l => exact ⟨.jump c.1 k, c.2⟩

theorem layOf_at {E : Enc} {base : Nat} {q : Str} {c : CW} {a : Nat} : ∀ {T : List It}, (c, a) ∈ layOf E base q T ↔ At E base (.cw q c) a T
  | [] => by simp [layOf, At]
  | .skip :: T => by
    have := layOf_at (E := E) (base := base) (q := q) (c := c) (a := a) (T := T)
    simp only [layOf, At]; rw [this]; simp
  | .cw q' c' :: T => by
    have := layOf_at (E := E) (base := base) (q := q) (c := c) (a := a) (T := T)
    simp only [layOf, At]; split
    · next h => subst h; simp only [List.mem_cons, Prod.mk.injEq, this, It.cw.injEq, true_and]
                constructor
                · rintro (⟨rfl, rfl⟩ | h)
                  · exact .inl ⟨rfl, rfl⟩
                  · exact .inr h
                · rintro (⟨rfl, rfl⟩ | h)
                  · exact .inl ⟨rfl, rfl⟩
                  · exact .inr h
    · next h => rw [this]; simp [h]

theorem At.range {E : Enc} {base : Nat} {x : It} {a : Nat} : ∀ {T : List It}, At E base x a T → base ≤ a ∧ a + x.size E ≤ base + len E T
  | y :: T, h => by
    rcases h with ⟨rfl, rfl⟩ | h
    · simp only [len]; omega
    · have := h.range; simp only [len]; omega

theorem At.apart {E : Enc} {base : Nat} {x y : It} {a b : Nat} : ∀ {T : List It}, At E base x a T → At E base y b T →
    (x = y ∧ a = b) ∨ a + x.size E ≤ b ∨ b + y.size E ≤ a
  | z :: T, h, g => by
    rcases h with ⟨rfl, rfl⟩ | h <;> rcases g with ⟨rfl, rfl⟩ | g
    · exact .inl ⟨rfl, rfl⟩
    · have := g.range; omega
    · have := h.range; omega
    · exact h.apart g

/-- Label `l` is at address `a`. -/
def DefAt (E : Enc) (base : Nat) (T : List It) (l : Str) (a : Nat) : Prop := ∃ q c, At E base (.cw q c) a T ∧ c.k = .label l

/-- There is a reference to `l` at address `a`. -/
def RefAt (E : Enc) (base : Nat) (T : List It) (l : Str) (a : Nat) : Prop :=
  ∃ q c, At E base (.cw q c) a T ∧ c.k = .wordStr l ∧ IsJump l

/-- Label `l` is somewhere. -/
def Defined (T : List It) (l : Str) : Prop := ∃ q c, It.cw q c ∈ T ∧ c.k = .label l

theorem at_mem {E : Enc} {base : Nat} {x : It} {a : Nat} : ∀ {T : List It}, At E base x a T → x ∈ T
  | y :: T, h => by
    rcases h with ⟨rfl, _⟩ | h
    · exact List.mem_cons_self
    · exact List.mem_cons_of_mem _ (at_mem h)

theorem mem_at {E : Enc} {base : Nat} {x : It} : ∀ {T : List It}, x ∈ T → ∃ a, At E base x a T
  | y :: T, h => by
    rcases List.mem_cons.1 h with rfl | h
    · exact ⟨_, .inl ⟨rfl, rfl⟩⟩
    · obtain ⟨a, h⟩ := mem_at h; exact ⟨a, .inr h⟩

theorem DefAt.defined {E : Enc} {base : Nat} {T : List It} {l : Str} {a : Nat} (h : DefAt E base T l a) : Defined T l := by
  obtain ⟨q, c, h, g⟩ := h; exact ⟨q, c, at_mem h, g⟩

theorem Defined.at {T : List It} {l : Str} (h : Defined T l) (E : Enc) (base : Nat) : ∃ a, DefAt E base T l a := by
  obtain ⟨q, c, h, g⟩ := h; obtain ⟨a, h⟩ := mem_at (E := E) (base := base) h; exact ⟨a, q, c, h, g⟩

/-- Name of the procedure that is being compiled. -/
def cur (os : List (Str × Nat)) : Str := (os.head?.map Prod.fst).getD []

/-- Where each procedure being compiled goes on: the inner one at `e`, the others at the jump over the
next. -/
def OpenOk (ends : Str → Nat) : List (Str × Nat) → Nat → Prop
  | [], e => ends [] = e
  | (l, p) :: r, e => ends l = e ∧ OpenOk ends r (p - 1)

/-- What holds of the native code at any time: `C` is the code of the cross compiler, `os` the procedures
open (with the address left in the jump over each one), `m` and `cp` the memory and code pointer of the
native compiler, `T` the items of the native code, `K` the jumps over procedures that are complete. -/
structure Core (E : Enc) (reloc base : Nat) (C : Str → List CW) (os : List (Str × Nat)) (m : Nat → Nat) (cp : Nat)
    (T : List It) (K : Nat → Nat → Prop) (Pd : Str → Nat → Prop) : Prop where
  cp_eq : cp = base + len E T
  code : ∀ q, C q = (layOf E base q T).map Prod.fst
  bytes : ∀ q c a, At E base (.cw q c) a T → plain c.k → bytesAt m a (E.enc c.k)
  jumps : ∀ a, At E base .skip a T → bytesAt m a (E.enc (.tok .JUMP))
  closed : ∀ a b, K a b → At E base .skip a T ∧ word m (a + 1) = (b + reloc) % 65536
  uniq : ∀ l a b, DefAt E base T l a → DefAt E base T l b → a = b
  refs : ∀ l a, RefAt E base T l a → Pd l a ∨ ∃ p, DefAt E base T l p ∧ word m a = (p + reloc) % 65536
  pend : ∀ l a, Pd l a → RefAt E base T l a ∧ ¬ Defined T l
  labs : ∀ q c l, It.cw q c ∈ T → c.k = .label l → IsJump l
  opens : ∀ l p, (l, p) ∈ os → 1 ≤ p ∧ At E base .skip (p - 1) T ∧ ∀ b, ¬ K (p - 1) b
  places : (os.map Prod.snd).Nodup
  names : (os.map Prod.fst ++ [[]]).Nodup
  chain : ∃ ends : Str → Nat, OpenOk ends os cp ∧ Chain (csize E) K base (layOf E base [] T) (ends []) ∧
    ∀ q, ∃ b, Chain (csize E) K b (layOf E base q T) (ends q)

variable {E : Enc} {reloc base : Nat} {C C' : Str → List CW} {os : List (Str × Nat)} {m m' : Nat → Nat} {cp : Nat}
  {T : List It} {K : Nat → Nat → Prop} {Pd Pd' : Str → Nat → Prop}

theorem Core.congr (h : Core E reloc base C os m cp T K Pd) (hp : ∀ l a, Pd l a ↔ Pd' l a) : Core E reloc base C os m cp T K Pd' :=
  { h with
    refs := fun l a g => by rw [← hp]; exact h.refs l a g
    pend := fun l a g => h.pend l a ((hp l a).2 g) }

theorem Core.congrC (h : Core E reloc base C os m cp T K Pd) (hc : ∀ q, C' q = C q) : Core E reloc base C' os m cp T K Pd :=
  { h with code := fun q => by rw [hc]; exact h.code q }

theorem plain_not_ref {k : CK} (h : plain k) {l : Str} (g : k = .wordStr l) : ¬ IsJump l := by subst g; exact h

theorem plain_not_label {k : CK} (h : plain k) (l : Str) : k ≠ .label l := by rintro rfl; exact h

theorem ref_not_plain {l : Str} (h : IsJump l) : ¬ plain (.wordStr l) := fun g => g h

/-- The address of a reference that waits can be written over. -/
theorem Core.patch (h : Core E reloc base C os m cp T K Pd) {l : Str} {p : Nat} (hp : Pd l p) (w : Nat) :
    Core E reloc base C os (put m p (wbytes w)) cp T K Pd := by
  obtain ⟨⟨q0, c0, h0, k0, j0⟩, hnd⟩ := h.pend l p hp
  have s0 : (It.cw q0 c0).size E = 2 := by simp only [It.size, k0]; exact csize_ref j0
  have ap : ∀ x a, At E base x a T → x ≠ .cw q0 c0 ∨ a ≠ p → ∀ i, i < x.size E → put m p (wbytes w) (a + i) = m (a + i) := by
    intro x a hx hne i hi
    apply put_out; rw [wbytes_length]
    rcases hx.apart h0 with ⟨rfl, rfl⟩ | g | g
    · exact absurd rfl (hne.elim id fun h => absurd rfl h)
    · omega
    · rw [s0] at g; omega
  exact { h with
    bytes := fun q c a hx hpl i hi => by
      rw [ap _ _ hx (.inl (by rintro ⟨⟩; exact plain_not_ref hpl k0 j0)) i (by simpa only [It.size, csize_plain hpl] using hi)]
      exact h.bytes q c a hx hpl i hi
    jumps := fun a hx i hi => by
      rw [ap _ _ hx (.inl nofun) i (by have := E.tok .JUMP; simp only [It.size]; omega)]
      exact h.jumps a hx i hi
    closed := fun a b hk => by
      obtain ⟨hx, hw⟩ := h.closed a b hk
      refine ⟨hx, ?_⟩
      rw [word_congr (ap _ _ hx (.inl nofun) 1 (by simp [It.size])) (ap _ _ hx (.inl nofun) 2 (by simp [It.size]))]
      exact hw
    refs := fun l' a hr => by
      rcases h.refs l' a hr with g | ⟨b, hd, hw⟩
      · exact .inl g
      · refine .inr ⟨b, hd, ?_⟩
        obtain ⟨q, c, hx, k, j⟩ := hr
        have s1 : (It.cw q c).size E = 2 := by simp only [It.size, k]; exact csize_ref j
        by_cases hne : It.cw q c ≠ .cw q0 c0 ∨ a ≠ p
        · rw [word_congr (by simpa using ap _ _ hx hne 0 (by omega)) (ap _ _ hx hne 1 (by omega))]; exact hw
        · have : It.cw q c = .cw q0 c0 := Classical.not_not.1 fun g => hne (.inl g)
          cases this
          rw [k] at k0; cases k0
          exact absurd hd.defined hnd }

/-- Words of references that wait, after writing one of them. -/
theorem Core.word_patch (h : Core E reloc base C os m cp T K Pd) {l l' : Str} {p a : Nat} (hp : Pd l p) (ha : Pd l' a) {w : Nat} :
    word (put m p (wbytes (w % 65536))) a = if a = p then w % 65536 else word m a := by
  split
  · next g => subst g; exact word_put m a w
  · next g =>
    obtain ⟨⟨q0, c0, h0, k0, j0⟩, _⟩ := h.pend l p hp
    obtain ⟨⟨q1, c1, h1, k1, j1⟩, _⟩ := h.pend l' a ha
    have s0 : (It.cw q0 c0).size E = 2 := by simp only [It.size, k0]; exact csize_ref j0
    have s1 : (It.cw q1 c1).size E = 2 := by simp only [It.size, k1]; exact csize_ref j1
    apply word_congr <;> apply put_out <;> rw [wbytes_length] <;> rcases h0.apart h1 with ⟨_, rfl⟩ | g | g <;> omega

theorem OpenOk.cur_eq {ends : Str → Nat} {e : Nat} (h : OpenOk ends os e) : ends (cur os) = e := by
  cases os with
  | nil => exact h
  | cons x r => exact h.1

theorem OpenOk.other {ends ends' : Str → Nat} : ∀ {os : List (Str × Nat)} {e : Nat}, OpenOk ends os e →
    (∀ q ∈ os.map Prod.fst ++ [[]], ends' q = ends q) → OpenOk ends' os e
  | [], _, h, g => (g [] (by simp)).trans h
  | (l, p) :: r, _, h, g => ⟨(g l (by simp)).trans h.1, OpenOk.other h.2 fun q hq => g q (by simp at hq ⊢; exact .inr hq)⟩

theorem OpenOk.upd {ends : Str → Nat} {e : Nat} (h : OpenOk ends os e) (hn : (os.map Prod.fst ++ [[]]).Nodup) (e' : Nat) :
    OpenOk (fun q => if q = cur os then e' else ends q) os e' := by
  cases os with
  | nil => simp [OpenOk, cur]
  | cons x r =>
    refine ⟨by simp [cur], OpenOk.other h.2 fun q hq => if_neg ?_⟩
    rintro rfl
    simp only [List.map_cons, List.cons_append, List.nodup_cons] at hn
    exact hn.1 (by simpa [cur] using hq)

theorem layOf_cons_cw (q q' : Str) (c : CW) : layOf E base q (.cw q' c :: T) =
    if q' = q then (c, base + len E T) :: layOf E base q T else layOf E base q T := rfl

/-- A code is added at the end. -/
theorem Core.cons (h : Core E reloc base C os m cp T K Pd) (c : CW) (w : Prop) (hm : ∀ y, y < cp → m' y = m y)
    (hC : ∀ q, C' q = if cur os = q then c :: C q else C q)
    (hb : plain c.k → bytesAt m' cp (E.enc c.k))
    (hl : ∀ l, c.k = .label l → IsJump l ∧ ¬ Defined T l ∧ ∀ a, Pd l a → word m a = (cp + reloc) % 65536)
    (hr : ∀ l, c.k = .wordStr l → IsJump l → (w ∧ ¬ Defined T l) ∨ ¬ w ∧ ∃ p, DefAt E base T l p ∧ word m' cp = (p + reloc) % 65536)
    (hw : w → ∃ l, c.k = .wordStr l ∧ IsJump l)
    (hp : ∀ l a, Pd' l a ↔ (Pd l a ∧ c.k ≠ .label l) ∨ (w ∧ a = cp ∧ c.k = .wordStr l)) :
    Core E reloc base C' os m' (cp + csize E c.k) (.cw (cur os) c :: T) K Pd' := by
  have old : ∀ x a, At E base x a T → ∀ i, i < x.size E → m' (a + i) = m (a + i) := by
    intro x a hx i hi
    have := hx.range
    exact hm _ (by have := h.cp_eq; omega)
  have hdef : ∀ l a, DefAt E base (.cw (cur os) c :: T) l a ↔ (c.k = .label l ∧ a = cp) ∨ DefAt E base T l a := by
    intro l a
    constructor
    · rintro ⟨q, c', (⟨⟨⟩, rfl⟩ | hx), k⟩
      · exact .inl ⟨k, h.cp_eq.symm⟩
      · exact .inr ⟨q, c', hx, k⟩
    · rintro (⟨k, rfl⟩ | ⟨q, c', hx, k⟩)
      · exact ⟨_, c, .inl ⟨rfl, h.cp_eq⟩, k⟩
      · exact ⟨q, c', .inr hx, k⟩
  have hdfd : ∀ l, Defined (.cw (cur os) c :: T) l ↔ c.k = .label l ∨ Defined T l := by
    intro l
    constructor
    · rintro ⟨q, c', hx, k⟩
      rcases List.mem_cons.1 hx with heq | hx
      · cases heq; exact .inl k
      · exact .inr ⟨q, c', hx, k⟩
    · rintro (k | ⟨q, c', hx, k⟩)
      · exact ⟨_, c, List.mem_cons_self, k⟩
      · exact ⟨q, c', List.mem_cons_of_mem _ hx, k⟩
  refine ⟨?_, ?_, ?_, ?_, ?_, ?_, ?_, ?_, ?_, ?_, h.places, h.names, ?_⟩
  · rw [h.cp_eq]; simp only [len, It.size]; omega
  · intro q
    rw [hC, layOf_cons_cw, h.code q]; split <;> rfl
  · rintro q c' a (⟨⟨⟩, rfl⟩ | hx) hpl
    · rw [← h.cp_eq]; exact hb hpl
    · intro i hi
      rw [old _ _ hx i (by simpa only [It.size, csize_plain hpl] using hi)]
      exact h.bytes q c' a hx hpl i hi
  · rintro a (⟨⟨⟩, rfl⟩ | hx)
    intro i hi
    rw [old _ _ hx i (by have := E.tok .JUMP; simp only [It.size]; omega)]
    exact h.jumps a hx i hi
  · intro a b hk
    obtain ⟨hx, hw⟩ := h.closed a b hk
    exact ⟨.inr hx, by rw [word_congr (old _ _ hx 1 (by simp [It.size])) (old _ _ hx 2 (by simp [It.size]))]; exact hw⟩
  · intro l a b ha hb
    rw [hdef] at ha hb
    rcases ha with ⟨k, rfl⟩ | ha <;> rcases hb with ⟨k', rfl⟩ | hb
    · rfl
    · exact absurd hb.defined (hl l k).2.1
    · exact absurd ha.defined (hl l k').2.1
    · exact h.uniq l a b ha hb
  · rintro l a ⟨q, c', (⟨⟨⟩, rfl⟩ | hx), k, j⟩
    · rcases hr l k j with ⟨hw, _⟩ | ⟨_, p, hd, hw⟩
      · exact .inl ((hp _ _).2 (.inr ⟨hw, h.cp_eq.symm, k⟩))
      · exact .inr ⟨p, (hdef _ _).2 (.inr hd), by rw [← h.cp_eq]; exact hw⟩
    · have s1 : (It.cw q c').size E = 2 := by simp only [It.size, k]; exact csize_ref j
      have hwd : word m' a = word m a := word_congr (by simpa using old _ _ hx 0 (by omega)) (old _ _ hx 1 (by omega))
      rcases h.refs l a ⟨q, c', hx, k, j⟩ with g | ⟨p, hd, hw⟩
      · by_cases hk : c.k = .label l
        · exact .inr ⟨cp, (hdef _ _).2 (.inl ⟨hk, rfl⟩), by rw [hwd]; exact (hl l hk).2.2 a g⟩
        · exact .inl ((hp _ _).2 (.inl ⟨g, hk⟩))
      · exact .inr ⟨p, (hdef _ _).2 (.inr hd), by rw [hwd]; exact hw⟩
  · intro l a g
    rcases (hp _ _).1 g with ⟨g, hk⟩ | ⟨hw', rfl, k⟩
    · obtain ⟨⟨q, c', hx, k, j⟩, hnd⟩ := h.pend l a g
      exact ⟨⟨q, c', .inr hx, k, j⟩, by rw [hdfd]; exact fun o => o.elim hk hnd⟩
    · obtain ⟨l', k', j⟩ := hw hw'
      rw [k] at k'; cases k'
      refine ⟨⟨_, c, .inl ⟨rfl, h.cp_eq⟩, k, j⟩, ?_⟩
      rw [hdfd]
      rintro (o | o)
      · rw [k] at o; cases o
      · rcases hr l k j with ⟨_, hnd⟩ | ⟨hnw, _⟩
        · exact hnd o
        · exact hnw hw'
  · intro q c' l hx k
    rcases List.mem_cons.1 hx with heq | hx
    · cases heq; exact (hl l k).1
    · exact h.labs q c' l hx k
  · intro l p hlp
    obtain ⟨h1, h2, h3⟩ := h.opens l p hlp
    exact ⟨h1, .inr h2, h3⟩
  · obtain ⟨ends, ho, hb, hc⟩ := h.chain
    have hcur := ho.cur_eq
    have key : ∀ q b, Chain (csize E) K b (layOf E base q T) (ends q) →
        Chain (csize E) K b (layOf E base q (.cw (cur os) c :: T)) (if q = cur os then cp + csize E c.k else ends q) := by
      intro q b hq
      rw [layOf_cons_cw]
      by_cases g : cur os = q
      · subst g
        rw [if_pos rfl, if_pos rfl, ← h.cp_eq]
        rw [hcur] at hq
        exact ⟨.refl, hq⟩
      · rw [if_neg g, if_neg (Ne.symm g)]; exact hq
    exact ⟨_, ho.upd h.names _, key _ _ hb, fun q => (hc q).imp fun b hb => key q b hb⟩

/-- The last code is removed, if it is neither a label nor a reference. -/
theorem Core.uncons {c : CW} (h : Core E reloc base C os m cp (.cw (cur os) c :: T) K Pd) (hpl : plain c.k)
    (hC : ∀ q, C' q = if cur os = q then (C q).tail else C q) :
    Core E reloc base C' os m (cp - (E.enc c.k).length) T K Pd := by
  have hcp : cp - (E.enc c.k).length = base + len E T := by
    have := h.cp_eq; simp only [len, It.size, csize_plain hpl] at this; omega
  have hsk : ∀ a, At E base .skip a (.cw (cur os) c :: T) → At E base .skip a T := by
    rintro a (⟨⟨⟩, _⟩ | g); exact g
  have hdef : ∀ l a, DefAt E base (.cw (cur os) c :: T) l a → DefAt E base T l a := by
    rintro l a ⟨q, c', (⟨⟨⟩, rfl⟩ | hx), k⟩
    · exact absurd k (plain_not_label hpl l)
    · exact ⟨q, c', hx, k⟩
  have hdef' : ∀ l a, DefAt E base T l a → DefAt E base (.cw (cur os) c :: T) l a := by
    rintro l a ⟨q, c', hx, k⟩; exact ⟨q, c', .inr hx, k⟩
  refine ⟨hcp, ?_, ?_, ?_, ?_, ?_, ?_, ?_, ?_, ?_, h.places, h.names, ?_⟩
  · intro q
    rw [hC, h.code q, layOf_cons_cw]; split <;> rfl
  · exact fun q c' a hx hp => h.bytes q c' a (.inr hx) hp
  · exact fun a hx => h.jumps a (.inr hx)
  · exact fun a b hk => ⟨hsk _ (h.closed a b hk).1, (h.closed a b hk).2⟩
  · exact fun l a b ha hb => h.uniq l a b (hdef' _ _ ha) (hdef' _ _ hb)
  · rintro l a ⟨q, c', hx, k, j⟩
    exact (h.refs l a ⟨q, c', .inr hx, k, j⟩).imp id fun ⟨p, hd, hw⟩ => ⟨p, hdef _ _ hd, hw⟩
  · intro l a g
    obtain ⟨⟨q, c', hx, k, j⟩, hnd⟩ := h.pend l a g
    refine ⟨?_, fun ⟨q, c', hx, k⟩ => hnd ⟨q, c', List.mem_cons_of_mem _ hx, k⟩⟩
    rcases hx with ⟨⟨⟩, rfl⟩ | hx
    · exact absurd j (plain_not_ref hpl k)
    · exact ⟨q, c', hx, k, j⟩
  · exact fun q c' l hx => h.labs q c' l (List.mem_cons_of_mem _ hx)
  · intro l p hlp
    obtain ⟨h1, h2, h3⟩ := h.opens l p hlp
    exact ⟨h1, hsk _ h2, h3⟩
  · obtain ⟨ends, ho, hb, hc⟩ := h.chain
    have key : ∀ q b, Chain (csize E) K b (layOf E base q (.cw (cur os) c :: T)) (ends q) →
        Chain (csize E) K b (layOf E base q T) (if q = cur os then cp - (E.enc c.k).length else ends q) := by
      intro q b hq
      rw [layOf_cons_cw] at hq
      by_cases g : cur os = q
      · subst g
        rw [if_pos rfl] at hq
        rw [if_pos rfl, hcp]; exact hq.2
      · rw [if_neg g] at hq; rw [if_neg (Ne.symm g)]; exact hq
    exact ⟨_, ho.upd h.names _, key _ _ hb, fun q => (hc q).imp fun b hb => key q b hb⟩

theorem layOf_nil {q : Str} (h : ∀ c, It.cw q c ∉ T) : layOf E base q T = [] := by
  induction T with
  | nil => rfl
  | cons x T ih =>
    have ih := ih fun c hc => h c (List.mem_cons_of_mem _ hc)
    cases x with
    | skip => exact ih
    | cw q' c =>
      rw [layOf_cons_cw, if_neg, ih]
      rintro rfl; exact h c List.mem_cons_self

/-- A procedure is opened: a jump over it, with no address yet. -/
theorem Core.open_ (h : Core E reloc base C os m cp T K Pd) {l : Str} (hl : l ∉ os.map Prod.fst ++ [[]])
    (hnew : ∀ c, It.cw l c ∉ T) (hj : bytesAt m cp (E.enc (.tok .JUMP))) :
    Core E reloc base C ((l, cp + 1) :: os) m (cp + 3) (.skip :: T) K Pd := by
  have hdef : ∀ l a, DefAt E base (.skip :: T) l a ↔ DefAt E base T l a := by
    intro l a
    constructor
    · rintro ⟨q, c', (⟨⟨⟩, rfl⟩ | hx), k⟩
      exact ⟨q, c', hx, k⟩
    · rintro ⟨q, c', hx, k⟩; exact ⟨q, c', .inr hx, k⟩
  have hdfd : ∀ l, Defined (.skip :: T) l → Defined T l := by
    rintro l ⟨q, c', hx, k⟩
    rcases List.mem_cons.1 hx with heq | hx
    · cases heq
    exact ⟨q, c', hx, k⟩
  refine ⟨?_, h.code, ?_, ?_, ?_, ?_, ?_, ?_, ?_, ?_, ?_, ?_, ?_⟩
  · rw [h.cp_eq]; simp only [len, It.size]; omega
  · rintro q c' a (⟨⟨⟩, rfl⟩ | hx) hpl
    exact h.bytes q c' a hx hpl
  · rintro a (⟨_, rfl⟩ | hx)
    · rw [← h.cp_eq]; exact hj
    · exact h.jumps a hx
  · exact fun a b hk => ⟨.inr (h.closed a b hk).1, (h.closed a b hk).2⟩
  · intro l a b ha hb
    rw [hdef] at ha hb
    exact h.uniq l a b ha hb
  · rintro l a ⟨q, c', (⟨⟨⟩, rfl⟩ | hx), k, j⟩
    exact (h.refs l a ⟨q, c', hx, k, j⟩).imp id fun ⟨p, hd, hw⟩ => ⟨p, (hdef _ _).2 hd, hw⟩
  · intro l a g
    obtain ⟨⟨q, c', hx, k, j⟩, hnd⟩ := h.pend l a g
    exact ⟨⟨q, c', .inr hx, k, j⟩, fun o => hnd (hdfd _ o)⟩
  · intro q c' l hx k
    rcases List.mem_cons.1 hx with heq | hx
    · cases heq
    exact h.labs q c' l hx k
  · intro l' p hlp
    rcases List.mem_cons.1 hlp with heq | hlp
    · cases heq; refine ⟨by omega, .inl ⟨rfl, by rw [h.cp_eq]; omega⟩, fun b hk => ?_⟩
      have := (h.closed _ _ hk).1.range
      have := h.cp_eq
      simp only [It.size] at *; omega
    · obtain ⟨h1, h2, h3⟩ := h.opens l' p hlp
      exact ⟨h1, .inr h2, h3⟩
  · rw [List.map_cons, List.nodup_cons]
    refine ⟨fun hm => ?_, h.places⟩
    obtain ⟨⟨l', p⟩, hx, hp⟩ := List.mem_map.1 hm
    obtain ⟨h1, h2, _⟩ := h.opens l' p hx
    have := h2.range
    have := h.cp_eq
    simp only [It.size] at *; omega
  · rw [List.map_cons, List.cons_append, List.nodup_cons]
    exact ⟨hl, h.names⟩
  · obtain ⟨ends, ho, hb, hc⟩ := h.chain
    have hne : ∀ q ∈ os.map Prod.fst ++ [[]], (if q = l then cp + 3 else ends q) = ends q := by
      intro q hq; rw [if_neg]; rintro rfl; exact hl hq
    refine ⟨fun q => if q = l then cp + 3 else ends q, ⟨if_pos rfl, ?_⟩, ?_, fun q => ?_⟩
    · exact ho.other hne
    · have := hne [] (by simp)
      simp only [this]; exact hb
    · show ∃ b, Chain _ _ _ (layOf E base q T) _
      by_cases g : q = l
      · subst g
        rw [layOf_nil hnew]
        exact ⟨cp + 3, by simp only [if_true]; exact .refl⟩
      · simp only [if_neg g]; exact hc q

/-- A procedure is closed: the address of the jump over it is written. -/
theorem Core.close {l : Str} {p : Nat} (h : Core E reloc base C ((l, p) :: os) m cp T K Pd) :
    Core E reloc base C os (put m p (wbytes ((cp + reloc) % 65536))) cp T (fun a b => K a b ∨ (a = p - 1 ∧ b = cp)) Pd := by
  obtain ⟨h1, h2, h3⟩ := h.opens l p List.mem_cons_self
  have ap : ∀ x a, At E base x a T → x ≠ .skip ∨ a ≠ p - 1 → ∀ i, i < x.size E →
      put m p (wbytes ((cp + reloc) % 65536)) (a + i) = m (a + i) := by
    intro x a hx hne i hi
    apply put_out; rw [wbytes_length]
    rcases hx.apart h2 with ⟨rfl, rfl⟩ | g | g
    · exact absurd rfl (hne.elim id fun h => absurd rfl h)
    · omega
    · simp only [It.size] at g; omega
  refine ⟨h.cp_eq, h.code, ?_, ?_, ?_, h.uniq, ?_, h.pend, h.labs, ?_, ?_, ?_, ?_⟩
  · intro q c a hx hpl i hi
    rw [ap _ _ hx (.inl nofun) i (by simpa only [It.size, csize_plain hpl] using hi)]
    exact h.bytes q c a hx hpl i hi
  · intro a hx i hi
    have := E.tok .JUMP
    by_cases g : a = p - 1
    · rw [put_out (by omega)]; exact h.jumps a hx i hi
    · rw [ap _ _ hx (.inr g) i (by simp only [It.size]; omega)]
      exact h.jumps a hx i hi
  · rintro a b (hk | ⟨rfl, rfl⟩)
    · obtain ⟨hx, hw⟩ := h.closed a b hk
      have g : a ≠ p - 1 := by rintro rfl; exact h3 b hk
      exact ⟨hx, by rw [word_congr (ap _ _ hx (.inr g) 1 (by simp [It.size])) (ap _ _ hx (.inr g) 2 (by simp [It.size]))]; exact hw⟩
    · refine ⟨h2, ?_⟩
      rw [Nat.sub_add_cancel h1]; exact word_put m p _
  · intro l' a hr
    refine (h.refs l' a hr).imp id fun ⟨b, hd, hw⟩ => ⟨b, hd, ?_⟩
    obtain ⟨q, c, hx, k, j⟩ := hr
    have s1 : (It.cw q c).size E = 2 := by simp only [It.size, k]; exact csize_ref j
    rw [word_congr (by simpa using ap _ _ hx (.inl nofun) 0 (by omega)) (ap _ _ hx (.inl nofun) 1 (by omega))]; exact hw
  · intro l' p' hlp
    obtain ⟨g1, g2, g3⟩ := h.opens l' p' (List.mem_cons_of_mem _ hlp)
    refine ⟨g1, g2, ?_⟩
    rintro b (hk | ⟨e, _⟩)
    · exact g3 b hk
    · have hpl := h.places
      rw [List.map_cons, List.nodup_cons] at hpl
      exact hpl.1 (List.mem_map.2 ⟨(l', p'), hlp, by show p' = p; omega⟩)
  · exact (List.nodup_cons.1 h.places).2
  · exact (List.nodup_cons.1 h.names).2
  · obtain ⟨ends, ho, hb, hc⟩ := h.chain
    have hcur := ho.2.cur_eq
    have key : ∀ q b, Chain (csize E) K b (layOf E base q T) (ends q) →
        Chain (csize E) (fun a b => K a b ∨ (a = p - 1 ∧ b = cp)) b (layOf E base q T) (if q = cur os then cp else ends q) := by
      intro q b hq
      by_cases g : q = cur os
      · subst g
        rw [if_pos rfl]
        rw [hcur] at hq
        exact (hq.mono fun a b hk => .inl hk).jump (.inr ⟨rfl, rfl⟩)
      · rw [if_neg g]; exact hq.mono fun a b hk => .inl hk
    exact ⟨_, ho.2.upd (List.nodup_cons.1 h.names).2 _, key _ _ hb, fun q => (hc q).imp fun b hb => key q b hb⟩

end FB.Native
