import Verif.Out.Heap
import Verif.Rt.VarAddr
import Verif.Props.C16
import Verif.Props.C21Program

/-!
# C26: distinct variables never share storage

The compiler numbers variables as it finds them; the output names them, the assembler places them in the segment `HEAP`
and turns each use into a byte; the interpreter turns the byte into an address. `C26_storage` states that for every
program that the compiler accepts (and whose variables fit, which the linker asserts) this chain is right: each variable has
its own 2 bytes (6 for floating point), no two overlap, and each use in the code is the byte of the right variable.
`C26_address` is the last step, in the model of the processor.
-/

namespace FB.Out

open FB.Parse FB.Parse.Frame

/-! ## The segment -/

/-- The entries that are written. -/
def users (v : List (Str × Nat)) : List (Nat × Str) := (v.filter fun e => isUser e.1).map fun e => (e.2, e.1)

theorem ident_isUser {n : Str} (h : Ident n) : isUser n = true := by
  obtain ⟨⟨c, t, rfl, hc⟩, -⟩ := h
  have : c ≠ 45 := by rintro rfl; revert hc; decide
  simp [isUser, this]

theorem fake_not_user (k : Nat) : isUser (fakeName k) = false := by simp [isUser, fakeName]

theorem users_append (v w : List (Str × Nat)) : users (v ++ w) = users v ++ users w := by simp [users]

theorem VT.val_le (t : VT) : t.val ≤ 7 := by cases t <;> decide

theorem users_var {v : List (Str × Nat)} {name : Str} (k : Nat) (hi : Ident name) : users (v ++ [(name, k)]) = users v ++ [(k, name)] := by
  rw [users_append]; simp [users, ident_isUser hi]

theorem users_float {v : List (Str × Nat)} {name : Str} (k : Nat) (hi : Ident name) (a b : Nat) :
    users (v ++ [(name, k), (fakeName a, 0), (fakeName b, 0)]) = users v ++ [(k, name)] := by
  rw [users_append]; simp [users, ident_isUser hi, fake_not_user]

/-- What the entries of a well formed map look like. -/
theorem users_mem {v : List (Str × Nat)} (h : VarsOk v) :
    ∀ e ∈ users v, Ident e.2 ∧ e.1 / 256 < v.length ∧ 1 ≤ e.1 % 256 ∧ e.1 % 256 ≤ 7 ∧ lookup e.2 v = some e.1 := by
  induction h with
  | nil => simp [users]
  | @var v name t hv hi hn ht hf ih =>
    intro e he
    rw [users_var _ hi, List.mem_append] at he
    have ht0 : 1 ≤ t.val := by cases t <;> first | exact absurd rfl ht | decide
    have ht7 := VT.val_le t
    rcases he with he | he
    · obtain ⟨h1, h2, h3, h4, h5⟩ := ih e he
      refine ⟨h1, by simp; omega, h3, h4, ?_⟩
      rw [lookup_append, h5]
    · simp only [List.mem_singleton] at he
      subst he
      refine ⟨hi, by simp; omega, by simp; omega, by simp; omega, ?_⟩
      rw [lookup_append, hn]
      simp [lookup]
  | @float v name hv hi hn ih =>
    intro e he
    rw [users_float _ hi, List.mem_append] at he
    rcases he with he | he
    · obtain ⟨h1, h2, h3, h4, h5⟩ := ih e he
      refine ⟨h1, by simp; omega, h3, h4, ?_⟩
      rw [lookup_append, h5]
    · simp only [List.mem_singleton] at he
      subst he
      have : VT.FLOAT.val = 7 := rfl
      refine ⟨hi, by simp; omega, by simp; omega, by simp; omega, ?_⟩
      rw [lookup_append, hn]
      simp [lookup]

/-- The entries are in increasing order. -/
theorem users_sorted {v : List (Str × Nat)} (h : VarsOk v) : (users v).Pairwise (fun a b => a.1 < b.1) := by
  induction h with
  | nil => simp [users]
  | @var v name t hv hi hn ht hf ih =>
    rw [users_var _ hi]
    refine List.pairwise_append.mpr ⟨ih, by simp, ?_⟩
    intro a ha b hb
    have := (users_mem hv a ha).2.1
    simp only [List.mem_singleton] at hb
    subst hb
    simp only
    omega
  | @float v name hv hi hn ih =>
    rw [users_float _ hi]
    refine List.pairwise_append.mpr ⟨ih, by simp, ?_⟩
    intro a ha b hb
    have := (users_mem hv a ha).2.1
    simp only [List.mem_singleton] at hb
    subst hb
    simp only
    omega

theorem mem_vemplace {k : Nat} {n : Str} {m : List (Nat × Str)} (hm : ∀ e ∈ m, e.1 = k → e.2 = n) (e : Nat × Str) :
    e ∈ vemplace k n m ↔ e = (k, n) ∨ e ∈ m := by
  induction m with
  | nil => simp [vemplace]
  | cons x m ih =>
    obtain ⟨k', n'⟩ := x
    have ih := ih fun e he => hm e (by simp [he])
    simp only [vemplace]
    split
    · simp
    · split
      · next h =>
        subst h
        have := hm (k, n') (by simp) rfl
        simp only at this
        subst this
        simp
      · simp only [List.mem_cons, ih]
        constructor
        · rintro (h | h | h) <;> simp [h]
        · rintro (h | h | h) <;> simp [h]

theorem vemplace_sorted {k : Nat} {n : Str} {m : List (Nat × Str)} (h : m.Pairwise (fun a b => a.1 < b.1)) :
    (vemplace k n m).Pairwise (fun a b => a.1 < b.1) := by
  have key : ∀ (m : List (Nat × Str)) (e), e ∈ vemplace k n m → e = (k, n) ∨ e ∈ m := by
    intro m
    induction m with
    | nil => simp [vemplace]
    | cons x m ih =>
      obtain ⟨k', n'⟩ := x
      intro e he
      simp only [vemplace] at he
      split at he
      · simpa using he
      · split at he
        · exact .inr he
        · simp only [List.mem_cons] at he ⊢
          rcases he with he | he
          · exact .inr (.inl he)
          · rcases ih e he with h | h
            · exact .inl h
            · exact .inr (.inr h)
  induction m with
  | nil => simp [vemplace]
  | cons x m ih =>
    obtain ⟨k', n'⟩ := x
    rw [List.pairwise_cons] at h
    simp only [vemplace]
    split
    · next hlt =>
      rw [List.pairwise_cons]
      refine ⟨?_, List.pairwise_cons.mpr h⟩
      intro a ha
      simp only [List.mem_cons] at ha
      rcases ha with rfl | ha
      · exact hlt
      · have := h.1 a ha; simp only at this ⊢; omega
    · split
      · exact List.pairwise_cons.mpr h
      · next h1 h2 =>
        rw [List.pairwise_cons]
        refine ⟨?_, ih h.2⟩
        intro a ha
        rcases key m a ha with rfl | ha
        · simp only; omega
        · exact h.1 a ha

/-- The loop collects exactly the variables, in order, whatever the order in which the map is read. -/
theorem vlistFrom_spec {l : List (Str × Nat)} (m : List (Nat × Str)) (hs : m.Pairwise (fun a b => a.1 < b.1))
    (hd : ∀ a ∈ m, ∀ b ∈ users l, a.1 = b.1 → a = b) (hd2 : ∀ a ∈ users l, ∀ b ∈ users l, a.1 = b.1 → a = b) :
    (vlistFrom m l).Pairwise (fun a b => a.1 < b.1) ∧ ∀ e, e ∈ vlistFrom m l ↔ e ∈ m ∨ e ∈ users l := by
  induction l generalizing m with
  | nil => exact ⟨hs, by simp [vlistFrom, users]⟩
  | cons x l ih =>
    obtain ⟨n, k⟩ := x
    simp only [vlistFrom]
    cases hu : isUser n with
    | false =>
      have e : users ((n, k) :: l) = users l := by simp [users, hu]
      rw [e] at hd hd2 ⊢
      simpa using ih m hs hd hd2
    | true =>
      have e : users ((n, k) :: l) = (k, n) :: users l := by simp [users, hu]
      rw [e] at hd hd2 ⊢
      have hm : ∀ e ∈ m, e.1 = k → e.2 = n := fun e he hk => by
        have := hd e he (k, n) (by simp) hk
        rw [this]
      have := ih (vemplace k n m) (vemplace_sorted hs)
        (fun a ha b hb hab => by
          rcases (mem_vemplace hm a).mp ha with rfl | ha
          · exact hd2 _ (by simp) b (by simp [hb]) hab
          · exact hd a ha b (by simp [hb]) hab)
        (fun a ha b hb => hd2 a (by simp [ha]) b (by simp [hb]))
      simp only [if_true]
      refine ⟨this.1, fun e => ?_⟩
      rw [this.2 e, mem_vemplace hm]
      simp only [List.mem_cons]
      constructor
      · rintro ((h | h) | h) <;> simp [h]
      · rintro (h | h | h) <;> simp [h]

theorem sorted_unique {a b : List (Nat × Str)} (ha : a.Pairwise (fun a b => a.1 < b.1)) (hb : b.Pairwise (fun a b => a.1 < b.1))
    (h : ∀ e, e ∈ a ↔ e ∈ b) : a = b := by
  induction a generalizing b with
  | nil =>
    cases b with
    | nil => rfl
    | cons y b => exact absurd ((h y).mpr (by simp)) (by simp)
  | cons x a ih =>
    cases b with
    | nil => exact absurd ((h x).mp (by simp)) (by simp)
    | cons y b =>
      rw [List.pairwise_cons] at ha hb
      have exy : x = y := by
        have h1 := (h x).mp (by simp)
        have h2 := (h y).mpr (by simp)
        simp only [List.mem_cons] at h1 h2
        rcases h1 with h1 | h1
        · exact h1
        · rcases h2 with h2 | h2
          · exact h2.symm
          · have := hb.1 x h1; have := ha.1 y h2; omega
      subst exy
      congr 1
      refine ih ha.2 hb.2 fun e => ⟨fun he => ?_, fun he => ?_⟩
      · have := (h e).mp (by simp [he])
        simp only [List.mem_cons] at this
        rcases this with rfl | this
        · have := ha.1 _ he; omega
        · exact this
      · have := (h e).mpr (by simp [he])
        simp only [List.mem_cons] at this
        rcases this with rfl | this
        · have := hb.1 _ he; omega
        · exact this

theorem pairwise_inj {l : List (Nat × Str)} (h : l.Pairwise (fun a b => a.1 < b.1)) :
    ∀ a ∈ l, ∀ b ∈ l, a.1 = b.1 → a = b := by
  induction l with
  | nil => simp
  | cons x l ih =>
    rw [List.pairwise_cons] at h
    intro a ha b hb hab
    simp only [List.mem_cons] at ha hb
    rcases ha with rfl | ha <;> rcases hb with rfl | hb
    · rfl
    · have := h.1 b hb; omega
    · have := h.1 a ha; omega
    · exact ih h.2 a ha b hb hab

/-- The list of variables does not depend on the order of the map. -/
theorem vlist_eq {v l : List (Str × Nat)} (h : VarsOk v) (hp : l.Perm v) : vlist l = users v := by
  have hm : ∀ e, e ∈ users l ↔ e ∈ users v := fun e => by simp [users, hp.mem_iff]
  have hs := users_sorted h
  have hi := pairwise_inj hs
  have := vlistFrom_spec (l := l) [] (by simp) (by simp) fun a ha b hb => hi a ((hm a).mp ha) b ((hm b).mp hb)
  refine sorted_unique this.1 hs fun e => ?_
  rw [vlist, this.2 e, hm]
  simp

theorem heapFrom_append (o : Nat) (a b : List (Nat × Str)) :
    heapFrom o (a ++ b) = heapFrom o a ++ heapFrom (o + (a.map fun e => vtSize e.1).sum) b := by
  induction a generalizing o with
  | nil => simp [heapFrom]
  | cons x a ih =>
    obtain ⟨k, n⟩ := x
    simp [heapFrom, ih, Nat.add_assoc]

theorem heapFrom_sizes (o : Nat) (a : List (Nat × Str)) :
    (heapFrom o a).map (fun e => e.2.2) = a.map fun e => vtSize e.1 := by
  induction a generalizing o with
  | nil => rfl
  | cons x a ih => obtain ⟨k, n⟩ := x; simp [heapFrom, ih]

/-- The variables of a well formed map fill the segment in order, two bytes for each entry of the map. -/
theorem heap_users {v : List (Str × Nat)} (h : VarsOk v) :
    ((users v).map fun e => vtSize e.1).sum = 2 * v.length ∧
    heapFrom 0 (users v) = (users v).map fun e => (e.2, 2 * (e.1 / 256), if e.1 % 256 = VT.FLOAT.val then 6 else 2) := by
  induction h with
  | nil => exact ⟨rfl, rfl⟩
  | @var v name t hv hi hn ht hf ih =>
    obtain ⟨i1, i2⟩ := ih
    have ht0 : 1 ≤ t.val := by cases t <;> first | exact absurd rfl ht | decide
    have ht6 : t.val ≤ 6 := by cases t <;> first | exact absurd rfl hf | decide
    have hm : (256 * v.length + t.val) % 256 = t.val := by omega
    have hdv : (256 * v.length + t.val) / 256 = v.length := by omega
    have h1 : ¬ t.val = 0 := by omega
    have h7 : ¬ t.val = VT.FLOAT.val := by have : VT.FLOAT.val = 7 := rfl; omega
    rw [users_var _ hi]
    constructor
    · simp only [List.map_append, List.sum_append, i1]
      simp [vtSize, hm, h1, ht6]; omega
    · rw [heapFrom_append, i2, i1]
      simp [heapFrom, hdv, vtSize, hm, h1, ht6, h7]
  | @float v name hv hi hn ih =>
    obtain ⟨i1, i2⟩ := ih
    have hf : VT.FLOAT.val = 7 := rfl
    have hm : (256 * v.length + VT.FLOAT.val) % 256 = 7 := by omega
    have hdv : (256 * v.length + VT.FLOAT.val) / 256 = v.length := by omega
    rw [users_float _ hi]
    constructor
    · simp only [List.map_append, List.sum_append, i1]
      simp [vtSize, hm]; omega
    · rw [heapFrom_append, i2, i1]
      simp only [heapFrom, List.map_append, List.map_cons, List.map_nil, hdv, vtSize, hm, hf]
      simp
      omega

/-! ## The uses in the code -/

/-- Every use of a variable in the code is the number of the variable with that name. -/
def UsesOk (s : PS) : Prop :=
  ∀ c, InCode s c → ∀ name n, c.k = .varn name n → Ident name ∧ ∃ x, lookup name s.vars = some x ∧ x / 256 = n

section
variable {env : Parse.Env} {Gd : DCode → Prop}

theorem addFake_lookup {v : List (Str × Nat)} {name : Str} (hi : Ident name) : lookup name (addFake v) = lookup name v :=
  lookup_assign_ne _ _ fun h => fakeName_not_ident (k := v.length) (by rw [fakeName, ← h]; exact hi)

theorem setType_lookup {v : List (Str × Nat)} {name lv : Str} (t : VT) {x : Nat} (hi : Ident name) (h : lookup name v = some x) :
    ∃ x', lookup name (setType lv t v) = some x' ∧ x' / 256 = x / 256 := by
  have key : ∃ x', lookup name (assign lv ((lookup lv v).getD 0 / 256 * 256 + t.val) v) = some x' ∧ x' / 256 = x / 256 := by
    by_cases he : name = lv
    · subst he
      refine ⟨_, lookup_assign_self _ _ _, ?_⟩
      have := VT.val_le t
      rw [h]
      simp only [Option.getD_some]
      omega
    · exact ⟨x, by rw [lookup_assign_ne _ _ he]; exact h, rfl⟩
  unfold setType
  dsimp only
  split
  · rw [addFake_lookup hi, addFake_lookup hi]; exact key
  · exact key

/-- The number of a variable never changes. -/
theorem move_lookup {s s' : PS} (m : Move env Gd s s') {name : Str} {x : Nat} (hi : Ident name)
    (h : lookup name s.vars = some x) : ∃ x', lookup name s'.vars = some x' ∧ x' / 256 = x / 256 := by
  cases m with
  | same hs => exact ⟨x, by rw [hs.vars]; exact h, rfl⟩
  | @newVar name' hn _ =>
    refine ⟨x, ?_, rfl⟩
    have : name ≠ name' := by rintro rfl; rw [hn] at h; cases h
    simpa [lookup_assign_ne _ _ this] using h
  | setType _ _ => exact setType_lookup _ hi h
  | _ => exact ⟨x, by simpa using h, rfl⟩

theorem UsesOk.move {s s' : PS} (h : UsesOk s) (m : Move env Gd s s') : UsesOk s' := by
  intro c hc name n hk
  rcases m.items hc with hc | ⟨hn, -⟩
  · obtain ⟨hi, x, hx, rfl⟩ := h c hc name n hk
    obtain ⟨x', h1, h2⟩ := move_lookup m hi hx
    exact ⟨hi, x', h1, h2⟩
  · generalize hkk : c.k = k at hn
    rw [hkk] at hk
    cases hn with
    | gram d hd => exact absurd hk (by cases d <;> simp [DCode.ck])
    | plain _ hp =>
      subst hk
      cases hp with
      | varn _ v hv hi =>
        obtain ⟨x', h1, h2⟩ := move_lookup m hi hv
        exact ⟨hi, x', h1, h2⟩
    | jump j _ _ h => subst hk; rcases h with h | h | h | h <;> cases h
    | user _ h => subst hk; rcases h with h | h <;> cases h
    | fill => cases hk
    | newVar _ hn hi hv =>
      cases hk
      refine ⟨hi, 256 * s.vars.length, ?_, by omega⟩
      rw [hv, lookup_assign_self]

theorem UsesOk.fmoves {src : Str} {s s' : PS} (h : UsesOk s)
    (m : FMoves env Gd src s s') : UsesOk s' := by
  induction m with
  | refl => exact h
  | tail _ m ih =>
    cases m with
    | move m => exact ih.move m
    | line l ln _ =>
      intro c hc name n hk
      exact ih c (by rcases hc with hc | hc; exact .inl hc; exact absurd hc (by simp [PS.newLine])) name n hk

end

/-! ## The property -/

theorem usesOk_init : UsesOk initPS := by
  intro c hc
  rcases hc with ⟨k, code, hk, hc⟩ | hc
  · simp [initPS] at hk
    rw [hk.2] at hc; simp at hc
  · simp [initPS] at hc

/-- Size in words. -/
def words (k : Nat) : Nat := if k % 256 = VT.FLOAT.val then 3 else 1

theorem users_words {v : List (Str × Nat)} (h : VarsOk v) :
    (∀ a ∈ users v, a.1 / 256 + words a.1 ≤ v.length) ∧
    (users v).Pairwise (fun a b => a.1 / 256 + words a.1 ≤ b.1 / 256) := by
  have hF : VT.FLOAT.val = 7 := rfl
  induction h with
  | nil => simp [users]
  | @var v name t hv hi hn ht hf ih =>
    have ht6 : t.val ≤ 6 := by cases t <;> first | exact absurd rfl hf | decide
    have hm : (256 * v.length + t.val) % 256 = t.val := by omega
    have hdv : (256 * v.length + t.val) / 256 = v.length := by omega
    have hw : words (256 * v.length + t.val) = 1 := by
      unfold words; rw [hm, hF, if_neg (by omega)]
    rw [users_var _ hi]
    refine ⟨fun a ha => ?_, List.pairwise_append.mpr ⟨ih.2, by simp, fun a ha b hb => ?_⟩⟩
    · rcases List.mem_append.mp ha with ha | ha
      · have := ih.1 a ha; simp; omega
      · simp only [List.mem_singleton] at ha; subst ha; simp only [hw, hdv]; simp
    · simp only [List.mem_singleton] at hb; subst hb; simp only [hdv]; exact ih.1 a ha
  | @float v name hv hi hn ih =>
    have hm : (256 * v.length + VT.FLOAT.val) % 256 = 7 := by omega
    have hdv : (256 * v.length + VT.FLOAT.val) / 256 = v.length := by omega
    have hw : words (256 * v.length + VT.FLOAT.val) = 3 := by
      unfold words; rw [hm, hF, if_pos rfl]
    rw [users_float _ hi]
    refine ⟨fun a ha => ?_, List.pairwise_append.mpr ⟨ih.2, by simp, fun a ha b hb => ?_⟩⟩
    · rcases List.mem_append.mp ha with ha | ha
      · have := ih.1 a ha; simp; omega
      · simp only [List.mem_singleton] at ha; subst ha; simp only [hw, hdv]; simp
    · simp only [List.mem_singleton] at hb; subst hb; simp only [hdv]; exact ih.1 a ha

theorem pairwise_or {α : Type} {R : α → α → Prop} {l : List α} (h : l.Pairwise R) {a b : α} (ha : a ∈ l) (hb : b ∈ l)
    (hne : a ≠ b) : R a b ∨ R b a := by
  induction l with
  | nil => cases ha
  | cons x l ih =>
    rw [List.pairwise_cons] at h
    simp only [List.mem_cons] at ha hb
    rcases ha with rfl | ha <;> rcases hb with rfl | hb
    · exact absurd rfl hne
    · exact .inl (h.1 b hb)
    · exact .inr (h.1 a ha)
    · exact ih h.2 ha hb

/-- The map of variables and the uses after compiling a file. -/
theorem fp_vars_final (env : Parse.Env) (src : Str) (s : PS) (h : compile (fpStart env) src = .ok s) :
    VarsOk s.vars ∧ UsesOk s := by
  obtain ⟨s0, hm, -, rfl⟩ := compile_moves fp_writable _ src s h
  have hu := usesOk_init.fmoves hm
  constructor
  · unfold compile at h
    split at h
    · cases h
    · next s1 h1 =>
      have hv := compileLines_vars (fun s => fp_vars env _ _ s) _ _ _ _ _ h1
      split at h
      · injection h with h
        have := (hv (by exact .nil)).1
        have e : s0.vars = s1.vars := by have := congrArg PS.vars h; simpa using this.symm
        simpa [e] using this
      · cases h
  · intro c hc name n hk
    rcases inCode_emit hc with rfl | hc
    · cases hk
    · exact hu c hc name n hk

/-- **C26.** For every program accepted by the compiler whose variables fit in the segment (asserted in
`/repo/src/interp/clearmem.asm:76`), with the map of variables read in any order:
every variable has its own place in the segment, with the size of its type; places of different variables do not overlap
and are within the segment; and each use of a variable in the code carries the number from which the place of that variable
is found. -/
theorem C26_storage (env : Parse.Env) (src : Str) (s : PS) (h : compile (fpStart env) src = .ok s)
    (l : List (Str × Nat)) (hl : l.Perm s.vars) (hs : heapSize l < 512) :
    (∀ c, InCode s c → ∀ name n, c.k = .varn name n → ∃ off size x, (name, off, size) ∈ heap l ∧ off = 2 * n ∧
      makevar off = n ∧ lookup name s.vars = some x ∧ size = if x % 256 = VT.FLOAT.val then 6 else 2) ∧
    (∀ a ∈ heap l, ∀ b ∈ heap l, a.1 = b.1 → a = b) ∧
    (∀ a ∈ heap l, ∀ b ∈ heap l, a.1 ≠ b.1 → a.2.1 + a.2.2 ≤ b.2.1 ∨ b.2.1 + b.2.2 ≤ a.2.1) ∧
    (∀ a ∈ heap l, a.2.1 + a.2.2 ≤ heapSize l) := by
  obtain ⟨hv, hu⟩ := fp_vars_final env src s h
  obtain ⟨hsz, hheap⟩ := heap_users hv
  have hH : heap l = (users s.vars).map fun e => (e.2, 2 * (e.1 / 256), if e.1 % 256 = VT.FLOAT.val then 6 else 2) := by
    rw [heap, vlist_eq hv hl, hheap]
  have hS : heapSize l = 2 * s.vars.length := by
    rw [heapSize, heap, heapFrom_sizes, vlist_eq hv hl, hsz]
  obtain ⟨hw1, hw2⟩ := users_words hv
  have hsize : ∀ k : Nat, (if k % 256 = VT.FLOAT.val then 6 else 2) = 2 * words k := by
    intro k; unfold words; split <;> rfl
  rw [hH, hS]
  rw [hS] at hs
  simp only [List.mem_map, forall_exists_index, and_imp, forall_apply_eq_imp_iff₂]
  refine ⟨?_, ?_, ?_, ?_⟩
  · intro c hc name n hk
    obtain ⟨hi, x, hx, rfl⟩ := hu c hc name n hk
    have hm : (x, name) ∈ users s.vars := by
      simp only [users, List.mem_map, List.mem_filter]
      exact ⟨(name, x), ⟨mem_of_lookup hx, ident_isUser hi⟩, rfl⟩
    refine ⟨_, _, x, ⟨(x, name), hm, rfl⟩, rfl, ?_, hx, rfl⟩
    have := (users_mem hv _ hm).2.1
    simp only [makevar]
    simp only at this
    omega
  · intro a ha b hb hab
    have h1 := (users_mem hv a ha).2.2.2.2
    have h2 := (users_mem hv b hb).2.2.2.2
    rw [hab, h2] at h1
    injection h1 with h1
    rw [hab, h1]
  · intro a ha b hb hab
    simp only [hsize]
    rcases pairwise_or hw2 ha hb (fun h => hab (by rw [h])) with h | h
    · left; omega
    · right; omega
  · intro a ha
    simp only [hsize]
    have := hw1 a ha
    omega

/-- The variables after a compilation, to look at examples. -/
def varsOf : CRes → Option (List (Str × Nat))
  | .ok s => some s.vars
  | .err _ => none

/-- A program that meets the hypotheses: `B%` takes six bytes, `A` and `C$` follow; the order of the map is that of the names. -/
example : varsOf (compile (fpStart noEnv) (ofS "DIM B%\nA=2\nC$=\"X\"\n")) =
      some [(ofS "B", 7), (fakeName 1, 0), (fakeName 2, 0), (ofS "A", 256 * 3 + 1), (ofS "C", 256 * 4 + 6)] ∧
    heap [(fakeName 1, 0), (fakeName 2, 0), (ofS "A", 256 * 3 + 1), (ofS "B", 7), (ofS "C", 256 * 4 + 6)] =
      [(ofS "B", 0, 6), (ofS "A", 6, 2), (ofS "C", 8, 2)] := by
  decide +kernel

/-- **C26**, the address: on the machine, `VAR_ADDR` followed by the byte that the assembler writes for a use of a variable
gives the address of that variable: the start of the segment (a page) plus its offset. -/
theorem C26_address (m : Rt.M) (n : Nat) (hn : n < 256) (hp : 256 * m.zp.vpage.toNat + 2 * n < 65536)
    (hb : (m.ram (Rt.word m.zp.cptr m.zp.cptrh)).toNat = makevar (2 * n)) :
    ∃ m', Rt.Halts Rt.varAddrCode Rt.varAddrCode.EXE_VAR_ADDR m m' ∧ m'.ax.toNat = 256 * m.zp.vpage.toNat + 2 * n ∧
      Rt.word m'.zp.cptr m'.zp.cptrh = Rt.word m.zp.cptr m.zp.cptrh + 1 ∧ Rt.Kept m m' m.zp.sptr := by
  obtain ⟨m', h1, h2, h3, -, h4⟩ := Rt.varAddr_correct m
  refine ⟨m', h1, ?_, h3, h4⟩
  have : makevar (2 * n) = n := by simp only [makevar]; omega
  rw [h2, hb, this]
  omega

end FB.Out
