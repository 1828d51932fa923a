import Verif.Rt.Alloc
import Verif.Props.C12
/-!
# C39: the memory areas of the native compiler

The compiler that runs on the Atari keeps five areas one after another: the code of the program, the buffer for the code of the current
line, the names of the variables, the names of the labels and the addresses of the labels (`alloc.asm:30-58`).  The specification is five
separate lists of bytes; growing one of them does not change the others.
-/
namespace FB
open Rt

/-- The bytes `l` are in memory from the address `a` on. -/
def BytesAt (r : W → B) (a : Nat) (l : List B) : Prop := ∀ (i : Nat) (h : i < l.length), r (BitVec.ofNat 16 (a + i)) = l[i]

/-- The five areas, contiguous from `base` on; each pointer is the end of its area. -/
structure Lays (r : W → B) (base : Nat) (A : List (List B)) : Prop where
  five : A.length = 5
  low : 0x300 ≤ base
  high : base + A.flatten.length ≤ 65280
  ptrs : ∀ j ≤ 4, (ptr r j).toNat = base + (A.take (j + 1)).flatten.length
  bytes : BytesAt r base A.flatten

/-- Area `i` grows by the bytes `new` at its end. -/
def grow (A : List (List B)) (i : Nat) (new : List B) : List (List B) := A.take i ++ (A.getD i [] ++ new) :: A.drop (i + 1)

theorem take_flat (A : List (List B)) (i : Nat) (h : i < A.length) :
    (A.take (i + 1)).flatten = (A.take i).flatten ++ A.getD i [] := by
  rw [List.take_add_one, List.flatten_append, List.getD_eq_getElem?_getD, List.getElem?_eq_getElem h]
  simp

theorem split_flat (A : List (List B)) (i : Nat) : A.flatten = (A.take i).flatten ++ (A.drop i).flatten := by
  rw [← List.flatten_append, List.take_append_drop]

theorem take_le (A : List (List B)) (i j : Nat) (h : i ≤ j) : (A.take i).flatten.length ≤ (A.take j).flatten.length := by
  have : A.take i = (A.take j).take i := by rw [List.take_take]; congr 1; omega
  rw [this, split_flat (A.take j) i, List.length_append]; omega

theorem grow_take (A : List (List B)) (i j : Nat) (new : List B) (h : i < A.length) :
    ((grow A i new).take (j + 1)).flatten.length = (A.take (j + 1)).flatten.length + if i ≤ j then new.length else 0 := by
  unfold grow
  rw [List.take_append]
  by_cases hij : i ≤ j
  · rw [if_pos hij, List.take_of_length_le (by simp; omega)]
    have e1 : j + 1 - (A.take i).length = (j - i) + 1 := by rw [List.length_take]; omega
    rw [e1, List.take_succ_cons]
    have e2 : A.take (j + 1) = A.take (i + 1) ++ (A.drop (i + 1)).take (j - i) := by
      rw [← List.take_add]; congr 1; omega
    rw [e2, List.flatten_append, List.flatten_append, take_flat A i h]
    simp only [List.flatten_cons, List.length_append]
    omega
  · rw [if_neg hij]
    have e1 : j + 1 - (A.take i).length = 0 := by rw [List.length_take]; omega
    rw [e1, List.take_zero, List.append_nil, List.take_take, Nat.add_zero]
    congr 3; omega

theorem grow_flat (A : List (List B)) (i : Nat) (new : List B) (h : i < A.length) :
    (grow A i new).flatten = (A.take (i + 1)).flatten ++ (new ++ (A.drop (i + 1)).flatten) := by
  rw [grow, List.flatten_append, List.flatten_cons, take_flat A i h]
  simp only [List.append_assoc]

theorem Lays.ordered {r : W → B} {base : Nat} {A : List (List B)} (h : Lays r base A) : Ordered r := by
  refine ⟨?_, ?_, ?_⟩
  · rw [h.ptrs 0 (by omega)]; have := h.low; omega
  · intro i hi
    rw [h.ptrs i (by omega), h.ptrs (i + 1) (by omega)]
    have := take_le A (i + 1) (i + 1 + 1) (by omega)
    omega
  · rw [h.ptrs 4 (by omega), List.take_of_length_le (by rw [h.five])]; exact h.high

theorem Lays.top {r : W → B} {base : Nat} {A : List (List B)} (h : Lays r base A) : (ptr r 4).toNat = base + A.flatten.length := by
  rw [h.ptrs 4 (by omega), List.take_of_length_le (by rw [h.five])]

/-- The new bytes hold what was in memory there: the start of the area that follows. -/
def NewBytes (A : List (List B)) (i : Nat) (new : List B) : Prop :=
  ∀ (k : Nat) (h : k < new.length) (h' : k < (A.drop (i + 1)).flatten.length), new[k] = (A.drop (i + 1)).flatten[k]

theorem notPtr_of_ge {a : Nat} (h : 0x300 ≤ a) (h' : a < 65536) : NotPtr (BitVec.ofNat 16 a) ∧ BitVec.ofNat 16 a ≠ saveX := by
  constructor
  · intro b hb e
    have := congrArg BitVec.toNat e
    rw [BitVec.toNat_ofNat, BitVec.toNat_add, BitVec.toNat_ofNat] at this
    have : memStart.toNat = 162 := rfl
    omega
  · intro e
    have := congrArg BitVec.toNat e
    rw [BitVec.toNat_ofNat] at this
    have : saveX.toNat = 172 := rfl
    omega

/-- Growing in memory is growing the list. -/
theorem lays_grow {r r' : W → B} {base : Nat} {A : List (List B)} {i n : Nat} (h : Lays r base A) (hi : i ≤ 4) (hn : n < 256)
    (hg : Grown r r' i n) (hh : base + A.flatten.length + n ≤ 65280) :
    ∃ new, new.length = n ∧ NewBytes A i new ∧ Lays r' base (grow A i new) := by
  have hf := h.five; have hlow := h.low
  have hp := h.ptrs i hi
  have h4 := h.top
  have hs := split_flat A (i + 1)
  have hsl : A.flatten.length = (A.take (i + 1)).flatten.length + (A.drop (i + 1)).flatten.length := by rw [hs, List.length_append]
  let new : List B := (List.range n).map fun k => r (BitVec.ofNat 16 ((ptr r i).toNat + k))
  have hnl : new.length = n := by simp [new]
  have hflat := grow_flat A i new (by omega)
  refine ⟨new, hnl, ?_, ?_, hlow, ?_, ?_, ?_⟩
  · intro k hk hk'
    simp only [new, List.getElem_map, List.getElem_range]
    rw [hp, Nat.add_assoc, h.bytes _ (by omega)]
    simp only [hs]
    rw [List.getElem_append_right (by omega)]
    congr 1; omega
  · simp only [grow, List.length_append, List.length_take, List.length_cons, List.length_drop]; omega
  · rw [hflat]; simp only [List.length_append, hnl]; omega
  · intro j hj
    rw [hg.ptrs j hj, h.ptrs j hj, grow_take A i j new (by omega), hnl]; omega
  · intro k hk
    simp only [hflat] at hk ⊢
    simp only [List.length_append, hnl] at hk
    obtain ⟨q1, q2⟩ := notPtr_of_ge (a := base + k) (by omega) (by omega)
    by_cases h1 : k < (A.take (i + 1)).flatten.length
    · rw [List.getElem_append_left h1, hg.rest _ q1 q2 (by left; rw [BitVec.toNat_ofNat]; omega), h.bytes _ (by omega)]
      simp only [hs]
      rw [List.getElem_append_left h1]
    · rw [List.getElem_append_right (by omega)]
      by_cases h2 : k - (A.take (i + 1)).flatten.length < n
      · rw [List.getElem_append_left (by omega), hg.rest _ q1 q2 (by left; rw [BitVec.toNat_ofNat]; omega)]
        simp only [new, List.getElem_map, List.getElem_range]
        congr 2; omega
      · rw [List.getElem_append_right (by omega)]
        have := hg.moved (base + k - n) (by omega) (by omega)
        rw [show base + k - n + n = base + k by omega] at this
        rw [this, show base + k - n = base + (k - n) by omega, h.bytes _ (by omega)]
        simp only [hs, hnl]
        rw [List.getElem_append_right (by omega)]
        congr 1; omega

/-- The end of the memory is below the last page (on an Atari it is below $C000). -/
def TopOk (r : W → B) : Prop := (memTop r).toNat ≤ 65280

/-- A call of `alloc_area_8` for area `i`, with the size in `A` and twice the number of the area in `X`: if the memory is enough the area has
`A` more bytes, and the other areas are as before; memory outside the areas is unchanged but for the pointers and `save_x`. -/
theorem C39_grow (m : M) (k : Code) (st : List Slot) (base : Nat) (A : List (List B)) (i : Nat) (hi : i ≤ 4)
    (hx : m.x = BitVec.ofNat 8 (2 * i)) (hk : m.stk = .ret k :: st) (hm : m.zp.mins = 0x88) (ht : TopOk m.ram) (h : Lays m.ram base A)
    (hf : base + A.flatten.length + m.a.toNat < (memTop m.ram).toNat) :
    ∃ m' new, Reach memCode memCode.alloc_area_8 m k m' ∧ m'.stk = st ∧ m'.zp.mins = 0x88 ∧ new.length = m.a.toNat ∧ NewBytes A i new ∧
      Lays m'.ram base (grow A i new) ∧
      ∀ a : W, NotPtr a → a ≠ saveX → a.toNat < base ∨ base + (grow A i new).flatten.length ≤ a.toNat → m'.ram a = m.ram a := by
  have hl := h.five; have ht' : (memTop m.ram).toNat ≤ 65280 := ht
  obtain ⟨m', r1, s1, _, _, z1, g1⟩ := alloc_area_correct m i k st hi hx hk hm h.ordered (by rw [h.top]; exact hf)
  obtain ⟨new, n1, n2, n3⟩ := lays_grow h hi m.a.isLt g1 (by omega)
  refine ⟨m', new, r1, s1, z1.1.mins.trans hm, n1, n2, n3, ?_⟩
  intro a ha hs hr
  refine g1.rest a ha hs ?_
  rw [h.ptrs i hi, h.top]
  rw [grow_flat A i new (by omega)] at hr
  have := congrArg List.length (split_flat A (i + 1))
  simp only [List.length_append] at hr this
  omega

/-- When the memory is not enough the compiler stops with the memory error. -/
theorem C39_full (m : M) (base : Nat) (A : List (List B)) (h : Lays m.ram base A)
    (hf : (memTop m.ram).toNat ≤ base + A.flatten.length + m.a.toNat) : Fails memCode memCode.alloc_area_8 m :=
  aa_fails m h.ordered.hi (by rw [h.top]; exact hf)

/-! ## Histories -/

/-- Registers and flags that are not arguments of `alloc_area_8`, and the place it was called from. -/
structure Others where
  y : B
  c : Bool
  z : Bool
  n : Bool
  v : Bool
  k : Code

/-- What the compiler does to the areas: grow one, or store a byte in one. -/
inductive Op
  | grow (i : Nat) (n : B) (o : Others)
  | store (i : Nat) (off : Nat) (b : B)

/-- The areas as separate lists. -/
inductive Spec : List (List B) → Op → List (List B) → Prop
  | grow (A : List (List B)) (i : Nat) (n : B) (o : Others) (new : List B) :
      i ≤ 4 → new.length = n.toNat → NewBytes A i new → Spec A (.grow i n o) (FB.grow A i new)
  | store (A : List (List B)) (i off : Nat) (b : B) (h : i < A.length) : off < A[i].length → Spec A (.store i off b) (A.set i (A[i].set off b))

/-- The address where an area starts: where the previous one ends. -/
def startOf (r : W → B) (base i : Nat) : Nat := if i = 0 then base else (ptr r (i - 1)).toNat

/-- The machine at a call of `alloc_area_8`. -/
def called (m : M) (i : Nat) (n : B) (o : Others) : M :=
  { m with a := n, x := BitVec.ofNat 8 (2 * i), y := o.y, c := o.c, z := o.z, n := o.n, v := o.v, stk := .ret o.k :: m.stk }

/-- The same on the machine: a call of `alloc_area_8`, or a store at the address that the pointers give. -/
inductive Runs (base : Nat) : M → Op → M → Prop
  | grow (m : M) (i : Nat) (n : B) (o : Others) (m' : M) :
      Reach memCode memCode.alloc_area_8 (called m i n o) o.k m' → m'.stk = m.stk → Runs base m (.grow i n o) m'
  | store (m : M) (i off : Nat) (b : B) : Runs base m (.store i off b) { m with ram := upd m.ram (BitVec.ofNat 16 (startOf m.ram base i + off)) b }

/-- Several steps. -/
inductive Steps {α β : Type} (R : α → β → α → Prop) : α → List β → α → Prop
  | nil (a : α) : Steps R a [] a
  | cons {a b c : α} {o : β} {l : List β} : R a o b → Steps R b l c → Steps R a (o :: l) c

/-- Each operation names an existing area, and stores are inside the area; `len` has the sizes of the areas. -/
def Valid : (Nat → Nat) → List Op → Prop
  | _, [] => True
  | len, .grow i n _ :: l => i ≤ 4 ∧ Valid (fun j => len j + if j = i then n.toNat else 0) l
  | len, .store i off _ :: l => i ≤ 4 ∧ off < len i ∧ Valid len l

/-- Bytes asked for. -/
def wanted : List Op → Nat
  | [] => 0
  | .grow _ n _ :: l => n.toNat + wanted l
  | .store _ _ _ :: l => wanted l

/-- Sizes of the areas. -/
def lens (A : List (List B)) (j : Nat) : Nat := (A.getD j []).length

theorem lens_grow (A : List (List B)) (i : Nat) (new : List B) (h : i < A.length) :
    lens (grow A i new) = fun j => lens A j + if j = i then new.length else 0 := by
  funext j
  have ht : (A.take i).length = i := by rw [List.length_take]; omega
  simp only [lens, grow, List.getD_eq_getElem?_getD, List.getElem?_append, ht]
  by_cases h1 : j < i
  · rw [if_pos h1, if_neg (by omega), List.getElem?_take, if_pos h1]; rfl
  · rw [if_neg h1]
    by_cases h2 : j = i
    · subst h2; simp
    · obtain ⟨d, rfl⟩ : ∃ d, j = i + 1 + d := ⟨j - i - 1, by omega⟩
      rw [if_neg h2, show i + 1 + d - i = d + 1 by omega, List.getElem?_cons_succ, List.getElem?_drop]; rfl

theorem set_flat (A : List (List B)) (i off : Nat) (b : B) (h : i < A.length) (ho : off < A[i].length) :
    (A.set i (A[i].set off b)).flatten = A.flatten.set ((A.take i).flatten.length + off) b := by
  induction A generalizing i with
  | nil => exact absurd h (by simp)
  | cons a A ih =>
    cases i with
    | zero =>
      simp only [List.getElem_cons_zero] at ho
      simp [List.set_append, ho]
    | succ i =>
      simp only [List.length_cons] at h
      simp only [List.getElem_cons_succ] at ho ⊢
      simp only [List.set_cons_succ, List.flatten_cons, List.take_succ_cons, List.length_append]
      rw [ih i (by omega) ho, List.set_append]
      rw [if_neg (by omega)]
      congr 2; omega

theorem set_take (A : List (List B)) (i j off : Nat) (b : B) (h : i < A.length) :
    ((A.set i (A[i].set off b)).take j).flatten.length = (A.take j).flatten.length := by
  induction A generalizing i j with
  | nil => exact absurd h (by simp)
  | cons a A ih =>
    cases j with
    | zero => rfl
    | succ j =>
      cases i with
      | zero => simp
      | succ i =>
        simp only [List.length_cons] at h
        simp only [List.getElem_cons_succ, List.set_cons_succ, List.take_succ_cons, List.flatten_cons, List.length_append]
        rw [ih i j (by omega)]

/-- Storing in memory is storing in the list. -/
theorem lays_store {r : W → B} {base : Nat} {A : List (List B)} (h : Lays r base A) (i off : Nat) (b : B) (hi : i < A.length)
    (ho : off < A[i].length) : Lays (upd r (BitVec.ofNat 16 (startOf r base i + off)) b) base (A.set i (A[i].set off b)) := by
  have hf := h.five; have hl := h.low; have hh := h.high
  have hs : startOf r base i = base + (A.take i).flatten.length := by
    unfold startOf
    split
    · rename_i e; subst e; simp
    · rw [h.ptrs (i - 1) (by omega)]; congr 4; omega
  have hlt : (A.take i).flatten.length + off < A.flatten.length := by
    have e1 := congrArg List.length (split_flat A (i + 1))
    have e2 := congrArg List.length (take_flat A i hi)
    rw [List.getD_eq_getElem?_getD, List.getElem?_eq_getElem hi] at e2
    simp only [List.length_append, Option.getD_some] at e1 e2
    omega
  have hfl := set_flat A i off b hi ho
  rw [hs]
  have hnp : ∀ c < 10, upd r (BitVec.ofNat 16 (base + (A.take i).flatten.length + off)) b (memStart + BitVec.ofNat 16 c) = r (memStart + BitVec.ofNat 16 c) := by
    intro c hc
    exact upd_ne (Ne.symm ((notPtr_of_ge (by omega) (by omega)).1 c hc))
  refine ⟨by rw [List.length_set]; exact hf, hl, by rw [hfl, List.length_set]; exact hh, ?_, ?_⟩
  · intro j hj
    rw [set_take, ptr, hnp _ (by omega), hnp _ (by omega)]
    exact h.ptrs j hj
  · intro k hk
    simp only [hfl, List.length_set] at hk ⊢
    rw [List.getElem_set]
    by_cases e : (A.take i).flatten.length + off = k
    · rw [if_pos e, ← e, ← Nat.add_assoc, upd_at]
    · rw [if_neg e, upd_ne, h.bytes k hk]
      intro e'
      have := congrArg BitVec.toNat e'
      rw [BitVec.toNat_ofNat, BitVec.toNat_ofNat] at this
      omega

/-- All the histories: as long as the memory is enough, the areas in memory hold what the separate lists hold.  -/
theorem C39_history (base : Nat) (ops : List Op) : ∀ (m : M) (A : List (List B)), m.zp.mins = 0x88 → TopOk m.ram → Lays m.ram base A →
    Valid (lens A) ops → base + A.flatten.length + wanted ops < (memTop m.ram).toNat →
    ∃ m' A', Steps (Runs base) m ops m' ∧ Steps Spec A ops A' ∧ Lays m'.ram base A' ∧ m'.stk = m.stk ∧ m'.zp.mins = 0x88 ∧
      memTop m'.ram = memTop m.ram ∧ A'.flatten.length = A.flatten.length + wanted ops := by
  induction ops with
  | nil =>
    intro m A hm ht h _ _
    exact ⟨m, A, .nil m, .nil A, h, rfl, hm, rfl, rfl⟩
  | cons op ops ih =>
    intro m A hm ht h hv hw
    have hf := h.five; have hl := h.low; have ht' : (memTop m.ram).toNat ≤ 65280 := ht
    have hh := h.high
    have tk : ∀ r' : W → B, (∀ a : W, NotPtr a → a ≠ saveX → a.toNat < base → r' a = m.ram a) → memTop r' = memTop m.ram := by
      intro r' q
      have np : ∀ a : W, 0x200 ≤ a.toNat → NotPtr a ∧ a ≠ saveX := by
        intro a ha
        constructor
        · intro b hb e
          have := congrArg BitVec.toNat e
          rw [BitVec.toNat_add, BitVec.toNat_ofNat] at this
          have : memStart.toNat = 162 := rfl
          omega
        · intro e
          have := congrArg BitVec.toNat e
          have : saveX.toNat = 172 := rfl
          omega
      have e1 : (0x2E5 : W).toNat = 741 := rfl
      have e2 : (0x2E6 : W).toNat = 742 := rfl
      rw [memTop, memTop, q 0x2E5 (np _ (by omega)).1 (np _ (by omega)).2 (by omega), q 0x2E6 (np _ (by omega)).1 (np _ (by omega)).2 (by omega)]
    cases op with
    | grow i n o =>
      obtain ⟨hi, hv⟩ := hv
      simp only [wanted] at hw
      obtain ⟨m1, new, r1, s1, z1, n1, n2, l1, o1⟩ := C39_grow (called m i n o) o.k m.stk base A i hi rfl rfl hm ht h (by
        show base + A.flatten.length + n.toNat < (memTop m.ram).toNat
        omega)
      have n1 : new.length = n.toNat := n1
      have t1 := tk m1.ram (fun a ha hs hr => o1 a ha hs (.inl hr))
      have g1 : (grow A i new).flatten.length = A.flatten.length + n.toNat := by
        have e := congrArg List.length (split_flat A (i + 1))
        rw [grow_flat A i new (by omega)]
        simp only [List.length_append] at e ⊢
        omega
      obtain ⟨m2, A2, r2, p2, l2, s2, z2, t2, w2⟩ := ih m1 (grow A i new) z1 (by unfold TopOk; rw [t1]; exact ht) l1
        (by rw [lens_grow A i new (by omega), n1]; exact hv) (by rw [t1, g1]; omega)
      exact ⟨m2, A2, .cons (.grow m i n o m1 r1 s1) r2, .cons (.grow A i n o new hi n1 n2) p2, l2, s2.trans s1, z2, t2.trans t1, by
        rw [w2, g1, wanted]; omega⟩
    | store i off b =>
      obtain ⟨hi, ho, hv⟩ := hv
      have hi' : i < A.length := by omega
      have ho' : off < A[i].length := by
        rw [lens, List.getD_eq_getElem?_getD, List.getElem?_eq_getElem hi'] at ho; exact ho
      have l1 := lays_store h i off b hi' ho'
      have fl : (A.set i (A[i].set off b)).flatten.length = A.flatten.length := by rw [set_flat A i off b hi' ho', List.length_set]
      have le : lens (A.set i (A[i].set off b)) = lens A := by
        funext j
        simp only [lens, List.getD_eq_getElem?_getD, List.getElem?_set]
        by_cases e : i = j
        · subst e; simp [hi']
        · rw [if_neg e]
      have t1 := tk (upd m.ram (BitVec.ofNat 16 (startOf m.ram base i + off)) b) (by
        intro a _ _ hr
        refine upd_ne ?_
        intro e
        have hs : base ≤ startOf m.ram base i ∧ startOf m.ram base i + off < 65536 := by
          have hlt := set_flat A i off b hi' ho'
          unfold startOf
          have e1 := congrArg List.length (split_flat A (i + 1))
          have e2 := congrArg List.length (take_flat A i hi')
          rw [List.getD_eq_getElem?_getD, List.getElem?_eq_getElem hi'] at e2
          simp only [List.length_append, Option.getD_some] at e1 e2
          split
          · omega
          · rw [h.ptrs (i - 1) (by omega), show i - 1 + 1 = i by omega]; omega
        have := congrArg BitVec.toNat e
        rw [BitVec.toNat_ofNat] at this
        omega)
      obtain ⟨m2, A2, r2, p2, l2, s2, z2, t2, w2⟩ := ih { m with ram := upd m.ram (BitVec.ofNat 16 (startOf m.ram base i + off)) b } _ hm
        (by show (memTop (upd _ _ _)).toNat ≤ _; rw [t1]; exact ht) l1 (by rw [le]; exact hv)
        (by show _ < (memTop (upd _ _ _)).toNat; rw [t1, fl]; exact hw)
      exact ⟨m2, A2, .cons (.store m i off b) r2, .cons (.store A i off b hi' ho') p2, l2, s2, z2, t2.trans t1, by rw [w2, fl, wanted]⟩

/-- A history in which the last allocation does not fit: everything before it was done, and that call stops with the memory error. -/
theorem C39_history_full (base : Nat) (ops : List Op) (m : M) (A : List (List B)) (i : Nat) (n : B) (o : Others) (hm : m.zp.mins = 0x88)
    (ht : TopOk m.ram) (h : Lays m.ram base A) (hv : Valid (lens A) ops) (hw : base + A.flatten.length + wanted ops < (memTop m.ram).toNat)
    (hf : (memTop m.ram).toNat ≤ base + A.flatten.length + wanted ops + n.toNat) :
    ∃ m' A', Steps (Runs base) m ops m' ∧ Steps Spec A ops A' ∧ Lays m'.ram base A' ∧ Fails memCode memCode.alloc_area_8 (called m' i n o) := by
  obtain ⟨m', A', r, p, l, _, _, t, w⟩ := C39_history base ops m A hm ht h hv hw
  refine ⟨m', A', r, p, l, C39_full (called m' i n o) base A' l ?_⟩
  show (memTop m'.ram).toNat ≤ base + A'.flatten.length + n.toNat
  rw [t, w]; omega

/-- At the end of a line the code in the buffer (`opos` bytes) becomes part of the program; the buffer has the same bytes again. -/
theorem C39_line (m : M) (k : Code) (st : List Slot) (base : Nat) (code buf vars labels laddr : List B) (hk : m.stk = .ret k :: st)
    (hm : m.zp.mins = 0x88) (ht : TopOk m.ram) (h : Lays m.ram base [code, buf, vars, labels, laddr]) (ho : (m.ram oPos).toNat ≤ buf.length)
    (hf : base + [code, buf, vars, labels, laddr].flatten.length + (m.ram oPos).toNat < (memTop m.ram).toNat) :
    ∃ m', Reach memCode memCode.alloc_prog m k m' ∧ m'.stk = st ∧ m'.ram oPos = 0 ∧
      Lays m'.ram base [code ++ buf.take (m.ram oPos).toNat, buf, vars, labels, laddr] := by
  obtain ⟨z, n, r1⟩ := alloc_prog_start m
  have np : ∀ b < 10, memStart + BitVec.ofNat 16 b ≠ oPos := by
    intro b hb e
    have := congrArg BitVec.toNat e
    rw [BitVec.toNat_add, BitVec.toNat_ofNat] at this
    have : memStart.toNat = 162 := rfl
    have : oPos.toNat = 173 := rfl
    omega
  have l0 : Lays (upd m.ram oPos 0) base [code, buf, vars, labels, laddr] := by
    refine ⟨h.five, h.low, h.high, ?_, ?_⟩
    · intro j hj
      rw [ptr, upd_ne (np _ (by omega)), upd_ne (np _ (by omega))]; exact h.ptrs j hj
    · intro i hi
      rw [upd_ne, h.bytes i hi]
      intro e
      have := congrArg BitVec.toNat e
      rw [BitVec.toNat_ofNat] at this
      have : oPos.toNat = 173 := rfl
      have := h.low; have := h.high
      omega
  have t0 : memTop (upd m.ram oPos 0) = memTop m.ram := by
    rw [memTop, memTop, upd_ne (by decide), upd_ne (by decide)]
  obtain ⟨m1, new, r2, s2, _, n1, n2, l1, o1⟩ := C39_grow { m with a := m.ram oPos, x := 0, z := z, n := n, ram := upd m.ram oPos 0 } k st base
    [code, buf, vars, labels, laddr] 0 (by omega) rfl hk hm (by show (memTop (upd _ _ _)).toNat ≤ _; rw [t0]; exact ht) l0
    (by show _ < (memTop (upd _ _ _)).toNat; rw [t0]; exact hf)
  have n1 : new.length = (m.ram oPos).toNat := n1
  have en : new = buf.take (m.ram oPos).toNat := by
    apply List.ext_getElem
    · rw [n1, List.length_take]; omega
    · intro k hk hk'
      have := n2 k hk (by simp; omega)
      rw [this, List.getElem_take]
      simp only [List.drop_succ_cons, List.drop_zero, List.flatten_cons]
      rw [List.getElem_append_left]
  refine ⟨m1, r1.trans r2, s2, ?_, ?_⟩
  · have : oPos.toNat = 173 := rfl
    have := h.low
    rw [o1 oPos (fun b hb => Ne.symm (np b hb)) (by decide) (.inl (by omega))]
    exact upd_at m.ram oPos 0
  · rw [← en]; exact l1

/-- The label addresses grow at their end. -/
theorem C39_laddr (m : M) (k : Code) (st : List Slot) (base : Nat) (A : List (List B)) (hk : m.stk = .ret k :: st) (hm : m.zp.mins = 0x88)
    (ht : TopOk m.ram) (h : Lays m.ram base A) (hf : base + A.flatten.length + m.a.toNat < (memTop m.ram).toNat) :
    ∃ m' new, Reach memCode memCode.alloc_laddr m k m' ∧ m'.stk = st ∧ new.length = m.a.toNat ∧ Lays m'.ram base (grow A 4 new) := by
  obtain ⟨z, n, r1⟩ := alloc_laddr_start m
  obtain ⟨m1, new, r2, s2, _, n1, _, l1, _⟩ := C39_grow { m with x := 8, z := z, n := n } k st base A 4 (by omega) rfl hk hm ht h hf
  exact ⟨m1, new, r1.trans r2, s2, n1, l1⟩

/-- At the start, with the address in `A` and `Y`, there are 256 bytes for the buffer and the other areas are empty. -/
theorem C39_init (m : M) (k : Code) (st : List Slot) (hk : m.stk = .ret k :: st) (hl : 0x300 ≤ (word m.a m.y).toNat)
    (hh : (word m.a m.y).toNat + 256 ≤ 65280) :
    ∃ m' buf, Reach memCode memCode.parser_alloc_init m k m' ∧ m'.stk = st ∧ m'.zp = m.zp ∧ buf.length = 256 ∧
      Lays m'.ram (word m.a m.y).toNat [[], buf, [], [], []] := by
  obtain ⟨m', r, s, _, _, z, _, p0, pj, o⟩ := alloc_init m k st hk
  have hw : (word m.a (m.y + 1)).toNat = (word m.a m.y).toNat + 256 := by
    have := m.y.isLt; have := m.a.isLt
    rw [word_toNat] at hh
    rw [word_toNat, word_toNat, BitVec.toNat_add]
    show m.a.toNat + 256 * ((m.y.toNat + 1) % 2 ^ 8) = _
    omega
  refine ⟨m', (List.range 256).map fun i => m'.ram (BitVec.ofNat 16 ((word m.a m.y).toNat + i)), r, s, z, by simp, rfl, hl, by simpa using hh, ?_, ?_⟩
  · intro j hj
    rcases (by omega : j = 0 ∨ j = 1 ∨ j = 2 ∨ j = 3 ∨ j = 4) with rfl | rfl | rfl | rfl | rfl
    · rw [p0]; simp
    all_goals rw [pj _ (by omega) (by omega), hw]; simp
  · intro i hi
    simp only [List.flatten_cons, List.flatten_nil, List.append_nil, List.nil_append, List.getElem_map, List.getElem_range]

/-! ## Examples -/

/-- Areas at $4000: two bytes of code, a buffer of three bytes, one variable `A`, no label names, one label address; `MEMTOP` is at $BC1F. -/
def exAreas : List (List B) := [[1, 2], [3, 4, 5], [0xC1, 0], [], [7, 8]]
def exAlloc : W → B := fun w =>
  match w.toNat with
  | 0x4000 => 1 | 0x4001 => 2 | 0x4002 => 3 | 0x4003 => 4 | 0x4004 => 5 | 0x4005 => 0xC1 | 0x4006 => 0 | 0x4007 => 7 | 0x4008 => 8
  | 0xA2 => 2 | 0xA3 => 0x40 | 0xA4 => 5 | 0xA5 => 0x40 | 0xA6 => 7 | 0xA7 => 0x40 | 0xA8 => 7 | 0xA9 => 0x40 | 0xAA => 9 | 0xAB => 0x40
  | 0xAD => 2 | 0x2E5 => 0x1F | 0x2E6 => 0xBC
  | _ => 0x55

theorem exLays : Lays exAlloc 0x4000 exAreas := by
  refine ⟨rfl, by decide, by decide, ?_, ?_⟩
  · intro j hj
    rcases (by omega : j = 0 ∨ j = 1 ∨ j = 2 ∨ j = 3 ∨ j = 4) with rfl | rfl | rfl | rfl | rfl <;> decide
  · intro i hi
    have : i < 9 := hi
    rcases (by omega : i = 0 ∨ i = 1 ∨ i = 2 ∨ i = 3 ∨ i = 4 ∨ i = 5 ∨ i = 6 ∨ i = 7 ∨ i = 8) with
      rfl | rfl | rfl | rfl | rfl | rfl | rfl | rfl | rfl <;> rfl

def exM (a : W) : M := { exMem 0 0 a exAlloc with stk := [.ret []] }

/-- A new variable `B`: two more bytes of names. -/
example : ∃ m' new, Reach memCode memCode.alloc_area_8 (exM 0x402) [] m' ∧ new.length = 2 ∧
    Lays m'.ram 0x4000 [[1, 2], [3, 4, 5], [0xC1, 0] ++ new, [], [7, 8]] := by
  obtain ⟨m', new, r, _, _, n, _, l, _⟩ := C39_grow (exM 0x402) [] [] 0x4000 exAreas 2 (by omega) rfl rfl rfl (by unfold TopOk; decide) exLays (by decide)
  exact ⟨m', new, r, n, l⟩
/-- Not enough memory: `MEMTOP` at $4010. -/
def exSmall : W → B := fun a => if a = 0x2E5 then 0x10 else if a = 0x2E6 then 0x40 else exAlloc a
theorem exSmallLays : Lays exSmall 0x4000 exAreas := by
  refine ⟨rfl, by decide, by decide, ?_, ?_⟩
  · intro j hj
    rcases (by omega : j = 0 ∨ j = 1 ∨ j = 2 ∨ j = 3 ∨ j = 4) with rfl | rfl | rfl | rfl | rfl <;> decide
  · intro i hi
    have : i < 9 := hi
    rcases (by omega : i = 0 ∨ i = 1 ∨ i = 2 ∨ i = 3 ∨ i = 4 ∨ i = 5 ∨ i = 6 ∨ i = 7 ∨ i = 8) with
      rfl | rfl | rfl | rfl | rfl | rfl | rfl | rfl | rfl <;> rfl
example : Fails memCode memCode.alloc_area_8 { exM 0x407 with ram := exSmall } := C39_full _ 0x4000 exAreas exSmallLays (by decide)
/-- A history. -/
def exOthers : Others := ⟨0, false, false, false, false, []⟩
example : ∃ m' A', Steps (Runs 0x4000) (exM 0) [.grow 2 2 exOthers, .store 2 2 0xC2, .grow 0 3 exOthers, .grow 4 200 exOthers] m' ∧
    Steps Spec exAreas [.grow 2 2 exOthers, .store 2 2 0xC2, .grow 0 3 exOthers, .grow 4 200 exOthers] A' ∧ Lays m'.ram 0x4000 A' := by
  obtain ⟨m', A', r, p, l, _⟩ := C39_history 0x4000 [.grow 2 2 exOthers, .store 2 2 0xC2, .grow 0 3 exOthers, .grow 4 200 exOthers] (exM 0) exAreas rfl
    (by unfold TopOk; decide) exLays (by simp [Valid, lens, exAreas]) (by decide)
  exact ⟨m', A', r, p, l⟩
/-- The two bytes of code in the buffer. -/
example : ∃ m', Reach memCode memCode.alloc_prog (exM 0) [] m' ∧ m'.ram oPos = 0 ∧ Lays m'.ram 0x4000 [[1, 2, 3, 4], [3, 4, 5], [0xC1, 0], [], [7, 8]] := by
  obtain ⟨m', r, _, o, l⟩ := C39_line (exM 0) [] [] 0x4000 [1, 2] [3, 4, 5] [0xC1, 0] [] [7, 8] rfl rfl (by unfold TopOk; decide) exLays (by decide) (by decide)
  exact ⟨m', r, o, l⟩
example : ∃ m' new, Reach memCode memCode.alloc_laddr (exM 0x403) [] m' ∧ new.length = 3 ∧ Lays m'.ram 0x4000 [[1, 2], [3, 4, 5], [0xC1, 0], [], [7, 8] ++ new] := by
  obtain ⟨m', new, r, _, n, l⟩ := C39_laddr (exM 0x403) [] [] 0x4000 exAreas rfl rfl (by unfold TopOk; decide) exLays (by decide)
  exact ⟨m', new, r, n, l⟩
example : ∃ m' buf, Reach memCode memCode.parser_alloc_init { exM 0x34 with y := 0x40 } [] m' ∧ buf.length = 256 ∧
    Lays m'.ram 0x4034 [[], buf, [], [], []] := by
  obtain ⟨m', buf, r, _, _, n, l⟩ := C39_init { exM 0x34 with y := 0x40 } [] [] rfl (by decide) (by decide)
  exact ⟨m', buf, r, n, l⟩
example : ∃ m' A', Steps (Runs 0x4000) { exM 0 with ram := exSmall } [.grow 2 2 exOthers] m' ∧ Lays m'.ram 0x4000 A' ∧
    Fails memCode memCode.alloc_area_8 (called m' 4 5 exOthers) := by
  obtain ⟨m', A', r, _, l, f⟩ := C39_history_full 0x4000 [.grow 2 2 exOthers] { exM 0 with ram := exSmall } exAreas 4 5 exOthers rfl
    (by unfold TopOk; decide) exSmallLays (by simp [Valid]) (by decide) (by decide)
  exact ⟨m', A', r, l, f⟩

end FB
