import Verif.Rt.Alloc
import Verif.Rt.NumVal8
/-!
# The tables of names of the native compiler

The routines of `/repo/src/vars.asm` are `names` in `Verif.Rt.Mem`; here is the search of a name in a packed table.
-/
namespace FB.Rt
open Ins Opd

/-- Characters of names: digits, capital letters and the underscore (`vars.asm:57-70`). -/
def NameChar (c : B) : Prop := (48 ≤ c.toNat ∧ c.toNat ≤ 57) ∨ (65 ≤ c.toNat ∧ c.toNat ≤ 90) ∨ c.toNat = 95

/-- An entry of the table: a name and its type (`vars.asm:31-34`). -/
structure Ent where
  name : List B
  ty : B

/-- Entries that the compiler writes. -/
structure Ent.Ok (e : Ent) : Prop where
  ne : e.name ≠ []
  chars : ∀ c ∈ e.name, NameChar c
  short : e.name.length ≤ 254

/-- A name with the bit 7 of the last character set. -/
def marked : List B → List B
  | [] => []
  | [c] => [c ||| 0x80]
  | c :: d :: l => c :: marked (d :: l)

/-- The bytes of an entry (`vars.asm:31-33`). -/
def Ent.bytes (e : Ent) : List B := marked e.name ++ [e.ty]

/-- Variable slots of an entry: three for floating point (`vars.asm:131-139`). -/
def Ent.slots (e : Ent) : Nat := if 128 ≤ e.ty.toNat then 3 else 1

theorem marked_length (l : List B) : (marked l).length = l.length := by
  induction l with
  | nil => rfl
  | cons c l ih =>
    cases l with
    | nil => rfl
    | cons d l => simp only [marked, List.length_cons] at ih ⊢; omega

theorem marked_get (l : List B) (i : Nat) (h : i < (marked l).length) (h' : i < l.length) :
    (marked l)[i] = if i + 1 = l.length then l[i] ||| 0x80 else l[i] := by
  induction l generalizing i with
  | nil => exact absurd h' (by simp)
  | cons c l ih =>
    cases l with
    | nil =>
      obtain rfl : i = 0 := by simp at h'; exact h'
      simp [marked]
    | cons d l =>
      cases i with
      | zero => simp [marked]
      | succ i =>
        simp only [marked, List.getElem_cons_succ]
        simp only [marked_length, List.length_cons] at h h'
        rw [ih i (by simp only [marked_length, List.length_cons]; omega) (by simp only [List.length_cons]; omega)]
        simp only [List.length_cons]
        by_cases e : i + 1 = l.length + 1
        · rw [if_pos e, if_pos (by omega)]
        · rw [if_neg e, if_neg (by omega)]

/-! ## Comparing characters -/

theorem rol_zero (v : B) : rol8 v false = 0#8 ↔ v.toNat % 128 = 0 := by
  have := v.isLt
  constructor
  · intro h
    have := congrArg BitVec.toNat h
    simp at this; omega
  · intro h
    apply BitVec.eq_of_toNat_eq; simp; omega

theorem xor_low (a b : B) : (a ^^^ b).toNat % 128 = 0 ↔ a.toNat % 128 = b.toNat % 128 := by
  rw [BitVec.toNat_xor, show (128 : Nat) = 2 ^ 7 from rfl, Nat.xor_mod_two_pow]
  constructor
  · intro h
    have := congrArg (· ^^^ b.toNat % 2 ^ 7) h
    simpa [Nat.xor_assoc, Nat.xor_self] using this
  · intro h; rw [h, Nat.xor_self]

theorem topBit_msb (a : B) : topBit a = a.msb := by
  rw [topBit, BitVec.msb_eq_decide]

theorem topBit_xor (a b : B) : topBit (a ^^^ b) = (topBit a ^^ topBit b) := by
  rw [topBit_msb, topBit_msb, topBit_msb, BitVec.msb_xor]

theorem or80_toNat (c : B) (h : c.toNat < 128) : (c ||| 0x80).toNat = c.toNat + 128 := by
  rw [BitVec.toNat_or]
  show c.toNat ||| 2 ^ 7 = _
  have := Nat.two_pow_add_eq_or_of_lt (i := 7) (b := c.toNat) h 1
  rw [Nat.or_comm, Nat.add_comm]
  simpa using this.symm

theorem NameChar.lt {c : B} (h : NameChar c) : c.toNat < 128 := by unfold NameChar at h; omega

/-- One step of the comparison, not the last character. -/
theorem cmp_mid (e t : B) (he : NameChar e) (ht : t.toNat % 128 = t.toNat ∨ t.toNat % 128 ≠ e.toNat) :
    (rol8 (e ^^^ t) false = 0#8 ↔ e = t) ∧ (e = t → topBit (e ^^^ t) = false) := by
  have h1 := he.lt
  have h2 := t.isLt
  rw [rol_zero, xor_low]
  constructor
  · constructor
    · intro h; apply BitVec.eq_of_toNat_eq; omega
    · intro h; rw [h]
  · intro h; rw [topBit_xor, h]; simp

/-- The last character. -/
theorem cmp_last (e t : B) (he : NameChar e) (ht : t.toNat % 128 = t.toNat ∨ t.toNat % 128 ≠ e.toNat) :
    (rol8 ((e ||| 0x80) ^^^ t) false = 0#8 ↔ e = t) ∧ (e = t → topBit ((e ||| 0x80) ^^^ t) = true) := by
  have h1 := he.lt
  have h2 := t.isLt
  rw [rol_zero, xor_low, or80_toNat e h1]
  constructor
  · constructor
    · intro h; apply BitVec.eq_of_toNat_eq; omega
    · intro h; rw [h]; have := congrArg BitVec.toNat h; omega
  · rintro rfl
    rw [topBit_xor]
    have : topBit (e ||| 0x80) = true := by unfold topBit; rw [or80_toNat e h1]; simp
    have q : topBit e = false := by unfold topBit; simp; omega
    rw [this, q]; rfl

/-- The word in `var`, and the word in `name`. -/
def M.varp (m : M) : W := word m.zp.vr m.zp.vrh
def M.namp (m : M) : W := word m.zp.nam m.zp.namh

/-- The character after the name does not look like a character of a name, neither in inverse video. -/
def Stops (c : B) : Prop := ∀ e, NameChar e → c.toNat % 128 ≠ e.toNat

theorem idx_nat (w : W) (b : B) (n : Nat) (h : b.toNat = n) : idx w b = w + BitVec.ofNat 16 n := by rw [idx, h]

theorem succ_nat (b : B) (n : Nat) (h : b.toNat = n) (h' : n < 255) : (b + 1#8).toNat = n + 1 := by
  rw [BitVec.toNat_add]; simp only [BitVec.toNat_ofNat]; omega

theorem text_get {r : W → B} {p : W} {l : List B} (h : TextAt r p l) (i : Nat) (hi : i < l.length) : r (p + BitVec.ofNat 16 i) = l[i] := h i hi

/-- Only `A`, `Y` and flags change. -/
def Touch (m m' : M) : Prop := ∃ a c z n v y, m' = { m with a := a, c := c, z := z, n := n, v := v, y := y }

theorem Touch.trans {a b c : M} (h : Touch a b) (h' : Touch b c) : Touch a c := by
  obtain ⟨_, _, _, _, _, _, rfl⟩ := h
  obtain ⟨_, _, _, _, _, _, rfl⟩ := h'
  exact ⟨_, _, _, _, _, _, rfl⟩

theorem ls_cmp_ne (m : M) (b t : B) (hb : m.ram (idx (word m.zp.vr m.zp.vrh) m.y) = b) (hn : m.ram (idx (word m.zp.nam m.zp.namh) m.y) = t)
    (h : ¬ rol8 (b ^^^ t) false = 0#8) : ∃ m', Reach memCode memCode.ls_cmp m memCode.ls_skip m' ∧ Touch m m' ∧ m'.y = m.y := by
  refine ⟨?_, ⟨4, ?_⟩, ?_⟩
  rotate_left
  · rt_exec [memCode.ls_cmp.eq, hb, hn, h]
    rfl
  · exact ⟨⟨_, _, _, _, _, _, rfl⟩, rfl⟩

theorem ls_cmp_eq (m : M) (b t : B) (hb : m.ram (idx (word m.zp.vr m.zp.vrh) m.y) = b) (hn : m.ram (idx (word m.zp.nam m.zp.namh) m.y) = t)
    (h : rol8 (b ^^^ t) false = 0#8) (hc : topBit (b ^^^ t) = false) :
    ∃ m', Reach memCode memCode.ls_cmp m memCode.ls_cmp m' ∧ Touch m m' ∧ m'.y = m.y + 1#8 := by
  refine ⟨?_, ⟨6, ?_⟩, ?_⟩
  rotate_left
  · rt_exec [memCode.ls_cmp.eq, hb, hn, h, hc]
    rfl
  · exact ⟨⟨_, _, _, _, _, _, rfl⟩, rfl⟩

theorem ls_cmp_fin (m : M) (b t : B) (hb : m.ram (idx (word m.zp.vr m.zp.vrh) m.y) = b) (hn : m.ram (idx (word m.zp.nam m.zp.namh) m.y) = t)
    (h : rol8 (b ^^^ t) false = 0#8) (hc : topBit (b ^^^ t) = true) :
    ∃ m', Reach memCode memCode.ls_cmp m memCode.ls_end m' ∧ Touch m m' ∧ m'.y = m.y + 1#8 := by
  refine ⟨?_, ⟨7, ?_⟩, ?_⟩
  rotate_left
  · rt_exec [memCode.ls_cmp.eq, hb, hn, h, hc]
    rfl
  · exact ⟨⟨_, _, _, _, _, _, rfl⟩, rfl⟩

theorem ls_skip_step (m : M) (b : B) (hb : m.ram (idx (word m.zp.vr m.zp.vrh) m.y) = b) (hc : topBit b = false) :
    ∃ m', Reach memCode memCode.ls_skip m memCode.ls_skip m' ∧ Touch m m' ∧ m'.y = m.y + 1#8 := by
  refine ⟨?_, ⟨4, ?_⟩, ?_⟩
  rotate_left
  · rt_exec [memCode.ls_skip.eq, hb, hc]
    rfl
  · exact ⟨⟨_, _, _, _, _, _, rfl⟩, rfl⟩

theorem ls_skip_fin (m : M) (b : B) (hb : m.ram (idx (word m.zp.vr m.zp.vrh) m.y) = b) (hc : topBit b = true) :
    ∃ m', Reach memCode memCode.ls_skip m memCode.ls_next m' ∧ Touch m m' ∧ m'.y = m.y + 1#8 := by
  refine ⟨?_, ⟨5, ?_⟩, ?_⟩
  rotate_left
  · rt_exec [memCode.ls_skip.eq, hb, hc]
    rfl
  · exact ⟨⟨_, _, _, _, _, _, rfl⟩, rfl⟩

/-- Comparison of an entry with the name: up to the end of the entry if it is a prefix of the name, or up to the first difference. -/
theorem ls_cmp_loop (e : Ent) (N : List B) (c : B) (he : e.Ok) (hN : ∀ d ∈ N, NameChar d) (hc : Stops c) (d : Nat) :
    ∀ (m : M) (j : Nat), j + d = e.name.length → 1 ≤ d → m.y.toNat = j → e.name.take j <+: N → TextAt m.ram m.varp e.bytes → TextAt m.ram m.namp (N ++ [c]) →
    (e.name <+: N ∧ ∃ m', Reach memCode memCode.ls_cmp m memCode.ls_end m' ∧ Touch m m' ∧ m'.y.toNat = e.name.length) ∨
    (¬ e.name <+: N ∧ ∃ m', Reach memCode memCode.ls_cmp m memCode.ls_skip m' ∧ Touch m m' ∧ m'.y.toNat < e.name.length) := by
  induction d with
  | zero => intro m j _ h; omega
  | succ d ih =>
    intro m j hj _ hy hp ht hn
    have hjl : j < e.name.length := by omega
    have hs := he.short
    have hE : NameChar e.name[j] := he.chars _ (List.getElem_mem hjl)
    -- the byte of the entry
    have hb : m.ram (idx (word m.zp.vr m.zp.vrh) m.y) = if j + 1 = e.name.length then e.name[j] ||| 0x80 else e.name[j] := by
      rw [idx_nat _ _ j hy]
      have := ht j (by simp [Ent.bytes, marked_length]; omega)
      rw [← marked_get e.name j (by rw [marked_length]; exact hjl) hjl]
      refine this.trans ?_
      simp only [Ent.bytes]
      rw [List.getElem_append_left (by rw [marked_length]; exact hjl)]
    -- the byte of the name
    have hjN : j ≤ N.length := by
      have := hp.length_le
      rw [List.length_take] at this; omega
    have hnb : m.ram (idx (word m.zp.nam m.zp.namh) m.y) = (N ++ [c])[j]'(by simp; omega) := by
      rw [idx_nat _ _ j hy]; exact hn j (by simp; omega)
    generalize ht' : (N ++ [c])[j]'(by simp; omega) = t at hnb
    have hstep : t.toNat % 128 = t.toNat ∨ t.toNat % 128 ≠ (e.name[j]).toNat := by
      by_cases h : j < N.length
      · left
        rw [List.getElem_append_left h] at ht'
        have := (hN _ (List.getElem_mem h)).lt
        rw [ht'] at this; omega
      · right
        rw [List.getElem_append_right (by omega)] at ht'
        have : t = c := by simpa using ht'.symm
        rw [this]; exact hc _ hE
    -- equal characters extend the prefix
    have hext : e.name[j] = t ↔ e.name.take (j + 1) <+: N := by
      have e1 : e.name.take (j + 1) = e.name.take j ++ [e.name[j]] := by
        rw [List.take_add_one, List.getElem?_eq_getElem hjl]; rfl
      obtain ⟨s, hs'⟩ := hp
      have hlen : (e.name.take j).length = j := by rw [List.length_take]; omega
      rw [e1]
      by_cases h : j < N.length
      · rw [List.getElem_append_left h] at ht'
        have hsl : 0 < s.length := by
          have := congrArg List.length hs'
          rw [List.length_append, hlen] at this; omega
        obtain ⟨s0, s', rfl⟩ : ∃ s0 s', s = s0 :: s' := by
          cases s with
          | nil => simp at hsl
          | cons a b => exact ⟨a, b, rfl⟩
        have ht0 : t = s0 := by
          rw [← ht']
          simp only [← hs']
          rw [List.getElem_append_right (by omega)]
          simp [hlen]
        rw [ht0]
        constructor
        · intro q; rw [q]; exact ⟨s', by rw [List.append_assoc]; exact hs'⟩
        · rintro ⟨s2, q⟩
          rw [← hs', List.append_assoc] at q
          have := List.append_cancel_left q
          simp at this
          exact this.1
      · rw [List.getElem_append_right (by omega)] at ht'
        have htc : t = c := by simpa using ht'.symm
        constructor
        · intro q
          exfalso
          have := hc _ hE
          rw [q, htc] at this
          have h1 := hE.lt
          rw [q, htc] at h1
          omega
        · intro q
          have := q.length_le
          simp only [List.length_append, hlen, List.length_singleton] at this
          omega
    have hfull : e.name <+: N → e.name[j] = t := by
      intro q
      rw [hext]
      exact List.IsPrefix.trans (List.take_prefix _ _) q
    by_cases hlast : j + 1 = e.name.length
    · rw [if_pos hlast] at hb
      obtain ⟨q1, q2⟩ := cmp_last e.name[j] t hE hstep
      by_cases heq : e.name[j] = t
      · left
        have z1 := q1.2 heq
        have c1 := q2 heq
        refine ⟨?_, ?_⟩
        · have := hext.1 heq
          rwa [hlast, List.take_length] at this
        · obtain ⟨m', r, k, y1⟩ := ls_cmp_fin m _ t hb hnb z1 c1
          exact ⟨m', r, k, by rw [y1]; exact (succ_nat m.y j hy (by omega)).trans hlast⟩
      · right
        obtain ⟨m', r, k, y1⟩ := ls_cmp_ne m _ t hb hnb (fun h => heq (q1.1 h))
        exact ⟨fun h => heq (hfull h), m', r, k, by rw [y1]; omega⟩
    · rw [if_neg hlast] at hb
      obtain ⟨q1, q2⟩ := cmp_mid e.name[j] t hE hstep
      by_cases heq : e.name[j] = t
      · obtain ⟨m1, r1, k1, y1⟩ := ls_cmp_eq m _ t hb hnb (q1.2 heq) (q2 heq)
        have y2 := succ_nat m.y j hy (by omega)
        obtain ⟨a, cc, z, n, v, y, e1⟩ := id k1
        have := ih m1 (j + 1) (by omega) (by omega) (by rw [y1]; exact y2) (hext.1 heq) (by rw [e1]; exact ht) (by rw [e1]; exact hn)
        rcases this with ⟨p, m', r, k, hy'⟩ | ⟨p, m', r, k, hy'⟩
        · exact .inl ⟨p, m', r1.trans r, k1.trans k, hy'⟩
        · exact .inr ⟨p, m', r1.trans r, k1.trans k, hy'⟩
      · right
        obtain ⟨m', r, k, y1⟩ := ls_cmp_ne m _ t hb hnb (fun h => heq (q1.1 h))
        exact ⟨fun h => heq (hfull h), m', r, k, by rw [y1]; omega⟩

/-- After a difference: up to the end of the name of the entry. -/
theorem ls_skip_loop (e : Ent) (he : e.Ok) (d : Nat) :
    ∀ (m : M) (j : Nat), j + d = e.name.length → 1 ≤ d → m.y.toNat = j → TextAt m.ram m.varp e.bytes →
    ∃ m', Reach memCode memCode.ls_skip m memCode.ls_next m' ∧ Touch m m' ∧ m'.y.toNat = e.name.length := by
  induction d with
  | zero => intro m j _ h; omega
  | succ d ih =>
    intro m j hj _ hy ht
    have hjl : j < e.name.length := by omega
    have hs := he.short
    have hE : NameChar e.name[j] := he.chars _ (List.getElem_mem hjl)
    have hb : m.ram (idx (word m.zp.vr m.zp.vrh) m.y) = if j + 1 = e.name.length then e.name[j] ||| 0x80 else e.name[j] := by
      rw [idx_nat _ _ j hy]
      have := ht j (by simp [Ent.bytes, marked_length]; omega)
      rw [← marked_get e.name j (by rw [marked_length]; exact hjl) hjl]
      refine this.trans ?_
      simp only [Ent.bytes]
      rw [List.getElem_append_left (by rw [marked_length]; exact hjl)]
    by_cases hlast : j + 1 = e.name.length
    · rw [if_pos hlast] at hb
      have c1 : topBit (e.name[j] ||| 0x80) = true := by
        unfold topBit; rw [or80_toNat _ hE.lt]; simp
      obtain ⟨m', r, k, y1⟩ := ls_skip_fin m _ hb c1
      exact ⟨m', r, k, by rw [y1]; exact (succ_nat m.y j hy (by omega)).trans hlast⟩
    · rw [if_neg hlast] at hb
      have c1 : topBit e.name[j] = false := by
        have := hE.lt
        unfold topBit; simp; omega
      have y2 := succ_nat m.y j hy (by omega)
      obtain ⟨m1, r1, k1, y1⟩ := ls_skip_step m _ hb c1
      obtain ⟨a, cc, z, n, v, y, e1⟩ := id k1
      obtain ⟨m', r, k, hy'⟩ := ih m1 (j + 1) (by omega) (by omega) (by rw [y1]; exact y2) (by rw [e1]; exact ht)
      exact ⟨m', r1.trans r, k1.trans k, hy'⟩

/-- The bytes of a table. -/
def table (es : List Ent) : List B := (es.map Ent.bytes).flatten

/-- The number of variable slots of a table. -/
def slotsOf (es : List Ent) : Nat := (es.map Ent.slots).sum

/-- The first entry with a name: its first slot, and its type. -/
def lookup (N : List B) : List Ent → Option (Nat × B)
  | [] => none
  | e :: es => if e.name = N then some (0, e.ty) else (lookup N es).map fun p => (e.slots + p.1, p.2)

theorem TextAt.append {r : W → B} {p : W} {l l' : List B} (h : TextAt r p (l ++ l')) : TextAt r p l ∧ TextAt r (p + BitVec.ofNat 16 l.length) l' := by
  constructor
  · intro i hi
    rw [h i (by rw [List.length_append]; omega), List.getElem_append_left hi]
  · intro i hi
    rw [off_add, h (l.length + i) (by rw [List.length_append]; omega), List.getElem_append_right (by omega)]
    congr 1; omega

theorem Ent.bytes_length (e : Ent) : e.bytes.length = e.name.length + 1 := by
  rw [Ent.bytes, List.length_append, marked_length, List.length_singleton]

theorem Ent.bytes_ty (e : Ent) (h : e.name.length < e.bytes.length) : e.bytes[e.name.length] = e.ty := by
  simp only [Ent.bytes]
  rw [List.getElem_append_right (by rw [marked_length])]
  simp [marked_length]

theorem ls_float (m : M) (t : B) (hb : m.ram (idx (word m.zp.vr m.zp.vrh) m.y) = t) (ht : topBit t = true) :
    ∃ m', Reach memCode memCode.ls_next m memCode.ls_nofloat m' ∧ ∃ a z n, m' = { m with a := a, z := z, n := n, x := m.x + 1#8 + 1#8 } := by
  refine ⟨?_, ⟨5, ?_⟩, ?_⟩
  rotate_left
  · rt_exec [memCode.ls_next.eq, hb, ht]
    rfl
  · exact ⟨_, _, _, rfl⟩

theorem ls_nofloat (m : M) (t : B) (hb : m.ram (idx (word m.zp.vr m.zp.vrh) m.y) = t) (ht : topBit t = false) :
    ∃ m', Reach memCode memCode.ls_next m memCode.ls_nofloat m' ∧ ∃ a z n, m' = { m with a := a, z := z, n := n, x := m.x } := by
  refine ⟨?_, ⟨2, ?_⟩, ?_⟩
  rotate_left
  · rt_exec [memCode.ls_next.eq, hb, ht]
    rfl
  · exact ⟨_, _, _, rfl⟩

theorem ls_step (m : M) : ∃ m', Reach memCode memCode.ls_nofloat m memCode.ls_start m' ∧
    ∃ a c z n v h, m' = { m with a := a, c := c, z := z, n := n, v := v, zp := { m.zp with vr := add8 m.y m.zp.vr true, vrh := h } } ∧
      h = m.zp.vrh + if addC m.y m.zp.vr true then 1 else 0 := by
  cases hc : addC m.y m.zp.vr true
  · refine ⟨?_, ⟨5, ?_⟩, ?_⟩
    rotate_left
    · rt_exec [memCode.ls_nofloat.eq, hc]
      rfl
    · exact ⟨_, _, _, _, _, _, rfl, by simp⟩
  · refine ⟨?_, ⟨7, ?_⟩, ?_⟩
    rotate_left
    · rt_exec [memCode.ls_nofloat.eq, hc]
      rfl
    · exact ⟨_, _, _, _, _, _, rfl, rfl⟩

/-- To the next entry. -/
theorem ls_next_entry (e : Ent) (he : e.Ok) (m : M) (hy : m.y.toNat = e.name.length) (ht : TextAt m.ram m.varp e.bytes) :
    ∃ m', Reach memCode memCode.ls_next m memCode.ls_start m' ∧
      ∃ a c z n v l h, m' = { m with a := a, c := c, z := z, n := n, v := v, x := m.x + BitVec.ofNat 8 (e.slots - 1), zp := { m.zp with vr := l, vrh := h } } ∧
        word l h = m.varp + BitVec.ofNat 16 e.bytes.length := by
  have hs := he.short
  have hb : m.ram (idx (word m.zp.vr m.zp.vrh) m.y) = e.ty := by
    rw [idx_nat _ _ _ hy]
    exact (ht e.name.length (by rw [e.bytes_length]; exact Nat.lt_succ_self _)).trans (e.bytes_ty _)
  have hw : word (add8 m.y m.zp.vr true) (m.zp.vrh + if addC m.y m.zp.vr true then 1 else 0) = m.varp + BitVec.ofNat 16 e.bytes.length := by
    have h1 := m.zp.vr.isLt; have h2 := m.zp.vrh.isLt; have h3 := m.y.isLt
    apply BitVec.eq_of_toNat_eq
    have hc := addC_toNat m.y m.zp.vr true
    rw [e.bytes_length, M.varp, BitVec.toNat_add, word_toNat, word_toNat, BitVec.toNat_ofNat, ← hy, add8_toNat, BitVec.toNat_add]
    cases h : addC m.y m.zp.vr true <;> rw [h] at hc <;> simp at hc ⊢ <;> omega
  have key : ∃ m1, Reach memCode memCode.ls_next m memCode.ls_nofloat m1 ∧ ∃ a z n, m1 = { m with a := a, z := z, n := n, x := m.x + BitVec.ofNat 8 (e.slots - 1) } := by
    by_cases hf : 128 ≤ e.ty.toNat
    · have x1 : m.x + BitVec.ofNat 8 (e.slots - 1) = m.x + 1#8 + 1#8 := by
        rw [Ent.slots, if_pos hf, BitVec.add_assoc]; rfl
      rw [x1]; exact ls_float m _ hb (by unfold topBit; simpa using hf)
    · have x1 : m.x + BitVec.ofNat 8 (e.slots - 1) = m.x := by
        rw [Ent.slots, if_neg hf]; simp
      rw [x1]; exact ls_nofloat m _ hb (by unfold topBit; simpa using hf)
  obtain ⟨m1, r1, a1, z1, n1, e1⟩ := key
  obtain ⟨m2, r2, a2, c2, z2, n2, v2, h2, e2, eh⟩ := ls_step m1
  subst e1
  exact ⟨m2, r1.trans r2, _, _, _, _, _, _, _, e2, by rw [eh]; exact hw⟩

/-- What the search keeps. -/
def Searched (m m' : M) : Prop := ∃ a c z n v x y l h, m' = { m with a := a, c := c, z := z, n := n, v := v, x := x, y := y, zp := { m.zp with vr := l, vrh := h } }

theorem Searched.trans {a b c : M} (h : Searched a b) (h' : Searched b c) : Searched a c := by
  obtain ⟨_, _, _, _, _, _, _, _, _, rfl⟩ := h
  obtain ⟨_, _, _, _, _, _, _, _, _, rfl⟩ := h'
  exact ⟨_, _, _, _, _, _, _, _, _, rfl⟩

theorem Touch.searched {a b : M} (h : Touch a b) : Searched a b := by
  obtain ⟨_, _, _, _, _, _, rfl⟩ := h
  exact ⟨_, _, _, _, _, _, _, _, _, rfl⟩

theorem ls_more (m : M) (h : ¬ m.x + 1#8 - m.zp.scnt = 0#8) : ∃ m', Reach memCode memCode.ls_start m memCode.ls_cmp m' ∧
    ∃ c z n, m' = { m with c := c, z := z, n := n, x := m.x + 1#8, y := 0 } := by
  refine ⟨?_, ⟨5, ?_⟩, ?_⟩
  rotate_left
  · rt_exec [memCode.ls_start.eq, memCode.ls_loop.eq, h]
    rfl
  · exact ⟨_, _, _, rfl⟩

theorem ls_nomore (m : M) (k : Code) (st : List Slot) (hs : m.stk = .ret k :: st) (h : m.x + 1#8 - m.zp.scnt = 0#8) :
    ∃ m', Reach memCode memCode.ls_start m k { m' with stk := st } ∧ (m'.c = true ∧ m'.x = m.zp.scnt) ∧ Searched m m' := by
  refine ⟨{ m with c := true, z := true, n := false, x := m.x + 1#8 }, ⟨6, ?_⟩, ?_⟩
  · rt_exec [memCode.ls_start.eq, memCode.ret_sec.eq, h, hs]
  · exact ⟨⟨rfl, (sub_eq_zero8 _ _).1 h⟩, _, _, _, _, _, _, _, _, _, rfl⟩

theorem ls_end_found (m : M) (k : Code) (st : List Slot) (hs : m.stk = .ret k :: st) (h : m.y - m.zp.vlen = 0#8) (t : B)
    (hb : m.ram (idx (word m.zp.vr m.zp.vrh) m.y) = t) :
    ∃ m', Reach memCode memCode.ls_end m k { m' with stk := st } ∧ m'.c = false ∧ m'.x = m.x ∧ m'.a = t ∧ Searched m m' := by
  refine ⟨{ m with a := t, c := false, z := decide (t = 0#8), n := topBit t }, ⟨6, ?_⟩, ?_⟩
  · rt_exec [memCode.ls_end.eq, memCode.ret_clc.eq, h, hs, hb]
  · exact ⟨rfl, rfl, rfl, _, _, _, _, _, _, _, _, _, rfl⟩

theorem ls_end_longer (m : M) (h : ¬ m.y - m.zp.vlen = 0#8) : ∃ m', Reach memCode memCode.ls_end m memCode.ls_next m' ∧ Touch m m' ∧ m'.y = m.y := by
  refine ⟨?_, ⟨2, ?_⟩, ?_⟩
  rotate_left
  · rt_exec [memCode.ls_end.eq, h]
    rfl
  · exact ⟨⟨_, _, _, _, _, _, rfl⟩, rfl⟩

theorem sub_ne8 (a b : B) (h : a.toNat ≠ b.toNat) : ¬ a - b = 0#8 := fun e => h (congrArg BitVec.toNat ((sub_eq_zero8 a b).1 e))
theorem sub_eq8 (a b : B) (h : a.toNat = b.toNat) : a - b = 0#8 := (sub_eq_zero8 a b).2 (BitVec.eq_of_toNat_eq h)

/-- The search, from an entry on; `s` is the slot of the entry. -/
theorem ls_search (N : List B) (c : B) (hN : ∀ d ∈ N, NameChar d) (hc : Stops c) (es : List Ent) :
    ∀ (m : M) (s : Nat) (k : Code) (st : List Slot), (∀ e ∈ es, e.Ok) → (m.x + 1#8).toNat = s → m.zp.scnt.toNat = s + slotsOf es →
      m.zp.vlen.toNat = N.length → m.stk = .ret k :: st → TextAt m.ram m.varp (table es) → TextAt m.ram m.namp (N ++ [c]) →
      ∃ m', Reach memCode memCode.ls_start m k { m' with stk := st } ∧ Searched m m' ∧
        match lookup N es with
        | some (i, t) => m'.c = false ∧ m'.x.toNat = s + i ∧ m'.a = t
        | none => m'.c = true ∧ m'.x = m.zp.scnt := by
  induction es with
  | nil =>
    intro m s k st _ hx hsc hl hs _ _
    obtain ⟨m', r, c1, k1⟩ := ls_nomore m k st hs (sub_eq8 _ _ (by rw [hx, hsc]; rfl))
    exact ⟨m', r, k1, c1⟩
  | cons e es ih =>
    intro m s k st hok hx hsc hl hs ht hn
    have he := hok e (List.mem_cons_self ..)
    have hsl : slotsOf (e :: es) = e.slots + slotsOf es := rfl
    have hsp : 1 ≤ e.slots ∧ e.slots ≤ 3 := by unfold Ent.slots; split <;> omega
    have hsc' := m.zp.scnt.isLt
    have hel := he.short
    obtain ⟨t1, t2⟩ := TextAt.append (l := e.bytes) (l' := table es) (by exact ht)
    have hne : 1 ≤ e.name.length := by
      have := he.ne
      cases h : e.name with
      | nil => exact absurd h this
      | cons a b => simp
    obtain ⟨m1, r1, c1, z1, n1, e1⟩ := ls_more m (sub_ne8 _ _ (by omega))
    have cmp := ls_cmp_loop e N c he hN hc e.name.length m1 0 (by omega) hne (by rw [e1]; rfl) (by rw [List.take_zero]; exact List.nil_prefix)
      (by rw [e1]; exact t1) (by rw [e1]; exact hn)
    have k1 : Searched m m1 := by rw [e1]; exact ⟨_, _, _, _, _, _, _, _, _, rfl⟩
    have x1 : m1.x = m.x + 1#8 := by rw [e1]
    -- the next entries
    have go : ∀ m3, Searched m m3 → m3.x = m.x + 1#8 → m3.varp = m.varp → m3.y.toNat = e.name.length → Reach memCode memCode.ls_start m memCode.ls_next m3 →
        e.name ≠ N → ∃ m', Reach memCode memCode.ls_start m k { m' with stk := st } ∧ Searched m m' ∧
          match lookup N (e :: es) with
          | some (i, t) => m'.c = false ∧ m'.x.toNat = s + i ∧ m'.a = t
          | none => m'.c = true ∧ m'.x = m.zp.scnt := by
      intro m3 k3 x3 v3 y3 r3 hneq
      obtain ⟨a', c', z', n', v', x', y', l', h', e3⟩ := id k3
      obtain ⟨m4, r4, a4, c4, z4, n4, v4, l4, h4, e4, w4⟩ := ls_next_entry e he m3 y3 (by rw [v3, e3]; exact t1)
      have k4 : Searched m3 m4 := by rw [e4]; exact ⟨_, _, _, _, _, _, _, _, _, rfl⟩
      have k34 := k3.trans k4
      have v4' : m4.varp = m.varp + BitVec.ofNat 16 e.bytes.length := by
        rw [← v3, ← w4]; rw [e4]; rfl
      obtain ⟨a5, c5, z5, n5, v5, x5, y5, l5, h5, e5⟩ := id k34
      have x4 : m4.x = m.x + 1#8 + BitVec.ofNat 8 (e.slots - 1) := by rw [e4, ← x3]
      obtain ⟨m', r', k', h'⟩ := ih m4 (s + e.slots) k st (fun e he => hok e (List.mem_cons_of_mem _ he))
        (by
          rw [x4, BitVec.toNat_add, BitVec.toNat_add, hx, BitVec.toNat_ofNat]
          show ((s + (e.slots - 1) % 2 ^ 8) % 2 ^ 8 + 1) % 2 ^ 8 = _
          omega)
        (by rw [e5]; show m.zp.scnt.toNat = _; omega) (by rw [e5]; exact hl) (by rw [e5]; exact hs) (by rw [v4', e5]; exact t2)
        (by rw [e5]; exact hn)
      refine ⟨m', r3.trans (r4.trans r'), k34.trans k', ?_⟩
      rw [lookup, if_neg hneq]
      cases hlk : lookup N es with
      | none => rw [hlk] at h'; exact ⟨h'.1, by rw [h'.2, e5]⟩
      | some p =>
        obtain ⟨i, t⟩ := p
        rw [hlk] at h'
        obtain ⟨h1, h2, h3⟩ := h'
        exact ⟨h1, by rw [h2]; show s + e.slots + i = s + (e.slots + i); omega, h3⟩
    rcases cmp with ⟨p, m2, r2, k2, y2⟩ | ⟨p, m2, r2, k2, y2⟩
    · obtain ⟨a', c', z', n', v', y', e2⟩ := id k2
      by_cases hlen : e.name.length = N.length
      · have heq : e.name = N := List.IsPrefix.eq_of_length p hlen
        obtain ⟨m3, r3, c3, x3, a3, k3⟩ := ls_end_found m2 k st (by rw [e2, e1]; exact hs) (sub_eq8 _ _ (by
            rw [y2, e2, e1]; show e.name.length = m.zp.vlen.toNat; omega)) e.ty (by
            rw [idx_nat _ _ _ y2, e2, e1]
            exact (t1 e.name.length (by rw [e.bytes_length]; omega)).trans (e.bytes_ty _))
        refine ⟨m3, r1.trans (r2.trans r3), k1.trans (k2.searched.trans k3), ?_⟩
        rw [lookup, if_pos heq]
        refine ⟨c3, ?_, a3⟩
        rw [x3, e2]; show m1.x.toNat = _; rw [x1, hx]; rfl
      · obtain ⟨m3, r3, k3, y3⟩ := ls_end_longer m2 (sub_ne8 _ _ (by
            rw [y2, e2, e1]; show e.name.length ≠ m.zp.vlen.toNat; omega))
        obtain ⟨a'', c'', z'', n'', v'', y'', e3⟩ := id k3
        exact go m3 (k1.trans (k2.trans k3).searched) (by rw [e3, e2]; exact x1) (by rw [e3, e2, e1]; rfl) (by rw [y3, y2]) (r1.trans (r2.trans r3))
          (fun h => hlen (by rw [h]))
    · obtain ⟨a', c', z', n', v', y', e2⟩ := id k2
      obtain ⟨m3, r3, k3, y3⟩ := ls_skip_loop e he (e.name.length - m2.y.toNat) m2 m2.y.toNat (by omega) (by omega) rfl (by rw [e2, e1]; exact t1)
      obtain ⟨a'', c'', z'', n'', v'', y'', e3⟩ := id k3
      exact go m3 (k1.trans (k2.trans k3).searched) (by rw [e3, e2]; exact x1) (by rw [e3, e2, e1]; rfl) y3 (r1.trans (r2.trans r3))
        (fun h => p (by rw [h]; exact List.prefix_refl _))

/-! ## The name in the text -/

/-- A letter or the underscore. -/
def NameStart (c : B) : Prop := (65 ≤ c.toNat ∧ c.toNat ≤ 90) ∨ c.toNat = 95

instance (c : B) : Decidable (NameChar c) := by unfold NameChar; infer_instance
instance (c : B) : Decidable (NameStart c) := by unfold NameStart; infer_instance

theorem cc_first_correct (m : M) (k : Code) (st : List Slot) (hs : m.stk = .ret k :: st) :
    ∃ m', Reach memCode memCode.cc_first m k { m' with stk := st } ∧ Touch m m' ∧ m'.y = m.y ∧ m'.c = !decide (NameStart m.a) ∧
      (¬ NameStart m.a → (m'.a = 0x2E#8 ↔ m.a = 0x6E#8)) := by
  have ha := m.a.isLt
  by_cases h : m.a = 95#8
  · refine ⟨{ m with c := false, z := true, n := false }, ⟨4, ?_⟩, ?_⟩
    · rt_exec [memCode.cc_first.eq, memCode.ret_clc.eq, h, hs]
    · have q : NameStart m.a := by right; rw [h]; rfl
      exact ⟨⟨_, _, _, _, _, _, rfl⟩, rfl, by simp [q], fun q' => absurd q q'⟩
  · have hn : m.a.toNat ≠ 95 := fun e => h (BitVec.eq_of_toNat_eq e)
    have hz : ¬ m.a - 95#8 = 0#8 := sub_ne8 _ _ hn
    obtain ⟨cf, hcf⟩ : ∃ cf, cf = addC m.a 160#8 true := ⟨_, rfl⟩
    have hcf' := congrArg Bool.toNat hcf
    rw [addC_toNat] at hcf'
    simp at hcf'
    have av : (add8 m.a 191#8 cf).toNat = (m.a.toNat + 191 + cf.toNat) % 256 := by simp
    have hcl : cf.toNat = 0 ∨ cf.toNat = 1 := by have := cf.toNat_le; omega
    refine ⟨{ m with a := add8 m.a 191#8 cf, c := addC (add8 m.a 191#8 cf) 229#8 true, z := decide (add8 m.a 191#8 cf - 26#8 = 0#8),
                     n := topBit (add8 m.a 191#8 cf - 26#8), v := addV m.a 191#8 cf }, ⟨6, ?_⟩, ?_⟩
    · rt_exec [memCode.cc_first.eq, memCode.cc_exit.eq, hz, hs, ← hcf]
      rfl
    · refine ⟨⟨_, _, _, _, _, _, rfl⟩, rfl, ?_, ?_⟩
      · show addC _ _ _ = _
        rw [addC, av, ← decide_not, decide_eq_decide, NameStart]
        show 256 ≤ (m.a.toNat + 191 + cf.toNat) % 256 + 229 + 1 ↔ _
        omega
      · intro q
        unfold NameStart at q
        constructor
        · intro e
          have : (add8 m.a 191#8 cf).toNat = 46 := congrArg BitVec.toNat e
          rw [av] at this
          apply BitVec.eq_of_toNat_eq
          show m.a.toNat = 110
          rcases hcl with hcl | hcl <;> rw [hcl] at this hcf' <;> omega
        · intro e
          have : m.a.toNat = 110 := congrArg BitVec.toNat e
          apply BitVec.eq_of_toNat_eq
          show (add8 m.a 191#8 cf).toNat = 46
          rw [av]
          omega

theorem check_char_correct (m : M) (k : Code) (st : List Slot) (hs : m.stk = .ret k :: st) :
    ∃ m', Reach memCode memCode.check_char m k { m' with stk := st } ∧ Touch m m' ∧ m'.y = m.y ∧ m'.c = !decide (NameChar m.a) ∧
      (¬ NameChar m.a → (m'.a = 0x2E#8 ↔ m.a = 0x2E#8 ∨ m.a = 0x6E#8)) := by
  have ha := m.a.isLt
  cases h1 : addC m.a 207#8 true
  · have h1' : m.a.toNat < 48 := by have := congrArg Bool.toNat h1; simp at this; omega
    refine ⟨{ m with c := true, z := decide (m.a - 48#8 = 0#8), n := topBit (m.a - 48#8) }, ⟨4, ?_⟩, ?_⟩
    · rt_exec [memCode.check_char.eq, memCode.ret_sec.eq, h1, hs]
      rfl
    · have q : ¬ NameChar m.a := by unfold NameChar; omega
      refine ⟨⟨_, _, _, _, _, _, rfl⟩, rfl, by simp [q], fun _ => ?_⟩
      constructor
      · exact fun e => .inl e
      · rintro (e | e)
        · exact e
        · exfalso; have : m.a.toNat = 110 := congrArg BitVec.toNat e
          omega
  · have h1' : 48 ≤ m.a.toNat := by have := congrArg Bool.toNat h1; simp at this; omega
    cases h2 : addC m.a 197#8 true
    · have h2' : m.a.toNat < 58 := by have := congrArg Bool.toNat h2; simp at this; omega
      refine ⟨{ m with c := false, z := decide (m.a - 58#8 = 0#8), n := topBit (m.a - 58#8) }, ⟨5, ?_⟩, ?_⟩
      · rt_exec [memCode.check_char.eq, memCode.cc_exit.eq, h1, h2, hs]
        rfl
      · have q : NameChar m.a := by unfold NameChar; omega
        exact ⟨⟨_, _, _, _, _, _, rfl⟩, rfl, by simp [q], fun h => absurd q h⟩
    · have h2' : 58 ≤ m.a.toNat := by have := congrArg Bool.toNat h2; simp at this; omega
      obtain ⟨m1, r1, z1, n1, e1⟩ : ∃ m1, Reach memCode memCode.check_char m memCode.cc_first m1 ∧ ∃ z n, m1 = { m with c := true, z := z, n := n } := by
        refine ⟨?_, ⟨5, ?_⟩, ?_⟩
        rotate_left
        · rt_exec [memCode.check_char.eq, h1, h2]
          rfl
        · exact ⟨_, _, rfl⟩
      obtain ⟨m2, r2, k2, y2, c2, a2⟩ := cc_first_correct m1 k st (by rw [e1]; exact hs)
      have k1 : Touch m m1 := by rw [e1]; exact ⟨_, _, _, _, _, _, rfl⟩
      have ea : m1.a = m.a := by rw [e1]
      have iff : NameStart m.a ↔ NameChar m.a := by unfold NameStart NameChar; omega
      rw [ea] at c2 a2
      refine ⟨m2, r1.trans r2, k1.trans k2, by rw [y2, e1], ?_, ?_⟩
      · rw [c2]; congr 1; rw [decide_eq_decide]; exact iff
      · intro h
        rw [a2 (fun q => h (iff.1 q))]
        constructor
        · exact fun e => .inr e
        · rintro (e | e)
          · exfalso; have : m.a.toNat = 46 := congrArg BitVec.toNat e
            omega
          · exact e

/-- Registers, `CIX`, `name` and `len` change. -/
def NameGot (m m' : M) : Prop := ∃ a c z n v y p q r l, m' = { m with a := a, c := c, z := z, n := n, v := v, y := y, zp := { m.zp with cix := p, nam := q, namh := r, vlen := l } }

theorem NameGot.trans {a b c : M} (h : NameGot a b) (h' : NameGot b c) : NameGot a c := by
  obtain ⟨_, _, _, _, _, _, _, _, _, _, rfl⟩ := h
  obtain ⟨_, _, _, _, _, _, _, _, _, _, rfl⟩ := h'
  exact ⟨_, _, _, _, _, _, _, _, _, _, rfl⟩

theorem Touch.nameGot {a b : M} (h : Touch a b) : NameGot a b := by
  obtain ⟨_, _, _, _, _, _, rfl⟩ := h
  exact ⟨_, _, _, _, _, _, _, _, _, _, rfl⟩

theorem sw_step (m : M) (ha : m.a = 32#8) (hb : m.ram (idx (word m.zp.inb m.zp.inbh) m.y) = 32#8) (hz : ¬ m.y + 1#8 = 0#8) :
    ∃ m', Reach memCode memCode.sw_1 m memCode.sw_1 m' ∧ m'.a = 32#8 ∧ m'.y = m.y + 1#8 ∧ Touch m m' := by
  refine ⟨?_, ⟨4, ?_⟩, ?_⟩
  rotate_left
  · rt_exec [memCode.sw_1.eq, ha, hb, hz]
    rfl
  · exact ⟨rfl, rfl, _, _, _, _, _, _, rfl⟩

theorem sw_fin (m : M) (k : Code) (st : List Slot) (hs : m.stk = .ret k :: st) (c : B) (ha : m.a = 32#8)
    (hb : m.ram (idx (word m.zp.inb m.zp.inbh) m.y) = c) (hc : ¬ 32#8 - c = 0#8) :
    ∃ m', Reach memCode memCode.sw_1 m k { m' with stk := st } ∧ m'.y = m.y ∧ Touch { m with zp := { m.zp with cix := m.y } } m' := by
  refine ⟨{ m with c := addC 32#8 (~~~c) true, z := false, n := topBit (32#8 - c), zp := { m.zp with cix := m.y } }, ⟨4, ?_⟩, ?_⟩
  · rt_exec [memCode.sw_1.eq, memCode.sw_2.eq, ha, hb, hc, hs]
  · exact ⟨rfl, _, _, _, _, _, _, rfl⟩

theorem sw_loop (n : Nat) : ∀ (m : M) (k : Code) (st : List Slot) (c : B) (l : List B), m.stk = .ret k :: st → m.a = 32#8 → m.y.toNat + n < 256 →
    TextAt m.ram (idx m.bp m.y) (List.replicate n 32#8 ++ c :: l) → c ≠ 32#8 →
    ∃ m', Reach memCode memCode.sw_1 m k { m' with stk := st } ∧ NameGot m m' ∧ m'.y.toNat = m.y.toNat + n ∧ m'.zp.cix = m'.y := by
  induction n with
  | zero =>
    intro m k st c l hs ha hy ht hc
    obtain ⟨m', r, y1, k1⟩ := sw_fin m k st hs c ha ht.head (fun h => hc ((sub_eq_zero8 _ _).1 h).symm)
    obtain ⟨_, _, _, _, _, _, e⟩ := id k1
    exact ⟨m', r, by rw [e]; exact ⟨_, _, _, _, _, _, _, _, _, _, rfl⟩, by rw [y1]; rfl, by rw [y1, e]⟩
  | succ n ih =>
    intro m k st c l hs ha hy ht hc
    have hyl : m.y.toNat < 255 := by omega
    have e4 := succ_nat m.y _ rfl hyl
    obtain ⟨m1, r1, a1, y1, k1⟩ := sw_step m ha ht.head (fun h => by have := congrArg BitVec.toNat h; rw [e4] at this; simp at this)
    obtain ⟨_, _, _, _, _, _, e1⟩ := id k1
    obtain ⟨m2, r2, k2, y2, h2⟩ := ih m1 k st c l (by rw [e1]; exact hs) a1 (by rw [y1, e4]; omega)
      (by rw [y1, idx_succ _ _ hyl, e1]; exact ht.tail) hc
    exact ⟨m2, r1.trans r2, k1.nameGot.trans k2, by rw [y2, y1, e4]; omega, h2⟩

theorem skip_ws_correct (m : M) (n : Nat) (k : Code) (st : List Slot) (c : B) (l : List B) (hs : m.stk = .ret k :: st) (hy : m.zp.cix.toNat + n < 256)
    (ht : TextAt m.ram (idx m.bp m.zp.cix) (List.replicate n 32#8 ++ c :: l)) (hc : c ≠ 32#8) :
    ∃ m', Reach memCode memCode.skip_ws m k { m' with stk := st } ∧ NameGot m m' ∧ m'.y.toNat = m.zp.cix.toNat + n ∧ m'.zp.cix = m'.y := by
  obtain ⟨m1, r1, a1, y1, k1⟩ : ∃ m1, Reach memCode memCode.skip_ws m memCode.sw_1 m1 ∧ m1.a = 32#8 ∧ m1.y = m.zp.cix ∧ Touch m m1 := by
    refine ⟨?_, ⟨3, ?_⟩, ?_⟩
    rotate_left
    · rt_exec [memCode.skip_ws.eq]
      rfl
    · exact ⟨rfl, rfl, _, _, _, _, _, _, rfl⟩
  obtain ⟨_, _, _, _, _, _, e1⟩ := id k1
  obtain ⟨m2, r2, k2, y2, h2⟩ := sw_loop n m1 k st c l (by rw [e1]; exact hs) a1 (by rw [y1]; exact hy) (by rw [y1, e1]; exact ht) hc
  exact ⟨m2, r1.trans r2, k1.nameGot.trans k2, by rw [y2, y1], h2⟩

/-! ## The length of the name -/

theorem vg_start (m : M) : ∃ m', Reach memCode memCode.var_getlen m memCode.skip_ws m' ∧ m' = { m with stk := .ret (.lb "vg_1" :: memCode.vg_1) :: m.stk } := by
  refine ⟨?_, ⟨1, ?_⟩, ?_⟩
  rotate_left
  · rt_exec [memCode.var_getlen.eq]
    rfl
  · rfl

theorem vg_first (m : M) (c : B) (hb : m.ram (idx (word m.zp.inb m.zp.inbh) m.y) = c) :
    ∃ m', Reach memCode (.lb "vg_1" :: memCode.vg_1) m memCode.cc_first m' ∧ m'.a = c ∧ m'.y = m.y ∧ Touch { m with stk := .ret (.lb "vg_2" :: memCode.vg_2) :: m.stk } m' := by
  refine ⟨?_, ⟨3, ?_⟩, ?_⟩
  rotate_left
  · rt_exec [memCode.vg_1.eq, hb]
    rfl
  · exact ⟨rfl, rfl, _, _, _, _, _, _, rfl⟩

theorem vg_none (m : M) (k k' : Code) (st : List Slot) (hs : m.stk = .ret k :: .ret k' :: st) (hc : m.c = true) :
    ∃ m', Reach memCode (.lb "vg_2" :: memCode.vg_2) m k' { m' with stk := st } ∧ m'.c = true ∧ m'.zp.vlen = 0 ∧ NameGot m m' ∧ m'.zp.cix = m.zp.cix := by
  refine ⟨{ m with a := m.y, y := 0, c := true, z := true, n := false, zp := { m.zp with vlen := 0 } }, ⟨9, ?_⟩, ?_⟩
  · rt_exec [memCode.vg_2.eq, memCode.vg_drop.eq, memCode.vg_end.eq, hc, hs]
  · exact ⟨rfl, rfl, ⟨_, _, _, _, _, _, _, _, _, _, rfl⟩, rfl⟩

theorem vg_some (m : M) (hc : m.c = false) :
    ∃ m', Reach memCode (.lb "vg_2" :: memCode.vg_2) m memCode.vg_next m' ∧ m'.y = 0 ∧ NameGot m m' ∧ m'.namp = idx m.bp m.y ∧ m'.zp.cix = m.zp.cix := by
  refine ⟨{ m with a := add8 m.zp.inbh 0#8 (addC m.y m.zp.inb false), y := 0, c := addC m.zp.inbh 0#8 (addC m.y m.zp.inb false),
                   z := decide (add8 m.zp.inbh 0#8 (addC m.y m.zp.inb false) = 0#8), n := topBit (add8 m.zp.inbh 0#8 (addC m.y m.zp.inb false)),
                   v := addV m.zp.inbh 0#8 (addC m.y m.zp.inb false),
                   zp := { m.zp with nam := add8 m.y m.zp.inb false, namh := add8 m.zp.inbh 0#8 (addC m.y m.zp.inb false) } }, ⟨10, ?_⟩, ?_⟩
  · rt_exec [memCode.vg_2.eq, hc]
    rfl
  · refine ⟨rfl, ⟨_, _, _, _, _, _, _, _, _, _, rfl⟩, ?_, rfl⟩
    show word (add8 m.y m.zp.inb false) (add8 m.zp.inbh 0#8 (addC m.y m.zp.inb false)) = idx (word m.zp.inb m.zp.inbh) m.y
    have e1 : addC m.y m.zp.inb false = addC m.zp.inb m.y false := by unfold addC; rw [Nat.add_comm m.y.toNat]
    have e2 : add8 m.y m.zp.inb false = add8 m.zp.inb m.y false := by apply BitVec.eq_of_toNat_eq; simp [Nat.add_comm]
    rw [e1, e2, add_len]; rfl

theorem vg_char (m : M) (c : B) (hb : m.ram (idx (word m.zp.nam m.zp.namh) (m.y + 1#8)) = c) :
    ∃ m', Reach memCode memCode.vg_next m memCode.check_char m' ∧ m'.a = c ∧ m'.y = m.y + 1#8 ∧
      Touch { m with zp := { m.zp with cix := m.zp.cix + 1#8 }, stk := .ret (.lb "vg_3" :: memCode.vg_3) :: m.stk } m' := by
  refine ⟨?_, ⟨4, ?_⟩, ?_⟩
  rotate_left
  · rt_exec [memCode.vg_next.eq, hb]
    rfl
  · exact ⟨rfl, rfl, _, _, _, _, _, _, rfl⟩

theorem vg_more (m : M) (hc : m.c = false) : ∃ m', Reach memCode (.lb "vg_3" :: memCode.vg_3) m memCode.vg_next m' ∧ m' = m := by
  refine ⟨?_, ⟨2, ?_⟩, ?_⟩
  rotate_left
  · rt_exec [memCode.vg_3.eq, hc]
    rfl
  · rfl

theorem vg_stop (m : M) (k : Code) (st : List Slot) (hs : m.stk = .ret k :: st) (hc : m.c = true) (ha : ¬ m.a = 46#8) :
    ∃ m', Reach memCode (.lb "vg_3" :: memCode.vg_3) m k { m' with stk := st } ∧ m'.zp.vlen = m.y ∧ NameGot m m' ∧ m'.zp.cix = m.zp.cix ∧ m'.namp = m.namp := by
  have ha' : ¬ m.a - 46#8 = 0#8 := fun h => ha ((sub_eq_zero8 _ _).1 h)
  refine ⟨{ m with c := true, z := false, n := topBit (m.a - 46#8), zp := { m.zp with vlen := m.y } }, ⟨8, ?_⟩, ?_⟩
  · rt_exec [memCode.vg_3.eq, memCode.vg_end.eq, hc, hs, ha']
  · exact ⟨rfl, ⟨_, _, _, _, _, _, _, _, _, _, rfl⟩, rfl, rfl⟩

theorem vg_dot (m : M) (k k' : Code) (st : List Slot) (hs : m.stk = .ret k :: .ret k' :: st) (hc : m.c = true) (ha : m.a = 46#8) :
    ∃ m', Reach memCode (.lb "vg_3" :: memCode.vg_3) m k' { m' with stk := st } ∧ m'.c = true ∧ m'.zp.vlen = m.y ∧ NameGot m m' ∧ m'.zp.cix = m.zp.cix ∧ m'.namp = m.namp := by
  refine ⟨{ m with c := true, z := true, n := false, zp := { m.zp with vlen := m.y } }, ⟨9, ?_⟩, ?_⟩
  · rt_exec [memCode.vg_3.eq, memCode.vg_drop.eq, memCode.vg_end.eq, hc, hs, ha]
  · exact ⟨rfl, rfl, ⟨_, _, _, _, _, _, _, _, _, _, rfl⟩, rfl, rfl⟩

/-- The character after the name that makes the search fail: a dot; also `n`, which is not in a line converted to upper case. -/
def Dot (c : B) : Prop := c = 0x2E#8 ∨ c = 0x6E#8

theorem vg_loop (l : List B) : ∀ (m : M) (k k' : Code) (st : List Slot) (c : B), m.stk = .ret k :: .ret k' :: st → (∀ d ∈ l, NameChar d) → ¬ NameChar c →
    TextAt m.ram (idx m.namp (m.y + 1#8)) (l ++ [c]) → m.y.toNat + l.length < 255 → m.zp.cix.toNat + l.length < 255 →
    ∃ m', NameGot m m' ∧ m'.zp.vlen.toNat = m.y.toNat + l.length + 1 ∧ m'.zp.cix.toNat = m.zp.cix.toNat + l.length + 1 ∧ m'.namp = m.namp ∧
      (¬ Dot c → Reach memCode memCode.vg_next m k { m' with stk := .ret k' :: st }) ∧
      (Dot c → m'.c = true ∧ Reach memCode memCode.vg_next m k' { m' with stk := st }) := by
  induction l with
  | nil =>
    intro m k k' st c hs hl hc ht hy hx
    simp only [List.length_nil, Nat.add_zero] at hy hx ⊢
    obtain ⟨m1, r1, a1, y1, k1⟩ := vg_char m c ht.head
    obtain ⟨_, _, _, _, _, _, e1⟩ := id k1
    obtain ⟨m2, r2, k2, y2, c2, a2⟩ := check_char_correct m1 (.lb "vg_3" :: memCode.vg_3) m.stk (by rw [e1])
    obtain ⟨_, _, _, _, _, _, e2⟩ := id k2
    rw [a1] at a2 c2
    have c2 : m2.c = true := by rw [c2]; simp [hc]
    have ey := succ_nat m.y _ rfl hy
    have ex := succ_nat m.zp.cix _ rfl hx
    by_cases hd : Dot c
    · obtain ⟨m3, r3, c3, l3, k3, x3, n3⟩ := vg_dot { m2 with stk := m.stk } k k' st hs c2 ((a2 hc).2 hd)
      obtain ⟨_, _, _, _, _, _, _, _, _, _, e3⟩ := id k3
      refine ⟨{ m3 with stk := m.stk }, ?_, ?_, ?_, ?_, fun h => absurd hd h, fun _ => ⟨c3, r1.trans (r2.trans r3)⟩⟩
      · rw [e3, e2, e1]; exact ⟨_, _, _, _, _, _, _, _, _, _, rfl⟩
      · show m3.zp.vlen.toNat = _
        rw [l3]; show m2.y.toNat = _; rw [y2, y1, ey]
      · show m3.zp.cix.toNat = _
        rw [x3]; show m2.zp.cix.toNat = _; rw [e2, e1]; exact ex
      · show m3.namp = _
        rw [n3, e2, e1]; rfl
    · obtain ⟨m3, r3, l3, k3, x3, n3⟩ := vg_stop { m2 with stk := m.stk } k (.ret k' :: st) hs c2 (fun h => hd ((a2 hc).1 h))
      obtain ⟨_, _, _, _, _, _, _, _, _, _, e3⟩ := id k3
      refine ⟨{ m3 with stk := m.stk }, ?_, ?_, ?_, ?_, fun _ => r1.trans (r2.trans r3), fun h => absurd h hd⟩
      · rw [e3, e2, e1]; exact ⟨_, _, _, _, _, _, _, _, _, _, rfl⟩
      · show m3.zp.vlen.toNat = _
        rw [l3]; show m2.y.toNat = _; rw [y2, y1, ey]
      · show m3.zp.cix.toNat = _
        rw [x3]; show m2.zp.cix.toNat = _; rw [e2, e1]; exact ex
      · show m3.namp = _
        rw [n3, e2, e1]; rfl
  | cons d l ih =>
    intro m k k' st c hs hl hc ht hy hx
    simp only [List.length_cons] at hy hx ⊢
    obtain ⟨m1, r1, a1, y1, k1⟩ := vg_char m d ht.head
    obtain ⟨_, _, _, _, _, _, e1⟩ := id k1
    obtain ⟨m2, r2, k2, y2, c2, a2⟩ := check_char_correct m1 (.lb "vg_3" :: memCode.vg_3) m.stk (by rw [e1])
    obtain ⟨_, _, _, _, _, _, e2⟩ := id k2
    rw [a1] at c2
    have c2 : m2.c = false := by rw [c2]; simp [hl d (by simp)]
    have ey := succ_nat m.y _ rfl (by omega)
    have ex := succ_nat m.zp.cix _ rfl (by omega)
    obtain ⟨m3, r3, e3⟩ := vg_more { m2 with stk := m.stk } c2
    have y3 : m3.y = m.y + 1#8 := by rw [e3]; show m2.y = _; rw [y2, y1]
    have x3 : m3.zp.cix = m.zp.cix + 1#8 := by rw [e3, e2, e1]
    have n3 : m3.namp = m.namp := by rw [e3, e2, e1]; rfl
    have t3 : m3.ram = m.ram := by rw [e3, e2, e1]
    have k3 : NameGot m m3 := by rw [e3, e2, e1]; exact ⟨_, _, _, _, _, _, _, _, _, _, rfl⟩
    obtain ⟨m4, k4, l4, x4, n4, h1, h2⟩ := ih m3 k k' st c (by rw [e3]; exact hs) (fun x hx => hl x (by simp [hx])) hc
      (by rw [n3, t3, y3, idx_succ _ _ (by rw [ey]; omega)]; exact ht.tail) (by rw [y3, ey]; omega) (by rw [x3, ex]; omega)
    refine ⟨m4, k3.trans k4, by rw [l4, y3, ey]; omega, by rw [x4, x3, ex]; omega, n4.trans n3, fun h => r1.trans (r2.trans (r3.trans (h1 h))), fun h => ?_⟩
    obtain ⟨h3, h4⟩ := h2 h
    exact ⟨h3, r1.trans (r2.trans (r3.trans h4))⟩

/-- A name: a letter or underscore, and then letters, digits and underscores. -/
def IsName (N : List B) : Prop := ∃ d l, N = d :: l ∧ NameStart d ∧ ∀ x ∈ l, NameChar x

theorem NameStart.char {c : B} (h : NameStart c) : NameChar c := by unfold NameStart at h; unfold NameChar; omega

theorem IsName.chars {N : List B} (h : IsName N) : ∀ d ∈ N, NameChar d := by
  obtain ⟨d, l, rfl, h1, h2⟩ := h
  intro x hx
  rcases List.mem_cons.1 hx with rfl | hx
  · exact h1.char
  · exact h2 x hx

theorem var_getlen_correct (m : M) (n : Nat) (N : List B) (c : B) (k k' : Code) (st : List Slot) (hs : m.stk = .ret k :: .ret k' :: st) (hN : IsName N)
    (hc : ¬ NameChar c) (ht : TextAt m.ram (idx m.bp m.zp.cix) (List.replicate n 32#8 ++ (N ++ [c]))) (hl : m.zp.cix.toNat + n + N.length < 256) :
    ∃ m', NameGot m m' ∧ m'.zp.vlen.toNat = N.length ∧ m'.zp.cix.toNat = m.zp.cix.toNat + n + N.length ∧
      m'.namp = idx m.bp m.zp.cix + BitVec.ofNat 16 n ∧
      (¬ Dot c → Reach memCode memCode.var_getlen m k { m' with stk := .ret k' :: st }) ∧
      (Dot c → m'.c = true ∧ Reach memCode memCode.var_getlen m k' { m' with stk := st }) := by
  obtain ⟨d, l, rfl, hd, hl'⟩ := hN
  simp only [List.length_cons] at hl ⊢
  have hd32 : d ≠ 32#8 := by rintro rfl; revert hd; decide
  obtain ⟨m0, r0, e0⟩ := vg_start m
  obtain ⟨m1, r1, k1, y1, x1⟩ := skip_ws_correct m0 n _ m.stk d (l ++ [c]) (by rw [e0]) (by rw [e0]; show m.zp.cix.toNat + n < 256; omega) (by rw [e0]; exact ht) hd32
  obtain ⟨_, _, _, _, _, _, _, _, _, _, e1⟩ := id k1
  have y1' : m1.y.toNat = m.zp.cix.toNat + n := by rw [y1, e0]
  have hr1 : m1.ram = m.ram := by rw [e1, e0]
  have hi1 : m1.zp.inb = m.zp.inb := by rw [e1, e0]
  have hi2 : m1.zp.inbh = m.zp.inbh := by rw [e1, e0]
  obtain ⟨t1, t2⟩ := TextAt.append ht
  rw [List.length_replicate] at t2
  have ei : idx (word m.zp.inb m.zp.inbh) m1.y = idx m.bp m.zp.cix + BitVec.ofNat 16 n := by
    rw [idx, y1', ← off_add]; rfl
  obtain ⟨m2, r2, a2, y2, k2⟩ := vg_first { m1 with stk := m.stk } d (by show m1.ram (idx (word m1.zp.inb m1.zp.inbh) m1.y) = d; rw [hr1, hi1, hi2, ei]; exact t2.head)
  obtain ⟨_, _, _, _, _, _, e2⟩ := id k2
  obtain ⟨m3, r3, k3, y3, c3, -⟩ := cc_first_correct m2 (.lb "vg_2" :: memCode.vg_2) m.stk (by rw [e2])
  obtain ⟨_, _, _, _, _, _, e3⟩ := id k3
  rw [a2] at c3
  obtain ⟨m4, r4, y4, k4, n4, x4⟩ := vg_some { m3 with stk := m.stk } (by show m3.c = false; rw [c3]; simp [hd])
  obtain ⟨_, _, _, _, _, _, _, _, _, _, e4⟩ := id k4
  have n4' : m4.namp = idx m.bp m.zp.cix + BitVec.ofNat 16 n := by
    rw [n4, ← ei]
    show idx (word m3.zp.inb m3.zp.inbh) m3.y = _
    rw [y3, y2, e3, e2, e1, e0]
  have x4' : m4.zp.cix = m1.y := by
    rw [x4]; show m3.zp.cix = _; rw [e3, e2]; exact x1
  have ram4 : m4.ram = m.ram := by rw [e4, e3, e2, e1, e0]
  have k04 : NameGot m m4 := by rw [e4, e3, e2, e1, e0]; exact ⟨_, _, _, _, _, _, _, _, _, _, rfl⟩
  obtain ⟨m5, k5, l5, x5, n5, h1, h2⟩ := vg_loop l m4 k k' st c (by rw [e4]; exact hs) hl' hc
    (by rw [n4', ram4, y4, show (0 : B) + 1#8 = 1#8 from rfl, idx1]; exact t2.tail) (by rw [y4]; simp; omega) (by rw [x4', y1']; omega)
  have R := r0.trans (r1.trans (r2.trans (r3.trans r4)))
  refine ⟨m5, k04.trans k5, by rw [l5, y4]; simp, by rw [x5, x4', y1']; omega, n5.trans n4', fun h => R.trans (h1 h), fun h => ?_⟩
  obtain ⟨h3, h4⟩ := h2 h
  exact ⟨h3, R.trans h4⟩

/-- No name at this place. -/
theorem var_getlen_none (m : M) (n : Nat) (c : B) (k k' : Code) (st : List Slot) (hs : m.stk = .ret k :: .ret k' :: st) (hc : ¬ NameStart c) (hc' : c ≠ 32#8)
    (ht : TextAt m.ram (idx m.bp m.zp.cix) (List.replicate n 32#8 ++ [c])) (hl : m.zp.cix.toNat + n < 256) :
    ∃ m', NameGot m m' ∧ m'.zp.vlen = 0 ∧ m'.zp.cix.toNat = m.zp.cix.toNat + n ∧ m'.c = true ∧ Reach memCode memCode.var_getlen m k' { m' with stk := st } := by
  obtain ⟨m0, r0, e0⟩ := vg_start m
  obtain ⟨m1, r1, k1, y1, x1⟩ := skip_ws_correct m0 n _ m.stk c [] (by rw [e0]) (by rw [e0]; exact hl) (by rw [e0]; exact ht) hc'
  obtain ⟨_, _, _, _, _, _, _, _, _, _, e1⟩ := id k1
  have y1' : m1.y.toNat = m.zp.cix.toNat + n := by rw [y1, e0]
  have hr1 : m1.ram = m.ram := by rw [e1, e0]
  have hi1 : m1.zp.inb = m.zp.inb := by rw [e1, e0]
  have hi2 : m1.zp.inbh = m.zp.inbh := by rw [e1, e0]
  obtain ⟨t1, t2⟩ := TextAt.append ht
  rw [List.length_replicate] at t2
  have ei : idx (word m.zp.inb m.zp.inbh) m1.y = idx m.bp m.zp.cix + BitVec.ofNat 16 n := by
    rw [idx, y1', ← off_add]; rfl
  obtain ⟨m2, r2, a2, y2, k2⟩ := vg_first { m1 with stk := m.stk } c (by show m1.ram (idx (word m1.zp.inb m1.zp.inbh) m1.y) = c; rw [hr1, hi1, hi2, ei]; exact t2.head)
  obtain ⟨_, _, _, _, _, _, e2⟩ := id k2
  obtain ⟨m3, r3, k3, y3, c3, -⟩ := cc_first_correct m2 (.lb "vg_2" :: memCode.vg_2) m.stk (by rw [e2])
  obtain ⟨_, _, _, _, _, _, e3⟩ := id k3
  rw [a2] at c3
  obtain ⟨m4, r4, c4, l4, k4, x4⟩ := vg_none { m3 with stk := m.stk } k k' st hs (by show m3.c = true; rw [c3]; simp [hc])
  obtain ⟨_, _, _, _, _, _, _, _, _, _, e4⟩ := id k4
  refine ⟨{ m4 with stk := m.stk }, by rw [e4, e3, e2, e1, e0]; exact ⟨_, _, _, _, _, _, _, _, _, _, rfl⟩, l4, ?_, c4, r0.trans (r1.trans (r2.trans (r3.trans r4)))⟩
  show m4.zp.cix.toNat = _
  rw [x4]; show m3.zp.cix.toNat = _; rw [e3, e2]; show m1.zp.cix.toNat = _; rw [x1, y1']

/-! ## The search, whole -/

theorem list_search_start (m : M) (i : Nat) (hi : i ≤ 4) (hx : m.x = BitVec.ofNat 8 (2 * i)) : ∃ m', Reach memCode memCode.list_search m memCode.var_getlen m' ∧
    Touch { m with zp := { m.zp with scnt := m.y, vr := m.ram (memStart + BitVec.ofNat 16 (2 * i)), vrh := m.ram (memStart + BitVec.ofNat 16 (2 * i + 1)) },
                   stk := .ret (.lb "ls_1" :: memCode.ls_1) :: m.stk } m' := by
  have e1 : memStart + BitVec.ofNat 16 (2 * i) = idx 162#16 m.x := by rw [hx, idx_even i hi _]; rfl
  have e2 : memStart + BitVec.ofNat 16 (2 * i + 1) = idx 163#16 m.x := by
    rw [hx, idx_even i hi _, Nat.add_comm (2 * i), ← off_add]; rfl
  rw [e1, e2]
  refine ⟨?_, ⟨6, ?_⟩, ?_⟩
  rotate_left
  · rt_exec [memCode.list_search.eq]
    rfl
  · exact ⟨_, _, _, _, _, _, rfl⟩

theorem var_search_start (m : M) : ∃ m', Reach memCode memCode.var_search m memCode.list_search m' ∧ m'.y = m.ram varCount ∧ m'.x = 2 ∧ Touch { m with x := 2 } m' := by
  refine ⟨?_, ⟨3, ?_⟩, ?_⟩
  rotate_left
  · rt_exec [memCode.var_search.eq]
    rfl
  · exact ⟨rfl, rfl, _, _, _, _, _, _, rfl⟩

theorem label_search_start (m : M) : ∃ m', Reach memCode memCode.label_search m memCode.list_search m' ∧ m'.y = m.ram lblCount ∧ m'.x = 4 ∧ Touch { m with x := 4 } m' := by
  refine ⟨?_, ⟨3, ?_⟩, ?_⟩
  rotate_left
  · rt_exec [memCode.label_search.eq]
    rfl
  · exact ⟨rfl, rfl, _, _, _, _, _, _, rfl⟩

theorem ls_first (m : M) : ∃ m', Reach memCode (.lb "ls_1" :: memCode.ls_1) m memCode.ls_start m' ∧ m'.x = 255#8 ∧ m' = { m with x := 255#8, z := false, n := true } := by
  refine ⟨?_, ⟨3, ?_⟩, ?_⟩
  rotate_left
  · rt_exec [memCode.ls_1.eq]
    rfl
  · exact ⟨rfl, rfl⟩

/-- Registers and the variables of the search change; memory and everything else do not. -/
def Looked (m m' : M) : Prop := ∃ a c z n v x y p q r l t u w, m' = { m with a := a, c := c, z := z, n := n, v := v, x := x, y := y, zp := { m.zp with cix := p, nam := q, namh := r, vlen := l, vr := t, vrh := u, scnt := w } }

/-- Text at the input: `n` blanks, the name, and another character; all of it inside the line. -/
structure NameAt (m : M) (n : Nat) (N : List B) (c : B) : Prop where
  text : TextAt m.ram (idx m.bp m.zp.cix) (List.replicate n 32#8 ++ (N ++ [c]))
  room : m.zp.cix.toNat + n + N.length < 256

theorem list_search_correct (m : M) (i n : Nat) (N : List B) (c : B) (es : List Ent) (k : Code) (st : List Slot) (hs : m.stk = .ret k :: st) (hi : i ≤ 4)
    (hx : m.x = BitVec.ofNat 8 (2 * i)) (hN : IsName N) (hc : ¬ NameChar c) (hd : ¬ Dot c) (hc' : Stops c) (ht : NameAt m n N c)
    (he : ∀ e ∈ es, e.Ok) (hy : m.y.toNat = slotsOf es) (hes : TextAt m.ram (ptr m.ram i) (table es)) :
    ∃ m', Reach memCode memCode.list_search m k { m' with stk := st } ∧ Looked m m' ∧ m'.zp.vlen.toNat = N.length ∧
      m'.zp.cix.toNat = m.zp.cix.toNat + n + N.length ∧ m'.namp = idx m.bp m.zp.cix + BitVec.ofNat 16 n ∧
      match lookup N es with
      | some (i, t) => m'.c = false ∧ m'.x.toNat = i ∧ m'.a = t
      | none => m'.c = true ∧ m'.x = m.y := by
  obtain ⟨m1, r1, k1⟩ := list_search_start m i hi hx
  obtain ⟨_, _, _, _, _, _, e1⟩ := id k1
  have h1 : m1.ram = m.ram ∧ m1.bp = m.bp ∧ m1.zp.cix = m.zp.cix ∧ m1.zp.scnt = m.y ∧ m1.varp = ptr m.ram i := by
    rw [e1]; exact ⟨rfl, rfl, rfl, rfl, rfl⟩
  obtain ⟨m2, k2, l2, x2, n2, h2, -⟩ := var_getlen_correct m1 n N c (.lb "ls_1" :: memCode.ls_1) k st (by rw [e1, hs]) hN hc (by rw [h1.1, h1.2.1, h1.2.2.1]; exact ht.text)
    (by rw [h1.2.2.1]; exact ht.room)
  obtain ⟨_, _, _, _, _, _, _, _, _, _, e2⟩ := id k2
  have h3 : m2.ram = m1.ram ∧ m2.bp = m1.bp ∧ m2.zp.scnt = m1.zp.scnt ∧ m2.varp = m1.varp := by rw [e2]; exact ⟨rfl, rfl, rfl, rfl⟩
  obtain ⟨m3, r3, x3, e3⟩ := ls_first { m2 with stk := .ret k :: st }
  have h4 : m3.ram = m2.ram ∧ m3.zp = m2.zp ∧ m3.varp = m2.varp ∧ m3.namp = m2.namp ∧ m3.stk = .ret k :: st := by rw [e3]; exact ⟨rfl, rfl, rfl, rfl, rfl⟩
  obtain ⟨m4, r4, k4, h5⟩ := ls_search N c hN.chars hc' es m3 0 k st he (by rw [x3]; rfl) (by rw [h4.2.1, h3.2.2.1, h1.2.2.2.1, hy]; omega)
    (by rw [h4.2.1, l2]) h4.2.2.2.2 (by rw [h4.1, h3.1, h1.1, h4.2.2.1, h3.2.2.2, h1.2.2.2.2]; exact hes)
    (by
      rw [h4.1, h3.1, h1.1, h4.2.2.2.1, n2, h1.2.1, h1.2.2.1]
      have := (TextAt.append ht.text).2
      rw [List.length_replicate] at this
      exact this)
  obtain ⟨_, _, _, _, _, _, _, _, _, e4⟩ := id k4
  have h6 : m4.zp.vlen = m2.zp.vlen ∧ m4.zp.cix = m2.zp.cix ∧ m4.namp = m2.namp := by rw [e4, e3]; exact ⟨rfl, rfl, rfl⟩
  refine ⟨{ m4 with stk := m.stk }, r1.trans ((h2 hd).trans (r3.trans r4)), ?_, ?_, ?_, ?_, ?_⟩
  · rw [e4, e3, e2, e1]; exact ⟨_, _, _, _, _, _, _, _, _, _, _, _, _, _, rfl⟩
  · show m4.zp.vlen.toNat = _; rw [h6.1, l2]
  · show m4.zp.cix.toNat = _; rw [h6.2.1, x2, h1.2.2.1]
  · show m4.namp = _; rw [h6.2.2, n2, h1.2.1, h1.2.2.1]
  · revert h5; cases lookup N es with
    | none => exact fun h => ⟨h.1, h.2.trans (by rw [h4.2.1, h3.2.2.1, h1.2.2.2.1])⟩
    | some p => obtain ⟨i, t⟩ := p; simp only [Nat.zero_add]; exact id

/-! ## A new name -/

theorem nn_start (m : M) (i : Nat) (hi : i ≤ 4) (hx : m.x = BitVec.ofNat 8 (2 * i)) (hl : ¬ m.zp.vlen = 0#8) :
    ∃ m', Reach memCode memCode.name_new m memCode.alloc_area_8 m' ∧ m'.a = add8 m.zp.vlen 1#8 false ∧ ∃ a c z n v,
    m' = { m with a := a, c := c, z := z, n := n, v := v, stk := .ret (.lb "nn_1" :: memCode.nn_1) :: m.stk, zp := { m.zp with vr := m.ram (memStart + BitVec.ofNat 16 (2 * i)), vrh := m.ram (memStart + BitVec.ofNat 16 (2 * i + 1)) } } := by
  have e1 : memStart + BitVec.ofNat 16 (2 * i) = idx 162#16 m.x := by rw [hx, idx_even i hi _]; rfl
  have e2 : memStart + BitVec.ofNat 16 (2 * i + 1) = idx 163#16 m.x := by
    rw [hx, idx_even i hi _, Nat.add_comm (2 * i), ← off_add]; rfl
  rw [e1, e2]
  refine ⟨?_, ⟨9, ?_⟩, ?_⟩
  rotate_left
  · rt_exec [memCode.name_new.eq, hl]
    rfl
  · exact ⟨rfl, _, _, _, _, _, rfl⟩

theorem nn_type (m : M) : ∃ m', Reach memCode (.lb "nn_1" :: memCode.nn_1) m memCode.nn_loop m' ∧ m'.a = 0x80#8 ∧ m'.y = m.zp.vlen - 1#8 ∧ ∃ a c z n v y,
    m' = { m with a := a, c := c, z := z, n := n, v := v, y := y, ram := upd m.ram (idx (word m.zp.vr m.zp.vrh) m.zp.vlen) 0#8 } := by
  refine ⟨?_, ⟨7, ?_⟩, ?_⟩
  rotate_left
  · rt_exec [memCode.nn_1.eq]
    rfl
  · exact ⟨rfl, rfl, _, _, _, _, _, _, rfl⟩

theorem nn_step (m : M) (b : B) (hb : m.ram (idx (word m.zp.nam m.zp.namh) m.y) = b) (hy : topBit (m.y - 1#8) = false) :
    ∃ m', Reach memCode memCode.nn_loop m memCode.nn_loop m' ∧ m'.a = 0#8 ∧ m'.y = m.y - 1#8 ∧ ∃ a c z n v y,
    m' = { m with a := a, c := c, z := z, n := n, v := v, y := y, ram := upd m.ram (idx (word m.zp.vr m.zp.vrh) m.y) (m.a ||| b) } := by
  refine ⟨?_, ⟨5, ?_⟩, ?_⟩
  rotate_left
  · rt_exec [memCode.nn_loop.eq, hb, hy]
    rfl
  · exact ⟨rfl, rfl, _, _, _, _, _, _, rfl⟩

theorem nn_fin (m : M) (k : Code) (st : List Slot) (hs : m.stk = .ret k :: st) (b : B) (hb : m.ram (idx (word m.zp.nam m.zp.namh) m.y) = b) (hy : topBit (m.y - 1#8) = true) :
    ∃ m', Reach memCode memCode.nn_loop m k m' ∧ m'.stk = st ∧ ∃ a c z n v y,
    m' = { m with a := a, c := c, z := z, n := n, v := v, y := y, stk := st, ram := upd m.ram (idx (word m.zp.vr m.zp.vrh) m.y) (m.a ||| b) } := by
  refine ⟨?_, ⟨6, ?_⟩, ?_⟩
  rotate_left
  · rt_exec [memCode.nn_loop.eq, hb, hy, hs]
    rfl
  · exact ⟨rfl, _, _, _, _, _, _, rfl⟩

/-- The copy of the name: all its characters below `Y`, and the one at `Y` combined with `A`. -/
theorem nn_copy (j : Nat) : ∀ (m : M) (k : Code) (st : List Slot) (N : List B) (hj : j < N.length), m.y.toNat = j → j ≤ 128 → m.stk = .ret k :: st →
    TextAt m.ram m.namp N → (∀ i < N.length, ∀ i' ≤ j, m.namp + BitVec.ofNat 16 i ≠ m.varp + BitVec.ofNat 16 i') →
    ∃ m', Reach memCode memCode.nn_loop m k m' ∧ m'.stk = st ∧ m'.zp = m.zp ∧ m'.ram (m.varp + BitVec.ofNat 16 j) = m.a ||| N[j] ∧
      (∀ (i : Nat) (hi : i < j), m'.ram (m.varp + BitVec.ofNat 16 i) = N[i]) ∧
      ∀ a : W, (∀ i ≤ j, a ≠ m.varp + BitVec.ofNat 16 i) → m'.ram a = m.ram a := by
  induction j with
  | zero =>
    intro m k st N hj hy _ hs ht hd
    have hy0 : m.y = 0#8 := BitVec.eq_of_toNat_eq hy
    obtain ⟨m', r, s1, _, _, _, _, _, _, e⟩ := nn_fin m k st hs N[0] (by rw [← ht 0 hj]; show m.ram (idx m.namp m.y) = _; rw [idx, hy]) (by rw [hy0]; rfl)
    have hi : idx (word m.zp.vr m.zp.vrh) m.y = m.varp + BitVec.ofNat 16 0 := by rw [idx, hy]; rfl
    rw [hi] at e
    refine ⟨m', r, s1, by rw [e], by rw [e]; exact upd_at _ _ _, fun i hi => absurd hi (by omega), fun a ha => ?_⟩
    rw [e]; exact upd_ne (ha 0 (by omega))
  | succ j ih =>
    intro m k st N hj hy hj' hs ht hd
    have hy1 : (m.y - 1#8).toNat = j := by bv_omega
    have htop : topBit (m.y - 1#8) = false := by unfold topBit; rw [hy1]; simp; omega
    obtain ⟨m1, r1, a1, y1, _, _, _, _, _, _, e1⟩ := nn_step m N[j + 1] (by rw [← ht (j + 1) hj]; show m.ram (idx m.namp m.y) = _; rw [idx, hy]) htop
    have hi : idx (word m.zp.vr m.zp.vrh) m.y = m.varp + BitVec.ofNat 16 (j + 1) := by rw [idx, hy]; rfl
    rw [hi] at e1
    have hr : m1.ram = upd m.ram (m.varp + BitVec.ofNat 16 (j + 1)) (m.a ||| N[j + 1]) := by rw [e1]
    have hz : m1.zp = m.zp := by rw [e1]
    have hv : m1.varp = m.varp := by rw [M.varp, hz]; rfl
    have hn : m1.namp = m.namp := by rw [M.namp, hz]; rfl
    obtain ⟨m', r2, s2, z2, q1, q2, q3⟩ := ih m1 k st N (by omega) (by rw [y1, hy1]) (by omega) (by rw [e1]; exact hs)
      (by
        rw [hr, hn]; intro i hi
        rw [upd_ne (hd i hi (j + 1) (by omega))]; exact ht i hi)
      (by rw [hn, hv]; exact fun i hi i' hi' => hd i hi i' (by omega))
    rw [hv] at q1 q2 q3
    refine ⟨m', r1.trans r2, s2, z2.trans hz, ?_, ?_, ?_⟩
    · rw [q3 _ (fun i hi => off_ne _ (by omega) (by omega) (by omega)), hr, upd_at]
    · intro i hi
      by_cases e : i = j
      · subst e; rw [q1, a1]; simp
      · exact q2 i (by omega)
    · intro a ha
      rw [q3 a (fun i hi => ha i (by omega)), hr, upd_ne (ha (j + 1) (by omega))]

/-- Names from 130 characters on: only the last character is written. -/
theorem nn_long (m : M) (k : Code) (st : List Slot) (N : List B) (j : Nat) (hj : j < N.length) (hy : m.y.toNat = j) (hj' : 129 ≤ j) (hs : m.stk = .ret k :: st)
    (ht : TextAt m.ram m.namp N) :
    ∃ m', Reach memCode memCode.nn_loop m k m' ∧ m'.stk = st ∧ ∀ a : W, a ≠ m.varp + BitVec.ofNat 16 j → m'.ram a = m.ram a := by
  have hyl := m.y.isLt
  have hy1 : (m.y - 1#8).toNat = j - 1 := by bv_omega
  obtain ⟨m', r, s1, _, _, _, _, _, _, e⟩ := nn_fin m k st hs N[j] (by rw [← ht j hj]; show m.ram (idx m.namp m.y) = _; rw [idx, hy])
    (by unfold topBit; rw [hy1]; simp; omega)
  have hi : idx (word m.zp.vr m.zp.vrh) m.y = m.varp + BitVec.ofNat 16 j := by rw [idx, hy]; rfl
  rw [hi] at e
  exact ⟨m', r, s1, fun a ha => by rw [e]; exact upd_ne ha⟩

/-! ## `E_VAR_CREATE` and `E_LABEL_CREATE` -/

theorem vc_begin (m : M) : ∃ m', Reach memCode memCode.var_create m memCode.var_search m' ∧ m' = { m with stk := .ret (.lb "vc_1" :: memCode.vc_1) :: m.stk } := by
  refine ⟨?_, ⟨1, ?_⟩, ?_⟩
  rotate_left
  · rt_exec [memCode.var_create.eq]
    rfl
  · rfl

theorem vc_exists (m : M) (k : Code) (st : List Slot) (hs : m.stk = .ret k :: st) (hc : m.c = false) :
    ∃ m', Reach memCode (.lb "vc_1" :: memCode.vc_1) m k m' ∧ m' = { m with c := true, stk := st } := by
  refine ⟨{ m with c := true, stk := st }, ⟨4, ?_⟩, rfl⟩
  rt_exec [memCode.vc_1.eq, memCode.vc_found.eq, hs, hc]

theorem vc_new (m : M) (hc : m.c = true) : ∃ m', Reach memCode (.lb "vc_1" :: memCode.vc_1) m memCode.name_new m' ∧
    m' = { m with x := 4, c := true, z := false, n := false, stk := .ret (.lb "vc_2" :: memCode.vc_2) :: m.stk } := by
  refine ⟨?_, ⟨4, ?_⟩, ?_⟩
  rotate_left
  · rt_exec [memCode.vc_1.eq, hc]
    rfl
  · rfl

theorem vc_end (m : M) (k : Code) (st : List Slot) (hs : m.stk = .ret k :: st) :
    ∃ m', Reach memCode (.lb "vc_2" :: memCode.vc_2) m k m' ∧ m'.stk = st ∧ m'.a = m.ram varCount ∧ m'.c = false ∧ m'.zp = m.zp ∧
      m'.ram = upd m.ram varCount (m.ram varCount + 1#8) := by
  refine ⟨?_, ⟨6, ?_⟩, ?_⟩
  rotate_left
  · rt_exec [memCode.vc_2.eq, hs]
    rfl
  · exact ⟨rfl, rfl, rfl, rfl, rfl⟩

theorem lc_begin (m : M) : ∃ m', Reach memCode memCode.label_create m memCode.label_search m' ∧ m' = { m with stk := .ret (.lb "lc_1" :: memCode.lc_1) :: m.stk } := by
  refine ⟨?_, ⟨1, ?_⟩, ?_⟩
  rotate_left
  · rt_exec [memCode.label_create.eq]
    rfl
  · rfl

theorem lc_exists (m : M) (k : Code) (st : List Slot) (hs : m.stk = .ret k :: st) (hc : m.c = false) :
    ∃ m', Reach memCode (.lb "lc_1" :: memCode.lc_1) m k m' ∧ m' = { m with stk := st, ram := upd m.ram lastLabel m.x } := by
  refine ⟨{ m with stk := st, ram := upd m.ram lastLabel m.x }, ⟨4, ?_⟩, rfl⟩
  rt_exec [memCode.lc_1.eq, memCode.lc_ret.eq, hs, hc]

theorem lc_new (m : M) (hc : m.c = true) : ∃ m', Reach memCode (.lb "lc_1" :: memCode.lc_1) m memCode.name_new m' ∧
    m' = { m with x := 6, c := true, z := false, n := false, stk := .ret (.lb "lc_2" :: memCode.lc_2) :: m.stk, ram := upd m.ram lastLabel m.x } := by
  refine ⟨?_, ⟨5, ?_⟩, ?_⟩
  rotate_left
  · rt_exec [memCode.lc_1.eq, hc]
    rfl
  · rfl

theorem lc_end (m : M) (k : Code) (st : List Slot) (hs : m.stk = .ret k :: st) :
    ∃ m', Reach memCode (.lb "lc_2" :: memCode.lc_2) m k m' ∧ m'.stk = st ∧ m'.c = false ∧ m'.zp = m.zp ∧ m'.ram = upd m.ram lblCount (m.ram lblCount + 1#8) := by
  refine ⟨?_, ⟨5, ?_⟩, ?_⟩
  rotate_left
  · rt_exec [memCode.lc_2.eq, memCode.lc_ret.eq, hs]
    rfl
  · exact ⟨rfl, rfl, rfl, rfl⟩

end FB.Rt
