import Verif.Eng.JName
/-!
# The jumps in the native compiler: new labels

`E_LABEL_CREATE` (`actions.asm:577-593`; `label_create` in `Mem.lean`): a new name moves the list of addresses.
-/
namespace FB.Eng
open FB.Rt
open FB.Native (NS LAd put wbytes ltNum)

/-- The bytes of memory from `a` up to `b`. -/
def slice (r : W → B) (a b : Nat) : List B := (List.range (b - a)).map fun i => r (BitVec.ofNat 16 (a + i))

theorem slice_length (r : W → B) (a b : Nat) : (slice r a b).length = b - a := by simp [slice]

theorem slice_get (r : W → B) (a b i : Nat) (h : i < (slice r a b).length) : (slice r a b)[i] = r (BitVec.ofNat 16 (a + i)) := by simp [slice]

theorem slice_append (r : W → B) {a b c : Nat} (h1 : a ≤ b) (h2 : b ≤ c) : slice r a b ++ slice r b c = slice r a c := by
  apply List.ext_getElem
  · simp only [List.length_append, slice_length]; omega
  · intro i h h'
    rw [slice_get]
    by_cases hi : i < (slice r a b).length
    · rw [List.getElem_append_left hi, slice_get]
    · rw [List.getElem_append_right (by omega), slice_get]
      rw [slice_length] at hi ⊢
      congr 2; omega

/-- The five areas of memory from `base` on. -/
def areas (r : W → B) (base : Nat) : List (List B) :=
  [slice r base (ptr r 0).toNat, slice r (ptr r 0).toNat (ptr r 1).toNat, slice r (ptr r 1).toNat (ptr r 2).toNat, slice r (ptr r 2).toNat (ptr r 3).toNat, slice r (ptr r 3).toNat (ptr r 4).toNat]

theorem areas_lays {r : W → B} {base : Nat} (h : Ordered r) (h1 : 0x300 ≤ base) (h2 : base ≤ (ptr r 0).toNat) : Lays r base (areas r base) := by
  have m0 := h.mono 0 (by omega); have m1 := h.mono 1 (by omega); have m2 := h.mono 2 (by omega); have m3 := h.mono 3 (by omega); have hh := h.hi
  simp only [Nat.zero_add, Nat.reduceAdd] at m0 m1 m2 m3
  have fl : (areas r base).flatten = slice r base (ptr r 4).toNat := by
    simp only [areas, List.flatten_cons, List.flatten_nil, List.append_nil]
    rw [slice_append r m2 m3, slice_append r m1 (by omega), slice_append r m0 (by omega), slice_append r h2 (by omega)]
  refine ⟨rfl, h1, ?_, ?_, ?_⟩
  · rw [fl, slice_length]; omega
  · intro j hj
    rcases (by omega : j = 0 ∨ j = 1 ∨ j = 2 ∨ j = 3 ∨ j = 4) with e | e | e | e | e <;> subst e <;>
      simp only [areas, List.take_succ_cons, List.take_zero, List.flatten_cons, List.flatten_nil, List.length_append, slice_length, List.length_nil] <;> omega
  · rw [fl]
    intro i hi
    rw [slice_get]

/-- What `name_new` does to memory from the point of view of the jumps: `d` bytes more before the list of addresses. -/
structure Shift (p : JPar) (r r' : W → B) (E : List B) (len : Nat) : Prop where
  code : ∀ a, p.base ≤ a → a < p.lbuf → r' (BitVec.ofNat 16 a) = r (BitVec.ofNat 16 a)
  new : ∀ i (h : i < E.length), r' (BitVec.ofNat 16 (p.lbuf + i)) = E[i]
  moved : ∀ a, p.lbuf ≤ a → a < p.lbuf + 4 * len → r' (BitVec.ofNat 16 (a + E.length)) = r (BitVec.ofNat 16 a)
  ptrs : ∀ j < 3, ptr r' j = ptr r j
  ptr3 : (ptr r' 3).toNat = p.lbuf + E.length
  ptr4 : (ptr r' 4).toNat = p.lbuf + 4 * len + E.length
  rest : ∀ a, a < 65536 → ¬ (0xA2 ≤ a ∧ a ≤ 0xAC) → a ≠ 0xAF → a ≠ 0xB0 → a < p.base ∨ p.top ≤ a → r' (BitVec.ofNat 16 a) = r (BitVec.ofNat 16 a)

theorem LabsAt.shift {r r' : W → B} {d : Nat} : ∀ {l : List LAd} {a : Nat}, LabsAt r a l → (∀ i, a ≤ i → i < a + 4 * l.length → r' (BitVec.ofNat 16 (i + d)) = r (BitVec.ofNat 16 i)) → LabsAt r' (a + d) l := by
  intro l
  induction l with
  | nil => intro a _ _; trivial
  | cons e es ih =>
    intro a h hr
    simp only [List.length_cons] at hr
    obtain ⟨h0, h1, h2, h3, h4⟩ := h
    refine ⟨?_, ?_, ?_, ?_, ?_⟩
    · rw [hr a (by omega) (by omega)]; exact h0
    · rw [show a + d + 1 = a + 1 + d by omega, hr _ (by omega) (by omega)]; exact h1
    · rw [show a + d + 2 = a + 2 + d by omega, hr _ (by omega) (by omega)]; exact h2
    · rw [show a + d + 3 = a + 3 + d by omega, hr _ (by omega) (by omega)]; exact h3
    · rw [show a + d + 4 = a + 4 + d by omega]
      exact ih h4 fun i hi hi' => hr i (by omega) (by omega)

/-- The memory with a new name. -/
theorem shift_rep {p : JPar} {n : NS} {v : JV} {ls : List Rt.Ent} {r' : W → B} {N : List B} {z : Zp} (h : JRep p n v) (ht : NamesAt p n v.ram ls) (hS : Shift p v.ram r' (Ent.bytes ⟨N, 0⟩) n.lab.length)
    (hN : IsName N) (hl : N.length ≤ 129) (hf : p.lbuf + 4 * n.lab.length + N.length + 1 < p.top) (hlast : (r' lastLabel).toNat = ls.length) (hc : (r' lblCount).toNat = ls.length + 1)
    (z1 : z.mins = v.z.mins) (z2 : z.prgp = v.z.prgp) (z3 : z.prgph = v.z.prgph) (s : List Slot) :
    JRep { p with lbuf := p.lbuf + (N.length + 1) } { n with last := ls.length, names := n.names ++ [nameOf N] } { v with ram := r', z := z, stk := s } ∧
    NamesAt { p with lbuf := p.lbuf + (N.length + 1) } { n with last := ls.length, names := n.names ++ [nameOf N] } r' (ls ++ [⟨N, 0⟩]) := by
  have hlow := h.low; have hb := h.below; have hlt := h.prog_lt; have hbl := h.base_le; have htop := h.topOk; have hroom := h.room
  have el : (Ent.bytes ⟨N, 0⟩).length = N.length + 1 := Ent.bytes_length _
  have p3 := hS.ptr3; have p4 := hS.ptr4
  rw [el] at p3 p4
  have low : ∀ a, a < p.base → ¬ (0xA2 ≤ a ∧ a ≤ 0xAC) → a ≠ 0xAF → a ≠ 0xB0 → r' (BitVec.ofNat 16 a) = v.ram (BitVec.ofNat 16 a) :=
    fun a h1 h2 h3 h4 => hS.rest a (by omega) h2 h3 h4 (.inl h1)
  have prog : ({ v with ram := r', z := z, stk := s } : JV).prog = v.prog := by show Rt.word z.prgp z.prgph = _; rw [z2, z3]; rfl
  constructor
  · refine ⟨h.low, h.base_le, by rw [prog]; exact h.prog, by rw [prog]; exact (hS.ptrs 0 (by omega)).trans h.pptr, by show p.prog + 256 ≤ p.lbuf + _; omega, p3, ?_, h.topOk, ?_, z1.trans h.mins, ?_, h.cp, ?_, ?_,
      h.room, ?_, fun e he => ⟨(h.ents e he).type, (h.ents e he).lo, (h.ents e he).hi, (h.ents e he).two⟩, hlast, ?_, ?_, ?_, ?_⟩
    · have e1 : r' 0x2E5 = v.ram 0x2E5 := low 0x2E5 (by omega) (by omega) (by omega) (by omega)
      have e2 : r' 0x2E6 = v.ram 0x2E6 := low 0x2E6 (by omega) (by omega) (by omega) (by omega)
      show (memTop r').toNat = _
      rw [← h.top, memTop, memTop, e1, e2]
    · refine ⟨?_, ?_, ?_⟩
      · show 0x300 ≤ (ptr r' 0).toNat; rw [hS.ptrs 0 (by omega)]; exact h.ord.lo
      · intro i hi
        show (ptr r' i).toNat ≤ (ptr r' (i + 1)).toNat
        have hm := h.ord.mono i hi
        rcases (by omega : i < 2 ∨ i = 2 ∨ i = 3) with e | e | e
        · rw [hS.ptrs i (by omega), hS.ptrs (i + 1) (by omega)]; exact hm
        · subst e
          rw [h.lbuf] at hm
          rw [hS.ptrs 2 (by omega), p3]; omega
        · subst e; rw [p3, p4]; omega
      · show (ptr r' 4).toNat ≤ _; omega
    · have e1 : r' 0xB1 = v.ram 0xB1 := low 0xB1 (by omega) (by omega) (by omega) (by omega)
      have e2 : r' 0xB2 = v.ram 0xB2 := low 0xB2 (by omega) (by omega) (by omega) (by omega)
      show (Rt.word (r' 0xB1) (r' 0xB2)).toNat = _
      rw [e1, e2]; exact h.rel
    · intro a ha ha'
      have ha' : a < p.prog + 256 := ha'
      show Knows _ (r' _)
      rw [hS.code a ha (by omega)]; exact h.mem a ha ha'
    · show (r' 0xB3).toNat = _
      rw [show r' 0xB3 = v.ram 0xB3 from low 0xB3 (by omega) (by omega) (by omega) (by omega)]; exact h.sp
    · exact h.loops.congr fun i hi => low _ (by omega) (by omega) (by omega) (by omega)
    · have := h.lab.shift (r' := r') (d := N.length + 1) fun i hi hi' => by rw [← el]; exact hS.moved i hi hi'
      exact this
    · show (ptr r' 4).toNat = p.lbuf + (N.length + 1) + 4 * n.lab.length
      omega
    · intro e he
      have := h.labs e he
      exact ⟨this.num, this.st, this.lo, this.hi, this.two⟩
    · show p.lbuf + (N.length + 1) + 4 * n.lab.length ≤ p.top
      omega
  · have hp2 := hS.ptrs 2 (by omega)
    have hlo := ht.lo; have hhi := ht.hi
    have hchars := hN.chars
    have hne : N ≠ [] := by obtain ⟨d, l, h, _⟩ := hN; rw [h]; simp
    refine ⟨?_, ?_, ?_, ?_, by rw [hp2]; exact ht.lo, ?_, ?_⟩
    · intro e he
      rcases List.mem_append.1 he with he | he
      · exact ht.ok e he
      · obtain rfl := List.mem_singleton.1 he
        exact ⟨hne, hchars, by show N.length ≤ 254; omega⟩
    · intro e he
      rcases List.mem_append.1 he with he | he
      · exact ht.types e he
      · obtain rfl := List.mem_singleton.1 he
        show (0#8).toNat < 128; decide
    · rw [hc, List.length_append, List.length_singleton]
    · rw [hp2, table_append]
      intro i hi
      have ha : ptr v.ram 2 + BitVec.ofNat 16 i = BitVec.ofNat 16 ((ptr v.ram 2).toNat + i) := by rw [BitVec.ofNat_add, BitVec.ofNat_toNat]; simp
      rw [ha]
      by_cases hit : i < (table ls).length
      · rw [List.getElem_append_left hit, hS.code _ (by omega) (by omega), ← ht.text i hit, ha]
      · rw [List.getElem_append_right (by omega)]
        rw [List.length_append] at hi
        rw [show (ptr v.ram 2).toNat + i = p.lbuf + (i - (table ls).length) by omega, hS.new _ (by omega)]
    · rw [hp2, table_append, List.length_append, el]
      show _ = p.lbuf + (N.length + 1)
      omega
    · show n.names ++ _ = _
      rw [ht.names, List.map_append]; rfl

theorem areas_grow {r r' : W → B} {base : Nat} {E : List B} (h : Ordered r) (h2 : base ≤ (ptr r 0).toNat) (L : Lays r' base (grow (areas r base) 3 E)) :
    (∀ a, base ≤ a → a < (ptr r 3).toNat → r' (BitVec.ofNat 16 a) = r (BitVec.ofNat 16 a)) ∧ (∀ i (h : i < E.length), r' (BitVec.ofNat 16 ((ptr r 3).toNat + i)) = E[i]) ∧
    (∀ a, (ptr r 3).toNat ≤ a → a < (ptr r 4).toNat → r' (BitVec.ofNat 16 (a + E.length)) = r (BitVec.ofNat 16 a)) ∧ (∀ j < 3, ptr r' j = ptr r j) ∧
    (ptr r' 3).toNat = (ptr r 3).toNat + E.length ∧ (ptr r' 4).toNat = (ptr r 4).toNat + E.length := by
  have m0 := h.mono 0 (by omega); have m1 := h.mono 1 (by omega); have m2 := h.mono 2 (by omega); have m3 := h.mono 3 (by omega)
  simp only [Nat.zero_add, Nat.reduceAdd] at m0 m1 m2 m3
  have e : grow (areas r base) 3 E = [slice r base (ptr r 0).toNat, slice r (ptr r 0).toNat (ptr r 1).toNat, slice r (ptr r 1).toNat (ptr r 2).toNat,
      slice r (ptr r 2).toNat (ptr r 3).toNat ++ E, slice r (ptr r 3).toNat (ptr r 4).toNat] := rfl
  have fl : (grow (areas r base) 3 E).flatten = slice r base (ptr r 3).toNat ++ (E ++ slice r (ptr r 3).toNat (ptr r 4).toNat) := by
    rw [e, ← slice_append r h2 (Nat.le_trans m0 (Nat.le_trans m1 m2)), ← slice_append r m0 (Nat.le_trans m1 m2), ← slice_append r m1 m2]
    simp only [List.flatten_cons, List.flatten_nil, List.append_nil, List.append_assoc]
  have hb := L.bytes
  have hp := L.ptrs
  rw [fl] at hb
  have l1 := slice_length r base (ptr r 3).toNat
  have l2 := slice_length r (ptr r 3).toNat (ptr r 4).toNat
  refine ⟨?_, ?_, ?_, ?_, ?_, ?_⟩
  · intro a ha ha'
    have := hb (a - base) (by simp only [List.length_append, l1]; omega)
    rw [List.getElem_append_left (by omega), slice_get, show base + (a - base) = a by omega] at this
    exact this
  · intro i hi
    have := hb ((ptr r 3).toNat - base + i) (by simp only [List.length_append, l1]; omega)
    rw [List.getElem_append_right (by omega), List.getElem_append_left (by omega), show base + ((ptr r 3).toNat - base + i) = (ptr r 3).toNat + i by omega] at this
    rw [this]; congr 1; omega
  · intro a ha ha'
    have := hb (a + E.length - base) (by simp only [List.length_append, l1, l2]; omega)
    rw [List.getElem_append_right (by omega), List.getElem_append_right (by omega), slice_get, show base + (a + E.length - base) = a + E.length by omega] at this
    rw [this]; congr 2; omega
  · intro j hj
    apply BitVec.eq_of_toNat_eq
    rw [hp j (by omega), e]
    rcases (by omega : j = 0 ∨ j = 1 ∨ j = 2) with e | e | e <;> subst e <;>
      simp only [List.take_succ_cons, List.take_zero, List.flatten_cons, List.flatten_nil, List.length_append, slice_length, List.length_nil] <;> omega
  · rw [hp 3 (by omega), e]
    simp only [List.take_succ_cons, List.take_zero, List.flatten_cons, List.flatten_nil, List.length_append, slice_length, List.length_nil]; omega
  · rw [hp 4 (by omega), e]
    simp only [List.take_succ_cons, List.take_zero, List.flatten_cons, List.flatten_nil, List.length_append, slice_length, List.length_nil]; omega

/-- A new value in `last_label_num`. -/
theorem JRep.setLast {p : JPar} {n : NS} {v : JV} (h : JRep p n v) (x : B) : JRep p { n with last := x.toNat } { v with ram := upd v.ram lastLabel x } := by
  have hlow := h.low; have hb := h.below; have hbl := h.base_le; have hle := h.lptr_le; have hroom := h.room
  have e : ∀ i, memStart + BitVec.ofNat 16 i = BitVec.ofNat 16 (0xA2 + i) := by intro i; rw [BitVec.ofNat_add]; rfl
  have ne : ∀ a, a < 65536 → a ≠ 0xB0 → upd v.ram lastLabel x (BitVec.ofNat 16 a) = v.ram (BitVec.ofNat 16 a) := fun a h1 h2 => upd_ne (wne (b := 0xB0) h1 (by omega) h2)
  have pt : ∀ j ≤ 4, ptr (upd v.ram lastLabel x) j = ptr v.ram j := by
    intro j hj
    apply toNat_ptr_eq
    · rw [e, ne _ (by omega) (by omega)]
    · rw [e, ne _ (by omega) (by omega)]
  have n1 := ne 0x2E5 (by omega) (by omega); have n2 := ne 0x2E6 (by omega) (by omega)
  have n3 := ne 0xB1 (by omega) (by omega); have n4 := ne 0xB2 (by omega) (by omega); have n5 := ne 0xB3 (by omega) (by omega)
  refine ⟨h.low, h.base_le, h.prog, (pt 0 (by omega)).trans h.pptr, h.below, by show (ptr (upd _ _ _) 3).toNat = _; rw [pt 3 (by omega)]; exact h.lbuf, ?_, h.topOk, ?_, h.mins, ?_, h.cp, ?_, ?_, h.room, ?_,
    h.ents, ?_, ?_, by show (ptr (upd _ _ _) 4).toNat = _; rw [pt 4 (by omega)]; exact h.lptr, h.labs, h.fits⟩
  · show (memTop (upd v.ram lastLabel x)).toNat = _
    rw [← h.top, memTop, memTop]
    exact congrArg BitVec.toNat (congr (congrArg Rt.word n1) n2)
  · refine ⟨?_, ?_, ?_⟩
    · show 0x300 ≤ (ptr (upd _ _ _) 0).toNat; rw [pt 0 (by omega)]; exact h.ord.lo
    · intro i hi
      show (ptr (upd _ _ _) i).toNat ≤ (ptr (upd _ _ _) (i + 1)).toNat
      rw [pt i (by omega), pt (i + 1) (by omega)]; exact h.ord.mono i hi
    · show (ptr (upd _ _ _) 4).toNat ≤ _; rw [pt 4 (by omega)]; exact h.ord.hi
  · show (Rt.word (upd _ _ _ _) (upd _ _ _ _)).toNat = _
    rw [← h.rel]
    exact congrArg BitVec.toNat (congr (congrArg Rt.word n3) n4)
  · intro a ha ha'
    have := h.prog_lt
    show Knows _ (upd _ _ _ _)
    rw [ne a (by omega) (by omega)]; exact h.mem a ha ha'
  · show (upd _ _ _ _).toNat = _
    rw [← h.sp]; exact congrArg BitVec.toNat n5
  · exact h.loops.congr fun i hi => ne _ (by omega) (by omega)
  · show (upd _ _ _ _).toNat = _
    simp [upd]
  · exact h.lab.congr fun i hi hi' => ne _ (by omega) (by omega)

/-- The frame of `E_LABEL_CREATE`. -/
structure Frc (p : JPar) (v v' : JV) : Prop where
  out : v'.out = v.out
  dev : v'.dev = v.dev
  line : v'.z.inb = v.z.inb ∧ v'.z.inbh = v.z.inbh
  ram : ∀ a : W, a.toNat < p.base ∨ p.top ≤ a.toNat → ¬ (0xA2 ≤ a.toNat ∧ a.toNat ≤ 0xAC) → a.toNat ≠ 0xAF → a.toNat ≠ 0xB0 → v'.ram a = v.ram a

section
variable (err lerr : B)
local notation "Q" => jmpCode err lerr memCode
variable {p : JPar} {n : NS} {m : M} {k : Code} {st : List Slot} {ls : List Rt.Ent} {b : Nat} {N : List B}

theorem JRep.side {v : JV} (h : JRep p n v) (sl sh : B → B) (out : List (B × B)) (dev : List (B × B) → Regs) : JRep p n { v with sl := sl, sh := sh, out := out, dev := dev } :=
  ⟨h.low, h.base_le, h.prog, h.pptr, h.below, h.lbuf, h.top, h.topOk, h.ord, h.mins, h.rel, h.cp, h.mem, h.sp, h.room, h.loops, h.ents, h.last, h.lab, h.lptr, h.labs, h.fits⟩

theorem lc_end' (m : M) {k : Code} {st : List Slot} (hs : m.stk = .ret k :: st) :
    ∃ m', Reach memCode (.lb "lc_2" :: memCode.lc_2) m k m' ∧ m'.stk = st ∧ m'.c = false ∧ m'.zp = m.zp ∧ m'.ram = upd m.ram lblCount (m.ram lblCount + 1#8) ∧ m'.out = m.out ∧ m'.dev = m.dev := by
  refine ⟨?_, ⟨5, ?_⟩, ?_⟩
  rotate_left
  · rt_exec [memCode.lc_2.eq, memCode.lc_ret.eq, hs]
    rfl
  · exact ⟨rfl, rfl, rfl, rfl, rfl, rfl⟩

theorem new_suf : Suf memCode memCode.name_new := find_suf memCode.name_new.find

/-- `E_LABEL_CREATE` with a known name: its number is in `last_label_num`. -/
theorem m_create_old (h : JRep p n m.jv) (hs : m.stk = .ret k :: st) (ht : NamesAt p n m.ram ls) (hN : NameIn m b N) (hin : nameOf N ∈ n.names) :
    ∃ m', Reach Q memCode.label_create m k m' ∧ m'.c = false ∧ m'.stk = st ∧ JRep p (n.eLabelCreate (nameOf N)) m'.jv ∧ NamesAt p (n.eLabelCreate (nameOf N)) m'.ram ls ∧ Frc p m.jv m'.jv ∧
      m'.zp.cix.toNat = m.zp.cix.toNat + b + N.length := by
  obtain ⟨m0, r0, e0⟩ := lc_begin m
  have hN0 : NameIn m0 b N := by
    refine ⟨hN.isName, ?_⟩
    obtain ⟨c, h1, h2⟩ := hN.at'
    exact ⟨c, h1, by rw [e0]; exact h2.text, by rw [e0]; exact h2.room⟩
  obtain ⟨m1, z, r1, v1, y1, y2, y3, y4, y5, y6, A1, _⟩ := m_search err lerr (m := m0) (by rw [e0]) (by rw [e0]; exact ht) hN0
  have F := NamesAt.found (v := m.jv) ht A1
  rw [if_pos hin] at F
  obtain ⟨c1, x1, _⟩ := F
  have v0 : m0.jv = { m.jv with stk := m0.stk } := by rw [e0]; rfl
  have s1 : m1.stk = .ret k :: st := by
    rw [show m1.stk = m.stk from congrArg JV.stk v1]; exact hs
  obtain ⟨m2, r2, e2⟩ := lc_exists m1 k st s1 c1
  have v2 : m2.jv = { m.jv with stk := st, z := z, ram := upd m.ram lastLabel m1.x } := by
    rw [e2]
    show ({ m1.jv with stk := st, ram := upd m1.jv.ram lastLabel m1.x } : JV) = _
    rw [v1, v0]; rfl
  rw [v0] at y1 y2 y3 y4 y5
  have hlt : n.names.idxOf (nameOf N) < 256 := by rw [← x1]; exact m1.x.isLt
  have en : n.eLabelCreate (nameOf N) = { n with last := m1.x.toNat } := by
    unfold NS.eLabelCreate
    rw [if_pos hin, Nat.mod_eq_of_lt hlt, x1]
  refine ⟨m2, (r0.more (mem_in err lerr)).trans (r1.trans (r2.more (mem_in err lerr))), by rw [e2]; exact c1, by rw [e2], ?_, ?_, ?_, ?_⟩
  · rw [v2, en]
    exact ((h.setLast m1.x).zp (z := z) y1 y2 y3).stk st
  · have hlo := ht.lo; have hhi := ht.hi; have hlow := h.low; have hbl := h.base_le; have hle := h.lptr_le
    have g : m2.ram = upd m.ram lastLabel m1.x := congrArg JV.ram v2
    have ne : ∀ a, a < 65536 → a ≠ 0xB0 → m2.ram (BitVec.ofNat 16 a) = m.ram (BitVec.ofNat 16 a) := fun a h1 h2 => by rw [g]; exact upd_ne (wne (b := 0xB0) h1 (by omega) h2)
    have e : ∀ i, memStart + BitVec.ofNat 16 i = BitVec.ofNat 16 (0xA2 + i) := by intro i; rw [BitVec.ofNat_add]; rfl
    have p2 : ptr m2.ram 2 = ptr m.ram 2 := by
      apply toNat_ptr_eq
      · rw [e, ne _ (by omega) (by omega)]
      · rw [e, ne _ (by omega) (by omega)]
    refine ⟨ht.ok, ht.types, ?_, ?_, by rw [p2]; exact ht.lo, by rw [p2]; exact ht.hi, by rw [en]; exact ht.names⟩
    · rw [← ht.count]; exact congrArg BitVec.toNat (ne 0xAF (by omega) (by omega))
    · intro i hi
      rw [p2, ← ht.text i hi, g]
      apply upd_ne
      intro ee
      have := congrArg BitVec.toNat ee
      rw [BitVec.toNat_add, BitVec.toNat_ofNat, show lastLabel.toNat = 0xB0 from rfl] at this
      omega
  · rw [v2]
    refine ⟨rfl, rfl, ⟨y4, y5⟩, fun a h1 h2 h3 h4 => ?_⟩
    exact upd_ne fun ee => h4 (by rw [ee]; rfl)
  · have : m2.zp.cix = z.cix := by
      show m2.jv.z.cix = _
      rw [v2]
    rw [this, y6, e0]

/-- `E_LABEL_CREATE` with a new name: the table has it at the end. -/
theorem m_create_new (h : JRep p n m.jv) (hs : m.stk = .ret k :: st) (ht : NamesAt p n m.ram ls) (hN : NameIn m b N) (hin : nameOf N ∉ n.names) (hl : N.length ≤ 129) (hcount : ls.length < 255)
    (hlow : TextLow p.base (idx m.bp m.zp.cix + BitVec.ofNat 16 b) N) (hf : p.lbuf + 4 * n.lab.length + N.length + 1 < p.top) :
    ∃ m', Reach Q memCode.label_create m k m' ∧ m'.c = false ∧ m'.stk = st ∧ JRep { p with lbuf := p.lbuf + (N.length + 1) } (n.eLabelCreate (nameOf N)) m'.jv ∧
      NamesAt { p with lbuf := p.lbuf + (N.length + 1) } (n.eLabelCreate (nameOf N)) m'.ram (ls ++ [⟨N, 0⟩]) ∧ Frc p m.jv m'.jv ∧ m'.zp.cix.toNat = m.zp.cix.toNat + b + N.length := by
  have hlo := h.low; have hb := h.below; have hlt := h.prog_lt; have hbl := h.base_le; have htop := h.topOk
  have hpt : (ptr m.ram 0).toNat = p.prog := by rw [← h.prog]; exact congrArg BitVec.toNat h.pptr
  have hp3 : (ptr m.ram 3).toNat = p.lbuf := h.lbuf
  have hp4 : (ptr m.ram 4).toNat = p.lbuf + 4 * n.lab.length := h.lptr
  obtain ⟨m0, r0, e0⟩ := lc_begin m
  have hN0 : NameIn m0 b N := by
    refine ⟨hN.isName, ?_⟩
    obtain ⟨c, h1, h2⟩ := hN.at'
    exact ⟨c, h1, by rw [e0]; exact h2.text, by rw [e0]; exact h2.room⟩
  obtain ⟨m1, z, r1, v1, y1, y2, y3, y4, y5, y6, A1, _, l1, n1⟩ := m_search err lerr (m := m0) (by rw [e0]) (by rw [e0]; exact ht) hN0
  have F := NamesAt.found (v := m.jv) ht A1
  rw [if_neg hin] at F
  obtain ⟨c1, x1, hno⟩ := F
  have v0 : m0.jv = { m.jv with stk := m0.stk } := by rw [e0]; rfl
  have b0 : idx m0.bp m0.zp.cix = idx m.bp m.zp.cix := by rw [e0]; rfl
  have k0 : m0.zp.cix = m.zp.cix := by rw [e0]
  rw [v0] at y1 y2 y3 y4 y5
  rw [b0] at n1
  rw [k0] at y6
  have s1 : m1.stk = .ret k :: st := by
    rw [show m1.stk = m.stk from congrArg JV.stk v1]; exact hs
  have g1 : m1.ram = m.ram := by
    rw [show m1.ram = m0.jv.ram from congrArg JV.ram v1, v0]; rfl
  have z1 : m1.jv.z = z := by rw [v1]
  obtain ⟨m2, r2, e2⟩ := lc_new m1 c1
  have g2 : m2.ram = upd m.ram lastLabel m1.x := by rw [e2, g1]
  obtain ⟨q1, q2⟩ := cell_free lastLabel (.inr (.inr rfl))
  have lays : Lays m.ram p.base (areas m.ram p.base) := areas_lays h.ord (by omega) (by rw [hpt]; omega)
  have flen : p.base + (areas m.ram p.base).flatten.length = p.lbuf + 4 * n.lab.length := by
    have := lays.ptrs 4 (by omega)
    rw [List.take_of_length_le (by show 5 ≤ 5; omega), hp4] at this
    omega
  have hne : N ≠ [] := by obtain ⟨d, l, h, _⟩ := hN.isName; rw [h]; simp
  have mt : memTop (upd m.ram lastLabel m1.x) = memTop m.ram := by
    unfold memTop; rw [upd_ne (by decide), upd_ne (by decide)]
  have topv : (memTop m.ram).toNat = p.top := h.top
  have txt : TextAt (upd m.ram lastLabel m1.x) (idx m.bp m.zp.cix + BitVec.ofNat 16 b) N := by
    obtain ⟨c, _, hat⟩ := hN.at'
    have := (TextAt.append hat.text).2
    rw [List.length_replicate] at this
    exact text_upd (TextAt.append this).1 hlow (d := 0) (by omega)
  obtain ⟨m3, r3, s3, nm3, L3, k3⟩ := C38_new { m2 with stk := [.ret away] } away [] p.base (areas m.ram p.base) 3 N (by omega) (by rw [e2]; rfl) rfl
    (by rw [e2]; show m1.jv.z.mins = _; rw [z1, y1]; exact h.mins) (by show (memTop m2.ram).toNat ≤ _; rw [g2, mt, topv]; exact htop)
    (by show Lays m2.ram _ _; rw [g2]; exact lays_upd lays _ _ (by show 0xB0 < 0x300; omega) q1) hne hl (by rw [e2]; exact l1)
    (by show TextAt m2.ram m2.namp _; rw [g2, e2]; show TextAt _ m1.namp _; rw [n1]; exact txt) (by show TextLow _ m2.namp _; rw [e2]; show TextLow _ m1.namp _; rw [n1]; exact hlow)
    (by show _ < (memTop m2.ram).toNat; rw [g2, mt, topv, flen]; exact hf)
  have s2 : m2.stk = .ret (.lb "lc_2" :: memCode.lc_2) :: .ret k :: st := by rw [e2, s1]
  obtain ⟨r3', f3⟩ := mem_call err lerr new_suf s2 r3
  obtain ⟨m4, r4, s4, c4, z4, u4, o4, d4⟩ := lc_end' { m3 with stk := .ret k :: st } rfl
  obtain ⟨w1, w2, w3, w4, w5, w6⟩ := areas_grow h.ord (by show p.base ≤ (ptr m.ram 0).toNat; omega) L3
  change ∀ a, p.base ≤ a → a < (ptr m.ram 3).toNat → m3.ram _ = m.ram _ at w1
  change ∀ i _, m3.ram (BitVec.ofNat 16 ((ptr m.ram 3).toNat + i)) = _ at w2
  change ∀ a, (ptr m.ram 3).toNat ≤ a → a < (ptr m.ram 4).toNat → _ = m.ram _ at w3
  change ∀ j < 3, _ = ptr m.ram j at w4
  rw [show (ptr m.jv.ram 3).toNat = p.lbuf from h.lbuf] at w5
  rw [show (ptr m.jv.ram 4).toNat = _ from h.lptr] at w6
  rw [hp3] at w1 w2 w3
  rw [hp4] at w3
  have el : (Ent.bytes ⟨N, 0⟩).length = N.length + 1 := Ent.bytes_length _
  rw [el] at w3 w5 w6
  have ne4 : ∀ a, a < 65536 → a ≠ 0xAF → m4.ram (BitVec.ofNat 16 a) = m3.ram (BitVec.ofNat 16 a) := fun a h1 h2 => by rw [u4]; exact upd_ne (wne (b := 0xAF) h1 (by omega) h2)
  have e : ∀ i, memStart + BitVec.ofNat 16 i = BitVec.ofNat 16 (0xA2 + i) := by intro i; rw [BitVec.ofNat_add]; rfl
  have pt4 : ∀ j ≤ 4, ptr m4.ram j = ptr m3.ram j := by
    intro j hj
    apply toNat_ptr_eq
    · rw [e, ne4 _ (by omega) (by omega)]
    · rw [e, ne4 _ (by omega) (by omega)]
  have out3 : ∀ a : W, ¬ (0xA2 ≤ a.toNat ∧ a.toNat ≤ 0xAC) → a.toNat < p.base ∨ p.top ≤ a.toNat → m3.ram a = upd m.ram lastLabel m1.x a := by
    intro a h1 h2
    rw [← g2]
    refine k3 a ?_ ?_ ?_
    · intro b hb ee
      rw [ee, e, BitVec.toNat_ofNat, Nat.mod_eq_of_lt (by omega)] at h1
      omega
    · intro ee; rw [ee] at h1; exact h1 ⟨by decide, by decide⟩
    · rw [flen]; omega
  have rest : ∀ a : W, ¬ (0xA2 ≤ a.toNat ∧ a.toNat ≤ 0xAC) → a.toNat ≠ 0xAF → a.toNat ≠ 0xB0 → a.toNat < p.base ∨ p.top ≤ a.toNat → m4.ram a = m.ram a := by
    intro a h1 h2 h3 h4
    rw [u4, upd_ne (fun ee => h2 (by rw [ee]; rfl))]
    show m3.ram a = _
    rw [out3 a h1 h4, upd_ne (fun ee => h3 (by rw [ee]; rfl))]
  have S : Shift p m.jv.ram m4.ram (Ent.bytes ⟨N, 0⟩) n.lab.length := by
    refine ⟨?_, ?_, ?_, ?_, ?_, ?_, ?_⟩
    · intro a ha ha'
      rw [ne4 a (by omega) (by omega)]; exact w1 a ha ha'
    · intro i hi
      rw [el] at hi
      rw [ne4 _ (by omega) (by omega)]; exact w2 i (by rw [el]; exact hi)
    · intro a ha ha'
      rw [el, ne4 _ (by omega) (by omega)]; exact w3 a ha ha'
    · intro j hj
      rw [pt4 j (by omega)]; exact w4 j hj
    · rw [pt4 3 (by omega), el]; exact w5
    · rw [pt4 4 (by omega), el]; exact w6
    · intro a h0 h1 h2 h3 h4
      have tn : (BitVec.ofNat 16 a).toNat = a := by rw [BitVec.toNat_ofNat]; omega
      exact rest _ (by rw [tn]; exact h1) (by rw [tn]; exact h2) (by rw [tn]; exact h3) (by rw [tn]; exact h4)
  have hc : (m.ram lblCount).toNat = ls.length := ht.count
  have hc4 : (m4.ram lblCount).toNat = ls.length + 1 := by
    rw [u4]
    simp only [upd, if_pos]
    rw [out3 lblCount (by decide) (.inl (by show 0xAF < p.base; omega)), upd_ne (by decide), BitVec.toNat_add, hc]
    show (ls.length + 1) % 256 = _
    omega
  have hl4 : (m4.ram lastLabel).toNat = ls.length := by
    rw [u4, upd_ne (by decide)]
    show (m3.ram lastLabel).toNat = _
    rw [out3 lastLabel (by decide) (.inl (by show 0xB0 < p.base; omega))]
    simp only [upd, if_pos]
    rw [x1]
  have fm : m4.zp = m3.zp := z4
  obtain ⟨b1, b2, b3, b4, _⟩ := nm3
  simp only [memF, memSpared, List.map_cons, List.map_nil, Zp.get, Prod.mk.injEq, List.cons.injEq] at f3
  have z2 : m2.zp = m1.zp := by rw [e2]
  have jz : ∀ (x : M), x.jv.z.mins = x.zp.mins ∧ x.jv.z.prgp = x.zp.prgp ∧ x.jv.z.prgph = x.zp.prgph ∧ x.jv.z.inb = x.zp.inb ∧ x.jv.z.inbh = x.zp.inbh ∧ x.jv.z.cix = x.zp.cix := fun x => ⟨rfl, rfl, rfl, rfl, rfl, rfl⟩
  obtain ⟨j1, j2, j3, j4, j5, j6⟩ := jz m1
  rw [z1] at j1 j2 j3 j4 j5 j6
  have op1 : m1.zp.opos = m.zp.opos := by
    show m1.jv.op = m.jv.op
    rw [v1, v0]
  have en : n.eLabelCreate (nameOf N) = { n with last := ls.length, names := n.names ++ [nameOf N] } := by
    unfold NS.eLabelCreate
    have hlen : n.names.length = ls.length := by rw [ht.names, List.length_map]
    rw [if_neg hin, List.idxOf_eq_length hin, hlen, Nat.mod_eq_of_lt (by omega)]
  obtain ⟨R, T⟩ := shift_rep (z := m4.jv.z) h ht S hN.isName hl hf hl4 hc4
    (by show m4.zp.mins = _; rw [fm, b1]; show m2.zp.mins = _; rw [z2, ← j1]; exact y1)
    (by show m4.zp.prgp = _; rw [fm, f3.1.2.2.2.2.2.2.2.2.2.2.2.2.2.2.2.2.2.2.2.2.1, z2, ← j2]; exact y2)
    (by show m4.zp.prgph = _; rw [fm, f3.1.2.2.2.2.2.2.2.2.2.2.2.2.2.2.2.2.2.2.2.2.2.1, z2, ← j3]; exact y3) st
  have jv4 : m4.jv = { ({ m.jv with ram := m4.ram, z := m4.jv.z, stk := st } : JV) with sl := m4.sl, sh := m4.sh, out := m4.out, dev := m4.dev } := by
    have : m4.jv.op = m.jv.op := by
      show m4.zp.opos = m.zp.opos
      rw [fm, f3.1.2.2.2.2.2.2.2.2.2.2.2.2.2.2.2.2.2.2.2.1, z2, op1]
    show _ = ({ op := m.jv.op, ram := m4.ram, stk := st, z := m4.jv.z, sl := m4.sl, sh := m4.sh, out := m4.out, dev := m4.dev } : JV)
    rw [← this, ← s4]; rfl
  refine ⟨m4, (r0.more (mem_in err lerr)).trans (r1.trans ((r2.more (mem_in err lerr)).trans (r3'.trans (r4.more (mem_in err lerr))))), c4, s4, ?_, ?_, ⟨?_, ?_, ⟨?_, ?_⟩, fun a h1 h2 h3 h4 => rest a h2 h3 h4 h1⟩, ?_⟩
  · rw [en, jv4]; exact R.side _ _ _ _
  · rw [en]; exact T
  · show m4.out = m.jv.out
    rw [o4, f3.2.1, e2]
    show m1.jv.out = m.jv.out
    rw [v1, v0]
  · show m4.dev = m.jv.dev
    rw [d4, f3.2.2, e2]
    show m1.jv.dev = m.jv.dev
    rw [v1, v0]
  · show m4.zp.inb = _; rw [fm, b2]; show m2.zp.inb = _; rw [z2, ← j4]; exact y4
  · show m4.zp.inbh = _; rw [fm, b3]; show m2.zp.inbh = _; rw [z2, ← j5]; exact y5
  · rw [fm, b4]; show m2.zp.cix.toNat = _; rw [z2, ← j6, y6]

/-- `E_LABEL_CREATE` with a new name, without memory. -/
theorem m_create_full (h : JRep p n m.jv) (hs : m.stk = .ret k :: st) (ht : NamesAt p n m.ram ls) (hN : NameIn m b N) (hin : nameOf N ∉ n.names) (hl : N.length ≤ 254)
    (hf : p.top ≤ p.lbuf + 4 * n.lab.length + N.length + 1) : Fails Q memCode.label_create m := by
  obtain ⟨m0, r0, e0⟩ := lc_begin m
  have hN0 : NameIn m0 b N := by
    refine ⟨hN.isName, ?_⟩
    obtain ⟨c, h1, h2⟩ := hN.at'
    exact ⟨c, h1, by rw [e0]; exact h2.text, by rw [e0]; exact h2.room⟩
  obtain ⟨m1, z, r1, v1, y1, y2, y3, y4, y5, y6, A1, _, l1, n1⟩ := m_search err lerr (m := m0) (by rw [e0]) (by rw [e0]; exact ht) hN0
  have F := NamesAt.found (v := m.jv) ht A1
  rw [if_neg hin] at F
  obtain ⟨c1, x1, hno⟩ := F
  have v0 : m0.jv = { m.jv with stk := m0.stk } := by rw [e0]; rfl
  have g1 : m1.ram = m.ram := by
    rw [show m1.ram = m0.jv.ram from congrArg JV.ram v1, v0]; rfl
  obtain ⟨m2, r2, e2⟩ := lc_new m1 c1
  have g2 : m2.ram = upd m.ram lastLabel m1.x := by rw [e2, g1]
  have hne : N ≠ [] := by obtain ⟨d, l, h, _⟩ := hN.isName; rw [h]; simp
  have hpos : 0 < N.length := List.length_pos_iff.2 hne
  have z2 : m2.zp = m1.zp := by rw [e2]
  obtain ⟨m3, r3, a3, _, _, _, _, _, e3⟩ := nn_start m2 3 (by omega) (by rw [e2]; rfl) (fun e => by
    rw [z2] at e; rw [e] at l1; simp at l1; omega)
  have g3 : m3.ram = m2.ram := by rw [e3]
  have p4 : ptr m3.ram 4 = ptr m.ram 4 := by
    rw [g3, g2]
    have h := (h.setLast m1.x).lptr
    have h' := (‹JRep p n m.jv›).lptr
    apply BitVec.eq_of_toNat_eq
    exact h.trans h'.symm
  have t3 : memTop m3.ram = memTop m.ram := by
    rw [g3, g2]; unfold memTop; rw [upd_ne (by decide), upd_ne (by decide)]
  have q4 : (ptr m.ram 4).toNat = p.lbuf + 4 * n.lab.length := h.lptr
  have q5 : (memTop m.ram).toNat = p.top := h.top
  have q6 := h.topOk
  have q7 := h.fits
  refine ((r0.more (mem_in err lerr)).trans (r1.trans ((r2.more (mem_in err lerr)).trans (r3.more (mem_in err lerr))))).fails (Fails.more (mem_in err lerr) (aa_fails m3 (by rw [p4]; omega) ?_))
  rw [p4, t3, q4, q5, a3, z2]
  have : (add8 m1.zp.vlen 1#8 false).toNat = N.length + 1 := by
    rw [add8, BitVec.toNat_ofNat, l1]
    show (N.length + 1 + 0) % 256 = _
    omega
  omega

/-- The text at the input has no name: `b` blanks and a character that does not start a name. -/
def NoName (m : M) (b : Nat) : Prop :=
  ∃ c, ¬ NameStart c ∧ c ≠ 32#8 ∧ TextAt m.ram (idx m.bp m.zp.cix) (List.replicate b 32#8 ++ [c]) ∧ m.zp.cix.toNat + b < 256

theorem label_search_none (m : M) {k : Code} {st : List Slot} (hk : m.stk = .ret k :: st) (hn : NoName m b) :
    ∃ m', Reach memCode memCode.label_search m k m' ∧ m'.stk = st ∧ m'.c = true ∧ m'.zp.vlen = 0 := by
  obtain ⟨c, hc, hc', ht, hl⟩ := hn
  obtain ⟨m1, r1, y1, x1, k1⟩ := label_search_start m
  obtain ⟨_, _, _, _, _, _, e1⟩ := id k1
  obtain ⟨m2, r2, k2⟩ := list_search_start m1 2 (by omega) x1
  obtain ⟨_, _, _, _, _, _, e2⟩ := id k2
  have h2 : m2.ram = m.ram ∧ m2.bp = m.bp ∧ m2.zp.cix = m.zp.cix := by rw [e2, e1]; exact ⟨rfl, rfl, rfl⟩
  obtain ⟨m3, k3, l3, x3, c3, r3⟩ := var_getlen_none m2 b c (.lb "ls_1" :: memCode.ls_1) k st (by rw [e2]; show _ :: m1.stk = _; rw [e1, ← hk]) hc hc'
    (by rw [h2.1, h2.2.1, h2.2.2]; exact ht) (by rw [h2.2.2]; exact hl)
  exact ⟨{ m3 with stk := st }, r1.trans (r2.trans r3), rfl, c3, l3⟩

theorem nn_empty (m : M) {k k' : Code} {st : List Slot} (hs : m.stk = .ret k :: .ret k' :: st) (hv : m.zp.vlen = 0#8) :
    ∃ m', Reach memCode memCode.name_new m k' m' ∧ m'.stk = st ∧ m'.c = true := by
  refine ⟨?_, ⟨11, ?_⟩, ?_⟩
  rotate_left
  · rt_exec [memCode.name_new.eq, memCode.vg_drop.eq, memCode.vg_end.eq, hs, hv]
    rfl
  · exact ⟨rfl, rfl⟩

/-- `E_LABEL` without a name. -/
theorem m_label_none (h : JRep p n m.jv) (hs : m.stk = .ret k :: st) (hp : HasLast p n) (hn : NoName m b) : Refuses err lerr memCode (jmpCode.E_LABEL err lerr memCode) m k st := by
  let m0 : M := { m with stk := .ret (.lb "lb_1" :: jmpCode.lb_1 err lerr memCode) :: m.stk }
  have r0 : Reach Q (jmpCode.E_LABEL err lerr memCode) m (jmpCode.get_last_tok err lerr memCode) m0 := by
    refine ⟨1, ?_⟩
    rt_exec [jmpCode.E_LABEL.eq]
    rfl
  obtain ⟨m1, r1, d1, a1, c1, _, g1⟩ := m_last_ram err lerr memCode (m := m0) (k := .lb "lb_1" :: jmpCode.lb_1 err lerr memCode) (st := m.stk) (h.stk _) rfl hp
  let m2 : M := { m1 with zp := { m1.zp with tmp3 := m1.a }, stk := .ret (.lb "lb_2" :: jmpCode.lb_2 err lerr memCode) :: .ret k :: st }
  have s1 : m1.stk = .ret k :: st := d1.stk.trans hs
  have r2 : Reach Q (.lb "lb_1" :: jmpCode.lb_1 err lerr memCode) m1 memCode.label_search m2 := by
    refine ⟨3, ?_⟩
    rt_exec [jmpCode.lb_1.eq, s1, mem_in err lerr _ _ memCode.label_search.find]
    rfl
  have zz : m1.jv.z = m.jv.z := d1.fr.z
  have z1 : m1.zp.cix = m.zp.cix := by show m1.jv.z.cix = m.jv.z.cix; rw [zz]
  have z2 : m1.zp.inb = m.zp.inb := by show m1.jv.z.inb = m.jv.z.inb; rw [zz]
  have z3 : m1.zp.inbh = m.zp.inbh := by show m1.jv.z.inbh = m.jv.z.inbh; rw [zz]
  have hN2 : NoName m2 b := by
    obtain ⟨c, h1, h2, h3, h4⟩ := hn
    refine ⟨c, h1, h2, ?_, ?_⟩
    · show TextAt m1.ram (idx (word m1.zp.inb m1.zp.inbh) m1.zp.cix) _
      rw [g1, z1, z2, z3]; exact h3
    · show m1.zp.cix.toNat + _ < _
      rw [z1]; exact h4
  obtain ⟨m3, r3, s3, c3, _⟩ := label_search_none m2 rfl hN2
  exact (lb_none err lerr c3 s3).pre (r0.trans (r1.trans (r2.trans (r3.more (mem_in err lerr)))))

/-- `E_LABEL_CREATE` without a name. -/
theorem m_create_none (hs : m.stk = .ret k :: st) (hn : NoName m b) : Refuses err lerr memCode memCode.label_create m k st := by
  obtain ⟨m0, r0, e0⟩ := lc_begin m
  have hN0 : NoName m0 b := by
    obtain ⟨c, h1, h2, h3, h4⟩ := hn
    exact ⟨c, h1, h2, by rw [e0]; exact h3, by rw [e0]; exact h4⟩
  obtain ⟨m1, r1, s1, c1, l1⟩ := label_search_none m0 (by rw [e0]) hN0
  obtain ⟨m2, r2, e2⟩ := lc_new m1 c1
  obtain ⟨m3, r3, s3, c3⟩ := nn_empty m2 (k := .lb "lc_2" :: memCode.lc_2) (k' := k) (st := st) (by rw [e2, s1, hs]) (by rw [e2]; exact l1)
  exact .inr (.inr ⟨m3, (r0.trans (r1.trans (r2.trans r3))).more (mem_in err lerr), c3, s3⟩)

end
end FB.Eng
