import Verif.Eng.JLift
import Verif.Eng.Eol
/-!
# The jumps in the native compiler: pieces of the code

What the small routines of `jmpCode` do, seen through `JV`.
-/
namespace FB.Rt
open Ins Opd

/-- `prog_ptr`, the address of the next byte of code (`get_codep`) and `reloc_addr`. -/
def JV.prog (v : JV) : W := word v.z.prgp v.z.prgph
def JV.cp (v : JV) : W := idx v.prog v.op
def JV.rel (v : JV) : W := word (v.ram relocA) (v.ram relocA1)

theorem add_word (a x b y : B) : word (add8 a b false) (add8 x y (addC a b false)) = word a x + word b y := by
  have := a.isLt; have := x.isLt; have := b.isLt; have := y.isLt
  apply BitVec.eq_of_toNat_eq
  simp only [add8_toNat, addC_toNat, word_toNat, BitVec.toNat_add, Bool.toNat_false]
  omega

theorem codep_add (l h o : B) (hc : addC l o false = false) : word (add8 l o false) h = idx (word l h) o := by
  have := l.isLt; have := h.isLt; have := o.isLt
  have hc' := congrArg Bool.toNat hc
  simp only [addC_toNat, Bool.toNat_false] at hc'
  apply BitVec.eq_of_toNat_eq
  simp only [idx, add8_toNat, word_toNat, BitVec.toNat_add, BitVec.toNat_ofNat, Bool.toNat_false]
  omega
theorem codep_carry (l h o : B) (hc : addC l o false = true) : word (add8 l o false) (h + 1#8) = idx (word l h) o := by
  have := l.isLt; have := h.isLt; have := o.isLt
  have hc' := congrArg Bool.toNat hc
  simp only [addC_toNat, Bool.toNat_false, Bool.toNat_true] at hc'
  apply BitVec.eq_of_toNat_eq
  simp only [idx, add8_toNat, word_toNat, BitVec.toNat_add, BitVec.toNat_ofNat, Bool.toNat_false]
  omega

section
variable (err lerr : B) (rest : Code)
local notation "P" => jmpCode err lerr rest

/-- The routine shows an error message and the compiler ends. -/
def Errs (k : Code) (m : M) : Prop := ∃ m', Reach P k m (jmpCode.parser_error err lerr rest) m'

variable {err lerr rest}
theorem Reach.errs {k k' : Code} {m m' : M} (h : Reach P k m k' m') (h' : Errs err lerr rest k' m') : Errs err lerr rest k m := by
  obtain ⟨m2, h2⟩ := h'; exact ⟨m2, h.trans h2⟩
variable (err lerr rest)

variable {m : M} {k : Code} {st : List Slot} (hs : m.stk = .ret k :: st)
include hs

theorem j_inc (ho : ¬ m.zp.opos + 1#8 = 0#8) : ∃ m', Reach P (jmpCode.parser_inc_opos err lerr rest) m k m' ∧
    m'.jv = { m.jv with op := m.jv.op + 1, stk := st } ∧ m'.a = m.a ∧ m'.x = m.x ∧ m'.y = m.y ∧ m'.c = m.c ∧ m'.zp.tmp1 = m.zp.tmp1 ∧ m'.zp.tmp1h = m.zp.tmp1h := by
  refine ⟨?_, ⟨3, ?_⟩, ?_⟩
  rotate_left
  · rt_exec [jmpCode.parser_inc_opos.eq, jmpCode.rts1.eq, ho, hs]
    rfl
  · exact ⟨rfl, rfl, rfl, rfl, rfl, rfl, rfl⟩

theorem j_emit (ho : ¬ m.zp.opos + 1#8 = 0#8) : ∃ m', Reach P (jmpCode.parser_emit_byte err lerr rest) m k m' ∧
    m'.jv = { m.jv with op := m.jv.op + 1, stk := st, ram := upd m.ram m.jv.cp m.a } ∧ m'.a = m.a ∧ m'.x = m.x ∧ m'.c = m.c ∧ m'.zp.tmp1 = m.zp.tmp1 ∧ m'.zp.tmp1h = m.zp.tmp1h := by
  refine ⟨?_, ⟨6, ?_⟩, ?_⟩
  rotate_left
  · rt_exec [jmpCode.parser_emit_byte.eq, jmpCode.parser_inc_opos.eq, jmpCode.rts1.eq, ho, hs]
    rfl
  · exact ⟨rfl, rfl, rfl, rfl, rfl, rfl⟩

theorem j_last : ∃ m', Reach P (jmpCode.get_last_tok err lerr rest) m k m' ∧
    m'.jv = { m.jv with op := m.jv.op - 1, stk := st } ∧ m'.a = m.ram (idx m.jv.prog (m.jv.op - 1)) ∧ m'.x = m.x ∧ m'.c = m.c ∧ m'.zp.tmp1 = m.zp.tmp1 ∧ m'.zp.tmp1h = m.zp.tmp1h := by
  refine ⟨?_, ⟨4, ?_⟩, ?_⟩
  rotate_left
  · rt_exec [jmpCode.get_last_tok.eq, hs]
    rfl
  · exact ⟨rfl, rfl, rfl, rfl, rfl, rfl⟩

theorem j_codep : ∃ m', Reach P (jmpCode.get_codep err lerr rest) m k m' ∧ m'.zp = m.zp ∧
    m'.jv = { m.jv with stk := st } ∧ word m'.a m'.x = m.jv.cp ∧ m'.y = m.y ∧ m'.c = false := by
  cases hc : addC m.zp.prgp m.zp.opos false with
  | false =>
    refine ⟨?_, ⟨6, ?_⟩, ?_⟩
    rotate_left
    · rt_exec [jmpCode.get_codep.eq, jmpCode.gc_ok.eq, hs, hc]
      rfl
    · refine ⟨rfl, rfl, ?_, rfl, rfl⟩
      exact codep_add _ _ _ hc
  | true =>
    refine ⟨?_, ⟨9, ?_⟩, ?_⟩
    rotate_left
    · rt_exec [jmpCode.get_codep.eq, jmpCode.gc_ok.eq, hs, hc]
      rfl
    · refine ⟨rfl, rfl, ?_, rfl, rfl⟩
      exact codep_carry _ _ _ hc

omit hs in
theorem j_inc_long (ho : m.zp.opos + 1#8 = 0#8) : Errs err lerr rest (jmpCode.parser_inc_opos err lerr rest) m := by
  refine ⟨?_, ⟨5, ?_⟩⟩
  rotate_left
  · rt_exec [jmpCode.parser_inc_opos.eq, jmpCode.too_long.eq, ho]
    rfl

omit hs in
theorem j_emit_long (ho : m.zp.opos + 1#8 = 0#8) : Errs err lerr rest (jmpCode.parser_emit_byte err lerr rest) m := by
  refine ⟨?_, ⟨8, ?_⟩⟩
  rotate_left
  · rt_exec [jmpCode.parser_emit_byte.eq, jmpCode.parser_inc_opos.eq, jmpCode.too_long.eq, ho]
    rfl

omit hs in
theorem j_loop_err : Errs err lerr rest (jmpCode.loop_error err lerr rest) m := by
  refine ⟨?_, ⟨2, ?_⟩⟩
  rotate_left
  · rt_exec [jmpCode.loop_error.eq]
    rfl

/-- `patch_codep`. -/
theorem j_patch (hw : word m.a m.x ≠ relocA1) : ∃ m', Reach P (jmpCode.patch_codep err lerr rest) m k m' ∧
    m'.jv = { m.jv with stk := st, ram := upd (upd m.ram (word m.a m.x) (lo (m.jv.cp + m.jv.rel))) (word m.a m.x + 1) (hi (m.jv.cp + m.jv.rel)) } ∧
    m'.y = 1#8 ∧ m'.c = false ∧ m'.zp.tmp1 = m.zp.tmp1 ∧ m'.zp.tmp1h = m.zp.tmp1h := by
  obtain ⟨m1, r1, z1, v1, a1, y1, c1⟩ := j_codep err lerr rest
    (m := { m with zp := { m.zp with tmp2 := m.a, tmp2h := m.x }, stk := .ret (.lb "pt_1" :: jmpCode.pt_1 err lerr rest) :: m.stk }) rfl
  have s1 : m1.stk = .ret k :: st := (congrArg JV.stk v1).trans hs
  have hr : m1.ram = m.ram := congrArg JV.ram v1
  have e1 : m1.zp.tmp2 = m.a := by rw [z1]
  have e2 : m1.zp.tmp2h = m.x := by rw [z1]
  have w0 : idx (word m.a m.x) 0#8 = word m.a m.x := by simp [idx]
  have w1 : idx (word m.a m.x) 1#8 = word m.a m.x + 1#16 := by simp [idx]
  have e3 : upd m.ram (word m.a m.x) (add8 m1.a (m.ram 177#16) false) 178#16 = m.ram 178#16 := upd_ne (Ne.symm hw)
  refine ⟨?_, Reach.trans (Reach.trans ⟨3, ?_⟩ r1) ⟨10, ?_⟩, ?_⟩
  rotate_left
  · rt_exec [jmpCode.patch_codep.eq]
  · rt_exec [jmpCode.pt_1.eq, s1, c1, hr, e1, e2, w0, w1, e3]
    rfl
  · refine ⟨?_, rfl, rfl, ?_, ?_⟩
    · have a2 : lo (m.jv.cp + m.jv.rel) = add8 m1.a (m.ram relocA) false := by
        have : m.jv.cp = word m1.a m1.x := a1.symm
        rw [this, JV.rel, ← add_word, lo_word]; rfl
      have a3 : hi (m.jv.cp + m.jv.rel) = add8 m1.x (m.ram relocA1) (addC m1.a (m.ram relocA) false) := by
        have : m.jv.cp = word m1.a m1.x := a1.symm
        rw [this, JV.rel, ← add_word, hi_word]; rfl
      rw [a2, a3]
      simp only [M.jv, z1, JV.mk.injEq, true_and, and_true]
      have v2 := v1
      simp only [M.jv, JV.mk.injEq] at v2
      exact ⟨rfl, v2.2.2.2.2.1, v2.2.2.2.2.2.1, v2.2.2.2.2.2.2.1, v2.2.2.2.2.2.2.2⟩
    · show m1.zp.tmp1 = _; rw [z1]
    · show m1.zp.tmp1h = _; rw [z1]

/-- `emit_addr`. -/
theorem j_addr (hc : m.c = false) (h1 : ¬ m.zp.opos + 1#8 = 0#8) (h2 : ¬ m.zp.opos + 1#8 + 1#8 = 0#8) : ∃ m', Reach P (jmpCode.emit_addr err lerr rest) m k m' ∧
    m'.jv = { m.jv with stk := st, op := m.jv.op + 1 + 1,
                        ram := upd (upd m.ram m.jv.cp (lo (word m.a m.x + m.jv.rel))) (idx m.jv.prog (m.jv.op + 1)) (hi (word m.a m.x + m.jv.rel)) } ∧
    m'.c = false ∧ m'.zp.tmp1 = m.zp.tmp1 ∧ m'.zp.tmp1h = m.zp.tmp1h := by
  let m0 : M := { m with a := add8 m.a (m.ram 177#16) false, x := add8 m.x (m.ram 178#16) (addC m.a (m.ram 177#16) false), z := decide (add8 m.a (m.ram 177#16) false = 0#8),
                         n := topBit (add8 m.a (m.ram 177#16) false), v := addV m.x (m.ram 178#16) (addC m.a (m.ram 177#16) false),
                         c := false, stk := .ret (.lb "ea_1" :: jmpCode.ea_1 err lerr rest) :: m.stk }
  obtain ⟨m1, r1, v1, a1, x1, c1, t1, t2⟩ := j_emit err lerr rest (m := m0) rfl h1
  let m2 : M := { m1 with a := m1.x, z := decide (m1.x = 0#8), n := topBit m1.x }
  have s1 : m1.stk = m.stk := congrArg JV.stk v1
  have o1 : m1.zp.opos = m.zp.opos + 1#8 := congrArg JV.op v1
  have z1 : m1.jv.z = m.jv.z := by rw [v1]; rfl
  have q1 : m1.ram = upd m.ram m.jv.cp m0.a := congrArg JV.ram v1
  obtain ⟨m3, r3, v3, a3, x3, c3, t3, t4⟩ := j_emit err lerr rest (m := m2) (k := k) (st := st) (by show m1.stk = _; rw [s1, hs]) (by show ¬ m1.zp.opos + 1#8 = 0#8; rw [o1]; exact h2)
  refine ⟨m3, Reach.trans (Reach.trans ⟨9, ?_⟩ r1) (Reach.trans ⟨3, ?_⟩ r3), ?_, ?_, ?_, ?_⟩
  · rt_exec [jmpCode.emit_addr.eq, jmpCode.emit_AX.eq, hc]
    rfl
  · rt_exec [jmpCode.ea_1.eq]
    rfl
  · have w : word m0.a m0.x = word m.a m.x + m.jv.rel := add_word ..
    have e1 : m2.jv.cp = idx m.jv.prog (m.jv.op + 1) := by
      show idx (word m1.jv.z.prgp m1.jv.z.prgph) m1.zp.opos = _
      rw [z1, o1]; rfl
    rw [v3, e1, ← w, lo_word, hi_word]
    show ({ m1.jv with op := m1.jv.op + 1, stk := st, ram := upd m1.ram (idx m.jv.prog (m.jv.op + 1)) m1.x } : JV) = _
    rw [v1, q1, x1]; rfl
  · rw [c3]; exact c1
  · rw [t3]; exact t1
  · rw [t4]; exact t2

omit hs in
theorem j_addr_long (hc : m.c = false) (h : m.zp.opos + 1#8 = 0#8 ∨ m.zp.opos + 1#8 + 1#8 = 0#8) : Errs err lerr rest (jmpCode.emit_addr err lerr rest) m := by
  let m0 : M := { m with a := add8 m.a (m.ram 177#16) false, x := add8 m.x (m.ram 178#16) (addC m.a (m.ram 177#16) false), z := decide (add8 m.a (m.ram 177#16) false = 0#8),
                         n := topBit (add8 m.a (m.ram 177#16) false), v := addV m.x (m.ram 178#16) (addC m.a (m.ram 177#16) false),
                         c := false, stk := .ret (.lb "ea_1" :: jmpCode.ea_1 err lerr rest) :: m.stk }
  have r0 : Reach P (jmpCode.emit_addr err lerr rest) m (jmpCode.parser_emit_byte err lerr rest) m0 := by
    refine ⟨9, ?_⟩
    rt_exec [jmpCode.emit_addr.eq, jmpCode.emit_AX.eq, hc]
    rfl
  by_cases h1 : m.zp.opos + 1#8 = 0#8
  · exact r0.errs (j_emit_long err lerr rest (m := m0) h1)
  · obtain ⟨m1, r1, v1, a1, x1, c1, t1, t2⟩ := j_emit err lerr rest (m := m0) rfl h1
    let m2 : M := { m1 with a := m1.x, z := decide (m1.x = 0#8), n := topBit m1.x }
    have o1 : m1.zp.opos = m.zp.opos + 1#8 := congrArg JV.op v1
    refine (r0.trans (r1.trans ?_)).errs (j_emit_long err lerr rest (m := m2) ?_)
    · refine ⟨3, ?_⟩
      rt_exec [jmpCode.ea_1.eq]
      rfl
    · show m1.zp.opos + 1#8 = 0#8
      rw [o1]; exact h.resolve_left h1

/-- `inc_opos_2`. -/
theorem j_inc2 (h1 : ¬ m.zp.opos + 1#8 = 0#8) (h2 : ¬ m.zp.opos + 1#8 + 1#8 = 0#8) : ∃ m', Reach P (jmpCode.inc_opos_2 err lerr rest) m k m' ∧
    m'.jv = { m.jv with stk := st, op := m.jv.op + 1 + 1 } ∧ m'.a = m.a ∧ m'.c = false ∧ m'.zp.tmp1 = m.zp.tmp1 ∧ m'.zp.tmp1h = m.zp.tmp1h := by
  obtain ⟨m1, r1, v1, a1, x1, y1, c1, t1, t2⟩ := j_inc err lerr rest (m := { m with stk := .ret (.lb "pc_2" :: jmpCode.pc_2 err lerr rest) :: m.stk }) rfl h1
  have o1 : m1.zp.opos = m.zp.opos + 1#8 := congrArg JV.op v1
  obtain ⟨m2, r2, v2, a2, x2, y2, c2, t3, t4⟩ := j_inc err lerr rest (m := { m1 with stk := .ret (.lb "pc_xit" :: jmpCode.pc_xit err lerr rest) :: m1.stk }) rfl
    (by show ¬ m1.zp.opos + 1#8 = 0#8; rw [o1]; exact h2)
  have s1 : m1.stk = m.stk := congrArg JV.stk v1
  have s2 : m2.stk = .ret k :: st := by rw [show m2.stk = m1.stk from congrArg JV.stk v2, s1, hs]
  refine ⟨{ m2 with c := false, stk := st }, Reach.trans (Reach.trans ⟨1, ?_⟩ r1) (Reach.trans (Reach.trans ⟨2, ?_⟩ r2) ⟨3, ?_⟩), ?_, ?_, rfl, ?_, ?_⟩
  · rt_exec [jmpCode.inc_opos_2.eq]
  · rt_exec [jmpCode.pc_2.eq]
  · rt_exec [jmpCode.pc_xit.eq, s2]
  · show ({ m2.jv with stk := st } : JV) = _
    rw [v2]
    show ({ m1.jv with op := m1.jv.op + 1, stk := st } : JV) = _
    rw [v1]; rfl
  · exact a2.trans a1
  · exact t3.trans t1
  · exact t4.trans t2

omit hs in
theorem j_inc2_long (h : m.zp.opos + 1#8 = 0#8 ∨ m.zp.opos + 1#8 + 1#8 = 0#8) : Errs err lerr rest (jmpCode.inc_opos_2 err lerr rest) m := by
  have r0 : Reach P (jmpCode.inc_opos_2 err lerr rest) m (jmpCode.parser_inc_opos err lerr rest) { m with stk := .ret (.lb "pc_2" :: jmpCode.pc_2 err lerr rest) :: m.stk } := by
    refine ⟨1, ?_⟩
    rt_exec [jmpCode.inc_opos_2.eq]
  by_cases h1 : m.zp.opos + 1#8 = 0#8
  · exact r0.errs (j_inc_long err lerr rest h1)
  · obtain ⟨m1, r1, v1, a1, x1, y1, c1, t1, t2⟩ := j_inc err lerr rest (m := { m with stk := .ret (.lb "pc_2" :: jmpCode.pc_2 err lerr rest) :: m.stk }) rfl h1
    have o1 : m1.zp.opos = m.zp.opos + 1#8 := congrArg JV.op v1
    refine (r0.trans (r1.trans ?_)).errs (j_inc_long err lerr rest (m := { m1 with stk := .ret (.lb "pc_xit" :: jmpCode.pc_xit err lerr rest) :: m1.stk }) ?_)
    · refine ⟨2, ?_⟩
      rt_exec [jmpCode.pc_2.eq]
    · show m1.zp.opos + 1#8 = 0#8
      rw [o1]; exact h.resolve_left h1

/-- The memory after pushing an entry of type `t` when `Y` is `y`. -/
def JV.pushed (v : JV) (y t : B) : W → B :=
  upd (upd (upd (upd v.ram 0xB3 (y + 1 + 1 + 1)) (idx 0x3fd (y + 1 + 1 + 1)) t) (idx 0x3fe (y + 1 + 1 + 1)) (lo v.cp)) (idx 0x3ff (y + 1 + 1 + 1)) (hi v.cp)

omit hs in
theorem j_push_start (hy : topBit (m.y + 1#8 + 1#8 + 1#8) = false) : ∃ m', Reach P (jmpCode.push_codep_y err lerr rest) m (jmpCode.pc_1 err lerr rest) m' ∧
    m'.jv = { m.jv with stk := .byte m.a :: m.stk, ram := upd (upd m.ram 0xB3 (m.y + 1 + 1 + 1)) (idx 0x3fd (m.y + 1 + 1 + 1)) m.a } ∧ word m'.a m'.x = m.jv.cp ∧ m'.y = m.y + 1 + 1 + 1 ∧ m'.zp = m.zp := by
  let m0 : M := { m with y := m.y + 1#8 + 1#8 + 1#8, z := decide (m.y + 1#8 + 1#8 + 1#8 = 0#8), n := false,
                         ram := upd (upd m.ram 0xB3#16 (m.y + 1#8 + 1#8 + 1#8)) (idx 0x3fd#16 (m.y + 1#8 + 1#8 + 1#8)) m.a,
                         stk := .ret (.lb "pc_1" :: jmpCode.pc_1 err lerr rest) :: .byte m.a :: m.stk }
  obtain ⟨m1, r1, z1, v1, a1, y1, c1⟩ := j_codep err lerr rest (m := m0) rfl
  refine ⟨m1, Reach.trans ⟨8, ?_⟩ (Reach.trans r1 ⟨1, ?_⟩), ?_, a1, y1, z1⟩
  · rt_exec [jmpCode.push_codep_y.eq, hy]
    rfl
  · rt_exec
  · rw [v1]; rfl

omit hs in
theorem j_push_full (hy : topBit (m.y + 1#8 + 1#8 + 1#8) = true) : Errs err lerr rest (jmpCode.push_codep_y err lerr rest) m := by
  refine ⟨?_, ⟨6, ?_⟩⟩
  rotate_left
  · rt_exec [jmpCode.push_codep_y.eq, jmpCode.loop_error.eq, hy]
    rfl

/-- `push_codep` with bit 6 of the type set: nothing is reserved. -/
theorem j_push6 (hy : topBit (m.y + 1#8 + 1#8 + 1#8) = false) (hb : topBit (rol8 m.a false) = true) : ∃ m', Reach P (jmpCode.push_codep_y err lerr rest) m k m' ∧
    m'.jv = { m.jv with stk := st, ram := m.jv.pushed m.y m.a } ∧ m'.c = false ∧ m'.zp.tmp1 = m.zp.tmp1 ∧ m'.zp.tmp1h = m.zp.tmp1h := by
  obtain ⟨m1, r1, v1, a1, y1, z1⟩ := j_push_start err lerr rest hy
  have s1 : m1.stk = .byte m.a :: .ret k :: st := by rw [show m1.stk = .byte m.a :: m.stk from congrArg JV.stk v1, hs]
  have q1 : m1.ram = upd (upd m.ram 0xB3 (m.y + 1 + 1 + 1)) (idx 0x3fd (m.y + 1 + 1 + 1)) m.a := congrArg JV.ram v1
  refine ⟨?_, Reach.trans r1 ⟨8, ?_⟩, ?_, ?_⟩
  rotate_left
  · rt_exec [jmpCode.pc_1.eq, jmpCode.pc_xit.eq, s1, hb]
    rfl
  · have e : ({ m1.jv with stk := st, ram := upd (upd m1.ram (idx 0x3fe m1.y) m1.a) (idx 0x3ff m1.y) m1.x } : JV) = { m.jv with stk := st, ram := m.jv.pushed m.y m.a } := by
      rw [JV.pushed, ← a1, lo_word, hi_word, q1, y1, v1]; rfl
    exact e
  · refine ⟨rfl, ?_, ?_⟩
    · show m1.zp.tmp1 = _; rw [z1]
    · show m1.zp.tmp1h = _; rw [z1]

omit hs in
theorem j_push_mid (hy : topBit (m.y + 1#8 + 1#8 + 1#8) = false) (hb : topBit (rol8 m.a false) = false) : ∃ m', Reach P (jmpCode.push_codep_y err lerr rest) m (jmpCode.inc_opos_2 err lerr rest) m' ∧
    m'.jv = { m.jv with ram := m.jv.pushed m.y m.a } ∧ m'.zp = m.zp := by
  obtain ⟨m1, r1, v1, a1, y1, z1⟩ := j_push_start err lerr rest hy
  have s1 : m1.stk = .byte m.a :: m.stk := congrArg JV.stk v1
  have q1 : m1.ram = upd (upd m.ram 0xB3 (m.y + 1 + 1 + 1)) (idx 0x3fd (m.y + 1 + 1 + 1)) m.a := congrArg JV.ram v1
  refine ⟨?_, Reach.trans r1 ⟨7, ?_⟩, ?_, ?_⟩
  rotate_left
  · rt_exec [jmpCode.pc_1.eq, jmpCode.pc_xit.eq, s1, hb]
    rfl
  · have e : ({ m1.jv with stk := m.stk, ram := upd (upd m1.ram (idx 0x3fe m1.y) m1.a) (idx 0x3ff m1.y) m1.x } : JV) = { m.jv with ram := m.jv.pushed m.y m.a } := by
      rw [JV.pushed, ← a1, lo_word, hi_word, q1, y1, v1]; rfl
    exact e
  · exact z1

/-- `push_codep` with bit 6 of the type clear: two bytes are reserved. -/
theorem j_push2 (hy : topBit (m.y + 1#8 + 1#8 + 1#8) = false) (hb : topBit (rol8 m.a false) = false) (h1 : ¬ m.zp.opos + 1#8 = 0#8) (h2 : ¬ m.zp.opos + 1#8 + 1#8 = 0#8) :
    ∃ m', Reach P (jmpCode.push_codep_y err lerr rest) m k m' ∧
    m'.jv = { m.jv with stk := st, op := m.jv.op + 1 + 1, ram := m.jv.pushed m.y m.a } ∧ m'.c = false ∧ m'.zp.tmp1 = m.zp.tmp1 ∧ m'.zp.tmp1h = m.zp.tmp1h := by
  obtain ⟨m1, r1, v1, z1⟩ := j_push_mid err lerr rest hy hb
  obtain ⟨m2, r2, v2, a2, c2, t3, t4⟩ := j_inc2 err lerr rest (m := m1) (k := k) (st := st) (by rw [show m1.stk = m.stk from congrArg JV.stk v1, hs]) (by rw [z1]; exact h1) (by rw [z1]; exact h2)
  refine ⟨m2, r1.trans r2, ?_, c2, ?_, ?_⟩
  · rw [v2, v1]
  · rw [t3, z1]
  · rw [t4, z1]

omit hs in
theorem j_push_long (hy : topBit (m.y + 1#8 + 1#8 + 1#8) = false) (hb : topBit (rol8 m.a false) = false) (h : m.zp.opos + 1#8 = 0#8 ∨ m.zp.opos + 1#8 + 1#8 = 0#8) :
    Errs err lerr rest (jmpCode.push_codep_y err lerr rest) m := by
  obtain ⟨m1, r1, v1, z1⟩ := j_push_mid err lerr rest hy hb
  exact r1.errs (j_inc2_long err lerr rest (by rw [z1]; exact h))

omit hs in
theorem idx_ne {w c : W} (b : B) (h : c.toNat < w.toNat) (h2 : w.toNat < 65280) : idx w b ≠ c := by
  intro e
  have := b.isLt
  have := congrArg BitVec.toNat e
  simp only [idx, BitVec.toNat_add, BitVec.toNat_ofNat] at this
  omega

/-- `pop_codep::get`. -/
theorem j_get : ∃ m', Reach P (jmpCode.pp_get err lerr rest) m k m' ∧ m'.jv = { m.jv with stk := st, ram := upd m.ram 0xB3 (m.y - 1 - 1 - 1) } ∧
    m'.a = m.ram (idx 0x401 (m.y - 1 - 1 - 1)) ∧ m'.x = m.ram (idx 0x402 (m.y - 1 - 1 - 1)) ∧ m'.c = false ∧ m'.zp = m.zp := by
  have e1 : upd m.ram 179#16 (m.y - 1#8 - 1#8 - 1#8) (idx 1026#16 (m.y - 1#8 - 1#8 - 1#8)) = m.ram (idx 1026#16 (m.y - 1#8 - 1#8 - 1#8)) := upd_ne (idx_ne _ (by decide) (by decide))
  have e2 : upd m.ram 179#16 (m.y - 1#8 - 1#8 - 1#8) (idx 1025#16 (m.y - 1#8 - 1#8 - 1#8)) = m.ram (idx 1025#16 (m.y - 1#8 - 1#8 - 1#8)) := upd_ne (idx_ne _ (by decide) (by decide))
  refine ⟨?_, ⟨9, ?_⟩, ?_⟩
  rotate_left
  · rt_exec [jmpCode.pp_get.eq, jmpCode.pp_rtsclc.eq, hs, e1, e2]
    rfl
  · exact ⟨rfl, rfl, rfl, rfl, rfl⟩

omit hs in
theorem j_pop_empty (h : m.ram 0xB3 = 0#8) : Errs err lerr rest (jmpCode.pop_codep err lerr rest) m := by
  have h' : m.ram 179#16 = 0#8 := h
  refine ⟨?_, ⟨4, ?_⟩⟩
  rotate_left
  · rt_exec [jmpCode.pop_codep.eq, jmpCode.loop_error.eq, h']
    rfl

omit hs in
theorem j_pop_hit (h : m.ram 0xB3 ≠ 0#8) (ht : m.a = m.ram (idx 0x3fd (m.ram 0xB3)) ∨ m.a = 130#8 ∧ 129#8 = m.ram (idx 0x3fd (m.ram 0xB3))) :
    ∃ m', Reach P (jmpCode.pop_codep err lerr rest) m (jmpCode.pp_get err lerr rest) m' ∧ m'.jv = m.jv ∧ m'.y = m.ram 0xB3 ∧ m'.zp = m.zp := by
  have h' : ¬ m.ram 179#16 = 0#8 := h
  by_cases e : m.a = m.ram (idx 1021#16 (m.ram 179#16))
  · refine ⟨?_, ⟨5, ?_⟩, ?_⟩
    rotate_left
    · rt_exec [jmpCode.pop_codep.eq, jmpCode.pp_retry.eq, h', sub_eq0, ← e]
      rfl
    · exact ⟨rfl, rfl, rfl⟩
  · obtain ⟨e1, e2⟩ := ht.resolve_left e
    have e2' : m.ram (idx 1021#16 (m.ram 179#16)) = 129#8 := e2.symm
    rw [e1, e2'] at e
    refine ⟨?_, ⟨11, ?_⟩, ?_⟩
    rotate_left
    · rt_exec [jmpCode.pop_codep.eq, jmpCode.pp_retry.eq, h', e1, e2', e]
      rfl
    · exact ⟨rfl, rfl, rfl⟩

omit hs in
theorem j_pop_miss (h : m.ram 0xB3 ≠ 0#8) (ht : ¬ (m.a = m.ram (idx 0x3fd (m.ram 0xB3)) ∨ m.a = 130#8 ∧ 129#8 = m.ram (idx 0x3fd (m.ram 0xB3)))) :
    Errs err lerr rest (jmpCode.pop_codep err lerr rest) m := by
  have h' : ¬ m.ram 179#16 = 0#8 := h
  have e : ¬ m.a = m.ram (idx 1021#16 (m.ram 179#16)) := fun e => ht (.inl e)
  by_cases e1 : m.a = 130#8
  · have e2 : ¬ 129#8 = m.ram (idx 1021#16 (m.ram 179#16)) := fun e2 => ht (.inr ⟨e1, e2⟩)
    rw [e1] at e
    refine ⟨?_, ⟨15, ?_⟩⟩
    rotate_left
    · rt_exec [jmpCode.pop_codep.eq, jmpCode.pp_retry.eq, jmpCode.loop_error.eq, h', sub_eq0, e1, e2, e]
      rfl
  · refine ⟨?_, ⟨9, ?_⟩⟩
    rotate_left
    · rt_exec [jmpCode.pop_codep.eq, jmpCode.pp_retry.eq, jmpCode.loop_error.eq, h', sub_eq0, e1, e]
      rfl

/-- `check_loop_exit` when there is no exit. -/
theorem j_check_no (h : m.ram 0xB3 = 0#8 ∨ m.ram (idx 0x3fd (m.ram 0xB3)) ≠ 0#8) : ∃ m', Reach P (jmpCode.check_loop_exit err lerr rest) m k m' ∧ m'.jv = { m.jv with stk := st } ∧ m'.c = false := by
  by_cases e : m.ram 179#16 = 0#8
  · refine ⟨?_, ⟨4, ?_⟩, ?_⟩
    rotate_left
    · rt_exec [jmpCode.check_loop_exit.eq, jmpCode.pp_rtsclc.eq, e, hs]
      rfl
    · exact ⟨rfl, rfl⟩
  · have e2 : ¬ m.ram (idx 1021#16 (m.ram 179#16)) = 0#8 := h.resolve_left e
    refine ⟨?_, ⟨6, ?_⟩, ?_⟩
    rotate_left
    · rt_exec [jmpCode.check_loop_exit.eq, jmpCode.pp_rtsclc.eq, e, e2, hs]
      rfl
    · exact ⟨rfl, rfl⟩

omit hs in
/-- `check_loop_exit` when there is one. -/
theorem j_check_yes (h : m.ram 0xB3 ≠ 0#8) (ht : m.ram (idx 0x3fd (m.ram 0xB3)) = 0#8) : ∃ m', Reach P (jmpCode.check_loop_exit err lerr rest) m (jmpCode.pp_get err lerr rest) m' ∧
    m'.jv = { m.jv with stk := .ret (.lb "ce_1" :: jmpCode.ce_1 err lerr rest) :: m.stk } ∧ m'.y = m.ram 0xB3 := by
  have h' : ¬ m.ram 179#16 = 0#8 := h
  have ht' : m.ram (idx 1021#16 (m.ram 179#16)) = 0#8 := ht
  refine ⟨?_, ⟨5, ?_⟩, ?_⟩
  rotate_left
  · rt_exec [jmpCode.check_loop_exit.eq, h', ht']
    rfl
  · exact ⟨rfl, rfl⟩

end
end FB.Rt
