import Verif.Rt.Dispatch
import Verif.Rt.VarAddr
import Verif.Rt.For
import Verif.Rt.Keep
/-!
# The short routines of the interpreter

Transcription of the routines of `/repo/src/interp` for constants, variables, memory, jumps and output, and what each does to the
state that a program can observe (`View`).
-/
namespace FB.Rt
open Ins Opd

/-- What a program can observe of the machine: accumulator, place in the code, integer stack, memory, store address, stack of
the processor, page of the variables, channel, characters written, start of free memory (`array_ptr`), and the instruction in
`move_loop` that the code changes. -/
@[ext] structure View where
  ax : W
  cp : W
  sp : B
  sl : B → B
  sh : B → B
  ram : W → B
  saddr : W
  stk : List Slot
  vpage : B
  chn : B
  out : List (B × B)
  arr : W
  mins : B

/-- The view of a state. -/
def M.view (m : M) : View :=
  { ax := word m.a m.x, cp := word m.zp.cptr m.zp.cptrh, sp := m.zp.sptr, sl := m.sl, sh := m.sh, ram := m.ram,
    saddr := word m.zp.saddr m.zp.saddrh, stk := m.stk, vpage := m.zp.vpage, chn := m.zp.chn, out := m.out,
    arr := word m.zp.arr m.zp.arrh, mins := m.zp.mins }

/-- Routines of `const.asm:36-82`, `push.asm:35-38`, `interpreter.asm:212-218` (`pushAX`), `peek.asm:34-48`, `peekb.asm:35-41`,
`poke.asm:34-38`, `dpoke.asm:34-41`, `dpeek.asm:35-61`, `saddr.asm:39-45`, `varstore.asm:35-39,47-70`, `varadd.asm:35-53`,
`varaddr.asm:39-60`, `jump.asm:35-56,67-80`, `return.asm:34-50`, `const_poke.asm:35-55`, `comp0.asm:42-60`, `inc.asm:35-64`,
`dec.asm:35-65`, `put.asm:35-37`, `putbyte.asm:35-39`, `a800/iochn.asm:35-48`, as assembled by default.  Local labels have other
names.  `(cptr,x)` with `X = 0` is the pointer without index; `$00,y` is `$0000,y`; the operands that the code modifies are the
cells `op1`, `op2`, `op3`.  The break key, which changes the `jmp` at `interpreter_jump_fixup`, is not modelled. -/
def coreCode : Code :=
  asm!["EXE_PUSH_NUM", jsr "pushAX",
   "EXE_NUM", ldy (imm 1), lda (indY .cptr .cptrh), tax, dey, lda (indY .cptr .cptrh),
   "inc_cptr_2", ldy (zp .cptr), cpy (imm 254), iny, iny, sty (zp .cptr), bcs "inc_cptr_hi", next,
   "EXE_PUSH_BYTE", jsr "pushAX",
   "EXE_BYTE", ldx (imm 0), lda (indXFF .cptr .cptrh),
   "inc_cptr_1", inc (zp .cptr), beq "inc_cptr_hi", next,
   "EXE_CSTRING", ldy (imm 0), sec, lda (zp .cptr), tax, adc (indY .cptr .cptrh), sta (zp .cptr), txa, ldx (zp .cptrh), bcc "cs_xit",
   "inc_cptr_hi", inc (zp .cptrh),
   "cs_xit", next,
   "EXE_PUSH", jsr "pushAX", next,
   "pushAX", sta (stkL 255), txa, sta (stkH 255), dec (zp .sptr), rts,
   "EXE_PEEK", stx (zp .op1), tax, "pk_load", lda (pageX 0 .op1), ldx (imm 0), next,
   "EXE_BYTE_PEEK", ldx (imm 0), lda (indXFF .cptr .cptrh), tay, lda (absY 0), jmp "inc_cptr_1",
   "EXE_POKE", ldy (imm 0), sta (indY .saddr .saddrh), next,
   "EXE_DPOKE", ldy (imm 0), sta (indY .saddr .saddrh), iny, txa, sta (indY .saddr .saddrh), next,
   "EXE_PUSH_VAR_LOAD", jsr "pushAX",
   "EXE_VAR_LOAD", jsr "get_op_var",
   "EXE_DPEEK", stx (zp .op1), stx (zp .op2), tay, ldx (pageY 1 .op1), lda (pageY 0 .op2), next,
   "EXE_VAR_SADDR", jsr "get_op_var",
   "EXE_SADDR", sta (zp .saddr), stx (zp .saddrh), next,
   "EXE_VAR_STORE_0", lda (imm 0), tax, beq "EXE_VAR_STORE",
   "EXE_VAR_STORE", pha, stx (zp .tmp2h), jsr "get_op_var",
   "vs_1", stx (zp .op1), stx (zp .op2), tax, pla, sta (pageX 0 .op2), lda (zp .tmp2h), sta (pageX 1 .op1), next,
   "EXE_ADD_VAR", sta (zp .tmp2), stx (zp .tmp2h), jsr "get_op_var",
   "av_1", sta (zp .tmp1), stx (zp .tmp1h), ldy (imm 0), lda (indY .tmp1 .tmp1h), clc, adc (zp .tmp2), pha, iny,
   lda (indY .tmp1 .tmp1h), adc (zp .tmp2h), tax, pla, next,
   "EXE_VAR_ADDR", jsr "get_op_var", next,
   "get_op_var", ldy (imm 0), lda (indY .cptr .cptrh), inc (zp .cptr), Ins.bne "va_1",
   inc (zp .cptrh),
   "va_1", ldx (zp .vpage), asl acc, bcc "va_2", inx,
   "va_2", rts,
   "EXE_CALL", lda (zp .cptr), clc, adc (imm 2), pha, lda (zp .cptrh), adc (imm 0), pha,
   "EXE_JUMP", ldy (imm 1), lda (indY .cptr .cptrh), tax, dey, lda (indY .cptr .cptrh),
   "interpreter_jump_ax", stx (zp .cptrh),
   "jmp_sto", sta (zp .cptr), next,
   "EXE_CNJUMP", eor (imm 1),
   "EXE_CJUMP", lsr acc, bcc "EXE_JUMP", lda (zp .cptr), adc (imm 1), bcc "jmp_sto", inc (zp .cptrh), bcs "jmp_sto",
   "EXE_CNRET", eor (imm 1),
   "EXE_CRET", lsr acc, bcs "ret_skip",
   "EXE_RET", pla, sta (zp .cptrh), pla, sta (zp .cptr),
   "ret_skip", next,
   "EXE_BYTE_POKE", ldy (imm 0), tax, lda (indY .cptr .cptrh), tay, stx (absY 0), jmp "inc_cptr_1",
   "EXE_NUM_POKE", tax, ldy (imm 1), lda (indY .cptr .cptrh), sta (zp .saddrh), dey, lda (indY .cptr .cptrh), sta (zp .saddr),
   txa, sta (indY .saddr .saddrh), jmp "inc_cptr_2",
   "EXE_PUSH_0", jsr "pushAX",
   "EXE_0", lda (imm 0), tax, next,
   "EXE_PUSH_1", jsr "pushAX",
   "EXE_1", lda (imm 1), ldx (imm 0), next,
   "EXE_INCVAR", jsr "get_op_var",
   "EXE_INC", stx (zp .op2), stx (zp .op1), tax, inc (pageX 0 .op1), Ins.bne "inc_xit",
   inc (pageX 1 .op2), "inc_xit", next,
   "EXE_DECVAR", jsr "get_op_var",
   "EXE_DEC", stx (zp .op3), stx (zp .op1), stx (zp .op2), tax, lda (pageX 0 .op1), Ins.bne "dec_L2",
   dec (pageX 1 .op3),
   "dec_L2", dec (pageX 0 .op2), next,
   "EXE_PUT", putc, next,
   "EXE_BYTE_PUT", ldx (imm 0), lda (indXFF .cptr .cptrh), putc, jmp "inc_cptr_1",
   "EXE_IOCHN", jsr "IOCHN_16",
   "io_1", stx (zp .chn), next,
   "IOCHN_16", asl acc, asl acc, asl acc, asl acc, tax, rts]

set_option maxRecDepth 4000 in
code_labels coreCode

/-! ## Pieces -/

theorem word_inc (l h : B) (hz : l + 1#8 = 0#8) : word (l + 1#8) (h + 1#8) = word l h + 1 := by
  have := l.isLt; have := h.isLt
  apply BitVec.eq_of_toNat_eq
  rw [← BitVec.toNat_inj] at hz
  simp [BitVec.toNat_add] at hz ⊢
  omega

theorem word_inc' (l h : B) (hz : ¬ l + 1#8 = 0#8) : word (l + 1#8) h = word l h + 1 := by
  have := l.isLt; have := h.isLt
  apply BitVec.eq_of_toNat_eq
  rw [← BitVec.toNat_inj] at hz
  simp [BitVec.toNat_add] at hz ⊢
  omega

/-- `inc_cptr_1`, `const.asm:63-66`. -/
theorem inc1 (m : M) : ∃ m', Halts coreCode coreCode.inc_cptr_1 m m' ∧ m'.view = { m.view with cp := m.view.cp + 1 } := by
  by_cases hz : m.zp.cptr + 1#8 = 0#8
  · refine ⟨?_, ⟨10, ?_⟩, ?_⟩
    rotate_left
    · rw [coreCode.inc_cptr_1.eq]
      rt_exec [hz, coreCode.inc_cptr_hi.eq, coreCode.cs_xit.eq]
      rfl
    · have := word_inc _ m.zp.cptrh hz
      rw [hz] at this
      simp [M.view, this]
  · refine ⟨?_, ⟨10, ?_⟩, ?_⟩
    rotate_left
    · rw [coreCode.inc_cptr_1.eq]
      rt_exec [hz]
      rfl
    · have := word_inc' _ m.zp.cptrh hz
      simp [M.view, this]

/-- `inc_cptr_2`, `const.asm:46-53`. -/
theorem inc2 (m : M) : ∃ m', Halts coreCode coreCode.inc_cptr_2 m m' ∧ m'.view = { m.view with cp := m.view.cp + 2 } := by
  have := m.zp.cptr.isLt; have := m.zp.cptrh.isLt
  cases hz : addC m.zp.cptr 1#8 true
  all_goals
    have hz' := congrArg Bool.toNat hz
    rw [addC_toNat] at hz'
    simp only [Bool.toNat_true, Bool.toNat_false, BitVec.toNat_not, BitVec.toNat_ofNat] at hz'
  · refine ⟨?_, ⟨12, ?_⟩, ?_⟩
    rotate_left
    · rw [coreCode.inc_cptr_2.eq]
      rt_exec [hz, coreCode.inc_cptr_hi.eq, coreCode.cs_xit.eq]
      rfl
    · simp only [M.view, View.mk.injEq, true_and, and_true]
      apply BitVec.eq_of_toNat_eq
      simp
      omega
  · refine ⟨?_, ⟨12, ?_⟩, ?_⟩
    rotate_left
    · rw [coreCode.inc_cptr_2.eq]
      rt_exec [hz, coreCode.inc_cptr_hi.eq, coreCode.cs_xit.eq]
      rfl
    · simp only [M.view, View.mk.injEq, true_and, and_true]
      apply BitVec.eq_of_toNat_eq
      simp
      omega

/-- Address of the variable whose number is `b`, `varaddr.asm:44-46`. -/
def vaddr (page b : B) : W := word 0 page + BitVec.ofNat 16 (2 * b.toNat)

/-- `get_op_var`, `varaddr.asm:47-60`. -/
theorem getvar (m : M) (k : Code) (st : List Slot) (hs : m.stk = .ret k :: st) :
    ∃ m', Reach coreCode coreCode.get_op_var m k m' ∧
      m'.view = { m.view with ax := vaddr m.zp.vpage (m.ram m.view.cp), cp := m.view.cp + 1, stk := st } ∧
      m'.zp.tmp2 = m.zp.tmp2 ∧ m'.zp.tmp2h = m.zp.tmp2h := by
  have : ∃ m1, Reach coreCode coreCode.get_op_var m coreCode.va_1 m1 ∧ m1.a = m.ram m.view.cp ∧
      m1.view = { m.view with cp := m.view.cp + 1, ax := m1.view.ax } ∧ m1.zp.tmp2 = m.zp.tmp2 ∧ m1.zp.tmp2h = m.zp.tmp2h := by
    by_cases hz : m.zp.cptr + 1#8 = 0#8
    · refine ⟨?_, ⟨6, ?_⟩, ?_, ?_, ?_⟩
      rotate_left
      · rw [coreCode.get_op_var.eq]
        rt_exec [hz]
        rfl
      · simp [idx, M.view]
      · have := word_inc _ m.zp.cptrh hz
        rw [hz] at this
        simp [M.view, this]
      · exact ⟨rfl, rfl⟩
    · refine ⟨?_, ⟨4, ?_⟩, ?_, ?_, ?_⟩
      rotate_left
      · rw [coreCode.get_op_var.eq]
        rt_exec [hz]
        rfl
      · simp [idx, M.view]
      · have := word_inc' _ m.zp.cptrh hz
        simp [M.view, this]
      · exact ⟨rfl, rfl⟩
  obtain ⟨m1, hr, ha, hv, ht⟩ := this
  have hst : m1.stk = .ret k :: st := by
    have := congrArg View.stk hv
    exact this.trans hs
  have hp : m1.zp.vpage = m.zp.vpage := congrArg View.vpage hv
  have hb := m1.a.isLt
  have hp3 := m1.zp.vpage.isLt
  rw [← ha, ← hp]
  cases hc : topBit m1.a
  all_goals
    have hc' := congrArg Bool.toNat hc
    rw [topBit_toNat] at hc'
    simp only [Bool.toNat_true, Bool.toNat_false] at hc'
  · refine ⟨?_, hr.trans ⟨4, ?_⟩, ?_, ?_⟩
    rotate_left
    · rw [coreCode.va_1.eq]
      rt_exec [hc, hst, coreCode.va_2.eq]
      rfl
    · simp only [View.ext_iff] at hv ⊢
      refine ⟨?_, hv.2.1, hv.2.2.1, hv.2.2.2.1, hv.2.2.2.2.1, hv.2.2.2.2.2.1, hv.2.2.2.2.2.2.1, rfl, hv.2.2.2.2.2.2.2.2.1, hv.2.2.2.2.2.2.2.2.2.1, hv.2.2.2.2.2.2.2.2.2.2⟩
      apply BitVec.eq_of_toNat_eq
      simp [M.view, vaddr]; omega
    · exact ht
  · refine ⟨?_, hr.trans ⟨6, ?_⟩, ?_, ?_⟩
    rotate_left
    · rw [coreCode.va_1.eq]
      rt_exec [hc, hst, coreCode.va_2.eq]
      rfl
    · simp only [View.ext_iff] at hv ⊢
      refine ⟨?_, hv.2.1, hv.2.2.1, hv.2.2.2.1, hv.2.2.2.2.1, hv.2.2.2.2.2.1, hv.2.2.2.2.2.2.1, rfl, hv.2.2.2.2.2.2.2.2.1, hv.2.2.2.2.2.2.2.2.2.1, hv.2.2.2.2.2.2.2.2.2.2⟩
      apply BitVec.eq_of_toNat_eq
      simp [M.view, vaddr]; omega
    · exact ht

/-- The view after pushing `AX`; what is left in `AX` is the high byte, twice. -/
def View.push (v : View) (ax : W) : View :=
  { v with ax := ax, sp := v.sp - 1, sl := upd v.sl (v.sp - 1) (lo v.ax), sh := upd v.sh (v.sp - 1) (hi v.ax) }

/-- `pushAX`, `interpreter.asm:212-218`. -/
theorem pushAX (m : M) (he : Entry m) (k : Code) (st : List Slot) (hs : m.stk = .ret k :: st) :
    ∃ m', Reach coreCode coreCode.pushAX m k m' ∧ m'.view = { m.view.push (word m.x m.x) with stk := st } := by
  refine ⟨?_, ⟨5, ?_⟩, ?_⟩
  rotate_left
  · rw [coreCode.pushAX.eq]
    rt_exec [hs]
    rfl
  · have he : m.y = m.zp.sptr := he
    have e : m.zp.sptr + 255#8 = m.zp.sptr - 1#8 := by bv_omega
    simp [M.view, View.push, lo_word, hi_word, he, e]

end FB.Rt
