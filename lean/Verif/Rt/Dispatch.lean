import Verif.Rt.Arith
/-!
# Dispatch of an instruction

Transcription of the interpreter loop, `/repo/src/interpreter.asm:100-115`.
-/
namespace FB.Rt
open Ins Opd

/-- `interpreter`, `interpreter.asm:102-113`, up to the indirect jump. The operand of `cload: ldy $1234` is `cptr` (the cells `cptr`, `cptrh`), the low byte of the operand of `jump: jmp (__JUMPTAB_RUN__)` is the cell `joff`, and the operand of
`ldsptr: ldy #0` is `sptr` (`interpreter.asm:117-121`). -/
def dispatchCode : Code :=
  asm!["nxt_incsp", inc (zp .sptr),
   "nxtins", ldy (indXFF .cptr .cptrh), inc (zp .cptr), Ins.bne "adj",
   inc (zp .cptrh),
   "adj", sty (zp .joff), ldy (zp .sptr),
   "jump", fail]

code_labels dispatchCode

/-- `jmp (__JUMPTAB_RUN__)` with the modified low byte, `interpreter.asm:113`: the address that is loaded in the program
counter. The NMOS 6502 reads the second byte of the address without carry to the page. -/
def jumpTarget (m : M) (page : B) : W := word (m.ram (word m.zp.joff page)) (m.ram (word (m.zp.joff + 1) page))

/-- `next_instruction`: reads the byte at `cptr` to the operand of the jump, moves `cptr` on, loads `Y` with the stack
pointer, and leaves `A`, `X` and the rest of memory. -/
theorem dispatch_correct (m : M) :
    ∃ m', Reach dispatchCode dispatchCode.nxtins m dispatchCode.jump m' ∧
      m'.a = m.a ∧ m'.x = m.x ∧ m'.y = m.zp.sptr ∧ m'.c = m.c ∧ m'.v = m.v ∧
      word m'.zp.cptr m'.zp.cptrh = word m.zp.cptr m.zp.cptrh + 1 ∧ m'.zp.joff = m.ram (word m.zp.cptr m.zp.cptrh) ∧
      Kept m m' m.zp.sptr := by
  have h1 := m.zp.cptr.isLt
  have h2 := m.zp.cptrh.isLt
  by_cases hz : m.zp.cptr + 1#8 = 0#8
  · refine ⟨?_, ⟨8, ?_⟩, ?_, ?_, ?_, ?_, ?_, ?_, ?_, ?_⟩
    rotate_left
    · rw [dispatchCode.nxtins.eq]
      rt_exec [hz, dispatchCode.adj.eq]
      rfl
    · rfl
    · rfl
    · rfl
    · rfl
    · rfl
    · apply BitVec.eq_of_toNat_eq
      rw [← BitVec.toNat_inj] at hz
      simp [BitVec.toNat_add] at hz ⊢
      omega
    · rfl
    · exact kept
  · refine ⟨?_, ⟨6, ?_⟩, ?_, ?_, ?_, ?_, ?_, ?_, ?_, ?_⟩
    rotate_left
    · rw [dispatchCode.nxtins.eq]
      rt_exec [hz, dispatchCode.adj.eq]
      rfl
    · rfl
    · rfl
    · rfl
    · rfl
    · rfl
    · apply BitVec.eq_of_toNat_eq
      rw [← BitVec.toNat_inj] at hz
      simp [BitVec.toNat_add] at hz ⊢
      omega
    · rfl
    · exact kept

/-- `next_ins_incsp`: the same after dropping one entry of the stack. -/
theorem dispatch_incsp (m : M) :
    ∃ m', Reach dispatchCode dispatchCode.nxt_incsp m dispatchCode.jump m' ∧
      m'.a = m.a ∧ m'.x = m.x ∧ m'.y = m.zp.sptr + 1 ∧ m'.c = m.c ∧ m'.v = m.v ∧
      word m'.zp.cptr m'.zp.cptrh = word m.zp.cptr m.zp.cptrh + 1 ∧ m'.zp.joff = m.ram (word m.zp.cptr m.zp.cptrh) ∧
      Kept m m' (m.zp.sptr + 1) := by
  obtain ⟨m', hr, h⟩ := dispatch_correct ({ m with zp := { m.zp with sptr := m.zp.sptr + 1 } }.nz (m.zp.sptr + 1))
  refine ⟨m', ?_, h.1, h.2.1, h.2.2.1, h.2.2.2.1, h.2.2.2.2.1, h.2.2.2.2.2.1, h.2.2.2.2.2.2.1, ?_⟩
  · refine Reach.trans ⟨2, ?_⟩ hr
    rw [dispatchCode.nxt_incsp.eq]
    rt_exec []
    rfl
  · have k := h.2.2.2.2.2.2.2
    exact ⟨k.stk, k.sl, k.sh, k.ram, k.sptr, k.saddr, k.saddrh, k.arr, k.arrh, k.mins⟩

end FB.Rt
