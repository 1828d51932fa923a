import Verif.Rt.Arith
/-!
# Reading the address of a variable

Transcription of `/repo/src/interp/varaddr.asm:38-58`.
-/
namespace FB.Rt
open Ins Opd

/-- `EXE_VAR_ADDR` and `get_op_var`, `varaddr.asm:38-58`. The cells `cptr`, `cptrh` are the two bytes of `cptr` (the pointer
to the code that is interpreted) and `vpage` is the modified operand `var_page` (`varaddr.asm:53-54`). -/
def varAddrCode : Code :=
  asm!["EXE_VAR_ADDR", jsr "get_op_var", next,
   "get_op_var", ldy (imm 0), lda (indY .cptr .cptrh), inc (zp .cptr), Ins.bne "va_1",
   inc (zp .cptrh),
   "va_1", ldx (zp .vpage), asl acc, bcc "va_2", inx,
   "va_2", rts]

code_labels varAddrCode

/-- The first part: the byte is in `A` and `cptr` points to the next. -/
theorem varAddr_read (m : M) (k : Code) :
    ∃ m1, Reach varAddrCode varAddrCode.get_op_var { m with stk := .ret k :: m.stk } varAddrCode.va_1 m1 ∧
      m1.a = m.ram (word m.zp.cptr m.zp.cptrh) ∧ word m1.zp.cptr m1.zp.cptrh = word m.zp.cptr m.zp.cptrh + 1 ∧
      m1.zp.vpage = m.zp.vpage ∧ m1.stk = .ret k :: m.stk ∧ Kept m { m1 with stk := m.stk } m.zp.sptr := by
  have h1 := m.zp.cptr.isLt
  have h2 := m.zp.cptrh.isLt
  by_cases hz : m.zp.cptr + 1#8 = 0#8
  · refine ⟨?_, ⟨6, ?_⟩, ?_, ?_, ?_, ?_, ?_⟩
    rotate_left
    · rw [varAddrCode.get_op_var.eq]
      rt_exec [hz]
      rfl
    · simp [idx]
    · apply BitVec.eq_of_toNat_eq
      rw [← BitVec.toNat_inj] at hz
      simp [BitVec.toNat_add] at hz ⊢
      omega
    · rfl
    · rfl
    · exact kept
  · refine ⟨?_, ⟨4, ?_⟩, ?_, ?_, ?_, ?_, ?_⟩
    rotate_left
    · rw [varAddrCode.get_op_var.eq]
      rt_exec [hz]
      rfl
    · simp [idx]
    · apply BitVec.eq_of_toNat_eq
      rw [← BitVec.toNat_inj] at hz
      simp [BitVec.toNat_add] at hz ⊢
      omega
    · rfl
    · rfl
    · exact kept

/-- `EXE_VAR_ADDR` reads the byte at `cptr`, moves `cptr` to the next byte, and gives the address
`256 * var_page + 2 * byte`. -/
theorem varAddr_correct (m : M) :
    ∃ m', Halts varAddrCode varAddrCode.EXE_VAR_ADDR m m' ∧
      m'.ax.toNat = (256 * m.zp.vpage.toNat + 2 * (m.ram (word m.zp.cptr m.zp.cptrh)).toNat) % 65536 ∧
      word m'.zp.cptr m'.zp.cptrh = word m.zp.cptr m.zp.cptrh + 1 ∧ m'.zp.vpage = m.zp.vpage ∧ Kept m m' m.zp.sptr := by
  obtain ⟨m1, hr, ha, hp, h3, hs, hk⟩ := varAddr_read m (asm![next] ++ Line.lb "get_op_var" :: varAddrCode.get_op_var)
  have hr : Reach varAddrCode varAddrCode.EXE_VAR_ADDR m varAddrCode.va_1 m1 := by
    refine Reach.step ?_ hr
    rw [varAddrCode.EXE_VAR_ADDR.eq]
    simp [step, jump]
  have hb := m1.a.isLt
  have hp3 := m1.zp.vpage.isLt
  rw [← ha, ← h3]
  cases hc : topBit m1.a
  all_goals
    have hc' := congrArg Bool.toNat hc
    rw [topBit_toNat] at hc'
    simp only [Bool.toNat_true, Bool.toNat_false] at hc'
  · refine ⟨?_, hr.halts ⟨5, ?_⟩, ?_, ?_, ?_, ?_⟩
    rotate_left
    · rw [varAddrCode.va_1.eq]
      rt_exec [hc, hs, varAddrCode.va_2.eq]
      rfl
    · simp [M.ax]; omega
    · exact hp
    · rfl
    · exact ⟨rfl, hk.sl, hk.sh, hk.ram, hk.sptr, hk.saddr, hk.saddrh, hk.arr, hk.arrh, hk.mins⟩
  · refine ⟨?_, hr.halts ⟨7, ?_⟩, ?_, ?_, ?_, ?_⟩
    rotate_left
    · rw [varAddrCode.va_1.eq]
      rt_exec [hc, hs, varAddrCode.va_2.eq]
      rfl
    · simp [M.ax]; omega
    · exact hp
    · rfl
    · exact ⟨rfl, hk.sl, hk.sh, hk.ram, hk.sptr, hk.saddr, hk.saddrh, hk.arr, hk.arrh, hk.mins⟩

end FB.Rt
