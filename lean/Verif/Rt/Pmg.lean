import Verif.Rt.Graph
/-!
# Players and missiles

Transcription of `/repo/src/interp/atari/pmgraphics.asm`.
-/
namespace FB.Rt
open Ins Opd

/-! The cells and registers of the computer (`target.inc`: here, those of the Atari 8-bit computers), and the variables and tables (`pmgraphics.asm:86-101`), that the linker places: their addresses
here are arbitrary. -/
scoped notation "pmMemtop" => (0x2E6#16 : W)
scoped notation "pmSdmctl" => (0x22F#16 : W)
scoped notation "pmGprior" => (0x26F#16 : W)
scoped notation "pmPmbase" => (0xD407#16 : W)
scoped notation "pmGractl" => (0xD01D#16 : W)
scoped notation "pmHposp0" => (0xD000#16 : W)
scoped notation "pmgBase" => (0x2E00#16 : W)
scoped notation "pmgMode" => (0x2E01#16 : W)
scoped notation "pmTab" => (0x2F00#16 : W)

/-- `EXE_PMGRAPHICS`, `pmgraphics.asm:38-84`; `mask_tab` is at `pmTab`, `pmg_dmactl_tab` two bytes and `pmgmode_tab` five bytes after it; `jmp err_nomem` is `fail`. -/
def pmCode : Code :=
  asm!["EXE_PMGRAPHICS", Ins.and (imm 3), tax, beq "pm_off", ldy (imm 3), lda (absX 0x2EFF), Ins.and (abs pmMemtop), clc, adc (absX 0x2EFF), cmp (zp .arrh), bcs "pm_ok", fail,
   "pm_off", tay,
   "pm_ok", sta (abs pmgBase), sta (abs pmPmbase), lda (abs pmSdmctl), Ins.and (imm 0xE3), ora (absX 0x2F02), sta (abs pmSdmctl), sty (abs pmGractl), tya, ora (abs pmGprior), Ins.and (imm 0xC1), sta (abs pmGprior),
   ldy (absX 0x2F04), sty (abs pmgMode), ldy (imm 17), lda (imm 0),
   "pm_lp", sta (absY pmHposp0), dey, bpl "pm_lp",
   "pm_end", next]

code_labels pmCode

/-- The three tables, `pmgraphics.asm:86-91`. -/
def PmRom (r : W → B) : Prop := r 0x2F00 = 0xF8 ∧ r 0x2F01 = 0xFC ∧ r 0x2F02 = 0 ∧ r 0x2F03 = 0x1C ∧ r 0x2F04 = 0x0C ∧ r 0x2F05 = 0x80 ∧ r 0x2F06 = 0x40

/-- The loop that clears the registers. -/
theorem pm_loop (n : Nat) (hn : n < 128) : ∀ m : M, m.y = BitVec.ofNat 8 n →
    ∃ m', Halts pmCode pmCode.pm_lp m m' ∧ (∀ a : W, m'.ram a = if (a - pmHposp0).toNat ≤ n then m.a else m.ram a) ∧ m'.stk = m.stk ∧ m'.sl = m.sl ∧ m'.sh = m.sh ∧ m'.zp = m.zp := by
  have hidx : ∀ k : Nat, k < 128 → idx pmHposp0 (BitVec.ofNat 8 k) = pmHposp0 + BitVec.ofNat 16 k := fun k hk => by
    rw [idx, BitVec.toNat_ofNat, Nat.mod_eq_of_lt (by omega)]
  have hsub : ∀ (a : W) (k : Nat), k < 128 → (a = pmHposp0 + BitVec.ofNat 16 k ↔ (a - pmHposp0).toNat = k) := fun a k hk => by
    constructor
    · intro e; rw [e, BitVec.add_comm, BitVec.add_sub_cancel, BitVec.toNat_ofNat]; omega
    · intro e
      have : a - pmHposp0 = BitVec.ofNat 16 k := BitVec.eq_of_toNat_eq (by rw [e, BitVec.toNat_ofNat]; omega)
      rw [← this, BitVec.add_comm, BitVec.sub_add_cancel]
  induction n with
  | zero =>
    intro m hy
    have hy : m.y = 0#8 := hy
    have ht : topBit (255#8) = true := rfl
    refine ⟨?_, ⟨5, ?_⟩, ?_⟩
    rotate_left
    · rt_exec [pmCode.pm_lp.eq, pmCode.pm_end.eq, hy, ht]
      rfl
    · refine ⟨fun a => ?_, rfl, rfl, rfl, rfl⟩
      have := hsub a 0 (by omega)
      have h0 := hidx 0 (by omega)
      simp only [upd]
      rw [show idx pmHposp0 0#8 = pmHposp0 + BitVec.ofNat 16 0 from h0]
      by_cases h : a = pmHposp0 + BitVec.ofNat 16 0
      · rw [if_pos h, if_pos (by have := this.1 h; omega)]
      · rw [if_neg h, if_neg (fun h2 => h (this.2 (by omega)))]
  | succ n ih =>
    intro m hy
    have hy1 : m.y - 1#8 = BitVec.ofNat 8 n := by
      rw [hy]; apply BitVec.eq_of_toNat_eq; simp [BitVec.toNat_sub]; omega
    have ht : topBit (BitVec.ofNat 8 n) = false := by simp [topBit]; omega
    have hi := hidx (n + 1) hn
    rw [← hy] at hi
    obtain ⟨m1, r1, e1⟩ : ∃ m1, Reach pmCode pmCode.pm_lp m pmCode.pm_lp m1 ∧ m1 = { m with y := BitVec.ofNat 8 n, n := false, z := decide (BitVec.ofNat 8 n = 0#8), ram := upd m.ram (pmHposp0 + BitVec.ofNat 16 (n + 1)) m.a } := by
      refine ⟨_, ⟨3, ?_⟩, rfl⟩
      rt_exec [pmCode.pm_lp.eq, hy1, ht, hi]
    obtain ⟨m', h, u, s, l, k, z⟩ := ih (by omega) m1 (by rw [e1])
    refine ⟨m', r1.halts h, fun a => ?_, by rw [s, e1], by rw [l, e1], by rw [k, e1], by rw [z, e1]⟩
    rw [u, e1]
    simp only [upd]
    have := hsub a (n + 1) hn
    by_cases h1 : (a - pmHposp0).toNat ≤ n
    · rw [if_pos h1, if_pos (by omega)]
    · rw [if_neg h1]
      by_cases h2 : a = pmHposp0 + BitVec.ofNat 16 (n + 1)
      · rw [if_pos h2, if_pos (by have := this.1 h2; omega)]
      · rw [if_neg h2, if_neg (fun h3 => h2 (this.2 (by omega)))]

end FB.Rt
