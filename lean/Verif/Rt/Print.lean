import Verif.Rt.CoreOps
/-!
# Printing a string

Transcription of `/repo/src/interp/print_str.asm:37-52`.
-/
namespace FB.Rt
open Ins Opd

/-- The loop of `EXE_PRINT_STR`, `print_str.asm:45-51`; `pc` is the address of `PRINT_COLOR`. -/
def printLoop (pc : W) : Code :=
  asm![iny, lda (indY .tmp1 .tmp1h), eor (abs pc), putc, cpy (zp .tmp2), Ins.bne "ps_loop", "ps_nil", next]

/-- `EXE_PRINT_STR`, `print_str.asm:37-52`. -/
def printCode (pc : W) : Code :=
  asm!["EXE_PRINT_STR", sta (zp .tmp1), stx (zp .tmp1h), "ptmp", ldy (imm 0), lda (indY .tmp1 .tmp1h), beq "ps_nil",
   sta (zp .tmp2), "ps_loop"] ++ printLoop pc

theorem find_loop (pc : W) : find "ps_loop" (printCode pc) = some (printLoop pc) := by
  simp [printCode, printLoop, find_lb, find_ins]
theorem find_nil (pc : W) : find "ps_nil" (printCode pc) = some (asm![next]) := by
  simp [printCode, printLoop, find_lb, find_ins]

/-- Characters `i + 1`, …, `i + n` of the string at `a`, as they are written. -/
def printed (v : View) (pc a : W) (i n : Nat) : List (B × B) :=
  (List.range n).map fun j => (v.chn, v.ram (a + BitVec.ofNat 16 (i + j + 1)) ^^^ v.ram pc)

theorem printed_succ (v : View) (pc a : W) (i n : Nat) :
    printed v pc a i (n + 1) = (v.chn, v.ram (a + BitVec.ofNat 16 (i + 1)) ^^^ v.ram pc) :: printed v pc a (i + 1) n := by
  simp only [printed, List.range_succ_eq_map, List.map_cons, List.map_map, List.cons.injEq]
  refine ⟨by simp, List.map_congr_left fun j _ => ?_⟩
  simp only [Function.comp]
  rw [show i + (j + 1) + 1 = i + 1 + j + 1 by omega]

theorem loop_does' {P : Code} (pc : W) (hP : find "ps_loop" P = some (printLoop pc)) (n : Nat) : ∀ (m : M), m.y.toNat + n + 1 = m.zp.tmp2.toNat →
    ∃ ax, Does P (printLoop pc) m
      { m.view with ax := ax, out := m.out ++ printed m.view pc (word m.zp.tmp1 m.zp.tmp1h) m.y.toNat (n + 1) } := by
  induction n with
  | zero =>
    intro m hy
    have hz : m.y + 1#8 = m.zp.tmp2 := by
      apply BitVec.eq_of_toNat_eq
      have := m.zp.tmp2.isLt
      simp [BitVec.toNat_add]; omega
    have hz' : (m.y + 1#8) - m.zp.tmp2 = 0#8 := by rw [hz]; bv_omega
    refine ⟨word (m.dev m.out).a (m.dev m.out).x, ?_, ⟨9, ?_⟩, ?_⟩
    rotate_left
    · simp only [printLoop]
      rt_exec [hz', hP]
      rfl
    · have e : idx (word m.zp.tmp1 m.zp.tmp1h) (m.y + 1#8) = word m.zp.tmp1 m.zp.tmp1h + BitVec.ofNat 16 (m.y.toNat + 1) := by
        rw [hz, idx, ← hy]
      simp [M.view, printed, e]
  | succ n ih =>
    intro m hy
    have h2 := m.zp.tmp2.isLt
    have hyy : (m.y + 1#8).toNat = m.y.toNat + 1 := by simp [BitVec.toNat_add]; omega
    have hz' : ¬ (m.y + 1#8) - m.zp.tmp2 = 0#8 := by
      intro h
      have : m.y + 1#8 = m.zp.tmp2 := by bv_omega
      have := congrArg BitVec.toNat this
      omega
    obtain ⟨m1, r1, y1, t1, t1h, t2, e1⟩ : ∃ m1, Reach P (printLoop pc) m (printLoop pc) m1 ∧ m1.y = m.y + 1#8 ∧
        m1.zp.tmp1 = m.zp.tmp1 ∧ m1.zp.tmp1h = m.zp.tmp1h ∧ m1.zp.tmp2 = m.zp.tmp2 ∧
        m1.view = { m.view with ax := m1.view.ax, out := m.out ++ [(m.zp.chn, m.ram (idx (word m.zp.tmp1 m.zp.tmp1h) (m.y + 1#8)) ^^^ m.ram pc)] } := by
      refine ⟨?_, ⟨6, ?_⟩, ?_⟩
      rotate_left
      · conv => lhs; arg 3; unfold printLoop
        rt_exec [hz', hP]
        rfl
      · exact ⟨rfl, rfl, rfl, rfl, rfl⟩
    obtain ⟨ax, h⟩ := ih m1 (by rw [y1, t2, hyy]; omega)
    refine ⟨ax, r1.does (h.cast ?_)⟩
    have e : idx (word m.zp.tmp1 m.zp.tmp1h) (m.y + 1#8) = word m.zp.tmp1 m.zp.tmp1h + BitVec.ofNat 16 (m.y.toNat + 1) := by
      rw [idx, hyy]
    have ho : m1.out = m.out ++ [(m.zp.chn, m.ram (idx (word m.zp.tmp1 m.zp.tmp1h) (m.y + 1#8)) ^^^ m.ram pc)] := by have e := congrArg View.out e1; exact e
    have hc : m1.view.chn = m.view.chn := by have e := congrArg View.chn e1; exact e
    have hr : m1.view.ram = m.view.ram := by have e := congrArg View.ram e1; exact e
    have hp : printed m1.view pc (word m1.zp.tmp1 m1.zp.tmp1h) m1.y.toNat (n + 1) =
        printed m.view pc (word m.zp.tmp1 m.zp.tmp1h) (m.y.toNat + 1) (n + 1) := by
      simp only [printed, hc, hr, t1, t1h, y1, hyy]
    rw [hp, printed_succ m.view pc _ m.y.toNat, ho, e1, e]
    simp [M.view]

theorem loop_does (pc : W) (n : Nat) : ∀ (m : M), m.y.toNat + n + 1 = m.zp.tmp2.toNat →
    ∃ ax, Does (printCode pc) (printLoop pc) m
      { m.view with ax := ax, out := m.out ++ printed m.view pc (word m.zp.tmp1 m.zp.tmp1h) m.y.toNat (n + 1) } :=
  loop_does' pc (find_loop pc) n

/-- The characters of the string that `AX` points to, each with the colour, go to the channel. -/
theorem print_does (pc : W) (m : M) : ∃ ax, Does (printCode pc) (printCode pc) m
    { m.view with ax := ax, out := m.out ++ printed m.view pc m.view.ax 0 (m.view.ram m.view.ax).toNat } := by
  by_cases h0 : m.ram (word m.a m.x) = 0#8
  · refine ⟨word 0 m.x, ?_, ⟨9, ?_⟩, ?_⟩
    rotate_left
    · conv => lhs; arg 3; unfold printCode
      rt_exec [h0, find_nil, idx0]
      rfl
    · simp [M.view, h0, printed]
  · obtain ⟨m1, r1, y1, t1, t1h, t2, e1⟩ : ∃ m1, Reach (printCode pc) (printCode pc) m (printLoop pc) m1 ∧ m1.y = 0#8 ∧
        m1.zp.tmp1 = m.a ∧ m1.zp.tmp1h = m.x ∧ m1.zp.tmp2 = m.ram (word m.a m.x) ∧
        m1.view = { m.view with ax := m1.view.ax } := by
      refine ⟨?_, ⟨9, ?_⟩, ?_⟩
      rotate_left
      · conv => lhs; arg 3; unfold printCode
        rt_exec [h0, find_nil, idx0]
        rfl
      · exact ⟨rfl, rfl, rfl, rfl, rfl⟩
    have hn : (m.ram (word m.a m.x)).toNat ≠ 0 := fun e => h0 (BitVec.eq_of_toNat_eq e)
    obtain ⟨n, hn'⟩ : ∃ n, (m.ram (word m.a m.x)).toNat = n + 1 := ⟨_, (Nat.succ_pred hn).symm⟩
    obtain ⟨ax, h⟩ := loop_does pc n m1 (by rw [y1, t2, hn']; simp)
    refine ⟨ax, r1.does (h.cast ?_)⟩
    have ho : m1.out = m.out := by have e := congrArg View.out e1; exact e
    have hc : m1.view.chn = m.view.chn := by have e := congrArg View.chn e1; exact e
    have hr : m1.view.ram = m.view.ram := by have e := congrArg View.ram e1; exact e
    have hp : printed m1.view pc (word m1.zp.tmp1 m1.zp.tmp1h) m1.y.toNat (n + 1) =
        printed m.view pc m.view.ax 0 (m.view.ram m.view.ax).toNat := by
      rw [show m.view.ram m.view.ax = m.ram (word m.a m.x) from rfl, hn']
      simp only [printed, hc, hr, t1, t1h, y1]; rfl
    rw [hp, ho, e1]

end FB.Rt
