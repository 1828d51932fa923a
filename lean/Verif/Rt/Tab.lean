import Verif.Rt.Print
import Verif.Rt.Rand
/-!
# Tabulation in `PRINT`

Transcription of `/repo/src/interp/atari/print_tab.asm:42-78`.
-/
namespace FB.Rt
open Ins Opd

/-- Low byte of the column of the cursor, a cell of the OS. -/
scoped notation "tabCol" => (0x55#16 : W)
/-- `PRINT_COLOR`, `interpreter.asm:66`: a cell of page zero, the address here is only an example. -/
scoped notation "tabClr" => (0xC0#16 : W)

/-- `do_tab`, `print_tab.asm:42-57`, `EXE_PRINT_TAB`, `59-63`, `EXE_PRINT_RTAB`, `65-78`, and `print_str_tmp1`, `print_str.asm:40-51`.  `PRINT_RTAB_ARG` is `tmp3`, `print_tab.asm:35`. -/
def tabCode : Code :=
  asm!["do_tab", clc, sbc (abs tabCol), bcs "dt_ok",
   "dt_rep", adc (zp .tmp3), bcc "dt_rep",
   "dt_ok", tay,
   "dt_loop", lda (imm 0x20), putc, dey, bpl "dt_loop",
   "dt_end", rts,
   "EXE_PRINT_TAB", sta (zp .tmp3), jsr "do_tab",
   "tab_1", next,
   "EXE_PRINT_RTAB", sta (zp .tmp1), stx (zp .tmp1h), ldy (imm 0), sec, lda (zp .tmp3), sbc (indY .tmp1 .tmp1h), jsr "do_tab",
   "rtab_1", jmp "print_str_tmp1",
   "print_str_tmp1", ldy (imm 0), lda (indY .tmp1 .tmp1h), beq "ps_nil", sta (zp .tmp2),
   "ps_loop", iny, lda (indY .tmp1 .tmp1h), eor (abs tabClr), putc, cpy (zp .tmp2), Ins.bne "ps_loop",
   "ps_nil", next]

code_labels tabCode

/-- What the spaces leave: all that the program sees, but for the output, and the cells of the two routines. -/
structure TK (m m' : M) (o : List (B × B)) : Prop where
  view : m'.view = { m.view with ax := m'.view.ax, out := m.out ++ o, stk := m'.stk }
  tmp1 : m'.zp.tmp1 = m.zp.tmp1
  tmp1h : m'.zp.tmp1h = m.zp.tmp1h
  tmp3 : m'.zp.tmp3 = m.zp.tmp3

theorem TK.trans {m m1 m2 : M} {o o' : List (B × B)} (h : TK m m1 o) (h' : TK m1 m2 o') : TK m m2 (o ++ o') := by
  refine ⟨?_, h'.tmp1.trans h.tmp1, h'.tmp1h.trans h.tmp1h, h'.tmp3.trans h.tmp3⟩
  have ho : m1.out = m.out ++ o := by have e := congrArg View.out h.view; exact e
  rw [h'.view, h.view, ho, List.append_assoc]

theorem TK.chn {m m' : M} {o : List (B × B)} (h : TK m m' o) : m'.zp.chn = m.zp.chn := by have e := congrArg View.chn h.view; exact e

/-- Adding the argument until there is a carry. -/
theorem tab_rep (f : Nat) : ∀ m : M, m.zp.tmp3 ≠ 0#8 → m.c = false → 256 - m.a.toNat ≤ f →
    ∃ m' k, Reach tabCode tabCode.dt_rep m (.lb "dt_ok" :: tabCode.dt_ok) m' ∧ m'.a.toNat + 256 = m.a.toNat + m.zp.tmp3.toNat * (k + 1) ∧ m'.a.toNat < m.zp.tmp3.toNat ∧ TK m m' [] ∧ m'.stk = m.stk := by
  induction f with
  | zero => intro m _ _ hf; have := m.a.isLt; omega
  | succ f ih =>
    intro m hn hc hf
    have hA := m.a.isLt
    have hN := m.zp.tmp3.isLt
    have hn' : m.zp.tmp3.toNat ≠ 0 := fun e => hn (BitVec.eq_of_toNat_eq e)
    have ht : (addC m.a m.zp.tmp3 false).toNat = (m.a.toNat + m.zp.tmp3.toNat) / 256 := by simp
    have hs : (m.a + m.zp.tmp3).toNat = (m.a.toNat + m.zp.tmp3.toNat) % 256 := BitVec.toNat_add ..
    by_cases h : m.a.toNat + m.zp.tmp3.toNat < 256
    · have h1 : addC m.a m.zp.tmp3 false = false := bool0 (by rw [ht]; omega)
      obtain ⟨m1, r1, a1, c1, t1, k1, s1⟩ : ∃ m1, Reach tabCode tabCode.dt_rep m tabCode.dt_rep m1 ∧ m1.a = m.a + m.zp.tmp3 ∧ m1.c = false ∧ m1.zp.tmp3 = m.zp.tmp3 ∧ TK m m1 [] ∧ m1.stk = m.stk := by
        refine ⟨?_, ⟨2, ?_⟩, ?_⟩
        rotate_left
        · rt_exec [tabCode.dt_rep.eq, hc, h1]
          rfl
        · refine ⟨?_, rfl, rfl, ⟨?_, rfl, rfl, rfl⟩, rfl⟩
          · apply BitVec.eq_of_toNat_eq; simp
          · simp [M.view]
      obtain ⟨m2, k, r2, e2, l2, k2, s2⟩ := ih m1 (by rw [t1]; exact hn) c1 (by rw [a1, hs, Nat.mod_eq_of_lt h]; omega)
      refine ⟨m2, k + 1, r1.trans r2, ?_, by rw [← t1]; exact l2, k1.trans k2, s2.trans s1⟩
      rw [e2, a1, hs, t1, Nat.mod_eq_of_lt h, Nat.mul_add m.zp.tmp3.toNat (k + 1) 1]; omega
    · have h1 : addC m.a m.zp.tmp3 false = true := bool1 (by rw [ht]; omega)
      refine ⟨?_, 0, ⟨2, ?_⟩, ?_⟩
      rotate_left
      · rt_exec [tabCode.dt_rep.eq, hc, h1]
        rfl
      · refine ⟨?_, ?_, ⟨?_, rfl, rfl, rfl⟩, rfl⟩
        · simp; omega
        · simp; omega
        · simp [M.view]

/-- The loop that writes the spaces. -/
theorem tab_loop (n : Nat) : ∀ m : M, m.y.toNat = n → n ≤ 128 →
    ∃ m', Reach tabCode tabCode.dt_loop m (.lb "dt_end" :: tabCode.dt_end) m' ∧ TK m m' (List.replicate (n + 1) (m.zp.chn, 0x20#8)) ∧ m'.stk = m.stk := by
  induction n with
  | zero =>
    intro m hy _
    have hy' : m.y = 0#8 := BitVec.eq_of_toNat_eq hy
    have hb : topBit (m.y - 1#8) = true := by rw [hy']; rfl
    refine ⟨?_, ⟨4, ?_⟩, ?_⟩
    rotate_left
    · rt_exec [tabCode.dt_loop.eq, hb]
      rfl
    · exact ⟨⟨rfl, rfl, rfl, rfl⟩, rfl⟩
  | succ n ih =>
    intro m hy hn
    have hs : (m.y - 1#8).toNat = n := by simp [BitVec.toNat_sub]; omega
    have hb : topBit (m.y - 1#8) = false := bool0 (by rw [topBit_toNat, hs]; omega)
    obtain ⟨m1, r1, y1, k1, c1, s1⟩ : ∃ m1, Reach tabCode tabCode.dt_loop m tabCode.dt_loop m1 ∧ m1.y = m.y - 1#8 ∧ TK m m1 [(m.zp.chn, 0x20#8)] ∧ m1.zp.chn = m.zp.chn ∧ m1.stk = m.stk := by
      refine ⟨?_, ⟨4, ?_⟩, ?_⟩
      rotate_left
      · rt_exec [tabCode.dt_loop.eq, hb]
        rfl
      · exact ⟨rfl, ⟨rfl, rfl, rfl, rfl⟩, rfl, rfl⟩
    obtain ⟨m2, r2, k2, s2⟩ := ih m1 (by rw [y1]; exact hs) (by omega)
    refine ⟨m2, r1.trans r2, ⟨?_, k2.tmp1.trans k1.tmp1, k2.tmp1h.trans k1.tmp1h, k2.tmp3.trans k1.tmp3⟩, s2.trans s1⟩
    have ho : m1.out = m.out ++ [(m.zp.chn, 0x20#8)] := by have e := congrArg View.out k1.view; exact e
    rw [k2.view, k1.view, ho, c1, List.append_assoc, List.replicate_succ (n := n + 1)]
    rfl

/-- Over 128 spaces more, only one is written. -/
theorem tab_one (m : M) (hy : 129 ≤ m.y.toNat) :
    ∃ m', Reach tabCode tabCode.dt_loop m (.lb "dt_end" :: tabCode.dt_end) m' ∧ TK m m' [(m.zp.chn, 0x20#8)] ∧ m'.stk = m.stk := by
  have := m.y.isLt
  have hs : (m.y - 1#8).toNat = m.y.toNat - 1 := by simp [BitVec.toNat_sub]; omega
  have hb : topBit (m.y - 1#8) = true := bool1 (by rw [topBit_toNat, hs]; omega)
  refine ⟨?_, ⟨4, ?_⟩, ?_⟩
  rotate_left
  · rt_exec [tabCode.dt_loop.eq, hb]
    rfl
  · exact ⟨⟨rfl, rfl, rfl, rfl⟩, rfl⟩

/-- The number of spaces that are written when `s` are wanted. -/
def tabCnt (s : Nat) : Nat := if s ≤ 129 then s else 1

/-- `do_tab` with `A` in the accumulator and `n` in `PRINT_RTAB_ARG`. -/
theorem tab_sub {m : M} {k : Code} {st : List Slot} (hst : m.stk = .ret k :: st) (hn : m.zp.tmp3 ≠ 0#8) :
    ∃ m' s j, Reach tabCode tabCode.do_tab m k m' ∧ 1 ≤ s ∧ s + (m.ram tabCol).toNat = m.a.toNat + m.zp.tmp3.toNat * j ∧ (j = 0 ∨ s ≤ m.zp.tmp3.toNat) ∧
      TK m m' (List.replicate (tabCnt s) (m.zp.chn, 0x20#8)) ∧ m'.stk = st := by
  have hA := m.a.isLt
  have hC := (m.ram tabCol).isLt
  -- from the number of spaces to the end
  have fin : ∀ (m1 : M) (s j : Nat), Reach tabCode tabCode.do_tab m tabCode.dt_ok m1 → TK m m1 [] → m1.stk = m.stk → 1 ≤ s → m1.a.toNat + 1 = s →
      s + (m.ram tabCol).toNat = m.a.toNat + m.zp.tmp3.toNat * j → (j = 0 ∨ s ≤ m.zp.tmp3.toNat) →
      ∃ m' s j, Reach tabCode tabCode.do_tab m k m' ∧ 1 ≤ s ∧ s + (m.ram tabCol).toNat = m.a.toNat + m.zp.tmp3.toNat * j ∧ (j = 0 ∨ s ≤ m.zp.tmp3.toNat) ∧
        TK m m' (List.replicate (tabCnt s) (m.zp.chn, 0x20#8)) ∧ m'.stk = st := by
    intro m1 s j r1 k1 s1 hs ha he hj
    obtain ⟨m2, r2, y2, k2, s2⟩ : ∃ m2, Reach tabCode tabCode.dt_ok m1 tabCode.dt_loop m2 ∧ m2.y = m1.a ∧ TK m1 m2 [] ∧ m2.stk = m1.stk := by
      refine ⟨?_, ⟨2, ?_⟩, ?_⟩
      rotate_left
      · rt_exec [tabCode.dt_ok.eq]
        rfl
      · refine ⟨rfl, ⟨?_, rfl, rfl, rfl⟩, rfl⟩
        simp [M.view]
    obtain ⟨m3, r3, k3, s3⟩ : ∃ m3, Reach tabCode tabCode.dt_loop m2 (.lb "dt_end" :: tabCode.dt_end) m3 ∧ TK m2 m3 (List.replicate (tabCnt s) (m2.zp.chn, 0x20#8)) ∧ m3.stk = m2.stk := by
      unfold tabCnt
      by_cases h : s ≤ 129
      · rw [if_pos h, ← ha]
        exact tab_loop _ m2 (by rw [y2]) (by omega)
      · rw [if_neg h]
        exact tab_one m2 (by rw [y2]; omega)
    obtain ⟨m4, r4, k4, s4⟩ : ∃ m4, Reach tabCode (.lb "dt_end" :: tabCode.dt_end) m3 k m4 ∧ TK m3 m4 [] ∧ m4.stk = st := by
      refine ⟨?_, ⟨2, ?_⟩, ?_⟩
      rotate_left
      · rt_exec [tabCode.dt_end.eq, s3, s2, s1, hst]
        rfl
      · refine ⟨⟨?_, rfl, rfl, rfl⟩, rfl⟩
        simp [M.view]
    have k := k1.trans (k2.trans (k3.trans k4))
    rw [List.nil_append, List.nil_append, List.append_nil, k2.chn, k1.chn] at k
    exact ⟨m4, s, j, r1.trans (r2.trans (r3.trans r4)), hs, he, hj, k, s4⟩
  have ht : (addC m.a (~~~ m.ram tabCol) false).toNat = (m.a.toNat + (255 - (m.ram tabCol).toNat)) / 256 := by simp
  by_cases h : (m.ram tabCol).toNat < m.a.toNat
  · have h1 : addC m.a (~~~ m.ram tabCol) false = true := bool1 (by rw [ht]; omega)
    obtain ⟨m1, r1, a1, k1, s1⟩ : ∃ m1, Reach tabCode tabCode.do_tab m tabCode.dt_ok m1 ∧ m1.a.toNat + 1 + (m.ram tabCol).toNat = m.a.toNat ∧ TK m m1 [] ∧ m1.stk = m.stk := by
      refine ⟨?_, ⟨3, ?_⟩, ?_⟩
      rotate_left
      · rt_exec [tabCode.do_tab.eq, h1]
        rfl
      · refine ⟨?_, ⟨?_, rfl, rfl, rfl⟩, rfl⟩
        · simp; omega
        · simp [M.view]
    exact fin m1 _ 0 r1 k1 s1 (by omega) rfl (by omega) (.inl rfl)
  · have h1 : addC m.a (~~~ m.ram tabCol) false = false := bool0 (by rw [ht]; omega)
    obtain ⟨m1, r1, a1, c1, k1, s1⟩ : ∃ m1, Reach tabCode tabCode.do_tab m tabCode.dt_rep m1 ∧ m1.a.toNat + 1 + (m.ram tabCol).toNat = m.a.toNat + 256 ∧ m1.c = false ∧ TK m m1 [] ∧ m1.stk = m.stk := by
      refine ⟨?_, ⟨4, ?_⟩, ?_⟩
      rotate_left
      · rt_exec [tabCode.do_tab.eq, h1]
        rfl
      · refine ⟨?_, rfl, ⟨?_, rfl, rfl, rfl⟩, rfl⟩
        · simp; omega
        · simp [M.view]
    obtain ⟨m2, j, r2, e2, l2, k2, s2⟩ := tab_rep _ m1 (by rw [k1.tmp3]; exact hn) c1 (Nat.le_refl _)
    rw [k1.tmp3] at e2 l2
    exact fin m2 _ (j + 1) (r1.trans (r2.trans ⟨1, rfl⟩)) (k1.trans k2) (s2.trans s1) (by omega) rfl (by omega) (.inr l2)

/-- `print_str_tmp1` writes the string. -/
theorem tab_str (m : M) : ∃ ax, Does tabCode tabCode.print_str_tmp1 m { m.view with ax := ax, out := m.out ++ printed m.view tabClr (word m.zp.tmp1 m.zp.tmp1h) 0 (m.ram (word m.zp.tmp1 m.zp.tmp1h)).toNat } := by
  by_cases h0 : m.ram (word m.zp.tmp1 m.zp.tmp1h) = 0#8
  · refine ⟨word 0 m.x, ?_, ⟨5, ?_⟩, ?_⟩
    rotate_left
    · rt_exec [tabCode.print_str_tmp1.eq, tabCode.ps_nil.eq, h0, idx0]
      rfl
    · simp [M.view, h0, printed]
  · obtain ⟨m1, r1, y1, t1, t1h, t2, o1, e1⟩ : ∃ m1, Reach tabCode tabCode.print_str_tmp1 m tabCode.ps_loop m1 ∧ m1.y = 0#8 ∧ m1.zp.tmp1 = m.zp.tmp1 ∧ m1.zp.tmp1h = m.zp.tmp1h ∧
        m1.zp.tmp2 = m.ram (word m.zp.tmp1 m.zp.tmp1h) ∧ m1.out = m.out ∧ m1.view = { m.view with ax := m1.view.ax } := by
      refine ⟨?_, ⟨5, ?_⟩, ?_⟩
      rotate_left
      · rt_exec [tabCode.print_str_tmp1.eq, h0, idx0]
        rfl
      · exact ⟨rfl, rfl, rfl, rfl, rfl, rfl⟩
    have hn : (m.ram (word m.zp.tmp1 m.zp.tmp1h)).toNat ≠ 0 := fun e => h0 (BitVec.eq_of_toNat_eq e)
    obtain ⟨n, hn'⟩ : ∃ n, (m.ram (word m.zp.tmp1 m.zp.tmp1h)).toNat = n + 1 := ⟨_, (Nat.succ_pred hn).symm⟩
    obtain ⟨ax, h⟩ := loop_does' (P := tabCode) tabClr tabCode.ps_loop.find n m1 (by rw [y1, t2, hn']; simp)
    refine ⟨ax, r1.does (h.cast ?_)⟩
    have hc : m1.view.chn = m.view.chn := by have e := congrArg View.chn e1; exact e
    have hr : m1.view.ram = m.view.ram := by have e := congrArg View.ram e1; exact e
    have hp : printed m1.view tabClr (word m1.zp.tmp1 m1.zp.tmp1h) m1.y.toNat (n + 1) = printed m.view tabClr (word m.zp.tmp1 m.zp.tmp1h) 0 (n + 1) := by
      simp only [printed, hc, hr, t1, t1h, y1]; rfl
    rw [hn', hp, o1, e1]

end FB.Rt
