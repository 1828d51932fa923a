import Verif.Rt.Float
import Verif.Rt.LabelsP
import Verif.Eng.JLab
/-!
# The square root

Transcription of `/repo/src/interp/atarifp/fp_sqrt.asm:39-102` and of `check_fp_err` (`fp_const.asm:63-70`).
-/
namespace FB.Rt
open Ins Opd

/-- `EXE_FP_SQRT`, `fp_sqrt.asm:39-102`, with the table `approx_compare_tab` at the address `T`; `check_fp_err`, `fp_const.asm:63-70`.  Each of the routines of the OS is an `ext` before a label with its name and an
`rts`; `qext` gives what they do.  `FPSCR` is `$05E6`, `PLYARG` is `$05E0`, `FR0` is `$D4`. -/
def sqCode (T : W) : Code :=
  asm!["EXE_FP_SQRT", ldx (imm 0xE6), ldy (imm 0x05), jsr "FST0R",
   "sq_1", clc, lda (abs 0xD4), beq "check_fp_err", sec, bmi "check_fp_err", adc (imm 0x3F), sta (abs 0xD4), ldx (imm 9), stx (zp .tmp2), lda (imm 0),
   "guess_loop", adc (imm 0x11), dex, ldy (absX T), cpy (abs 0xD5), bcc "guess_loop",
   "guess_ok", lsr (abs 0xD4), bcs "no_tens", and (imm 0x0F),
   "no_tens", sta (abs 0xD5),
   "iter_loop", ldy (imm 0x05), ldx (imm 0xE0), jsr "FST0R",
   "sq_2", jsr "FMOVE",
   "sq_3", ldx (imm 0xE6), ldy (imm 0x05), jsr "FLD0R",
   "sq_4", jsr "FDIV",
   "sq_5", ldy (imm 0x05), ldx (imm 0xE0), jsr "FLD1R",
   "sq_6", jsr "FADD",
   "sq_7", ldx (imm 0x6C), ldy (imm 0xDF), jsr "FLD1R",
   "sq_8", jsr "FMUL",
   "sq_9", asl (zp .tmp2), bpl "iter_loop",
   "check_fp_err", bcc "fp_xit", lda (imm 3), sta (zp .ioerr),
   "fp_xit", next,
   "FST0R", ext, "FST0R_r", rts,
   "FMOVE", ext, "FMOVE_r", rts,
   "FLD0R", ext, "FLD0R_r", rts,
   "FLD1R", ext, "FLD1R_r", rts,
   "FADD", ext, "FADD_r", rts,
   "FDIV", ext, "FDIV_r", rts,
   "FMUL", ext, "FMUL_r", rts]

code_labels_p sqCode (T : W)

/-- `approx_compare_tab`, `fp_sqrt.asm:100-101`. -/
def sqTab : List Nat := [0xff, 0x87, 0x66, 0x55, 0x36, 0x24, 0x14, 0x07, 0x02]

/-- The table is in the memory, at an address that is not of the OS. -/
structure SqTab (T : W) (ram : W → B) : Prop where
  tab : ∀ i, i < 9 → (ram (T + BitVec.ofNat 16 i)).toNat = sqTab.getD i 0
  lo : 0x600 ≤ T.toNat
  hi : T.toNat < 0xFFF0

/-- What a call of the OS leaves as it was. -/
structure QC (s s' : QS) (st : List Slot) : Prop where
  zp : s'.m.zp = s.m.zp
  sl : s'.m.sl = s.m.sl
  sh : s'.m.sh = s.m.sh
  stk : s'.m.stk = st

section
variable {P : Code} {O : NOps} {s : QS} {k r : Code} {st : List Slot} {k' : Code}

theorem qe_FMOVE (s : QS) : qext O "FMOVE_r" s = some (s.ret (s.junk 0).c s.m.ram s.m.fr0 s.m.fr0) := by simp only [qext]; simp only [String.reduceEq, if_false, if_true]
theorem qe_FLD0R (s : QS) : qext O "FLD0R_r" s = some (s.ret (s.junk 0).c s.m.ram (numAt s.m.ram s.xy) s.m.fr1) := by simp only [qext]; simp only [String.reduceEq, if_false, if_true]
theorem qe_FLD1R (s : QS) : qext O "FLD1R_r" s = some (s.ret (s.junk 0).c s.m.ram s.m.fr0 (numAt s.m.ram s.xy)) := by simp only [qext]; simp only [String.reduceEq, if_false, if_true]
theorem qe_FADD (s : QS) {v : Num} (h : O.add s.m.fr0 s.m.fr1 = some v) : qext O "FADD_r" s = some (s.ret false s.m.ram v (s.junk 0).r1) := by simp only [qext]; simp only [String.reduceEq, if_false, if_true]; rw [h, QS.op]
theorem qe_FSUB (s : QS) {v : Num} (h : O.sub s.m.fr0 s.m.fr1 = some v) : qext O "FSUB_r" s = some (s.ret false s.m.ram v (s.junk 0).r1) := by simp only [qext]; simp only [String.reduceEq, if_false, if_true]; rw [h, QS.op]
theorem qe_FMUL (s : QS) {v : Num} (h : O.mul s.m.fr0 s.m.fr1 = some v) : qext O "FMUL_r" s = some (s.ret false s.m.ram v (s.junk 0).r1) := by simp only [qext]; simp only [String.reduceEq, if_false, if_true]; rw [h, QS.op]
theorem qe_FDIV (s : QS) {v : Num} (h : O.div s.m.fr0 s.m.fr1 = some v) : qext O "FDIV_r" s = some (s.ret false s.m.ram v (s.junk 0).r1) := by simp only [qext]; simp only [String.reduceEq, if_false, if_true]; rw [h, QS.op]

/-- A call that loads or computes. -/
theorem q_ret {l : String} {c : Bool} {f0 f1 : Num} (hk : k' = .ins .ext :: .lb l :: .ins .rts :: r) (hs : s.m.stk = .ret k :: st) (hq : qext O l s = some (s.ret c s.m.ram f0 f1)) :
    ∃ s', QReach P O k' s k s' ∧ s'.m.fr0 = f0 ∧ s'.m.fr1 = f1 ∧ s'.m.c = c ∧ (∀ a : W, a.toNat < 0xD4 ∨ 0x100 ≤ a.toNat → s'.m.ram a = s.m.ram a) ∧ (∀ i, s'.junk i = s.junk (i + 1)) ∧ QC s s' st :=
  ⟨_, qcall hk hs hq rfl, numAt_setFp0 .., numAt_setFp1 .., rfl, fun _ h => setFp_out _ _ _ _ h, fun _ => rfl, rfl, rfl, rfl, rfl⟩

/-- A store. -/
theorem q_st (hk : k' = .ins .ext :: .lb "FST0R_r" :: .ins .rts :: r) (hs : s.m.stk = .ret k :: st) {w : W} (hw : s.xy = w) (h1 : 0x100 ≤ w.toNat) (h2 : w.toNat < 0xFFFA) :
    ∃ s', QReach P O k' s k s' ∧ s'.m.fr0 = s.m.fr0 ∧ s'.m.fr1 = s.m.fr1 ∧ numAt s'.m.ram w = s.m.fr0 ∧ (∀ a : W, a.toNat < 0xD4 ∨ 0x100 ≤ a.toNat → 6 ≤ (a - w).toNat → s'.m.ram a = s.m.ram a) ∧ QC s s' st := by
  refine ⟨_, qcall (s' := s.ret (s.junk 0).c (putNum s.m.ram w s.m.fr0) s.m.fr0 s.m.fr1) hk hs (by simp [qext, hw, h1, h2]) rfl, numAt_setFp0 .., numAt_setFp1 .., ?_, fun a h h' => ?_, rfl, rfl, rfl, rfl⟩
  · exact (numAt_setFp _ _ _ _ h1 h2).trans (numAt_putNum ..)
  · exact (setFp_out _ _ _ _ h).trans (putNum_ne _ _ h')

end

section
variable {T : W} {O : NOps}

/-- Where memory may change: the cells of the OS for floating point, `PLYARG` and `FPSCR`. -/
def SqKeep (r r' : W → B) : Prop := ∀ a : W, (a.toNat < 0xD4 ∨ (0x100 ≤ a.toNat ∧ a.toNat < 0x5E0) ∨ 0x5EC ≤ a.toNat) → r' a = r a

theorem SqKeep.trans {r r1 r2 : W → B} (h : SqKeep r r1) (h' : SqKeep r1 r2) : SqKeep r r2 := fun a ha => (h' a ha).trans (h a ha)

/-- The digit of the first guess: the loop with the table, from the entry `i`. -/
def sqDig (d : Nat) : Nat → Nat
  | 0 => 9
  | i + 1 => if sqTab.getD (i + 1) 0 < d then sqDig d i else 8 - i

/-- Without a root: zero gives itself and a negative number gives error 3; `FR0` does not change. -/
theorem sq_triv (s : QS) (he : s.m.fr0.e = 0#8 ∨ 128 ≤ s.m.fr0.e.toNat) : ∃ s', QHalts (sqCode T) O (sqCode.EXE_FP_SQRT T) s s' ∧ s'.m.fr0 = s.m.fr0 ∧
    s'.m.zp.ioerr = (if s.m.fr0.e = 0#8 then s.m.zp.ioerr else 3#8) ∧ s'.m.sl = s.m.sl ∧ s'.m.sh = s.m.sh ∧ s'.m.stk = s.m.stk ∧ SqKeep s.m.ram s'.m.ram := by
  obtain ⟨m1, r1, s1, x1, z1, k1⟩ : ∃ m1, Reach (sqCode T) (sqCode.EXE_FP_SQRT T) s.m (sqCode.FST0R T) m1 ∧ m1.stk = .ret (.lb "sq_1" :: sqCode.sq_1 T) :: s.m.stk ∧ word m1.x m1.y = 0x5E6#16 ∧ m1.zp = s.m.zp ∧
      m1.sl = s.m.sl ∧ m1.sh = s.m.sh ∧ m1.ram = s.m.ram := by
    refine ⟨?_, ⟨3, ?_⟩, ?_⟩
    rotate_left
    · rt_exec [sqCode.EXE_FP_SQRT.eq]
      rfl
    · exact ⟨rfl, rfl, rfl, rfl, rfl, rfl⟩
  obtain ⟨s2, r2, f2, -, n2, k2, c2⟩ := q_st (P := sqCode T) (O := O) (s := { s with m := m1 }) (sqCode.FST0R.eq T) s1 (w := 0x5E6#16) x1 (by decide) (by decide)
  have F2 : s2.m.fr0 = s.m.fr0 := by rw [f2]; dsimp only; rw [M.fr0, M.fr0, k1.2.2]
  have E2 : s2.m.ram 0xD4#16 = s.m.fr0.e := by rw [← F2]; rfl
  have K2 : SqKeep s.m.ram s2.m.ram := fun a ha => by
    rw [k2 a (by omega) (by rw [BitVec.toNat_sub]; simp; omega)]; dsimp only; rw [k1.2.2]
  by_cases h0 : s.m.fr0.e = 0#8
  · rw [if_pos h0]
    rw [h0] at E2
    obtain ⟨m3, r3, e3⟩ : ∃ m3, Reach (sqCode T) (.lb "sq_1" :: sqCode.sq_1 T) s2.m (sqCode.fp_xit T) m3 ∧ (m3.ram = s2.m.ram ∧ m3.zp = s2.m.zp ∧ m3.sl = s2.m.sl ∧ m3.sh = s2.m.sh ∧ m3.stk = s2.m.stk) := by
      refine ⟨?_, ⟨5, ?_⟩, ?_⟩
      rotate_left
      · rt_exec [sqCode.sq_1.eq, sqCode.check_fp_err.eq, E2]
        rfl
      · exact ⟨rfl, rfl, rfl, rfl, rfl⟩
    refine ⟨_, ((QReach.cpu r1).trans (r2.trans (QReach.cpu r3))).halts ⟨1, rfl⟩, ?_, ?_, ?_, ?_, ?_, ?_⟩
    · rw [← F2]; exact congrArg (numAt · _) e3.1
    · exact congrArg Zp.ioerr (e3.2.1.trans (c2.zp.trans z1))
    · exact e3.2.2.1.trans (c2.sl.trans k1.1)
    · exact e3.2.2.2.1.trans (c2.sh.trans k1.2.1)
    · exact e3.2.2.2.2.trans c2.stk
    · rw [show ({ s2 with m := m3 } : QS).m.ram = s2.m.ram from e3.1]; exact K2
  · rw [if_neg h0]
    have hn : topBit (s.m.fr0.e) = true := by
      rw [topBit, decide_eq_true_eq]
      rcases he with he | he
      · exact absurd he h0
      · exact he
    rw [← E2] at h0 hn
    obtain ⟨m3, r3, e3⟩ : ∃ m3, Reach (sqCode T) (.lb "sq_1" :: sqCode.sq_1 T) s2.m (.lb "fp_xit" :: sqCode.fp_xit T) m3 ∧ (m3.ram = s2.m.ram ∧ m3.zp = { s2.m.zp with ioerr := 3#8 } ∧ m3.sl = s2.m.sl ∧ m3.sh = s2.m.sh ∧ m3.stk = s2.m.stk) := by
      refine ⟨?_, ⟨9, ?_⟩, ?_⟩
      rotate_left
      · rt_exec [sqCode.sq_1.eq, sqCode.check_fp_err.eq, h0, hn]
        rfl
      · exact ⟨rfl, rfl, rfl, rfl, rfl⟩
    refine ⟨_, ((QReach.cpu r1).trans (r2.trans (QReach.cpu r3))).halts ⟨2, rfl⟩, ?_, ?_, ?_, ?_, ?_, ?_⟩
    · rw [← F2]; exact congrArg (numAt · _) e3.1
    · exact congrArg Zp.ioerr e3.2.1
    · exact e3.2.2.1.trans (c2.sl.trans k1.1)
    · exact e3.2.2.2.1.trans (c2.sh.trans k1.2.1)
    · exact e3.2.2.2.2.trans c2.stk
    · rw [show ({ s2 with m := m3 } : QS).m.ram = s2.m.ram from e3.1]; exact K2

/-- The loop with the table. -/
theorem sq_gloop (i : Nat) : ∀ (m : M), i < 9 → SqTab T m.ram → m.c = false → m.x.toNat = i + 1 → m.a.toNat = 0x11 * (8 - i) →
    ∃ m', Reach (sqCode T) (sqCode.guess_loop T) m (.lb "guess_ok" :: sqCode.guess_ok T) m' ∧ m'.a.toNat = 0x11 * sqDig (m.ram 0xD5#16).toNat i ∧ m'.ram = m.ram ∧ m'.zp = m.zp ∧ m'.sl = m.sl ∧ m'.sh = m.sh ∧ m'.stk = m.stk := by
  induction i with
  | zero =>
    intro m _ hT hc hx ha
    have hx1 : m.x = 1#8 := BitVec.eq_of_toNat_eq hx
    have t0 := hT.tab 0 (by decide)
    have ed := (m.ram 0xD5#16).isLt
    have hb : addC (m.ram (idx T 0#8)) (~~~ (m.ram 0xD5#16)) true = true := bool1 (by
      have : idx T 0#8 = T + BitVec.ofNat 16 0 := rfl
      rw [this]; simp at t0 ⊢; rw [t0]; simp [sqTab]; omega)
    refine ⟨?_, ⟨5, ?_⟩, ?_⟩
    rotate_left
    · rt_exec [sqCode.guess_loop.eq, hx1, hb]
      rfl
    · refine ⟨?_, rfl, rfl, rfl, rfl, rfl⟩
      simp [sqDig, hc, ha]
  | succ i ih =>
    intro m hi hT hc hx ha
    have hxl := m.x.isLt
    have hx1 : (m.x - 1#8).toNat = i + 1 := by simp [BitVec.toNat_sub]; omega
    have t0 := hT.tab (i + 1) hi
    have ex : idx T (m.x - 1#8) = T + BitVec.ofNat 16 (i + 1) := by rw [idx, hx1]
    have ed := (m.ram 0xD5#16).isLt
    have eu := (m.ram (T + BitVec.ofNat 16 (i + 1))).isLt
    have hac : addC m.a 17#8 m.c = false := bool0 (by rw [addC_toNat, hc, ha]; simp; omega)
    have haa : (add8 m.a 17#8 m.c).toNat = 0x11 * (8 - i) := by rw [add8_toNat, hc, ha]; simp; omega
    by_cases hd : sqTab.getD (i + 1) 0 < (m.ram 0xD5#16).toNat
    · have hb : addC (m.ram (idx T (m.x - 1#8))) (~~~ (m.ram 0xD5#16)) true = false := bool0 (by rw [ex, addC_toNat]; simp at t0 hd ⊢; omega)
      obtain ⟨m1, r1, a1, c1, x1, k1⟩ : ∃ m1, Reach (sqCode T) (sqCode.guess_loop T) m (sqCode.guess_loop T) m1 ∧ m1.a = add8 m.a 17#8 m.c ∧ m1.c = false ∧ m1.x = m.x - 1#8 ∧
          m1.ram = m.ram ∧ m1.zp = m.zp ∧ m1.sl = m.sl ∧ m1.sh = m.sh ∧ m1.stk = m.stk := by
        refine ⟨?_, ⟨5, ?_⟩, ?_⟩
        rotate_left
        · rt_exec [sqCode.guess_loop.eq, hb]
          rfl
        · exact ⟨rfl, rfl, rfl, rfl, rfl, rfl, rfl, rfl⟩
      obtain ⟨m2, r2, a2, k2⟩ := ih m1 (by omega) (by rw [k1.1]; exact hT) c1 (by rw [x1]; exact hx1) (by rw [a1]; exact haa)
      refine ⟨m2, r1.trans r2, ?_, k2.1.trans k1.1, k2.2.1.trans k1.2.1, k2.2.2.1.trans k1.2.2.1, k2.2.2.2.1.trans k1.2.2.2.1, k2.2.2.2.2.trans k1.2.2.2.2⟩
      rw [a2, k1.1, sqDig, if_pos hd]
    · have hb : addC (m.ram (idx T (m.x - 1#8))) (~~~ (m.ram 0xD5#16)) true = true := bool1 (by rw [ex, addC_toNat]; simp at t0 hd ⊢; omega)
      refine ⟨?_, ⟨5, ?_⟩, ?_⟩
      rotate_left
      · rt_exec [sqCode.guess_loop.eq, hb]
        rfl
      · refine ⟨?_, rfl, rfl, rfl, rfl, rfl⟩
        rw [sqDig, if_neg hd]
        exact haa

/-- The first guess, as a number: half of the exponent, a digit (or two) from the table, and the other digits of `X`. -/
def SqGuess (X G : Num) : Prop :=
  G.e.toNat = (X.e.toNat + 64) / 2 ∧ G.d1.toNat = (if X.e.toNat % 2 = 0 then sqDig X.d1.toNat 8 else 17 * sqDig X.d1.toNat 8) ∧ G.d2 = X.d2 ∧ G.d3 = X.d3 ∧ G.d4 = X.d4 ∧ G.d5 = X.d5

theorem sqDig_le (d i : Nat) (h : i ≤ 8) : sqDig d i ≤ 9 := by
  induction i with
  | zero => simp [sqDig]
  | succ i ih => rw [sqDig]; split <;> [exact ih (by omega); omega]

/-- Until the first iteration. -/
theorem sq_guess (s : QS) (hT : SqTab T s.m.ram) (h1 : 1 ≤ s.m.fr0.e.toNat) (h2 : s.m.fr0.e.toNat < 128) : ∃ s', QReach (sqCode T) O (sqCode.EXE_FP_SQRT T) s (.lb "iter_loop" :: sqCode.iter_loop T) s' ∧
    SqGuess s.m.fr0 s'.m.fr0 ∧ numAt s'.m.ram 0x5E6#16 = s.m.fr0 ∧ s'.m.zp = { s.m.zp with tmp2 := 9#8 } ∧ s'.m.sl = s.m.sl ∧ s'.m.sh = s.m.sh ∧ s'.m.stk = s.m.stk ∧ SqKeep s.m.ram s'.m.ram := by
  obtain ⟨m1, r1, s1, x1, z1, k1⟩ : ∃ m1, Reach (sqCode T) (sqCode.EXE_FP_SQRT T) s.m (sqCode.FST0R T) m1 ∧ m1.stk = .ret (.lb "sq_1" :: sqCode.sq_1 T) :: s.m.stk ∧ word m1.x m1.y = 0x5E6#16 ∧ m1.zp = s.m.zp ∧
      m1.sl = s.m.sl ∧ m1.sh = s.m.sh ∧ m1.ram = s.m.ram := by
    refine ⟨?_, ⟨3, ?_⟩, ?_⟩
    rotate_left
    · rt_exec [sqCode.EXE_FP_SQRT.eq]
      rfl
    · exact ⟨rfl, rfl, rfl, rfl, rfl, rfl⟩
  obtain ⟨s2, r2, f2, -, n2, k2, c2⟩ := q_st (P := sqCode T) (O := O) (s := { s with m := m1 }) (sqCode.FST0R.eq T) s1 (w := 0x5E6#16) x1 (by decide) (by decide)
  have F2 : s2.m.fr0 = s.m.fr0 := by rw [f2]; dsimp only; rw [M.fr0, M.fr0, k1.2.2]
  have N2 : numAt s2.m.ram 0x5E6#16 = s.m.fr0 := by rw [n2]; dsimp only; rw [M.fr0, M.fr0, k1.2.2]
  have K2 : SqKeep s.m.ram s2.m.ram := fun a ha => by
    rw [k2 a (by omega) (by rw [BitVec.toNat_sub]; simp; omega)]; dsimp only; rw [k1.2.2]
  have E2 : s2.m.ram 0xD4#16 = s.m.fr0.e := by rw [← F2]; rfl
  rw [← F2]
  have e0 : ¬ s2.m.ram 0xD4#16 = 0#8 := fun e => by rw [E2] at e; rw [e] at h1; simp at h1
  have en : topBit (s2.m.ram 0xD4#16) = false := bool0 (by rw [topBit_toNat, E2]; omega)
  have ec : addC (s2.m.ram 0xD4#16) 63#8 true = false := bool0 (by rw [addC_toNat, E2]; simp; omega)
  obtain ⟨m3, r3, a3, c3, x3, z3, g3, k3⟩ : ∃ m3, Reach (sqCode T) (.lb "sq_1" :: sqCode.sq_1 T) s2.m (.lb "guess_loop" :: sqCode.guess_loop T) m3 ∧ m3.a = 0#8 ∧ m3.c = false ∧ m3.x = 9#8 ∧
      m3.zp = { s2.m.zp with tmp2 := 9#8 } ∧ m3.ram = upd s2.m.ram 0xD4#16 (add8 (s2.m.ram 0xD4#16) 63#8 true) ∧ m3.sl = s2.m.sl ∧ m3.sh = s2.m.sh ∧ m3.stk = s2.m.stk := by
    refine ⟨?_, ⟨11, ?_⟩, ?_⟩
    rotate_left
    · rt_exec [sqCode.sq_1.eq, e0, en]
      rfl
    · exact ⟨rfl, ec, rfl, rfl, rfl, rfl, rfl, rfl⟩
  have G3 : ∀ a, a ≠ 0xD4#16 → m3.ram a = s2.m.ram a := fun a h => by rw [g3, upd_ne h]
  have T3 : SqTab T m3.ram := by
    refine ⟨fun i hi => ?_, hT.lo, hT.hi⟩
    have hlo := hT.lo
    have hhi := hT.hi
    have ht : (T + BitVec.ofNat 16 i).toNat = T.toNat + i := by rw [BitVec.toNat_add]; simp; omega
    rw [G3 _ (fun e => by rw [e] at ht; simp at ht; omega), K2 _ (by omega)]
    exact hT.tab i hi
  obtain ⟨m4, r4, a4, g4, z4, k4⟩ := sq_gloop (T := T) 8 m3 (by decide) T3 c3 (by rw [x3]; rfl) (by rw [a3]; rfl)
  rw [G3 _ (by decide)] at a4
  have E4 : (m4.ram 0xD4#16).toNat = (s2.m.fr0.e).toNat + 64 := by
    rw [g4, g3, upd_at, add8_toNat, E2, F2]
    simp; omega
  have hdl := sqDig_le (s2.m.ram 0xD5#16).toNat 8 (by decide)
  obtain ⟨m5, r5, z5, d5, g5, q5, k5⟩ : ∃ m5, Reach (sqCode T) (.lb "guess_ok" :: sqCode.guess_ok T) m4 (.lb "iter_loop" :: sqCode.iter_loop T) m5 ∧ m5.zp = m4.zp ∧
      (m5.ram 0xD5#16).toNat = (if s2.m.fr0.e.toNat % 2 = 0 then sqDig (s2.m.ram 0xD5#16).toNat 8 else 17 * sqDig (s2.m.ram 0xD5#16).toNat 8) ∧ (m5.ram 0xD4#16).toNat = (s2.m.fr0.e.toNat + 64) / 2 ∧
      (∀ a, a ≠ 0xD4#16 → a ≠ 0xD5#16 → m5.ram a = m4.ram a) ∧ m5.sl = m4.sl ∧ m5.sh = m4.sh ∧ m5.stk = m4.stk := by
    have er : (ror8 (m4.ram 0xD4#16) false).toNat = (s2.m.fr0.e.toNat + 64) / 2 := by rw [ror8_toNat, E4]; simp
    by_cases ho : s2.m.fr0.e.toNat % 2 = 0
    · have hb : lowBit (m4.ram 0xD4#16) = false := by rw [lowBit, E4, decide_eq_false_iff_not]; omega
      refine ⟨?_, ⟨6, ?_⟩, ?_⟩
      rotate_left
      · rt_exec [sqCode.guess_ok.eq, sqCode.no_tens.eq, hb]
        rfl
      · refine ⟨rfl, ?_, ?_, fun a h h' => ?_, rfl, rfl, rfl⟩
        · rw [if_pos ho]
          dsimp only
          rw [upd_at, BitVec.toNat_and, a4, show (15#8).toNat = 2 ^ 4 - 1 from rfl, Nat.and_two_pow_sub_one_eq_mod]
          omega
        · dsimp only
          rw [upd_ne (by decide), upd_at]
          exact er
        · dsimp only
          rw [upd_ne h', upd_ne h]
    · have hb : lowBit (m4.ram 0xD4#16) = true := by rw [lowBit, E4, decide_eq_true_eq]; omega
      refine ⟨?_, ⟨4, ?_⟩, ?_⟩
      rotate_left
      · rt_exec [sqCode.guess_ok.eq, sqCode.no_tens.eq, hb]
        rfl
      · refine ⟨rfl, ?_, ?_, fun a h h' => ?_, rfl, rfl, rfl⟩
        · rw [if_neg ho]
          dsimp only
          rw [upd_at, a4]
        · dsimp only
          rw [upd_ne (by decide), upd_at]
          exact er
        · dsimp only
          rw [upd_ne h', upd_ne h]
  have G5 : ∀ a, a ≠ 0xD4#16 → a ≠ 0xD5#16 → m5.ram a = s2.m.ram a := fun a h h' => by rw [q5 a h h', g4, G3 a h]
  refine ⟨_, (QReach.cpu r1).trans (r2.trans ((QReach.cpu r3).trans (.trans ⟨1, rfl⟩ ((QReach.cpu (s := { s2 with m := m3 }) r4).trans (QReach.cpu (s := { s2 with m := m4 }) r5))))), ⟨g5, d5, ?_, ?_, ?_, ?_⟩, ?_, ?_, ?_, ?_, ?_, ?_⟩
  · exact G5 _ (by decide) (by decide)
  · exact G5 _ (by decide) (by decide)
  · exact G5 _ (by decide) (by decide)
  · exact G5 _ (by decide) (by decide)
  · rw [F2, ← N2]
    exact numAt_congr (G5 _ (by decide) (by decide)) (G5 _ (by decide) (by decide)) (G5 _ (by decide) (by decide)) (G5 _ (by decide) (by decide)) (G5 _ (by decide) (by decide)) (G5 _ (by decide) (by decide))
  · dsimp only; rw [z5, z4, z3, c2.zp]; dsimp only; rw [z1]
  · exact k5.1.trans (k4.1.trans (k3.1.trans (c2.sl.trans k1.1)))
  · exact k5.2.1.trans (k4.2.1.trans (k3.2.1.trans (c2.sh.trans k1.2.1)))
  · exact k5.2.2.trans (k4.2.2.trans (k3.2.2.trans c2.stk))
  · refine K2.trans fun a ha => G5 a ?_ ?_ <;> (rintro rfl; simp at ha)

theorem numAt_keep {r r' : W → B} {w : W} (h : ∀ a : W, 6 ≤ (a - 0x5E0#16).toNat → a.toNat < 0xD4 ∨ 0x100 ≤ a.toNat → r' a = r a) (h1 : 0x5E6 ≤ w.toNat) (h2 : w.toNat < 0xFFFA) : numAt r' w = numAt r w := by
  have e : ∀ i : W, i.toNat ≤ 5 → r' (w + i) = r (w + i) := fun i hi => by
    have ht : (w + i).toNat = w.toNat + i.toNat := by rw [BitVec.toNat_add, Nat.mod_eq_of_lt (by omega)]
    refine h _ ?_ (.inr (by omega))
    rw [BitVec.toNat_sub, ht]
    simp
    omega
  have e0 : r' w = r w := by have := e 0#16 (by decide); rwa [BitVec.add_zero] at this
  exact numAt_congr e0 (e 1 (by decide)) (e 2 (by decide)) (e 3 (by decide)) (e 4 (by decide)) (e 5 (by decide))

/-- One iteration: `Y` is `(X / Y + Y) * H`, with `X` in `FPSCR` and `H` the number at `$DF6C`. -/
theorem sq_iter (s : QS) {X Y H q u v : Num} (hX : numAt s.m.ram 0x5E6#16 = X) (hY : s.m.fr0 = Y) (hH : numAt s.m.ram 0xDF6C#16 = H) (hq : O.div X Y = some q) (hu : O.add q Y = some u) (hv : O.mul u H = some v) :
    ∃ s', QReach (sqCode T) O (sqCode.iter_loop T) s (.lb "sq_9" :: sqCode.sq_9 T) s' ∧ s'.m.fr0 = v ∧ numAt s'.m.ram 0x5E6#16 = X ∧ SqKeep s.m.ram s'.m.ram ∧ QC s s' s.m.stk := by
  obtain ⟨m1, r1, s1, x1, k1⟩ : ∃ m1, Reach (sqCode T) (sqCode.iter_loop T) s.m (sqCode.FST0R T) m1 ∧ m1.stk = .ret (.lb "sq_2" :: sqCode.sq_2 T) :: s.m.stk ∧ word m1.x m1.y = 0x5E0#16 ∧
      m1.zp = s.m.zp ∧ m1.sl = s.m.sl ∧ m1.sh = s.m.sh ∧ m1.ram = s.m.ram := by
    refine ⟨?_, ⟨3, ?_⟩, ?_⟩
    rotate_left
    · rt_exec [sqCode.iter_loop.eq]
      rfl
    · exact ⟨rfl, rfl, rfl, rfl, rfl, rfl⟩
  obtain ⟨s2, r2, f2, -, n2, g2, c2⟩ := q_st (P := sqCode T) (O := O) (s := { s with m := m1 }) (sqCode.FST0R.eq T) s1 (w := 0x5E0#16) x1 (by decide) (by decide)
  have e1 : ({ s with m := m1 } : QS).m.fr0 = Y := by dsimp only; rw [M.fr0, k1.2.2.2]; exact hY
  rw [e1] at f2 n2
  have G2 : ∀ a : W, 6 ≤ (a - 0x5E0#16).toNat → a.toNat < 0xD4 ∨ 0x100 ≤ a.toNat → s2.m.ram a = s.m.ram a := fun a h h' => by rw [g2 a h' h]; exact congrFun k1.2.2.2 a
  have X2 : numAt s2.m.ram 0x5E6#16 = X := (numAt_keep G2 (by decide) (by decide)).trans hX
  have H2 : numAt s2.m.ram 0xDF6C#16 = H := (numAt_keep G2 (by decide) (by decide)).trans hH
  have K2 : SqKeep s.m.ram s2.m.ram := fun a ha => G2 a (by rw [BitVec.toNat_sub]; simp; omega) (by omega)
  have C2 : QC s s2 s.m.stk := ⟨c2.zp.trans k1.1, c2.sl.trans k1.2.1, c2.sh.trans k1.2.2.1, c2.stk⟩
  -- the calls that only change the registers of floating point
  have keep : ∀ {a b : QS}, (∀ x : W, x.toNat < 0xD4 ∨ 0x100 ≤ x.toNat → b.m.ram x = a.m.ram x) → ∀ {w : W}, 0x100 ≤ w.toNat → w.toNat < 0xFFFA → numAt b.m.ram w = numAt a.m.ram w := fun {a b} h {w} h1 h2 => by
    have e : ∀ i : W, i.toNat ≤ 5 → b.m.ram (w + i) = a.m.ram (w + i) := fun i hi => h _ (.inr (by rw [BitVec.toNat_add, Nat.mod_eq_of_lt (by omega)]; omega))
    have e0 : b.m.ram w = a.m.ram w := h _ (.inr h1)
    exact numAt_congr e0 (e 1 (by decide)) (e 2 (by decide)) (e 3 (by decide)) (e 4 (by decide)) (e 5 (by decide))
  have kk : ∀ {a b : QS}, (∀ x : W, x.toNat < 0xD4 ∨ 0x100 ≤ x.toNat → b.m.ram x = a.m.ram x) → SqKeep a.m.ram b.m.ram := fun h x hx => h x (by omega)
  -- `FMOVE`
  obtain ⟨m3, r3, s3, k3⟩ : ∃ m3, Reach (sqCode T) (.lb "sq_2" :: sqCode.sq_2 T) s2.m (sqCode.FMOVE T) m3 ∧ m3.stk = .ret (.lb "sq_3" :: sqCode.sq_3 T) :: s2.m.stk ∧
      m3.zp = s2.m.zp ∧ m3.sl = s2.m.sl ∧ m3.sh = s2.m.sh ∧ m3.ram = s2.m.ram := by
    refine ⟨?_, ⟨2, ?_⟩, ?_⟩
    rotate_left
    · rt_exec [sqCode.sq_2.eq]
      rfl
    · exact ⟨rfl, rfl, rfl, rfl, rfl⟩
  obtain ⟨s4, r4, f4, h4, -, g4, -, c4⟩ := q_ret (P := sqCode T) (O := O) (s := { s2 with m := m3 }) (sqCode.FMOVE.eq T) s3 (qe_FMOVE _)
  have e3 : ({ s2 with m := m3 } : QS).m.fr0 = Y := by dsimp only; rw [M.fr0, k3.2.2.2]; exact f2
  rw [e3] at f4 h4
  have G4 : ∀ x : W, x.toNat < 0xD4 ∨ 0x100 ≤ x.toNat → s4.m.ram x = s2.m.ram x := fun x h => (g4 x h).trans (congrFun k3.2.2.2 x)
  have C4 : QC s s4 s.m.stk := ⟨c4.zp.trans (k3.1.trans C2.zp), c4.sl.trans (k3.2.1.trans C2.sl), c4.sh.trans (k3.2.2.1.trans C2.sh), c4.stk.trans C2.stk⟩
  -- `FLD0R`
  obtain ⟨m5, r5, s5, x5, k5⟩ : ∃ m5, Reach (sqCode T) (.lb "sq_3" :: sqCode.sq_3 T) s4.m (sqCode.FLD0R T) m5 ∧ m5.stk = .ret (.lb "sq_4" :: sqCode.sq_4 T) :: s4.m.stk ∧ word m5.x m5.y = 0x5E6#16 ∧
      m5.zp = s4.m.zp ∧ m5.sl = s4.m.sl ∧ m5.sh = s4.m.sh ∧ m5.ram = s4.m.ram := by
    refine ⟨?_, ⟨4, ?_⟩, ?_⟩
    rotate_left
    · rt_exec [sqCode.sq_3.eq]
      rfl
    · exact ⟨rfl, rfl, rfl, rfl, rfl, rfl⟩
  obtain ⟨s6, r6, f6, h6, -, g6, -, c6⟩ := q_ret (P := sqCode T) (O := O) (s := { s4 with m := m5 }) (sqCode.FLD0R.eq T) s5 (qe_FLD0R _)
  have X4 : numAt s4.m.ram 0x5E6#16 = X := (keep G4 (by decide) (by decide)).trans X2
  have e5 : numAt ({ s4 with m := m5 } : QS).m.ram ({ s4 with m := m5 } : QS).xy = X := by rw [QS.xy]; dsimp only; rw [x5, k5.2.2.2]; exact X4
  have e5' : ({ s4 with m := m5 } : QS).m.fr1 = Y := by dsimp only; rw [M.fr1, k5.2.2.2]; exact h4
  rw [e5] at f6
  rw [e5'] at h6
  have G6 : ∀ x : W, x.toNat < 0xD4 ∨ 0x100 ≤ x.toNat → s6.m.ram x = s2.m.ram x := fun x h => ((g6 x h).trans (congrFun k5.2.2.2 x)).trans (G4 x h)
  have C6 : QC s s6 s.m.stk := ⟨c6.zp.trans (k5.1.trans C4.zp), c6.sl.trans (k5.2.1.trans C4.sl), c6.sh.trans (k5.2.2.1.trans C4.sh), c6.stk.trans C4.stk⟩
  -- `FDIV`
  obtain ⟨m7, r7, s7, k7⟩ : ∃ m7, Reach (sqCode T) (.lb "sq_4" :: sqCode.sq_4 T) s6.m (sqCode.FDIV T) m7 ∧ m7.stk = .ret (.lb "sq_5" :: sqCode.sq_5 T) :: s6.m.stk ∧
      m7.zp = s6.m.zp ∧ m7.sl = s6.m.sl ∧ m7.sh = s6.m.sh ∧ m7.ram = s6.m.ram := by
    refine ⟨?_, ⟨2, ?_⟩, ?_⟩
    rotate_left
    · rt_exec [sqCode.sq_4.eq]
      rfl
    · exact ⟨rfl, rfl, rfl, rfl, rfl⟩
  have e7 : O.div ({ s6 with m := m7 } : QS).m.fr0 ({ s6 with m := m7 } : QS).m.fr1 = some q := by
    dsimp only; rw [M.fr0, M.fr1, k7.2.2.2]
    rw [M.fr0] at f6
    rw [M.fr1] at h6
    rw [f6, h6]; exact hq
  obtain ⟨s8, r8, f8, -, -, g8, -, c8⟩ := q_ret (P := sqCode T) (O := O) (s := { s6 with m := m7 }) (sqCode.FDIV.eq T) s7 (f0 := q) (f1 := _) (c := false) (qe_FDIV _ e7)
  have G8 : ∀ x : W, x.toNat < 0xD4 ∨ 0x100 ≤ x.toNat → s8.m.ram x = s2.m.ram x := fun x h => ((g8 x h).trans (congrFun k7.2.2.2 x)).trans (G6 x h)
  have C8 : QC s s8 s.m.stk := ⟨c8.zp.trans (k7.1.trans C6.zp), c8.sl.trans (k7.2.1.trans C6.sl), c8.sh.trans (k7.2.2.1.trans C6.sh), c8.stk.trans C6.stk⟩
  -- `FLD1R`
  obtain ⟨m9, r9, s9, x9, k9⟩ : ∃ m9, Reach (sqCode T) (.lb "sq_5" :: sqCode.sq_5 T) s8.m (sqCode.FLD1R T) m9 ∧ m9.stk = .ret (.lb "sq_6" :: sqCode.sq_6 T) :: s8.m.stk ∧ word m9.x m9.y = 0x5E0#16 ∧
      m9.zp = s8.m.zp ∧ m9.sl = s8.m.sl ∧ m9.sh = s8.m.sh ∧ m9.ram = s8.m.ram := by
    refine ⟨?_, ⟨4, ?_⟩, ?_⟩
    rotate_left
    · rt_exec [sqCode.sq_5.eq]
      rfl
    · exact ⟨rfl, rfl, rfl, rfl, rfl, rfl⟩
  obtain ⟨sA, rA, fA, hA, -, gA, -, cA⟩ := q_ret (P := sqCode T) (O := O) (s := { s8 with m := m9 }) (sqCode.FLD1R.eq T) s9 (qe_FLD1R _)
  have e9 : numAt ({ s8 with m := m9 } : QS).m.ram ({ s8 with m := m9 } : QS).xy = Y := by rw [QS.xy]; dsimp only; rw [x9, k9.2.2.2]; exact (keep G8 (by decide) (by decide)).trans n2
  have e9' : ({ s8 with m := m9 } : QS).m.fr0 = q := by dsimp only; rw [M.fr0, k9.2.2.2]; exact f8
  rw [e9] at hA
  rw [e9'] at fA
  have GA : ∀ x : W, x.toNat < 0xD4 ∨ 0x100 ≤ x.toNat → sA.m.ram x = s2.m.ram x := fun x h => ((gA x h).trans (congrFun k9.2.2.2 x)).trans (G8 x h)
  have CA : QC s sA s.m.stk := ⟨cA.zp.trans (k9.1.trans C8.zp), cA.sl.trans (k9.2.1.trans C8.sl), cA.sh.trans (k9.2.2.1.trans C8.sh), cA.stk.trans C8.stk⟩
  -- `FADD`
  obtain ⟨mB, rB, sB, kB⟩ : ∃ mB, Reach (sqCode T) (.lb "sq_6" :: sqCode.sq_6 T) sA.m (sqCode.FADD T) mB ∧ mB.stk = .ret (.lb "sq_7" :: sqCode.sq_7 T) :: sA.m.stk ∧
      mB.zp = sA.m.zp ∧ mB.sl = sA.m.sl ∧ mB.sh = sA.m.sh ∧ mB.ram = sA.m.ram := by
    refine ⟨?_, ⟨2, ?_⟩, ?_⟩
    rotate_left
    · rt_exec [sqCode.sq_6.eq]
      rfl
    · exact ⟨rfl, rfl, rfl, rfl, rfl⟩
  have eB : O.add ({ sA with m := mB } : QS).m.fr0 ({ sA with m := mB } : QS).m.fr1 = some u := by
    dsimp only; rw [M.fr0, M.fr1, kB.2.2.2]
    rw [M.fr0] at fA
    rw [M.fr1] at hA
    rw [fA, hA]; exact hu
  obtain ⟨sC, rC, fC, -, -, gC, -, cC⟩ := q_ret (P := sqCode T) (O := O) (s := { sA with m := mB }) (sqCode.FADD.eq T) sB (f0 := u) (f1 := _) (c := false) (qe_FADD _ eB)
  have GC : ∀ x : W, x.toNat < 0xD4 ∨ 0x100 ≤ x.toNat → sC.m.ram x = s2.m.ram x := fun x h => ((gC x h).trans (congrFun kB.2.2.2 x)).trans (GA x h)
  have CC : QC s sC s.m.stk := ⟨cC.zp.trans (kB.1.trans CA.zp), cC.sl.trans (kB.2.1.trans CA.sl), cC.sh.trans (kB.2.2.1.trans CA.sh), cC.stk.trans CA.stk⟩
  -- `FLD1R`
  obtain ⟨mD, rD, sD, xD, kD⟩ : ∃ mD, Reach (sqCode T) (.lb "sq_7" :: sqCode.sq_7 T) sC.m (sqCode.FLD1R T) mD ∧ mD.stk = .ret (.lb "sq_8" :: sqCode.sq_8 T) :: sC.m.stk ∧ word mD.x mD.y = 0xDF6C#16 ∧
      mD.zp = sC.m.zp ∧ mD.sl = sC.m.sl ∧ mD.sh = sC.m.sh ∧ mD.ram = sC.m.ram := by
    refine ⟨?_, ⟨4, ?_⟩, ?_⟩
    rotate_left
    · rt_exec [sqCode.sq_7.eq]
      rfl
    · exact ⟨rfl, by dsimp only; simp [word], rfl, rfl, rfl, rfl⟩
  obtain ⟨sE, rE, fE, hE, -, gE, -, cE⟩ := q_ret (P := sqCode T) (O := O) (s := { sC with m := mD }) (sqCode.FLD1R.eq T) sD (qe_FLD1R _)
  have hd1 : 0x100 ≤ (0xDF6C#16).toNat := by decide
  have hd2 : (0xDF6C#16).toNat < 0xFFFA := by decide
  have HC : numAt sC.m.ram 0xDF6C#16 = H := (keep GC hd1 hd2).trans H2
  generalize 0xDF6C#16 = wH at xD HC
  have eD : numAt ({ sC with m := mD } : QS).m.ram ({ sC with m := mD } : QS).xy = H := by rw [QS.xy]; dsimp only; rw [xD, kD.2.2.2]; exact HC
  have eD' : ({ sC with m := mD } : QS).m.fr0 = u := by dsimp only; rw [M.fr0, kD.2.2.2]; exact fC
  rw [eD] at hE
  rw [eD'] at fE
  have GE : ∀ x : W, x.toNat < 0xD4 ∨ 0x100 ≤ x.toNat → sE.m.ram x = s2.m.ram x := fun x h => ((gE x h).trans (congrFun kD.2.2.2 x)).trans (GC x h)
  have CE : QC s sE s.m.stk := ⟨cE.zp.trans (kD.1.trans CC.zp), cE.sl.trans (kD.2.1.trans CC.sl), cE.sh.trans (kD.2.2.1.trans CC.sh), cE.stk.trans CC.stk⟩
  -- `FMUL`
  obtain ⟨mF, rF, sF, kF⟩ : ∃ mF, Reach (sqCode T) (.lb "sq_8" :: sqCode.sq_8 T) sE.m (sqCode.FMUL T) mF ∧ mF.stk = .ret (.lb "sq_9" :: sqCode.sq_9 T) :: sE.m.stk ∧
      mF.zp = sE.m.zp ∧ mF.sl = sE.m.sl ∧ mF.sh = sE.m.sh ∧ mF.ram = sE.m.ram := by
    refine ⟨?_, ⟨2, ?_⟩, ?_⟩
    rotate_left
    · rt_exec [sqCode.sq_8.eq]
      rfl
    · exact ⟨rfl, rfl, rfl, rfl, rfl⟩
  have eF : O.mul ({ sE with m := mF } : QS).m.fr0 ({ sE with m := mF } : QS).m.fr1 = some v := by
    dsimp only; rw [M.fr0, M.fr1, kF.2.2.2]
    rw [M.fr0] at fE
    rw [M.fr1] at hE
    rw [fE, hE]; exact hv
  obtain ⟨sG, rG, fG, -, -, gG, -, cG⟩ := q_ret (P := sqCode T) (O := O) (s := { sE with m := mF }) (sqCode.FMUL.eq T) sF (f0 := v) (f1 := _) (c := false) (qe_FMUL _ eF)
  have GG : ∀ x : W, x.toNat < 0xD4 ∨ 0x100 ≤ x.toNat → sG.m.ram x = s2.m.ram x := fun x h => ((gG x h).trans (congrFun kF.2.2.2 x)).trans (GE x h)
  refine ⟨sG, ?_, fG, (keep GG (by decide) (by decide)).trans X2, K2.trans (kk GG), cG.zp.trans (kF.1.trans CE.zp), cG.sl.trans (kF.2.1.trans CE.sl), cG.sh.trans (kF.2.2.1.trans CE.sh), cG.stk.trans CE.stk⟩
  exact (QReach.cpu r1).trans (r2.trans ((QReach.cpu r3).trans (r4.trans ((QReach.cpu r5).trans (r6.trans ((QReach.cpu r7).trans (r8.trans ((QReach.cpu r9).trans (rA.trans ((QReach.cpu rB).trans
    (rC.trans ((QReach.cpu rD).trans (rE.trans ((QReach.cpu rF).trans rG))))))))))))))

/-- The end of an iteration that is not the last. -/
theorem sq_back (s : QS) (h : s.m.zp.tmp2.toNat < 64) : ∃ s', QReach (sqCode T) O (.lb "sq_9" :: sqCode.sq_9 T) s (sqCode.iter_loop T) s' ∧ s'.m.ram = s.m.ram ∧ s'.m.zp = { s.m.zp with tmp2 := rol8 s.m.zp.tmp2 false } ∧
    s'.m.sl = s.m.sl ∧ s'.m.sh = s.m.sh ∧ s'.m.stk = s.m.stk := by
  have hb : topBit (rol8 s.m.zp.tmp2 false) = false := bool0 (by rw [topBit_toNat, rol8_toNat]; simp; omega)
  obtain ⟨m1, r1, k1⟩ : ∃ m1, Reach (sqCode T) (.lb "sq_9" :: sqCode.sq_9 T) s.m (sqCode.iter_loop T) m1 ∧ m1.ram = s.m.ram ∧ m1.zp = { s.m.zp with tmp2 := rol8 s.m.zp.tmp2 false } ∧ m1.sl = s.m.sl ∧ m1.sh = s.m.sh ∧
      m1.stk = s.m.stk := by
    refine ⟨?_, ⟨3, ?_⟩, ?_⟩
    rotate_left
    · rt_exec [sqCode.sq_9.eq, hb]
      rfl
    · exact ⟨rfl, rfl, rfl, rfl, rfl⟩
  exact ⟨_, QReach.cpu r1, k1⟩

/-- The end of the last iteration. -/
theorem sq_end (s : QS) (h : s.m.zp.tmp2 = 72#8) : ∃ s', QHalts (sqCode T) O (.lb "sq_9" :: sqCode.sq_9 T) s s' ∧ s'.m.ram = s.m.ram ∧ s'.m.zp = { s.m.zp with tmp2 := 144#8 } ∧
    s'.m.sl = s.m.sl ∧ s'.m.sh = s.m.sh ∧ s'.m.stk = s.m.stk := by
  obtain ⟨m1, r1, k1⟩ : ∃ m1, Reach (sqCode T) (.lb "sq_9" :: sqCode.sq_9 T) s.m (sqCode.fp_xit T) m1 ∧ m1.ram = s.m.ram ∧ m1.zp = { s.m.zp with tmp2 := 144#8 } ∧ m1.sl = s.m.sl ∧ m1.sh = s.m.sh ∧
      m1.stk = s.m.stk := by
    have b1 : topBit (rol8 s.m.zp.tmp2 false) = true := by rw [h]; rfl
    have b2 : topBit s.m.zp.tmp2 = false := by rw [h]; rfl
    have b3 : rol8 s.m.zp.tmp2 false = 144#8 := by rw [h]; rfl
    rw [b3] at b1
    refine ⟨?_, ⟨5, ?_⟩, ?_⟩
    rotate_left
    · rt_exec [sqCode.sq_9.eq, sqCode.check_fp_err.eq, b1, b2, b3]
      rfl
    · exact ⟨rfl, rfl, rfl, rfl, rfl⟩
  exact ⟨_, (QReach.cpu r1).halts ⟨1, rfl⟩, k1⟩

end
end FB.Rt
