import Verif.Rt.FpStack
/-!
# The tokens of floating point

What each routine of `fpCode` does with the stack of numbers.
-/
namespace FB.Rt
open Ins Opd

/-- After a token: the stack, and what did not change. -/
structure FpR (s s' : QS) (v : Num) (l : List Num) (z : Zp) : Prop where
  st : FpSt s'.m.ram v l
  keep : FpKeep s.m.ram s'.m.ram
  zp : s'.m.zp = z
  sl : s'.m.sl = s.m.sl
  sh : s'.m.sh = s.m.sh
  stk : s'.m.stk = s.m.stk

section
variable {O : NOps}

theorem FpKeep.os {r r' : W → B} (h : ∀ a : W, a.toNat < 0xD4 ∨ 0x100 ≤ a.toNat → r' a = r a) : FpKeep r r' := fun a _ h2 => h a (by omega)
theorem FpSt.os {r r' : W → B} {top : Num} {st : List Num} (hf : FpSt r top st) (h : ∀ a : W, a.toNat < 0xD4 ∨ 0x100 ≤ a.toNat → r' a = r a) : FpSt r' (numAt r' 0xD4#16) st :=
  hf.keep fun a ha => h a (by rcases ha with rfl | ha <;> [exact .inl (by decide); omega])

/-- A call of `push_fr0`. -/
theorem push_q (s : QS) (k : Code) (st : List Slot) (hs : s.m.stk = .ret k :: st) {top : Num} {l : List Num} (hf : FpSt s.m.ram top l) (hl : l.length < 8) :
    ∃ s', QReach fpCode O fpCode.push_fr0 s k s' ∧ s'.m.x = s.m.x ∧ QC s s' st ∧ FpSt s'.m.ram top (top :: l) ∧ (∀ a : W, a ≠ 0xB0#16 → a.toNat < 0x4D0 ∨ 0x500 ≤ a.toNat → s'.m.ram a = s.m.ram a) := by
  obtain ⟨m', r, x, c, f, g⟩ := push_ok s.m k st hs hf hl
  exact ⟨_, QReach.cpu r, x, ⟨c.zp, c.sl, c.sh, c.stk⟩, f, g⟩

/-- A call of `pop_fr0`. -/
theorem pop_q (s : QS) (k : Code) (st : List Slot) (hs : s.m.stk = .ret k :: st) {top b : Num} {l : List Num} (hf : FpSt s.m.ram top (b :: l)) :
    ∃ s', QReach fpCode O fpCode.pop_fr0 s k s' ∧ s'.m.x = s.m.x ∧ QC s s' st ∧ FpSt s'.m.ram b l ∧ (∀ a : W, a ≠ 0xB0#16 → a.toNat < 0xD4 ∨ 0xDA ≤ a.toNat → s'.m.ram a = s.m.ram a) := by
  obtain ⟨m', r, x, c, f, g⟩ := pop_ok s.m k st hs hf
  exact ⟨_, QReach.cpu r, x, ⟨c.zp, c.sl, c.sh, c.stk⟩, f, g⟩

/-- A call of `pop_fr1`: the top goes to `FR1`. -/
theorem pop1_q (s : QS) (k : Code) (st : List Slot) (hs : s.m.stk = .ret k :: st) {top b : Num} {l : List Num} (hf : FpSt s.m.ram top (b :: l)) :
    ∃ s', QReach fpCode O fpCode.pop_fr1 s k s' ∧ QC s s' st ∧ FpSt s'.m.ram b l ∧ s'.m.fr1 = top ∧ FpKeep s.m.ram s'.m.ram := by
  obtain ⟨m1, r1, s1, k1⟩ : ∃ m1, Reach fpCode fpCode.pop_fr1 s.m fpCode.FMOVE m1 ∧ m1.stk = .ret (.lb "pop_fr0" :: fpCode.pop_fr0) :: s.m.stk ∧ m1.ram = s.m.ram ∧ m1.zp = s.m.zp ∧ m1.sl = s.m.sl ∧ m1.sh = s.m.sh := by
    refine ⟨?_, ⟨1, ?_⟩, ?_⟩
    rotate_left
    · rt_exec [fpCode.pop_fr1.eq]
      rfl
    · exact ⟨rfl, rfl, rfl, rfl, rfl⟩
  obtain ⟨s2, r2, f2, g2, -, n2, -, c2⟩ := q_ret (P := fpCode) (O := O) (s := { s with m := m1 }) fpCode.FMOVE.eq s1 (qe_FMOVE _)
  have e2 : ({ s with m := m1 } : QS).m.fr0 = top := by rw [← hf.top]; exact congrArg (numAt · _) k1.1
  rw [e2] at f2 g2
  have n2' : ∀ a : W, a.toNat < 0xD4 ∨ 0x100 ≤ a.toNat → s2.m.ram a = s.m.ram a := fun a h => (n2 a h).trans (congrFun k1.1 a)
  have F2 : FpSt s2.m.ram top (b :: l) := by have := hf.os n2'; rwa [show numAt s2.m.ram 0xD4#16 = top from f2] at this
  obtain ⟨s3, r3, -, c3, f3, n3⟩ := pop_q (O := O) s2 k st (by rw [c2.stk]; exact hs) F2
  refine ⟨s3, (QReach.cpu r1).trans (r2.trans (.trans ⟨1, rfl⟩ r3)), ⟨?_, ?_, ?_, c3.stk⟩, f3, ?_, ?_⟩
  · rw [c3.zp, c2.zp]; exact k1.2.1
  · rw [c3.sl, c2.sl]; exact k1.2.2.1
  · rw [c3.sh, c2.sh]; exact k1.2.2.2
  · rw [← g2]
    exact numAt_congr (n3 _ (by decide) (by decide)) (n3 _ (by decide) (by decide)) (n3 _ (by decide) (by decide)) (n3 _ (by decide) (by decide)) (n3 _ (by decide) (by decide)) (n3 _ (by decide) (by decide))
  · exact (FpKeep.os n2').trans fun a h1 h2 => n3 a h1 (by omega)

/-- The end of the operations. -/
theorem fp_chk (s : QS) : ∃ s', QHalts fpCode O fpCode.check_fp_err s s' ∧ s'.m.ram = s.m.ram ∧ s'.m.zp = (if s.m.c then { s.m.zp with ioerr := 3#8 } else s.m.zp) ∧ s'.m.sl = s.m.sl ∧ s'.m.sh = s.m.sh ∧ s'.m.stk = s.m.stk := by
  by_cases hc : s.m.c = true
  · obtain ⟨m', r, h⟩ : ∃ m', Reach fpCode fpCode.check_fp_err s.m (.lb "xit" :: fpCode.xit) m' ∧ m'.ram = s.m.ram ∧ m'.zp = { s.m.zp with ioerr := 3#8 } ∧ m'.sl = s.m.sl ∧ m'.sh = s.m.sh ∧ m'.stk = s.m.stk := by
      refine ⟨?_, ⟨3, ?_⟩, ?_⟩
      rotate_left
      · rt_exec [fpCode.check_fp_err.eq, hc]
        rfl
      · exact ⟨rfl, rfl, rfl, rfl, rfl⟩
    rw [if_pos hc]
    exact ⟨_, (QReach.cpu r).halts ⟨2, rfl⟩, h⟩
  · have hc' : s.m.c = false := by simpa using hc
    obtain ⟨m', r, h⟩ : ∃ m', Reach fpCode fpCode.check_fp_err s.m fpCode.xit m' ∧ m'.ram = s.m.ram ∧ m'.zp = s.m.zp ∧ m'.sl = s.m.sl ∧ m'.sh = s.m.sh ∧ m'.stk = s.m.stk := by
      refine ⟨?_, ⟨1, ?_⟩, ?_⟩
      rotate_left
      · rt_exec [fpCode.check_fp_err.eq, hc']
        rfl
      · exact ⟨rfl, rfl, rfl, rfl, rfl⟩
    rw [if_neg hc]
    exact ⟨_, (QReach.cpu r).halts ⟨1, rfl⟩, h⟩

/-- An operation of the OS with `FR0` and `FR1`. -/
theorem op_q (s : QS) {l : String} {k k' r : Code} {st : List Slot} {f : Num → Num → Option Num} (hk : k' = .ins .ext :: .lb l :: .ins .rts :: r) (hs : s.m.stk = .ret k :: st)
    (hq : qext O l s = some (s.op (f s.m.fr0 s.m.fr1))) : ∃ s' v, QReach fpCode O k' s k s' ∧ s'.m.fr0 = v ∧ s'.m.c = (f s.m.fr0 s.m.fr1).isNone ∧ (∀ x, f s.m.fr0 s.m.fr1 = some x → v = x) ∧
      (∀ a : W, a.toNat < 0xD4 ∨ 0x100 ≤ a.toNat → s'.m.ram a = s.m.ram a) ∧ QC s s' st := by
  cases h : f s.m.fr0 s.m.fr1 with
  | none =>
    rw [h] at hq
    obtain ⟨s', r, f0, -, c, n, -, q⟩ := q_ret (P := fpCode) hk hs hq
    exact ⟨s', _, r, f0, c, fun x hx => by simp at hx, n, q⟩
  | some v =>
    rw [h] at hq
    obtain ⟨s', r, f0, -, c, n, -, q⟩ := q_ret (P := fpCode) hk hs hq
    exact ⟨s', v, r, f0, c, fun x hx => by simpa using hx, n, q⟩

/-- The state after an operation with two numbers. -/
def FpBin (s s' : QS) (r : Option Num) (l : List Num) : Prop :=
  match r with
  | some v => FpR s s' v l s.m.zp
  | none => ∃ v, FpR s s' v l { s.m.zp with ioerr := 3#8 }

/-- The common part of the operations with two numbers. -/
theorem bin_q (s : QS) {f : Num → Num → Option Num} {nm : String} {ent k1 k2 k' r : Code} {top b : Num} {l : List Num} (hf : FpSt s.m.ram top (b :: l)) (st : List Slot) (hst : st = s.m.stk)
    (he : ∃ m1, Reach fpCode ent s.m fpCode.pop_fr1 m1 ∧ m1.stk = .ret k1 :: st ∧ m1.ram = s.m.ram ∧ m1.zp = s.m.zp ∧ m1.sl = s.m.sl ∧ m1.sh = s.m.sh)
    (h1 : ∀ m : M, m.stk = st → ∃ m1, Reach fpCode k1 m k' m1 ∧ m1.stk = .ret k2 :: st ∧ m1.ram = m.ram ∧ m1.zp = m.zp ∧ m1.sl = m.sl ∧ m1.sh = m.sh)
    (hk : k' = .ins .ext :: .lb nm :: .ins .rts :: r) (hq : ∀ s : QS, qext O nm s = some (s.op (f s.m.fr0 s.m.fr1)))
    (h2 : ∀ m : M, Reach fpCode k2 m fpCode.check_fp_err m) : ∃ s', QHalts fpCode O ent s s' ∧ FpBin s s' (f b top) l := by
  obtain ⟨m1, r1, s1, g1⟩ := he
  obtain ⟨s2, r2, c2, f2, t2, n2⟩ := pop1_q (O := O) { s with m := m1 } k1 st s1 (show FpSt m1.ram top (b :: l) by rw [g1.1]; exact hf)
  obtain ⟨m3, r3, s3, g3⟩ := h1 s2.m c2.stk
  obtain ⟨s4, v, r4, f4, c4, v4, n4, q4⟩ := op_q (O := O) { s2 with m := m3 } hk s3 (hq _)
  obtain ⟨s5, r5, g5⟩ := fp_chk (O := O) s4
  have a3 : ({ s2 with m := m3 } : QS).m.fr0 = b := by rw [← f2.top]; exact congrArg (numAt · _) g3.1
  have b3 : ({ s2 with m := m3 } : QS).m.fr1 = top := by rw [← t2]; exact congrArg (numAt · _) g3.1
  rw [a3, b3] at c4 v4
  have f3 : FpSt m3.ram b l := by rw [g3.1]; exact f2
  have f4' : FpSt s4.m.ram v l := by have := f3.os n4; rwa [show numAt s4.m.ram 0xD4#16 = v from f4] at this
  have kp : FpKeep s.m.ram s5.m.ram := by
    rw [g5.1]
    refine FpKeep.trans (r1 := s2.m.ram) ?_ (FpKeep.trans (r1 := m3.ram) ?_ (FpKeep.os n4))
    · have := n2; dsimp only at this; rwa [g1.1] at this
    · rw [g3.1]; exact FpKeep.refl _
  have zz : s4.m.zp = s.m.zp := by rw [q4.zp]; dsimp only; rw [g3.2.1, c2.zp]; exact g1.2.1
  have R : FpR s s5 v l (if s4.m.c then { s.m.zp with ioerr := 3#8 } else s.m.zp) := by
    refine ⟨by rw [g5.1]; exact f4', kp, by rw [g5.2.1, zz], ?_, ?_, ?_⟩
    · rw [g5.2.2.1, q4.sl]; dsimp only; rw [g3.2.2.1, c2.sl]; exact g1.2.2.1
    · rw [g5.2.2.2.1, q4.sh]; dsimp only; rw [g3.2.2.2, c2.sh]; exact g1.2.2.2
    · rw [g5.2.2.2.2, q4.stk, hst]
  refine ⟨s5, (QReach.cpu r1).trans (r2.trans ((QReach.cpu r3).trans (r4.trans (QReach.cpu (h2 _))))) |>.halts r5, ?_⟩
  cases hv : f b top with
  | none => rw [c4, hv] at R; exact ⟨v, R⟩
  | some w => rw [c4, hv, v4 w hv] at R; exact R

theorem tok_add (s : QS) {top b : Num} {l : List Num} (hf : FpSt s.m.ram top (b :: l)) : ∃ s', QHalts fpCode O fpCode.EXE_FP_ADD s s' ∧ FpBin s s' (O.add b top) l := by
  refine bin_q s (f := O.add) (nm := "FADD_r") (k1 := .lb "ad_1" :: fpCode.ad_1) (k2 := .lb "check_fp_err" :: fpCode.check_fp_err) hf s.m.stk rfl ?_ ?_ fpCode.FADD.eq ?_ ?_
  · refine ⟨?_, ⟨1, ?_⟩, ?_⟩
    rotate_left
    · rt_exec [fpCode.EXE_FP_ADD.eq]
      rfl
    · exact ⟨rfl, rfl, rfl, rfl, rfl⟩
  · intro m hm
    refine ⟨?_, ⟨2, ?_⟩, ?_⟩
    rotate_left
    · rt_exec [fpCode.ad_1.eq, hm]
      rfl
    · exact ⟨rfl, rfl, rfl, rfl, rfl⟩
  · intro s; simp only [qext]; simp only [if_true]
  · exact fun m => ⟨1, rfl⟩

theorem tok_sub (s : QS) {top b : Num} {l : List Num} (hf : FpSt s.m.ram top (b :: l)) : ∃ s', QHalts fpCode O fpCode.EXE_FP_SUB s s' ∧ FpBin s s' (O.sub b top) l := by
  refine bin_q s (f := O.sub) (nm := "FSUB_r") (k1 := .lb "sb_1" :: fpCode.sb_1) (k2 := .lb "sb_2" :: fpCode.sb_2) hf s.m.stk rfl ?_ ?_ fpCode.FSUB.eq ?_ ?_
  · refine ⟨?_, ⟨1, ?_⟩, ?_⟩
    rotate_left
    · rt_exec [fpCode.EXE_FP_SUB.eq]
      rfl
    · exact ⟨rfl, rfl, rfl, rfl, rfl⟩
  · intro m hm
    refine ⟨?_, ⟨2, ?_⟩, ?_⟩
    rotate_left
    · rt_exec [fpCode.sb_1.eq, hm]
      rfl
    · exact ⟨rfl, rfl, rfl, rfl, rfl⟩
  · intro s; simp only [qext]; simp only [String.reduceEq, if_false, if_true]
  · intro m
    refine ⟨2, ?_⟩
    rt_exec [fpCode.sb_2.eq]

theorem tok_mul (s : QS) {top b : Num} {l : List Num} (hf : FpSt s.m.ram top (b :: l)) : ∃ s', QHalts fpCode O fpCode.EXE_FP_MUL s s' ∧ FpBin s s' (O.mul b top) l := by
  refine bin_q s (f := O.mul) (nm := "FMUL_r") (k1 := .lb "mu_1" :: fpCode.mu_1) (k2 := .lb "mu_2" :: fpCode.mu_2) hf s.m.stk rfl ?_ ?_ fpCode.FMUL.eq ?_ ?_
  · refine ⟨?_, ⟨1, ?_⟩, ?_⟩
    rotate_left
    · rt_exec [fpCode.EXE_FP_MUL.eq]
      rfl
    · exact ⟨rfl, rfl, rfl, rfl, rfl⟩
  · intro m hm
    refine ⟨?_, ⟨2, ?_⟩, ?_⟩
    rotate_left
    · rt_exec [fpCode.mu_1.eq, hm]
      rfl
    · exact ⟨rfl, rfl, rfl, rfl, rfl⟩
  · intro s; simp only [qext]; simp only [String.reduceEq, if_false, if_true]
  · intro m
    refine ⟨2, ?_⟩
    rt_exec [fpCode.mu_2.eq]

theorem tok_div (s : QS) {top b : Num} {l : List Num} (hf : FpSt s.m.ram top (b :: l)) : ∃ s', QHalts fpCode O fpCode.EXE_FP_DIV s s' ∧ FpBin s s' (O.div b top) l := by
  refine bin_q s (f := O.div) (nm := "FDIV_r") (k1 := .lb "di_1" :: fpCode.di_1) (k2 := .lb "di_2" :: fpCode.di_2) hf s.m.stk rfl ?_ ?_ fpCode.FDIV.eq ?_ ?_
  · refine ⟨?_, ⟨1, ?_⟩, ?_⟩
    rotate_left
    · rt_exec [fpCode.EXE_FP_DIV.eq]
      rfl
    · exact ⟨rfl, rfl, rfl, rfl, rfl⟩
  · intro m hm
    refine ⟨?_, ⟨2, ?_⟩, ?_⟩
    rotate_left
    · rt_exec [fpCode.di_1.eq, hm]
      rfl
    · exact ⟨rfl, rfl, rfl, rfl, rfl⟩
  · intro s; simp only [qext]; simp only [String.reduceEq, if_false, if_true]
  · intro m
    refine ⟨2, ?_⟩
    rt_exec [fpCode.di_2.eq]

/-! ### Tokens with one number -/

/-- A change of `FR0` only. -/
theorem un_q (s : QS) {top : Num} {l : List Num} (hf : FpSt s.m.ram top l) {ent k : Code} {m' : M} {v : Num} (r : Reach fpCode ent s.m k m') (hk : k = .ins .next :: k.tail)
    (h : m'.zp = s.m.zp ∧ m'.sl = s.m.sl ∧ m'.sh = s.m.sh ∧ m'.stk = s.m.stk) (hv : numAt m'.ram 0xD4#16 = v) (hr : ∀ a : W, a.toNat < 0xD4 ∨ 0x100 ≤ a.toNat → m'.ram a = s.m.ram a) :
    ∃ s', QHalts fpCode O ent s s' ∧ FpR s s' v l s.m.zp := by
  refine ⟨{ s with m := m' }, (QReach.cpu r).halts ⟨1, ?_⟩, ?_, FpKeep.os hr, h.1, h.2.1, h.2.2.1, h.2.2.2⟩
  · rw [hk]; rfl
  · have := hf.os hr
    rwa [hv] at this

/-- The sign changed: `fp_abs.asm:45`. -/
def Num.neg (n : Num) : Num := { n with e := n.e ^^^ 0x80#8 }
/-- Without the sign: `fp_abs.asm:38-39`. -/
def Num.abs (n : Num) : Num := { n with e := n.e &&& 0x7F#8 }
/-- `1` with the sign, or zero: `fp_sgn.asm:37-48`. -/
def Num.sgn (n : Num) : Num := if n.e &&& 0x7F#8 = 0#8 then { n with e := 0#8 } else ⟨(n.e &&& 0x80#8) ||| 0x40#8, 1#8, 0#8, 0#8, 0#8, 0#8⟩

theorem tok_neg (s : QS) {top : Num} {l : List Num} (hf : FpSt s.m.ram top l) : ∃ s', QHalts fpCode O fpCode.EXE_FP_NEG s s' ∧ FpR s s' top.neg l s.m.zp := by
  obtain ⟨m', r, h, g⟩ : ∃ m', Reach fpCode fpCode.EXE_FP_NEG s.m (.ins .next :: .lb "EXE_FP_SGN" :: fpCode.EXE_FP_SGN) m' ∧ (m'.zp = s.m.zp ∧ m'.sl = s.m.sl ∧ m'.sh = s.m.sh ∧ m'.stk = s.m.stk) ∧
      m'.ram = upd s.m.ram 0xD4#16 (s.m.ram 0xD4#16 ^^^ 0x80#8) := by
    refine ⟨?_, ⟨3, ?_⟩, ?_⟩
    rotate_left
    · rt_exec [fpCode.EXE_FP_NEG.eq]
      rfl
    · exact ⟨⟨rfl, rfl, rfl, rfl⟩, rfl⟩
  refine un_q s hf r rfl h ?_ fun a ha => by rw [g, upd_ne (by rintro rfl; simp at ha)]
  rw [g, ← hf.top]
  rfl

theorem asl_lsr (b : B) : ror8 (rol8 b false) false = b &&& 0x7F#8 := by
  apply BitVec.eq_of_toNat_eq
  rw [ror8_toNat, rol8_toNat, BitVec.toNat_and, show (0x7F#8 : B).toNat = 2 ^ 7 - 1 from rfl, Nat.and_two_pow_sub_one_eq_mod]
  have := b.isLt
  simp
  omega

theorem and80 (b : B) : b &&& 0x80#8 = if topBit b then 0x80#8 else 0#8 := by
  revert b; decide

theorem asl_ror (b : B) (c : Bool) : ror8 (rol8 b false) c = (b &&& 0x7F#8) ||| (if c then 0x80#8 else 0#8) := by
  revert b c; decide

theorem asl_zero (b : B) : (rol8 b false = 0#8) = (b &&& 0x7F#8 = 0#8) := by
  revert b; decide

theorem tok_abs (s : QS) {top : Num} {l : List Num} (hf : FpSt s.m.ram top l) : ∃ s', QHalts fpCode O fpCode.EXE_FP_ABS s s' ∧ FpR s s' top.abs l s.m.zp := by
  obtain ⟨m', r, h, g⟩ : ∃ m', Reach fpCode fpCode.EXE_FP_ABS s.m (.ins .next :: .lb "EXE_FP_NEG" :: fpCode.EXE_FP_NEG) m' ∧ (m'.zp = s.m.zp ∧ m'.sl = s.m.sl ∧ m'.sh = s.m.sh ∧ m'.stk = s.m.stk) ∧
      m'.ram = upd (upd s.m.ram 0xD4#16 (rol8 (s.m.ram 0xD4#16) false)) 0xD4#16 (ror8 (rol8 (s.m.ram 0xD4#16) false) false) := by
    refine ⟨?_, ⟨2, ?_⟩, ?_⟩
    rotate_left
    · rt_exec [fpCode.EXE_FP_ABS.eq, upd_at]
      rfl
    · exact ⟨⟨rfl, rfl, rfl, rfl⟩, rfl⟩
  refine un_q s hf r rfl h ?_ fun a ha => by rw [g, upd_ne (by rintro rfl; simp at ha), upd_ne (by rintro rfl; simp at ha)]
  rw [g, asl_lsr, ← hf.top]
  rfl

theorem tok_sgn (s : QS) {top : Num} {l : List Num} (hf : FpSt s.m.ram top l) : ∃ s', QHalts fpCode O fpCode.EXE_FP_SGN s s' ∧ FpR s s' top.sgn l s.m.zp := by
  have ht : s.m.ram 0xD4#16 = top.e := by rw [← hf.top]; rfl
  by_cases h0 : top.e &&& 0x7F#8 = 0#8
  · have hz : rol8 (s.m.ram 0xD4#16) false = 0#8 := by rw [asl_zero, ht]; exact h0
    obtain ⟨m', r, h, g⟩ : ∃ m', Reach fpCode fpCode.EXE_FP_SGN s.m fpCode.zero m' ∧ (m'.zp = s.m.zp ∧ m'.sl = s.m.sl ∧ m'.sh = s.m.sh ∧ m'.stk = s.m.stk) ∧
        m'.ram = upd s.m.ram 0xD4#16 0#8 := by
      refine ⟨?_, ⟨2, ?_⟩, ?_⟩
      rotate_left
      · rt_exec [fpCode.EXE_FP_SGN.eq, hz]
        rfl
      · exact ⟨⟨rfl, rfl, rfl, rfl⟩, rfl⟩
    refine un_q s hf r rfl h ?_ fun a ha => by rw [g, upd_ne (by rintro rfl; simp at ha)]
    rw [g, Num.sgn, if_pos h0, ← hf.top]
    rfl
  · have hz : ¬ rol8 (s.m.ram 0xD4#16) false = 0#8 := by rw [asl_zero, ht]; exact h0
    obtain ⟨m', r, h, g⟩ : ∃ m', Reach fpCode fpCode.EXE_FP_SGN s.m (.lb "zero" :: fpCode.zero) m' ∧ (m'.zp = s.m.zp ∧ m'.sl = s.m.sl ∧ m'.sh = s.m.sh ∧ m'.stk = s.m.stk) ∧
        m'.ram = upd (upd (upd (upd (upd (upd (upd (upd s.m.ram 0xD4#16 (rol8 (s.m.ram 0xD4#16) false)) 0xD4#16 0x80#8) 0xD4#16 (ror8 0x80#8 (topBit (s.m.ram 0xD4#16)))) 0xD5#16 1#8) 0xD6#16 0#8) 0xD7#16 0#8) 0xD8#16 0#8) 0xD9#16 0#8 := by
      refine ⟨?_, ⟨12, ?_⟩, ?_⟩
      rotate_left
      · rt_exec [fpCode.EXE_FP_SGN.eq, hz, upd_at]
        rfl
      · exact ⟨⟨rfl, rfl, rfl, rfl⟩, rfl⟩
    have r' : Reach fpCode fpCode.EXE_FP_SGN s.m fpCode.zero m' := r.trans ⟨1, rfl⟩
    refine un_q s hf r' rfl h ?_ fun a ha => by
      rw [g]
      iterate 8 rw [upd_ne (by rintro rfl; simp at ha)]
    have e : ror8 0x80#8 (topBit (s.m.ram 0xD4#16)) = (top.e &&& 0x80#8) ||| 0x40#8 := by
      rw [ht, and80]; cases topBit top.e <;> rfl
    rw [g, e, Num.sgn, if_neg h0]
    rfl

/-! ### Loads and stores -/

/-- The six bytes of a number are out of page zero and out of the stack. -/
def NumOut (w : W) : Prop := (0x100 ≤ w.toNat ∧ w.toNat + 6 ≤ 0x4D0) ∨ (0x500 ≤ w.toNat ∧ w.toNat < 0xFFFA)

theorem NumOut.at {w : W} (h : NumOut w) {i : W} (hi : i.toNat ≤ 5) : (w + i).toNat = w.toNat + i.toNat := by
  rcases h with h | h <;> rw [BitVec.toNat_add, Nat.mod_eq_of_lt (by omega)]

theorem NumOut.congr {w : W} (h : NumOut w) {r r' : W → B} (k : ∀ a : W, a ≠ 0xB0#16 → (0x100 ≤ a.toNat ∧ a.toNat < 0x4D0) ∨ 0x500 ≤ a.toNat → r' a = r a) : numAt r' w = numAt r w := by
  have e : ∀ i : W, i.toNat ≤ 5 → r' (w + i) = r (w + i) := fun i hi => by
    have ha := h.at hi
    refine k _ (fun e => ?_) ?_
    · rw [e] at ha; rcases h with h | h <;> simp at ha <;> omega
    · rcases h with h | h <;> omega
  have e0 : r' w = r w := by have := e 0#16 (by decide); rwa [BitVec.add_zero] at this
  exact numAt_congr e0 (e 1 (by decide)) (e 2 (by decide)) (e 3 (by decide)) (e 4 (by decide)) (e 5 (by decide))

theorem qe_FLD0P (s : QS) : qext O "FLD0P_r" s = some (s.ret (s.junk 0).c s.m.ram (numAt s.m.ram (word (s.m.ram 0xFC#16) (s.m.ram 0xFD#16))) s.m.fr1) := by simp only [qext]; simp only [String.reduceEq, if_false, if_true]

theorem tok_load (s : QS) {top : Num} {l : List Num} (hf : FpSt s.m.ram top l) (hl : l.length < 8) {w : W} (hw : word s.m.a s.m.x = w) (hO : NumOut w) :
    ∃ s', QHalts fpCode O fpCode.EXE_FP_LOAD s s' ∧ FpR s s' (numAt s.m.ram w) (top :: l) s.m.zp := by
  obtain ⟨m1, r1, s1, g1, k1⟩ : ∃ m1, Reach fpCode fpCode.EXE_FP_LOAD s.m fpCode.push_fr0 m1 ∧ m1.stk = .ret (.lb "lo_1" :: fpCode.lo_1) :: s.m.stk ∧ m1.ram = upd (upd s.m.ram 0xFD#16 s.m.x) 0xFC#16 s.m.a ∧
      m1.zp = s.m.zp ∧ m1.sl = s.m.sl ∧ m1.sh = s.m.sh := by
    refine ⟨?_, ⟨3, ?_⟩, ?_⟩
    rotate_left
    · rt_exec [fpCode.EXE_FP_LOAD.eq]
      rfl
    · exact ⟨rfl, rfl, rfl, rfl, rfl⟩
  have n1 : ∀ a : W, a ≠ 0xFC#16 → a ≠ 0xFD#16 → m1.ram a = s.m.ram a := fun a h h' => by rw [g1, upd_ne h, upd_ne h']
  have f1 : FpSt m1.ram top l := by
    have := hf.keep (r' := m1.ram) fun a ha => n1 a (by rintro rfl; simp at ha) (by rintro rfl; simp at ha)
    rwa [show numAt m1.ram 0xD4#16 = top by
      rw [← hf.top]
      exact numAt_congr (n1 _ (by decide) (by decide)) (n1 _ (by decide) (by decide)) (n1 _ (by decide) (by decide)) (n1 _ (by decide) (by decide)) (n1 _ (by decide) (by decide)) (n1 _ (by decide) (by decide))] at this
  obtain ⟨s2, r2, -, c2, f2, n2⟩ := push_q (O := O) { s with m := m1 } _ _ s1 f1 hl
  obtain ⟨m3, r3, s3, g3, k3⟩ : ∃ m3, Reach fpCode (.lb "lo_1" :: fpCode.lo_1) s2.m fpCode.FLD0P m3 ∧ m3.stk = .ret (.lb "lo_2" :: fpCode.lo_2) :: s2.m.stk ∧ m3.ram = s2.m.ram ∧
      m3.zp = s2.m.zp ∧ m3.sl = s2.m.sl ∧ m3.sh = s2.m.sh := by
    refine ⟨?_, ⟨2, ?_⟩, ?_⟩
    rotate_left
    · rt_exec [fpCode.lo_1.eq]
      rfl
    · exact ⟨rfl, rfl, rfl, rfl, rfl⟩
  obtain ⟨s4, r4, f4, -, -, n4, -, c4⟩ := q_ret (P := fpCode) (O := O) (s := { s2 with m := m3 }) fpCode.FLD0P.eq s3 (qe_FLD0P _)
  have ew : word (({ s2 with m := m3 } : QS).m.ram 0xFC#16) (({ s2 with m := m3 } : QS).m.ram 0xFD#16) = w := by
    dsimp only
    rw [g3, n2 _ (by decide) (by decide), n2 _ (by decide) (by decide)]
    dsimp only
    rw [g1, upd_at, upd_ne (by decide), upd_at, hw]
  have nn : ∀ a : W, a ≠ 0xB0#16 → a.toNat < 0xD4 ∨ (0x100 ≤ a.toNat ∧ a.toNat < 0x4D0) ∨ 0x500 ≤ a.toNat → s2.m.ram a = s.m.ram a := fun a h h' => by
    rw [n2 a h (by omega)]
    exact n1 a (by rintro rfl; simp at h') (by rintro rfl; simp at h')
  have ev : numAt ({ s2 with m := m3 } : QS).m.ram w = numAt s.m.ram w := hO.congr fun a h h' => by
    dsimp only
    rw [g3]
    exact nn a h (.inr h')
  rw [ew, ev] at f4
  have F4 : FpSt s4.m.ram (numAt s.m.ram w) (top :: l) := by
    have f3 : FpSt m3.ram top (top :: l) := by rw [g3]; exact f2
    have := f3.os n4
    rwa [show numAt s4.m.ram 0xD4#16 = _ from f4] at this
  refine ⟨s4, ((QReach.cpu r1).trans (r2.trans ((QReach.cpu r3).trans r4))).halts ⟨2, rfl⟩, F4, ?_, ?_, ?_, ?_, ?_⟩
  · intro a h h'
    rw [n4 a (by omega)]
    dsimp only
    rw [g3]
    exact nn a h h'
  · rw [c4.zp]; dsimp only; rw [k3.1, c2.zp]; exact k1.1
  · rw [c4.sl]; dsimp only; rw [k3.2.1, c2.sl]; exact k1.2.1
  · rw [c4.sh]; dsimp only; rw [k3.2.2, c2.sh]; exact k1.2.2
  · rw [c4.stk, c2.stk]

/-- A store changes the six bytes at the address. -/
theorem tok_store (s : QS) {top b : Num} {l : List Num} (hf : FpSt s.m.ram top (b :: l)) {w : W} (hw : word s.m.zp.saddr s.m.zp.saddrh = w) (hO : NumOut w) :
    ∃ s', QHalts fpCode O fpCode.EXE_FP_STORE s s' ∧ FpSt s'.m.ram b l ∧ numAt s'.m.ram w = top ∧ (∀ a : W, 6 ≤ (a - w).toNat → a ≠ 0xB0#16 → a.toNat < 0xD4 ∨ 0x100 ≤ a.toNat → s'.m.ram a = s.m.ram a) ∧
      s'.m.zp = s.m.zp ∧ s'.m.sl = s.m.sl ∧ s'.m.sh = s.m.sh ∧ s'.m.stk = s.m.stk := by
  obtain ⟨m1, r1, s1, x1, g1, k1⟩ : ∃ m1, Reach fpCode fpCode.EXE_FP_STORE s.m fpCode.FST0R m1 ∧ m1.stk = .ret (.lb "st_1" :: fpCode.st_1) :: s.m.stk ∧ word m1.x m1.y = w ∧ m1.ram = s.m.ram ∧
      m1.zp = s.m.zp ∧ m1.sl = s.m.sl ∧ m1.sh = s.m.sh := by
    refine ⟨?_, ⟨3, ?_⟩, ?_⟩
    rotate_left
    · rt_exec [fpCode.EXE_FP_STORE.eq]
      rfl
    · exact ⟨rfl, hw, rfl, rfl, rfl, rfl⟩
  obtain ⟨s2, r2, f2, -, v2, n2, c2⟩ := q_st (P := fpCode) (O := O) (s := { s with m := m1 }) (w := w) fpCode.FST0R.eq s1 x1 (by rcases hO with h | h <;> omega) (by rcases hO with h | h <;> omega)
  have e1 : ({ s with m := m1 } : QS).m.fr0 = top := by rw [← hf.top]; exact congrArg (numAt · _) g1
  rw [e1] at f2 v2
  have n2' : ∀ a : W, 6 ≤ (a - w).toNat → a.toNat < 0xD4 ∨ 0x100 ≤ a.toNat → s2.m.ram a = s.m.ram a := fun a h h' => by rw [n2 a h' h]; exact congrFun g1 a
  have far : ∀ a : W, a = 0xB0#16 ∨ (0x4D0 ≤ a.toNat ∧ a.toNat < 0x500) → 6 ≤ (a - w).toNat := fun a ha => by
    have := w.isLt
    rw [BitVec.toNat_sub]
    rcases ha with rfl | ha
    · rcases hO with h | h <;> simp <;> omega
    · rcases hO with h | h <;> omega
  have f2' : FpSt s2.m.ram top (b :: l) := by
    have := hf.keep (r' := s2.m.ram) fun a ha => n2' a (far a ha) (by rcases ha with rfl | ha <;> [exact .inl (by decide); omega])
    rwa [show numAt s2.m.ram 0xD4#16 = top from f2] at this
  obtain ⟨m3, r3, s3, g3, k3⟩ : ∃ m3, Reach fpCode (.lb "st_1" :: fpCode.st_1) s2.m fpCode.pop_fr0 m3 ∧ m3.stk = .ret (.lb "st_2" :: fpCode.st_2) :: s2.m.stk ∧ m3.ram = s2.m.ram ∧
      m3.zp = s2.m.zp ∧ m3.sl = s2.m.sl ∧ m3.sh = s2.m.sh := by
    refine ⟨?_, ⟨2, ?_⟩, ?_⟩
    rotate_left
    · rt_exec [fpCode.st_1.eq]
      rfl
    · exact ⟨rfl, rfl, rfl, rfl, rfl⟩
  obtain ⟨s4, r4, -, c4, f4, n4⟩ := pop_q (O := O) { s2 with m := m3 } _ _ s3 (show FpSt m3.ram top (b :: l) by rw [g3]; exact f2')
  have n4' : ∀ a : W, a ≠ 0xB0#16 → a.toNat < 0xD4 ∨ 0xDA ≤ a.toNat → s4.m.ram a = s2.m.ram a := fun a h h' => by rw [n4 a h h']; exact congrFun g3 a
  refine ⟨s4, ((QReach.cpu r1).trans (r2.trans ((QReach.cpu r3).trans r4))).halts ⟨2, rfl⟩, f4, ?_, ?_, ?_, ?_, ?_, ?_⟩
  · rw [← v2]
    exact hO.congr fun a h h' => n4' a h (by omega)
  · intro a h h' h''
    rw [n4' a h' (by omega), n2' a h h'']
  · rw [c4.zp]; dsimp only; rw [k3.1, c2.zp]; exact k1.1
  · rw [c4.sl]; dsimp only; rw [k3.2.1, c2.sl]; exact k1.2.1
  · rw [c4.sh]; dsimp only; rw [k3.2.2, c2.sh]; exact k1.2.2
  · rw [c4.stk, c2.stk]

theorem numAt_congr' {r r' : W → B} {w w' : W} (h0 : r w = r' w') (h1 : r (w + 1) = r' (w' + 1)) (h2 : r (w + 2) = r' (w' + 2)) (h3 : r (w + 3) = r' (w' + 3)) (h4 : r (w + 4) = r' (w' + 4))
    (h5 : r (w + 5) = r' (w' + 5)) : numAt r w = numAt r' w' := by simp only [numAt, h0, h1, h2, h3, h4, h5]

/-- After the loop of `EXE_FLOAT`. -/
def flEnd : Code := fpCode.ldloop.tail.tail.tail.tail

/-- The loop of `EXE_FLOAT`. -/
theorem fl_loop {w : W} (hO : NumOut w) (j : Nat) : ∀ m : M, j ≤ 5 → m.y = BitVec.ofNat 8 j → word m.zp.cptr m.zp.cptrh = w → ∃ m', Reach fpCode fpCode.ldloop m flEnd m' ∧
    (∀ i ≤ j, m'.ram (0xD4#16 + BitVec.ofNat 16 i) = m.ram (w + BitVec.ofNat 16 i)) ∧ (∀ a : W, a.toNat < 0xD4 ∨ 0xD4 + j < a.toNat → m'.ram a = m.ram a) ∧ m'.zp = m.zp ∧ m'.sl = m.sl ∧ m'.sh = m.sh ∧ m'.stk = m.stk := by
  induction j with
  | zero =>
    intro m _ hy hw
    refine ⟨?_, ⟨4, ?_⟩, ?_⟩
    rotate_left
    · rw [flEnd, fpCode.ldloop.eq]
      rt_exec [hy]
      rfl
    · refine ⟨fun i hi => ?_, fun a ha => ?_, rfl, rfl, rfl, rfl⟩
      · rw [show i = 0 by omega]
        dsimp only
        rw [hw]
        rfl
      · exact upd_ne (by rintro rfl; simp [idx] at ha)
  | succ j ih =>
    intro m hj hy hw
    have hyn : m.y.toNat = j + 1 := by rw [hy, BitVec.toNat_ofNat]; omega
    have hy' : m.y - 1#8 = BitVec.ofNat 8 j := by
      apply BitVec.eq_of_toNat_eq
      rw [BitVec.toNat_sub, hyn]
      simp; omega
    have ht : topBit (m.y - 1#8) = false := bool0 (by rw [topBit_toNat, hy', BitVec.toNat_ofNat]; omega)
    have ed : idx 0xD4#16 m.y = 0xD4#16 + BitVec.ofNat 16 (j + 1) := by rw [idx, hyn]
    have ew : idx w m.y = w + BitVec.ofNat 16 (j + 1) := by rw [idx, hyn]
    have edn : (0xD4#16 + BitVec.ofNat 16 (j + 1) : W).toNat = 0xD4 + (j + 1) := by rw [BitVec.toNat_add, BitVec.toNat_ofNat]; simp; omega
    obtain ⟨m1, r1, y1, g1, k1⟩ : ∃ m1, Reach fpCode fpCode.ldloop m fpCode.ldloop m1 ∧ m1.y = m.y - 1#8 ∧ m1.ram = upd m.ram (idx 0xD4#16 m.y) (m.ram (idx w m.y)) ∧ m1.zp = m.zp ∧ m1.sl = m.sl ∧ m1.sh = m.sh ∧ m1.stk = m.stk := by
      refine ⟨?_, ⟨4, ?_⟩, ?_⟩
      rotate_left
      · rt_exec [fpCode.ldloop.eq, ht]
        rfl
      · exact ⟨rfl, by dsimp only; rw [hw], rfl, rfl, rfl, rfl⟩
    rw [ed, ew] at g1
    obtain ⟨m2, r2, v2, n2, k2⟩ := ih m1 (by omega) (y1.trans hy') (by rw [k1.1]; exact hw)
    refine ⟨m2, r1.trans r2, fun i hi => ?_, fun a ha => ?_, k2.1.trans k1.1, k2.2.1.trans k1.2.1, k2.2.2.1.trans k1.2.2.1, k2.2.2.2.trans k1.2.2.2⟩
    · rcases Nat.lt_or_ge j i with h | h
      · rw [show i = j + 1 by omega, n2 _ (by rw [edn]; omega), g1, upd_at]
      · rw [v2 i h, g1]
        refine upd_ne fun e => ?_
        have h6 : (BitVec.ofNat 16 i : W).toNat = i := by rw [BitVec.toNat_ofNat]; omega
        have := hO.at (i := BitVec.ofNat 16 i) (by omega)
        rw [e, edn, h6] at this
        rcases hO with h | h <;> omega
    · rw [n2 a (by omega), g1]
      refine upd_ne fun e => ?_
      rw [e, edn] at ha
      omega

/-- A constant: the six bytes that follow the token, and the pointer of the program after them. -/
theorem tok_float (s : QS) {top : Num} {l : List Num} (hf : FpSt s.m.ram top l) (hl : l.length < 8) {w : W} (hw : word s.m.zp.cptr s.m.zp.cptrh = w) (hO : NumOut w) :
    ∃ s' c c', QHalts fpCode O fpCode.EXE_FLOAT s s' ∧ FpR s s' (numAt s.m.ram w) (top :: l) { s.m.zp with cptr := c, cptrh := c' } ∧ word c c' = w + 6 := by
  obtain ⟨m1, r1, s1, g1, k1⟩ : ∃ m1, Reach fpCode fpCode.EXE_FLOAT s.m fpCode.push_fr0 m1 ∧ m1.stk = .ret (.lb "fl_1" :: fpCode.fl_1) :: s.m.stk ∧ m1.ram = s.m.ram ∧
      m1.zp = s.m.zp ∧ m1.sl = s.m.sl ∧ m1.sh = s.m.sh := by
    refine ⟨?_, ⟨1, ?_⟩, ?_⟩
    rotate_left
    · rt_exec [fpCode.EXE_FLOAT.eq]
      rfl
    · exact ⟨rfl, rfl, rfl, rfl, rfl⟩
  obtain ⟨s2, r2, -, c2, f2, n2⟩ := push_q (O := O) { s with m := m1 } _ _ s1 (show FpSt m1.ram top l by rw [g1]; exact hf) hl
  have z2 : s2.m.zp = s.m.zp := c2.zp.trans k1.1
  have w2 : word s2.m.zp.cptr s2.m.zp.cptrh = w := by rw [z2]; exact hw
  have n2' : ∀ a : W, a ≠ 0xB0#16 → a.toNat < 0x4D0 ∨ 0x500 ≤ a.toNat → s2.m.ram a = s.m.ram a := fun a h h' => by rw [n2 a h h']; exact congrFun g1 a
  have ev : numAt s2.m.ram w = numAt s.m.ram w := hO.congr fun a h h' => n2' a h (by omega)
  obtain ⟨m3, r3, y3, g3, k3⟩ : ∃ m3, Reach fpCode (.lb "fl_1" :: fpCode.fl_1) s2.m fpCode.ldloop m3 ∧ m3.y = 5#8 ∧ m3.ram = s2.m.ram ∧ m3.zp = s2.m.zp ∧ m3.sl = s2.m.sl ∧ m3.sh = s2.m.sh ∧ m3.stk = s2.m.stk := by
    refine ⟨?_, ⟨3, ?_⟩, ?_⟩
    rotate_left
    · rt_exec [fpCode.fl_1.eq]
      rfl
    · exact ⟨rfl, rfl, rfl, rfl, rfl, rfl⟩
  obtain ⟨m4, r4, v4, n4, k4⟩ := fl_loop hO 5 m3 (by decide) y3 (by rw [k3.1]; exact w2)
  obtain ⟨m5, r5, c, c', z5, w5, k5⟩ : ∃ m5, Reach fpCode flEnd m4 fpCode.xit m5 ∧ ∃ c c', m5.zp = { m4.zp with cptr := c, cptrh := c' } ∧ word c c' = word m4.zp.cptr m4.zp.cptrh + 6 ∧ m5.ram = m4.ram ∧ m5.sl = m4.sl ∧ m5.sh = m4.sh ∧
      m5.stk = m4.stk := by
    have hl := m4.zp.cptr.isLt
    have hh := m4.zp.cptrh.isLt
    by_cases hc : m4.zp.cptr.toNat + 6 < 256
    · have hc' : addC m4.zp.cptr 6#8 false = false := bool0 (by simp; omega)
      refine ⟨?_, ⟨5, ?_⟩, add8 m4.zp.cptr 6#8 false, m4.zp.cptrh, ?_⟩
      rotate_left
      · rw [flEnd, fpCode.ldloop.eq]
        rt_exec [hc']
        rfl
      · refine ⟨rfl, ?_, rfl, rfl, rfl, rfl⟩
        apply BitVec.eq_of_toNat_eq
        simp
        omega
    · have hc' : addC m4.zp.cptr 6#8 false = true := bool1 (by simp; omega)
      refine ⟨?_, ⟨7, ?_⟩, add8 m4.zp.cptr 6#8 false, m4.zp.cptrh + 1#8, ?_⟩
      rotate_left
      · rw [flEnd, fpCode.ldloop.eq]
        rt_exec [hc']
        rfl
      · refine ⟨rfl, ?_, rfl, rfl, rfl, rfl⟩
        apply BitVec.eq_of_toNat_eq
        simp
        omega
  have Z4 : m4.zp = s.m.zp := by rw [k4.1, k3.1, z2]
  have n4' : ∀ a : W, a.toNat < 0xD4 ∨ 0x100 ≤ a.toNat → m5.ram a = s2.m.ram a := fun a ha => by rw [k5.1, n4 a (by omega), g3]
  have V5 : numAt m5.ram 0xD4#16 = numAt s.m.ram w := by
    rw [← ev, k5.1, ← g3]
    have e0 := v4 0 (by decide)
    rw [show (BitVec.ofNat 16 0 : W) = 0#16 from rfl, BitVec.add_zero, BitVec.add_zero] at e0
    exact numAt_congr' e0 (v4 1 (by decide)) (v4 2 (by decide)) (v4 3 (by decide)) (v4 4 (by decide)) (v4 5 (by decide))
  refine ⟨{ s2 with m := m5 }, c, c', ((QReach.cpu r1).trans (r2.trans ((QReach.cpu r3).trans ((QReach.cpu (s := { s2 with m := m3 }) r4).trans (QReach.cpu (s := { s2 with m := m4 }) r5))))).halts ⟨1, rfl⟩, ⟨?_, ?_, ?_, ?_, ?_, ?_⟩, ?_⟩
  · have := f2.os n4'
    rwa [V5] at this
  · intro a h h'
    exact (n4' a (by omega)).trans (n2' a h (by omega))
  · dsimp only; rw [z5, Z4]
  · exact k5.2.1.trans (k4.2.1.trans (k3.2.1.trans (c2.sl.trans k1.2.1)))
  · exact k5.2.2.1.trans (k4.2.2.1.trans (k3.2.2.1.trans (c2.sh.trans k1.2.2)))
  · exact k5.2.2.2.trans (k4.2.2.2.trans (k3.2.2.2.trans c2.stk))
  · rw [w5, Z4, hw]

/-! ### Conversions and comparison -/

/-- An integer with sign, as a number: `IFP` of the absolute value, and the sign (`str.asm:50-68`). -/
def NOps.ofInt (O : NOps) (w : W) : Num :=
  { O.ifp (BitVec.ofNat 16 w.toInt.natAbs) with e := ((O.ifp (BitVec.ofNat 16 w.toInt.natAbs)).e &&& 0x7F#8) ||| (if w.toInt < 0 then 0x80#8 else 0#8) }

theorem qe_IFP (s : QS) : qext O "IFP_r" s = some (s.ret (s.junk 0).c s.m.ram (O.ifp (word s.m.fr0.e s.m.fr0.d1)) (s.junk 0).r1) := by simp only [qext]; simp only [String.reduceEq, if_false, if_true]

theorem int16 (w : W) : w.toInt = if w.toNat < 32768 then (w.toNat : Int) else (w.toNat : Int) - 65536 := by
  rw [BitVec.toInt_eq_toNat_cond]; split <;> split <;> omega

theorem tok_intfp (s : QS) {top : Num} {l : List Num} (hf : FpSt s.m.ram top l) (hl : l.length < 8) {w : W} (hw : word s.m.a s.m.x = w) :
    ∃ s', QHalts fpCode O fpCode.EXE_INT_FP s s' ∧ FpR s s' (O.ofInt w) (top :: l) s.m.zp := by
  have wn : w.toNat = s.m.a.toNat + 256 * s.m.x.toNat := by rw [← hw, word_toNat]
  have hal := s.m.a.isLt
  have hxl := s.m.x.isLt
  obtain ⟨m1, r1, s1, x1, g1, k1⟩ : ∃ m1, Reach fpCode fpCode.EXE_INT_FP s.m fpCode.push_fr0 m1 ∧ m1.stk = .ret (.lb "if_1" :: fpCode.if_1) :: .byte s.m.a :: s.m.stk ∧ m1.x = s.m.x ∧ m1.ram = s.m.ram ∧
      m1.zp = s.m.zp ∧ m1.sl = s.m.sl ∧ m1.sh = s.m.sh := by
    refine ⟨?_, ⟨2, ?_⟩, ?_⟩
    rotate_left
    · rt_exec [fpCode.EXE_INT_FP.eq]
      rfl
    · exact ⟨rfl, rfl, rfl, rfl, rfl, rfl⟩
  obtain ⟨s2, r2, x2, c2, f2, n2⟩ := push_q (O := O) { s with m := m1 } _ _ s1 (show FpSt m1.ram top l by rw [g1]; exact hf) hl
  have X2 : s2.m.x = s.m.x := x2.trans x1
  have n2' : ∀ a : W, a ≠ 0xB0#16 → a.toNat < 0x4D0 ∨ 0x500 ≤ a.toNat → s2.m.ram a = s.m.ram a := fun a h h' => by rw [n2 a h h']; exact congrFun g1 a
  obtain ⟨m3, r3, fz, fn, fv, s3, w3, n3, k3⟩ : ∃ m3, Reach fpCode (.lb "if_1" :: fpCode.if_1) s2.m fpCode.IFP m3 ∧ ∃ fz fn fv, m3.stk = .ret (.lb "if_3" :: fpCode.if_3) :: .flags (decide (w.toInt < 0)) fz fn fv :: .ret (.lb "if_2" :: fpCode.if_2) :: s.m.stk ∧
      word (m3.ram 0xD4#16) (m3.ram 0xD5#16) = BitVec.ofNat 16 w.toInt.natAbs ∧ (∀ a : W, a.toNat < 0xD4 ∨ 0x100 ≤ a.toNat → m3.ram a = s2.m.ram a) ∧ m3.zp = s2.m.zp ∧ m3.sl = s2.m.sl ∧ m3.sh = s2.m.sh := by
    by_cases hn : s.m.x.toNat < 128
    · have hi : w.toInt = w.toNat := by rw [int16, if_pos (by omega)]
      have hc : addC s.m.x 127#8 true = false := bool0 (by simp; omega)
      refine ⟨?_, ⟨9, ?_⟩, ?_⟩
      rotate_left
      · rt_exec [fpCode.if_1.eq, fpCode.int_to_fp.eq, fpCode.positive.eq, c2.stk, X2, hc]
        rfl
      · rw [decide_eq_false (show ¬ w.toInt < 0 by omega)]
        refine ⟨_, _, _, rfl, ?_, fun a ha => ?_, rfl, rfl, rfl⟩
        · dsimp only
          rw [hi, Int.natAbs_natCast, BitVec.ofNat_toNat, BitVec.setWidth_eq, ← hw, upd_ne (by decide), upd_at, upd_at]
        · dsimp only
          rw [upd_ne (by rintro rfl; simp at ha), upd_ne (by rintro rfl; simp at ha)]
    · have hi : w.toInt = w.toNat - 65536 := by rw [int16, if_neg (by omega)]
      have hc : addC s.m.x 127#8 true = true := bool1 (by simp; omega)
      refine ⟨?_, ⟨21, ?_⟩, ?_⟩
      rotate_left
      · rt_exec [fpCode.if_1.eq, fpCode.int_to_fp.eq, fpCode.positive.eq, fpCode.neg_AX.eq, c2.stk, X2, hc]
        rfl
      · rw [decide_eq_true (show w.toInt < 0 by omega)]
        refine ⟨_, _, _, rfl, ?_, fun a ha => ?_, rfl, rfl, rfl⟩
        · dsimp only
          rw [show w.toInt.natAbs = 65536 - w.toNat by omega, upd_ne (by decide), upd_at, upd_at, wn]
          apply BitVec.eq_of_toNat_eq
          simp [xorFF']
          omega
        · dsimp only
          rw [upd_ne (by rintro rfl; simp at ha), upd_ne (by rintro rfl; simp at ha)]
  obtain ⟨s4, r4, f4, -, -, n4, -, c4⟩ := q_ret (P := fpCode) (O := O) (s := { s2 with m := m3 }) fpCode.IFP.eq s3 (qe_IFP _)
  have ew : word ({ s2 with m := m3 } : QS).m.fr0.e ({ s2 with m := m3 } : QS).m.fr0.d1 = BitVec.ofNat 16 w.toInt.natAbs := w3
  rw [ew] at f4
  obtain ⟨m5, r5, g5, k5⟩ : ∃ m5, Reach fpCode (.lb "if_3" :: fpCode.if_3) s4.m fpCode.if_2 m5 ∧
      m5.ram = upd (upd s4.m.ram 0xD4#16 (rol8 (s4.m.ram 0xD4#16) false)) 0xD4#16 (ror8 (rol8 (s4.m.ram 0xD4#16) false) (decide (w.toInt < 0))) ∧ m5.zp = s4.m.zp ∧ m5.sl = s4.m.sl ∧ m5.sh = s4.m.sh ∧ m5.stk = s.m.stk := by
    refine ⟨?_, ⟨6, ?_⟩, ?_⟩
    rotate_left
    · rt_exec [fpCode.if_3.eq, c4.stk, upd_at]
      rfl
    · exact ⟨rfl, rfl, rfl, rfl, rfl⟩
  have n5 : ∀ a : W, a.toNat < 0xD4 ∨ 0x100 ≤ a.toNat → m5.ram a = s2.m.ram a := fun a ha => by
    rw [g5, upd_ne (by rintro rfl; simp at ha), upd_ne (by rintro rfl; simp at ha), n4 a ha]
    exact n3 a ha
  have V5 : numAt m5.ram 0xD4#16 = O.ofInt w := by
    rw [g5, asl_ror, NOps.ofInt, ← f4]
    simp only [decide_eq_true_eq]
    rfl
  refine ⟨{ s4 with m := m5 }, ((QReach.cpu r1).trans (r2.trans ((QReach.cpu r3).trans (r4.trans (QReach.cpu r5))))).halts ⟨1, rfl⟩, ?_, ?_, ?_, ?_, ?_, ?_⟩
  · have := f2.os n5
    rwa [V5] at this
  · intro a h h'
    exact (n5 a (by omega)).trans (n2' a h (by omega))
  · dsimp only; rw [k5.1, c4.zp]; dsimp only; rw [k3.1, c2.zp]; exact k1.1
  · dsimp only; rw [k5.2.1, c4.sl]; dsimp only; rw [k3.2.1, c2.sl]; exact k1.2.1
  · dsimp only; rw [k5.2.2.1, c4.sh]; dsimp only; rw [k3.2.2, c2.sh]; exact k1.2.2
  · exact k5.2.2.2

/-- The state after `FP_CMP`: the integer stack has a word with the byte `e` twice, and `AX` is zero. -/
structure FpCmp (s s' : QS) (e : B) (b : Num) (l : List Num) : Prop where
  st : FpSt s'.m.ram b l
  keep : FpKeep s.m.ram s'.m.ram
  zp : s'.m.zp = { s.m.zp with sptr := s.m.zp.sptr - 1#8 }
  sl : s'.m.sl = upd s.m.sl (s.m.zp.sptr - 1#8) e
  sh : s'.m.sh = upd s.m.sh (s.m.zp.sptr - 1#8) e
  ax : s'.m.a = 0#8 ∧ s'.m.x = 0#8
  stk : s'.m.stk = s.m.stk

/-- The comparison: the byte is the sign and exponent of the difference, with any value after an error. -/
theorem tok_cmp (s : QS) {top b c : Num} {l : List Num} (hf : FpSt s.m.ram top (b :: c :: l)) :
    ∃ s' v, QHalts fpCode O fpCode.EXE_FP_CMP s s' ∧ FpCmp s s' v.e c l ∧ ∀ d, O.sub b top = some d → v = d := by
  obtain ⟨m1, r1, s1, g1, k1⟩ : ∃ m1, Reach fpCode fpCode.EXE_FP_CMP s.m fpCode.pop_fr1 m1 ∧ m1.stk = .ret (.lb "cm_1" :: fpCode.cm_1) :: s.m.stk ∧ m1.ram = s.m.ram ∧ m1.zp = s.m.zp ∧ m1.sl = s.m.sl ∧ m1.sh = s.m.sh := by
    refine ⟨?_, ⟨1, ?_⟩, ?_⟩
    rotate_left
    · rt_exec [fpCode.EXE_FP_CMP.eq]
      rfl
    · exact ⟨rfl, rfl, rfl, rfl, rfl⟩
  obtain ⟨s2, r2, c2, f2, t2, n2⟩ := pop1_q (O := O) { s with m := m1 } _ _ s1 (show FpSt m1.ram top (b :: c :: l) by rw [g1]; exact hf)
  obtain ⟨m3, r3, s3, g3, k3⟩ : ∃ m3, Reach fpCode (.lb "cm_1" :: fpCode.cm_1) s2.m fpCode.FSUB m3 ∧ m3.stk = .ret (.lb "cm_2" :: fpCode.cm_2) :: s2.m.stk ∧ m3.ram = s2.m.ram ∧ m3.zp = s2.m.zp ∧ m3.sl = s2.m.sl ∧ m3.sh = s2.m.sh := by
    refine ⟨?_, ⟨2, ?_⟩, ?_⟩
    rotate_left
    · rt_exec [fpCode.cm_1.eq]
      rfl
    · exact ⟨rfl, rfl, rfl, rfl, rfl⟩
  obtain ⟨s4, v, r4, f4, -, v4, n4, c4⟩ := op_q (O := O) { s2 with m := m3 } (l := "FSUB_r") (f := O.sub) fpCode.FSUB.eq s3 (by simp only [qext]; simp only [String.reduceEq, if_false, if_true])
  have a3 : ({ s2 with m := m3 } : QS).m.fr0 = b := by rw [← f2.top]; exact congrArg (numAt · _) g3
  have b3 : ({ s2 with m := m3 } : QS).m.fr1 = top := by rw [← t2]; exact congrArg (numAt · _) g3
  rw [a3, b3] at v4
  have f4' : FpSt s4.m.ram v (c :: l) := by
    have f3 : FpSt m3.ram b (c :: l) := by rw [g3]; exact f2
    have := f3.os n4
    rwa [show numAt s4.m.ram 0xD4#16 = v from f4] at this
  obtain ⟨m5, r5, s5, x5, g5, k5⟩ : ∃ m5, Reach fpCode (.lb "cm_2" :: fpCode.cm_2) s4.m fpCode.pop_fr0 m5 ∧ m5.stk = .ret (.lb "pushXX_set0" :: fpCode.pushXX_set0) :: s4.m.stk ∧ m5.x = s4.m.ram 0xD4#16 ∧ m5.ram = s4.m.ram ∧ m5.zp = s4.m.zp ∧ m5.sl = s4.m.sl ∧
      m5.sh = s4.m.sh := by
    refine ⟨?_, ⟨3, ?_⟩, ?_⟩
    rotate_left
    · rt_exec [fpCode.cm_2.eq]
      rfl
    · exact ⟨rfl, rfl, rfl, rfl, rfl, rfl⟩
  obtain ⟨s6, r6, x6, c6, f6, n6⟩ := pop_q (O := O) { s4 with m := m5 } _ _ s5 (show FpSt m5.ram v (c :: l) by rw [g5]; exact f4')
  have X6 : s6.m.x = v.e := by rw [x6]; dsimp only; rw [x5, ← f4]; rfl
  obtain ⟨m7, r7, a7, b7, g7, z7, l7, h7, s7⟩ : ∃ m7, Reach fpCode (.lb "pushXX_set0" :: fpCode.pushXX_set0) s6.m (.ins .next :: .lb "pushAX" :: fpCode.pushAX) m7 ∧ m7.a = 0#8 ∧ m7.x = 0#8 ∧ m7.ram = s6.m.ram ∧ m7.zp = { s6.m.zp with sptr := s6.m.zp.sptr - 1#8 } ∧
      m7.sl = upd s6.m.sl (s6.m.zp.sptr + 255#8) s6.m.x ∧ m7.sh = upd s6.m.sh (s6.m.zp.sptr + 255#8) s6.m.x ∧ m7.stk = s6.m.stk := by
    refine ⟨?_, ⟨12, ?_⟩, ?_⟩
    rotate_left
    · rt_exec [fpCode.pushXX_set0.eq, fpCode.pushAX.eq, fpCode.EXE_0.eq]
      rfl
    · exact ⟨rfl, rfl, rfl, rfl, rfl, rfl, rfl⟩
  have Z6 : s6.m.zp = s.m.zp := by rw [c6.zp]; dsimp only; rw [k5.1, c4.zp]; dsimp only; rw [k3.1, c2.zp]; exact k1.1
  have L6 : s6.m.sl = s.m.sl := by rw [c6.sl]; dsimp only; rw [k5.2.1, c4.sl]; dsimp only; rw [k3.2.1, c2.sl]; exact k1.2.1
  have H6 : s6.m.sh = s.m.sh := by rw [c6.sh]; dsimp only; rw [k5.2.2, c4.sh]; dsimp only; rw [k3.2.2, c2.sh]; exact k1.2.2
  have e255 : ∀ y : B, y + 255#8 = y - 1#8 := by decide
  refine ⟨{ s6 with m := m7 }, v, ((QReach.cpu r1).trans (r2.trans ((QReach.cpu r3).trans (r4.trans ((QReach.cpu r5).trans (r6.trans (QReach.cpu r7))))))).halts ⟨1, rfl⟩, ⟨?_, ?_, ?_, ?_, ?_, ⟨a7, b7⟩, ?_⟩, v4⟩
  · dsimp only; rw [g7]; exact f6
  · have k2 : FpKeep s.m.ram s2.m.ram := by have := n2; dsimp only at this; rwa [g1] at this
    refine k2.trans fun a h h' => ?_
    dsimp only
    rw [g7, n6 a h (by omega)]
    dsimp only
    rw [g5, n4 a (by omega)]
    exact congrFun g3 a
  · dsimp only; rw [z7, Z6]
  · dsimp only; rw [l7, Z6, L6, X6, e255]
  · dsimp only; rw [h7, Z6, H6, X6, e255]
  · dsimp only; rw [s7, c6.stk, c4.stk, c2.stk]

theorem qe_FPI (s : QS) : qext O "FPI_r" s = some (match O.fpi s.m.fr0 with
    | some w => s.ret false s.m.ram { (s.junk 0).r0 with e := w.setWidth 8, d1 := (w >>> 8).setWidth 8 } (s.junk 0).r1
    | none => s.ret true s.m.ram (s.junk 0).r0 (s.junk 0).r1) := by
  simp only [qext]; simp only [String.reduceEq, if_false, if_true]; cases O.fpi s.m.fr0 <;> rfl

/-- The state after `FP_INT`. -/
structure FpInt (s s' : QS) (b : Num) (l : List Num) : Prop where
  st : FpSt s'.m.ram b l
  keep : FpKeep s.m.ram s'.m.ram
  sl : s'.m.sl = s.m.sl
  sh : s'.m.sh = s.m.sh
  stk : s'.m.stk = s.m.stk

/-- After the error is known. -/
theorem int_end (s : QS) {v b : Num} {l : List Num} (neg fz fn fv : Bool) (st : List Slot) (hs : s.m.stk = .flags neg fz fn fv :: st) (hf : FpSt s.m.ram v (b :: l)) :
    ∃ s', QHalts fpCode O fpCode.ok s s' ∧ FpSt s'.m.ram b l ∧ FpKeep s.m.ram s'.m.ram ∧ s'.m.zp = s.m.zp ∧ s'.m.sl = s.m.sl ∧ s'.m.sh = s.m.sh ∧ s'.m.stk = st ∧
      word s'.m.a s'.m.x = if neg then - word v.e s.m.x else word v.e s.m.x := by
  obtain ⟨m1, r1, s1, x1, g1, k1⟩ : ∃ m1, Reach fpCode fpCode.ok s.m fpCode.pop_fr0 m1 ∧ m1.stk = .ret (.lb "in_2" :: fpCode.in_2) :: .byte v.e :: .flags neg fz fn fv :: st ∧ m1.x = s.m.x ∧ m1.ram = s.m.ram ∧
      m1.zp = s.m.zp ∧ m1.sl = s.m.sl ∧ m1.sh = s.m.sh := by
    have e : s.m.ram 0xD4#16 = v.e := by rw [← hf.top]; rfl
    refine ⟨?_, ⟨3, ?_⟩, ?_⟩
    rotate_left
    · rt_exec [fpCode.ok.eq, hs, e]
      rfl
    · exact ⟨rfl, rfl, rfl, rfl, rfl, rfl⟩
  obtain ⟨s2, r2, x2, c2, f2, n2⟩ := pop_q (O := O) { s with m := m1 } _ _ s1 (show FpSt m1.ram v (b :: l) by rw [g1]; exact hf)
  have X2 : s2.m.x = s.m.x := x2.trans x1
  obtain ⟨m3, r3, g3, w3, k3⟩ : ∃ m3, Reach fpCode (.lb "in_2" :: fpCode.in_2) s2.m fpCode.pos m3 ∧ m3.ram = s2.m.ram ∧ (word m3.a m3.x = if neg then - word v.e s.m.x else word v.e s.m.x) ∧ m3.zp = s2.m.zp ∧ m3.sl = s2.m.sl ∧
      m3.sh = s2.m.sh ∧ m3.stk = st := by
    cases neg
    · refine ⟨?_, ⟨4, ?_⟩, ?_⟩
      rotate_left
      · rt_exec [fpCode.in_2.eq, c2.stk]
        rfl
      · exact ⟨rfl, by dsimp only; rw [X2]; rfl, rfl, rfl, rfl, rfl⟩
    · refine ⟨?_, ⟨16, ?_⟩, ?_⟩
      rotate_left
      · rt_exec [fpCode.in_2.eq, fpCode.neg_AX.eq, c2.stk]
        rfl
      · refine ⟨rfl, ?_, rfl, rfl, rfl, rfl⟩
        dsimp only
        rw [X2, if_pos rfl]
        apply BitVec.eq_of_toNat_eq
        have := v.e.isLt; have := s.m.x.isLt
        simp [xorFF']
        omega
  refine ⟨{ s2 with m := m3 }, ((QReach.cpu r1).trans (r2.trans (QReach.cpu r3))).halts ⟨1, rfl⟩, ?_, ?_, ?_, ?_, ?_, ?_, ?_⟩
  · dsimp only; rw [g3]; exact f2
  · intro a h h'
    dsimp only
    rw [g3, n2 a h (by omega)]
    exact congrFun g1 a
  · dsimp only; rw [k3.1, c2.zp]; exact k1.1
  · dsimp only; rw [k3.2.1, c2.sl]; exact k1.2.1
  · dsimp only; rw [k3.2.2.1, c2.sh]; exact k1.2.2
  · exact k3.2.2.2
  · exact w3

/-- To an integer: the absolute value by `FPI`, and the sign; error 3 if it is 32768 or more. -/
theorem tok_int (s : QS) {top b : Num} {l : List Num} (hf : FpSt s.m.ram top (b :: l)) :
    ∃ s', QHalts fpCode O fpCode.EXE_FP_INT s s' ∧ FpInt s s' b l ∧ match O.fpi top.abs with
      | some w => (word s'.m.a s'.m.x = if topBit top.e then - w else w) ∧ s'.m.zp = if w.toNat < 32768 then s.m.zp else { s.m.zp with ioerr := 3#8 }
      | none => s'.m.zp = { s.m.zp with ioerr := 3#8 } := by
  have ht : s.m.ram 0xD4#16 = top.e := by rw [← hf.top]; rfl
  obtain ⟨m1, r1, fz, fn, fv, s1, g1, k1⟩ : ∃ m1, Reach fpCode fpCode.EXE_FP_INT s.m fpCode.FPI m1 ∧ ∃ fz fn fv, m1.stk = .ret (.lb "in_1" :: fpCode.in_1) :: .flags (topBit top.e) fz fn fv :: s.m.stk ∧
      m1.ram = upd (upd s.m.ram 0xD4#16 (rol8 top.e false)) 0xD4#16 (ror8 (rol8 top.e false) false) ∧ m1.zp = s.m.zp ∧ m1.sl = s.m.sl ∧ m1.sh = s.m.sh := by
    refine ⟨?_, ⟨4, ?_⟩, ?_⟩
    rotate_left
    · rt_exec [fpCode.EXE_FP_INT.eq, upd_at, ht]
      rfl
    · exact ⟨_, _, _, rfl, rfl, rfl, rfl, rfl⟩
  have n1 : ∀ a : W, a.toNat < 0xD4 ∨ 0x100 ≤ a.toNat → m1.ram a = s.m.ram a := fun a ha => by rw [g1, upd_ne (by rintro rfl; simp at ha), upd_ne (by rintro rfl; simp at ha)]
  have e1 : ({ s with m := m1 } : QS).m.fr0 = top.abs := by
    rw [Num.abs, ← asl_lsr, ← hf.top]
    change numAt m1.ram _ = _
    rw [g1, ← ht]
    rfl
  have hq := qe_FPI (O := O) { s with m := m1 }
  rw [e1] at hq
  cases hp : O.fpi top.abs with
  | none =>
    rw [hp] at hq
    obtain ⟨s2, r2, f2, -, c2, n2, -, q2⟩ := q_ret (P := fpCode) fpCode.FPI.eq s1 hq
    obtain ⟨m3, r3, g3, z3, k3⟩ : ∃ m3, Reach fpCode (.lb "in_1" :: fpCode.in_1) s2.m fpCode.ok m3 ∧ m3.ram = s2.m.ram ∧ m3.zp = { s2.m.zp with ioerr := 3#8 } ∧ m3.sl = s2.m.sl ∧ m3.sh = s2.m.sh ∧ m3.stk = s2.m.stk := by
      refine ⟨?_, ⟨5, ?_⟩, ?_⟩
      rotate_left
      · rt_exec [fpCode.in_1.eq, fpCode.err3.eq, c2]
        rfl
      · exact ⟨rfl, rfl, rfl, rfl, rfl⟩
    have N : ∀ a : W, a.toNat < 0xD4 ∨ 0x100 ≤ a.toNat → m3.ram a = s.m.ram a := fun a ha => by rw [g3, n2 a ha]; exact n1 a ha
    obtain ⟨s4, r4, f4, n4, z4, l4, h4, t4, -⟩ := int_end (O := O) { s2 with m := m3 } _ fz fn fv s.m.stk (by dsimp only; rw [k3.2.2, q2.stk]) (hf.os N)
    refine ⟨s4, (((QReach.cpu r1).trans (r2.trans (QReach.cpu r3))).halts r4), ⟨f4, (FpKeep.os N).trans n4, ?_, ?_, t4⟩, ?_⟩
    · rw [l4]; dsimp only; rw [k3.1, q2.sl]; exact k1.2.1
    · rw [h4]; dsimp only; rw [k3.2.1, q2.sh]; exact k1.2.2
    · dsimp only; rw [z4]; dsimp only; rw [z3, q2.zp]; dsimp only; rw [k1.1]
  | some w =>
    rw [hp] at hq
    obtain ⟨s2, r2, f2, -, c2, n2, -, q2⟩ := q_ret (P := fpCode) fpCode.FPI.eq s1 hq
    have wl := w.isLt
    have d4 : s2.m.ram 0xD4#16 = w.setWidth 8 := by have := congrArg Num.e f2; exact this
    have d5 : s2.m.ram 0xD5#16 = (w >>> 8).setWidth 8 := by have := congrArg Num.d1 f2; exact this
    have d5n : (s2.m.ram 0xD5#16).toNat = w.toNat / 256 := by
      rw [d5, BitVec.toNat_setWidth, BitVec.toNat_ushiftRight, Nat.shiftRight_eq_div_pow]; omega
    have dw : word (s2.m.ram 0xD4#16) (s2.m.ram 0xD5#16) = w := by
      apply BitVec.eq_of_toNat_eq
      rw [word_toNat, d5n, d4, BitVec.toNat_setWidth]
      omega
    obtain ⟨m3, r3, g3, z3, x3, k3⟩ : ∃ m3, Reach fpCode (.lb "in_1" :: fpCode.in_1) s2.m fpCode.ok m3 ∧ m3.ram = s2.m.ram ∧ (m3.zp = if w.toNat < 32768 then s2.m.zp else { s2.m.zp with ioerr := 3#8 }) ∧
        m3.x = s2.m.ram 0xD5#16 ∧ m3.sl = s2.m.sl ∧ m3.sh = s2.m.sh ∧ m3.stk = s2.m.stk := by
      by_cases hw : w.toNat < 32768
      · have hb : topBit (s2.m.ram 0xD5#16) = false := bool0 (by rw [topBit_toNat, d5n]; omega)
        rw [if_pos hw]
        refine ⟨?_, ⟨4, ?_⟩, ?_⟩
        rotate_left
        · rt_exec [fpCode.in_1.eq, c2, hb]
          rfl
        · exact ⟨rfl, rfl, rfl, rfl, rfl, rfl⟩
      · have hb : topBit (s2.m.ram 0xD5#16) = true := bool1 (by rw [topBit_toNat, d5n]; omega)
        rw [if_neg hw]
        refine ⟨?_, ⟨8, ?_⟩, ?_⟩
        rotate_left
        · rt_exec [fpCode.in_1.eq, fpCode.err3.eq, c2, hb]
          rfl
        · exact ⟨rfl, rfl, rfl, rfl, rfl, rfl⟩
    have N : ∀ a : W, a.toNat < 0xD4 ∨ 0x100 ≤ a.toNat → m3.ram a = s.m.ram a := fun a ha => by rw [g3, n2 a ha]; exact n1 a ha
    obtain ⟨s4, r4, f4, n4, z4, l4, h4, t4, w4⟩ := int_end (O := O) { s2 with m := m3 } _ fz fn fv s.m.stk (by dsimp only; rw [k3.2.2, q2.stk]) (hf.os N)
    refine ⟨s4, (((QReach.cpu r1).trans (r2.trans (QReach.cpu r3))).halts r4), ⟨f4, (FpKeep.os N).trans n4, ?_, ?_, t4⟩, ?_, ?_⟩
    · rw [l4]; dsimp only; rw [k3.1, q2.sl]; exact k1.2.1
    · rw [h4]; dsimp only; rw [k3.2.1, q2.sh]; exact k1.2.2
    · rw [w4]
      have : word (numAt ({ s2 with m := m3 } : QS).m.ram 0xD4#16).e ({ s2 with m := m3 } : QS).m.x = w := by
        dsimp only
        rw [x3, g3]
        exact dw
      rw [this]
    · rw [z4]; dsimp only; rw [z3, q2.zp]; dsimp only; rw [k1.1]

end
end FB.Rt
