import Verif.Rt.NumStr
/-!
# Text to integers

Transcription of `/repo/src/interp/a5200/val.asm` (Atari 5200).
-/
namespace FB.Rt
open Ins Opd

/-- `EXE_VAL`, `a5200/val.asm:35-137`.  `IOERROR` is the cell `ioerr`; the label `mul` is not in the source. -/
def val5Code : Code :=
  asm!["EXE_VAL", sta (zp .tmp3), stx (zp .tmp3h), ldy (imm 0), sty (zp .ioerr), lda (indY .tmp3 .tmp3h), sta (zp .tmp4), lda (imm 0x20),
   "skp", cpy (zp .tmp4), bcs "set_err", iny, cmp (indY .tmp3 .tmp3h), beq "skp",
   "skp_end", lda (indY .tmp3 .tmp3h), cmp (imm 0x2D), beq "do_minus", clc, eor (imm 0x2B), Ins.bne "convert",
   "do_minus", iny,
   "convert", php, sty (zp .tmp2h), dey, lda (imm 0), tax,
   "loop", sta (zp .tmp1), stx (zp .tmp1h), cpy (zp .tmp4), beq "xit_n", iny,
   lda (indY .tmp3 .tmp3h), eor (imm 0x30), cmp (imm 10), sta (zp .tmp2), lda (zp .tmp1), bcs "xit_n",
   "mul", cpx (imm 26), bcs "ebig", asl acc, rol (zp .tmp1h), asl acc, rol (zp .tmp1h), adc (zp .tmp1), sta (zp .tmp1), txa, adc (zp .tmp1h),
   asl (zp .tmp1), rol acc, tax,
   "big", bcs "ebig", lda (zp .tmp2), adc (zp .tmp1), bcc "loop", inx, Ins.bne "loop",
   "ebig", plp,
   "set_err", ldy (imm 18), sty (zp .ioerr), Ins.bne "end",
   "xit_n", cpy (zp .tmp2h), beq "ebig", plp, bcc "end", jsr "neg_AX",
   "end", next] ++ negax

set_option maxRecDepth 10000 in
code_labels val5Code

/-- What the conversion keeps. -/
structure ValKept (m m' : M) : Prop where
  stk : m'.stk = m.stk
  sl : m'.sl = m.sl
  sh : m'.sh = m.sh
  ram : m'.ram = m.ram
  sptr : m'.zp.sptr = m.zp.sptr
  saddr : m'.zp.saddr = m.zp.saddr
  saddrh : m'.zp.saddrh = m.zp.saddrh
  arr : m'.zp.arr = m.zp.arr
  arrh : m'.zp.arrh = m.zp.arrh
  mins : m'.zp.mins = m.zp.mins
  tmp3 : m'.zp.tmp3 = m.zp.tmp3
  tmp3h : m'.zp.tmp3h = m.zp.tmp3h
  tmp4 : m'.zp.tmp4 = m.zp.tmp4
  ioerr : m'.zp.ioerr = m.zp.ioerr
  tmp2h : m'.zp.tmp2h = m.zp.tmp2h

theorem ValKept.trans {a b c : M} (h : ValKept a b) (h' : ValKept b c) : ValKept a c :=
  ⟨h'.stk.trans h.stk, h'.sl.trans h.sl, h'.sh.trans h.sh, h'.ram.trans h.ram, h'.sptr.trans h.sptr,
   h'.saddr.trans h.saddr, h'.saddrh.trans h.saddrh, h'.arr.trans h.arr, h'.arrh.trans h.arrh, h'.mins.trans h.mins,
   h'.tmp3.trans h.tmp3, h'.tmp3h.trans h.tmp3h, h'.tmp4.trans h.tmp4, h'.ioerr.trans h.ioerr, h'.tmp2h.trans h.tmp2h⟩

/-- `vkept` proves the fields that are not touched. -/
macro "vkept" : term => `(⟨rfl, rfl, rfl, rfl, rfl, rfl, rfl, rfl, rfl, rfl, rfl, rfl, rfl, rfl, rfl⟩)

theorem rol16 (l h : B) : (rol8 l false).toNat + 256 * (rol8 h (topBit l)).toNat + 65536 * (topBit h).toNat = 2 * (l.toNat + 256 * h.toNat) := by
  have := l.isLt; have := h.isLt
  simp; omega

theorem add16v (l h k j : B) (c : Bool) : (add8 l k c).toNat + 256 * (add8 h j (addC l k c)).toNat + 65536 * (addC h j (addC l k c)).toNat =
    l.toNat + 256 * h.toNat + (k.toNat + 256 * j.toNat) + c.toNat := by
  have := l.isLt; have := h.isLt; have := k.isLt; have := j.isLt; have := c.toNat_le
  simp; omega

/-- Multiplies by ten and adds the digit. -/
theorem val5_mul (m : M) (t d : Nat) (ht : m.ax.toNat = t) (h1 : m.zp.tmp1 = m.a) (h1h : m.zp.tmp1h = m.x) (hd : m.zp.tmp2.toNat = d)
    (hd9 : d < 10) :
    if 10 * t + d < 65536 then ∃ m', Reach val5Code val5Code.mul m val5Code.loop m' ∧ m'.ax.toNat = 10 * t + d ∧ m'.y = m.y ∧ ValKept m m'
    else ∃ m', Reach val5Code val5Code.mul m val5Code.ebig m' ∧ ValKept m m' := by
  have ha := m.a.isLt; have hx := m.x.isLt
  rw [M.ax, word_toNat] at ht
  cases hc : addC m.x 229#8 true
  · have hc' := congrArg Bool.toNat hc
    simp at hc'
    obtain ⟨m1, r1, e1, x1, y1, d1, k1⟩ : ∃ m1, Reach val5Code val5Code.mul m val5Code.big m1 ∧
        m1.zp.tmp1.toNat + 256 * m1.x.toNat + 65536 * m1.c.toNat = 10 * t ∧ m1.x.toNat < 256 ∧ m1.y = m.y ∧ m1.zp.tmp2 = m.zp.tmp2 ∧ ValKept m m1 := by
      refine ⟨?_, ⟨14, ?_⟩, ?_, ?_, ?_⟩
      rotate_left
      · rt_exec [val5Code.mul.eq, hc, h1, h1h]
        rfl
      · have e1 := rol16 m.a m.x
        have e2 := rol16 (rol8 m.a false) (rol8 m.x (topBit m.a))
        have c1 : topBit (rol8 m.x (topBit m.a)) = false := by
          have q : ((topBit (rol8 m.x (topBit m.a))).toNat : Nat) = 0 := by rw [topBit_toNat, rol8_toNat, topBit_toNat]; omega
          exact Bool.toNat_eq_zero.1 q
        have e3 := add16v (rol8 (rol8 m.a false) false) m.x m.a (rol8 (rol8 m.x (topBit m.a)) (topBit (rol8 m.a false))) false
        have e4 := rol16 (add8 (rol8 (rol8 m.a false) false) m.a false) (add8 m.x (rol8 (rol8 m.x (topBit m.a)) (topBit (rol8 m.a false)))
          (addC (rol8 (rol8 m.a false) false) m.a false))
        have b1 : (topBit m.x).toNat = 0 := by rw [topBit_toNat]; omega
        rw [c1] at e2
        have b2 : (addC m.x (rol8 (rol8 m.x (topBit m.a)) (topBit (rol8 m.a false))) (addC (rol8 (rol8 m.a false) false) m.a false)).toNat = 0 := by
          simp only [Bool.toNat_false] at e1 e2 e3
          have i1 := (add8 m.x (rol8 (rol8 m.x (topBit m.a)) (topBit (rol8 m.a false))) (addC (rol8 (rol8 m.a false) false) m.a false)).isLt
          omega
        simp only [c1, Bool.toNat_false] at e1 e2 e3 e4 ⊢
        omega
      · exact BitVec.isLt _
      · exact ⟨rfl, rfl, vkept⟩
    have l1 := m1.zp.tmp1.isLt
    cases hb : m1.c
    · rw [hb] at e1
      have d2 : m1.zp.tmp2.toNat = d := by rw [d1, hd]
      cases hk : addC m1.zp.tmp2 m1.zp.tmp1 false
      · have hk' := congrArg Bool.toNat hk
        simp at hk' e1
        rw [if_pos (by omega)]
        refine ⟨?_, r1.trans ⟨4, ?_⟩, ?_, ?_⟩
        rotate_left
        · rt_exec [val5Code.big.eq, hb, hk]
          rfl
        · simp [M.ax]; omega
        · exact ⟨y1, k1.trans vkept⟩
      · have hk' := congrArg Bool.toNat hk
        simp at hk' e1
        by_cases hz : m1.x + 1#8 = 0#8
        · have : m1.x.toNat = 255 := by bv_omega
          rw [if_neg (by omega)]
          refine ⟨?_, r1.trans ⟨7, ?_⟩, ?_⟩
          rotate_left
          · rt_exec [val5Code.big.eq, hb, hk, hz]
            rfl
          · exact k1.trans vkept
        · have : m1.x.toNat ≠ 255 := by intro h; apply hz; bv_omega
          rw [if_pos (by omega)]
          refine ⟨?_, r1.trans ⟨6, ?_⟩, ?_, ?_⟩
          rotate_left
          · rt_exec [val5Code.big.eq, hb, hk, hz]
            rfl
          · simp [M.ax]; omega
          · exact ⟨y1, k1.trans vkept⟩
    · rw [hb] at e1
      simp at e1
      rw [if_neg (by omega)]
      refine ⟨?_, r1.trans ⟨1, ?_⟩, ?_⟩
      rotate_left
      · rt_exec [val5Code.big.eq, hb]
        rfl
      · exact k1.trans vkept
  · have hc' := congrArg Bool.toNat hc
    simp at hc'
    rw [if_neg (by omega)]
    refine ⟨?_, ⟨2, ?_⟩, ?_⟩
    rotate_left
    · rt_exec [val5Code.mul.eq, hc]
      rfl
    · exact vkept

/-- A decimal digit. -/
def IsDig (c : B) : Prop := 48 ≤ c.toNat ∧ c.toNat ≤ 57

/-- The value of digits, after a number. -/
def numVal (t : Nat) (ds : List B) : Nat := ds.foldl (fun n c => n * 10 + (c.toNat - 48)) t

theorem numVal_ge (ds : List B) : ∀ t, t ≤ numVal t ds := by
  induction ds with
  | nil => intro t; exact Nat.le_refl _
  | cons c ds ih => intro t; have := ih (t * 10 + (c.toNat - 48)); simp only [numVal, List.foldl_cons] at *; omega

theorem digit_xor : ∀ c : B, (addC (c ^^^ 48#8) 245#8 true = false ↔ 48 ≤ c.toNat ∧ c.toNat ≤ 57) ∧
    (48 ≤ c.toNat ∧ c.toNat ≤ 57 → (c ^^^ 48#8).toNat = c.toNat - 48) := by decide +kernel

/-- The pointer to the text. -/
def M.vp (m : M) : W := word m.zp.tmp3 m.zp.tmp3h

/-- The text from the position after `y` on. -/
def M.vs (m : M) : List B := (strAt m.ram m.vp).drop m.y.toNat

theorem ValKept.vs {m m' : M} (k : ValKept m m') (hy : m'.y = m.y) : m'.vs = m.vs := by
  unfold M.vs M.vp; rw [k.ram, k.tmp3, k.tmp3h, hy]

theorem vs_nil {m : M} (h4 : m.zp.tmp4 = m.ram m.vp) (hy : m.y.toNat ≤ m.zp.tmp4.toNat) (hs : m.vs = []) : m.y = m.zp.tmp4 := by
  have := congrArg List.length hs
  rw [M.vs, List.length_drop, strAt_length, ← h4, List.length_nil] at this
  apply BitVec.eq_of_toNat_eq; omega

theorem vs_cons {m : M} (h4 : m.zp.tmp4 = m.ram m.vp) {c : B} {l : List B} (hs : m.vs = c :: l) :
    m.y ≠ m.zp.tmp4 ∧ m.y.toNat < m.zp.tmp4.toNat ∧ m.ram (idx m.vp (m.y + 1#8)) = c ∧ (m.y + 1#8).toNat = m.y.toNat + 1 ∧
    (strAt m.ram m.vp).drop (m.y.toNat + 1) = l := by
  have hl := congrArg List.length hs
  rw [M.vs, List.length_drop, strAt_length, ← h4, List.length_cons] at hl
  have hlt : m.y.toNat < m.zp.tmp4.toNat := by omega
  have i4 := m.zp.tmp4.isLt
  have hy1 : (m.y + 1#8).toNat = m.y.toNat + 1 := by rw [BitVec.toNat_add]; simp only [BitVec.toNat_ofNat]; omega
  have hd := hs
  rw [M.vs, List.drop_eq_getElem_cons (by rw [strAt_length, ← h4]; exact hlt)] at hd
  injection hd with h1 h2
  rw [strAt_get] at h1
  refine ⟨fun h => by rw [h] at hlt; omega, hlt, ?_, hy1, h2⟩
  rw [idx, hy1]; exact h1

/-- The digits. -/
theorem val5_loop (ds : List B) : ∀ (m : M) (t : Nat) (rest : List B), m.ax.toNat = t → m.zp.tmp4 = m.ram m.vp →
    m.y.toNat ≤ m.zp.tmp4.toNat → m.vs = ds ++ rest → (∀ c ∈ ds, IsDig c) → (∀ c, rest.head? = some c → ¬ IsDig c) →
    if numVal t ds < 65536 then ∃ m', Reach val5Code val5Code.loop m val5Code.xit_n m' ∧ m'.ax.toNat = numVal t ds ∧
      m'.y.toNat = m.y.toNat + ds.length + (if rest = [] then 0 else 1) ∧ ValKept m m'
    else ∃ m', Reach val5Code val5Code.loop m val5Code.ebig m' ∧ ValKept m m' := by
  induction ds with
  | nil =>
    intro m t rest ht h4 hy hs _ hr
    have : numVal t [] = t := rfl
    rw [this, if_pos (by rw [← ht]; exact m.ax.isLt)]
    cases rest with
    | nil =>
      have e := vs_nil h4 hy hs
      refine ⟨?_, ⟨4, ?_⟩, ?_⟩
      rotate_left
      · rt_exec [val5Code.loop.eq, val5Code.mul.eq, e]
        rfl
      · exact ⟨ht, by simp [e], vkept⟩
    | cons c rest =>
      obtain ⟨e1, e2, e3, e4, e5⟩ := vs_cons h4 hs
      have hc : addC (c ^^^ 48#8) 245#8 true = true := by
        have := (digit_xor c).1
        cases h : addC (c ^^^ 48#8) 245#8 true
        · exact absurd (this.1 h) (hr c rfl)
        · rfl
      have e1' : ¬ m.y - m.zp.tmp4 = 0#8 := fun h => e1 ((sub_eq_zero8 _ _).1 h)
      have e3 : m.ram (idx (word m.zp.tmp3 m.zp.tmp3h) (m.y + 1#8)) = c := e3
      refine ⟨?_, ⟨11, ?_⟩, ?_⟩
      rotate_left
      · rt_exec [val5Code.loop.eq, val5Code.mul.eq, e1', e3, hc]
        rfl
      · exact ⟨ht, by simp [e4], vkept⟩
  | cons d ds ih =>
    intro m t rest ht h4 hy hs hd hr
    obtain ⟨e1, e2, e3, e4, e5⟩ := vs_cons h4 hs
    have hdig := hd d (List.mem_cons_self ..)
    have hc : addC (d ^^^ 48#8) 245#8 true = false := (digit_xor d).1.2 hdig
    have e1' : ¬ m.y - m.zp.tmp4 = 0#8 := fun h => e1 ((sub_eq_zero8 _ _).1 h)
    have e3 : m.ram (idx (word m.zp.tmp3 m.zp.tmp3h) (m.y + 1#8)) = d := e3
    obtain ⟨m1, r1, ax1, t1, t1h, t2, y1, k1⟩ : ∃ m1, Reach val5Code val5Code.loop m val5Code.mul m1 ∧ m1.ax.toNat = t ∧ m1.zp.tmp1 = m1.a ∧
        m1.zp.tmp1h = m1.x ∧ m1.zp.tmp2.toNat = d.toNat - 48 ∧ m1.y = m.y + 1#8 ∧ ValKept m m1 := by
      refine ⟨?_, ⟨12, ?_⟩, ?_⟩
      rotate_left
      · rt_exec [val5Code.loop.eq, val5Code.mul.eq, e1', e3, hc]
        rfl
      · exact ⟨ht, rfl, rfl, (digit_xor d).2 hdig, rfl, vkept⟩
    have hm := val5_mul m1 t (d.toNat - 48) ax1 t1 t1h t2 (by have := hdig.2; omega)
    have hv : numVal t (d :: ds) = numVal (10 * t + (d.toNat - 48)) ds := by simp only [numVal, List.foldl_cons, Nat.mul_comm]
    rw [hv]
    split at hm
    · next hlt =>
      obtain ⟨m2, r2, ax2, y2, k2⟩ := hm
      have k12 := k1.trans k2
      have hvp : m2.vp = m.vp := by unfold M.vp; rw [k12.tmp3, k12.tmp3h]
      have := ih m2 _ rest ax2 (by rw [k12.tmp4, k12.ram, hvp]; exact h4) (by rw [k12.tmp4, y2, y1, e4]; exact e2)
        (by rw [M.vs, k12.ram, hvp, y2, y1, e4]; exact e5) (fun c hc => hd c (List.mem_cons_of_mem _ hc)) hr
      split at this
      · next hlt' =>
        obtain ⟨m3, r3, ax3, y3, k3⟩ := this
        rw [if_pos hlt']
        refine ⟨m3, (r1.trans r2).trans r3, ax3, ?_, k12.trans k3⟩
        rw [y3, y2, y1, e4, List.length_cons]; omega
      · next hlt' =>
        obtain ⟨m3, r3, k3⟩ := this
        rw [if_neg hlt']
        exact ⟨m3, (r1.trans r2).trans r3, k12.trans k3⟩
    · next hlt =>
      obtain ⟨m2, r2, k2⟩ := hm
      have := numVal_ge ds (10 * t + (d.toNat - 48))
      rw [if_neg (by omega)]
      exact ⟨m2, r1.trans r2, k1.trans k2⟩

/-- Blanks at the start. -/
theorem val5_skip (n : Nat) : ∀ (m : M) (rest : List B), m.a = 32#8 → m.zp.tmp4 = m.ram m.vp → m.y.toNat ≤ m.zp.tmp4.toNat →
    m.vs = List.replicate n 32#8 ++ rest → (∀ c, rest.head? = some c → c ≠ 32#8) →
    match rest with
    | [] => ∃ m', Reach val5Code val5Code.skp m val5Code.set_err m' ∧ ValKept m m'
    | c :: l => ∃ m', Reach val5Code val5Code.skp m val5Code.skp_end m' ∧ ValKept m m' ∧ m'.y.toNat = m.y.toNat + n + 1 ∧
        m.ram (idx m.vp m'.y) = c ∧ (strAt m.ram m.vp).drop (m'.y.toNat - 1) = c :: l := by
  induction n with
  | zero =>
    intro m rest ha h4 hy hs hr
    rw [List.replicate_zero, List.nil_append] at hs
    cases rest with
    | nil =>
      have e := vs_nil h4 hy hs
      have f : addC m.zp.tmp4 (~~~ m.zp.tmp4) true = true := by rw [addC_le]; simp
      refine ⟨?_, ⟨2, ?_⟩, ?_⟩
      rotate_left
      · rt_exec [val5Code.skp.eq, e, f]
        rfl
      · exact vkept
    | cons c l =>
      obtain ⟨e1, e2, e3, e4, e5⟩ := vs_cons h4 hs
      have f : addC m.y (~~~ m.zp.tmp4) true = false := by rw [addC_le]; simp; omega
      have hc : ¬ 32#8 - c = 0#8 := fun h => hr c rfl ((sub_eq_zero8 _ _).1 h).symm
      have e3' : m.ram (idx (word m.zp.tmp3 m.zp.tmp3h) (m.y + 1#8)) = c := e3
      refine ⟨?_, ⟨6, ?_⟩, ?_⟩
      rotate_left
      · rt_exec [val5Code.skp.eq, f, ha, e3', hc]
        rfl
      · refine ⟨vkept, e4, e3, ?_⟩
        simp only; rw [e4]; exact hs
  | succ n ih =>
    intro m rest ha h4 hy hs hr
    obtain ⟨e1, e2, e3, e4, e5⟩ := vs_cons h4 hs
    have f : addC m.y (~~~ m.zp.tmp4) true = false := by rw [addC_le]; simp; omega
    have e3' : m.ram (idx (word m.zp.tmp3 m.zp.tmp3h) (m.y + 1#8)) = 32#8 := e3
    obtain ⟨m1, r1, a1, y1, k1⟩ : ∃ m1, Reach val5Code val5Code.skp m val5Code.skp m1 ∧ m1.a = 32#8 ∧ m1.y = m.y + 1#8 ∧ ValKept m m1 := by
      refine ⟨?_, ⟨5, ?_⟩, ?_⟩
      rotate_left
      · rt_exec [val5Code.skp.eq, f, ha, e3']
        rfl
      · exact ⟨rfl, rfl, vkept⟩
    have hvp : m1.vp = m.vp := by unfold M.vp; rw [k1.tmp3, k1.tmp3h]
    have := ih m1 rest a1 (by rw [k1.tmp4, k1.ram, hvp]; exact h4) (by rw [k1.tmp4, y1, e4]; exact e2)
      (by rw [M.vs, k1.ram, hvp, y1, e4]; exact e5) hr
    cases rest with
    | nil =>
      obtain ⟨m2, r2, k2⟩ := this
      exact ⟨m2, r1.trans r2, k1.trans k2⟩
    | cons c l =>
      obtain ⟨m2, r2, k2, y2, c2, d2⟩ := this
      rw [k1.ram, hvp] at c2 d2
      refine ⟨m2, r1.trans r2, k1.trans k2, ?_, c2, d2⟩
      rw [y2, y1, e4]; omega

/-- The sign. -/
theorem val5_sign (m : M) (c : B) (hc : m.ram (idx m.vp m.y) = c) :
    ∃ m', Reach val5Code val5Code.skp_end m val5Code.loop m' ∧ m'.ax = 0 ∧ m'.y = (if c = 45 ∨ c = 43 then m.y else m.y - 1) ∧
      ∃ z n v, ValKept { m with stk := .flags (decide (c = 45)) z n v :: m.stk
                                zp := { m.zp with tmp2h := if c = 45 ∨ c = 43 then m.y + 1 else m.y } } m' := by
  have hc : m.ram (idx (word m.zp.tmp3 m.zp.tmp3h) m.y) = c := hc
  have hyy : m.y + 1#8 - 1#8 = m.y := by bv_omega
  by_cases h1 : c = 45
  · subst h1
    have f : addC 45#8 210#8 true = true := rfl
    refine ⟨?_, ⟨11, ?_⟩, ?_⟩
    rotate_left
    · rt_exec [val5Code.skp_end.eq, val5Code.do_minus.eq, val5Code.convert.eq, hc, hyy, f]
      rfl
    · exact ⟨rfl, by simp, _, _, _, vkept⟩
  · have h1' : ¬ c - 45#8 = 0#8 := fun h => h1 ((sub_eq_zero8 _ _).1 h)
    by_cases h2 : c = 43
    · subst h2
      refine ⟨?_, ⟨15, ?_⟩, ?_⟩
      rotate_left
      · rt_exec [val5Code.skp_end.eq, val5Code.do_minus.eq, val5Code.convert.eq, hc, hyy]
        rfl
      · exact ⟨rfl, by simp, _, _, _, vkept⟩
    · have h2' : ¬ c ^^^ 43#8 = 0#8 := by
        intro h; apply h2
        have := congrArg (· ^^^ 43#8) h
        simpa [BitVec.xor_assoc] using this
      rw [show decide (c = 45) = false from decide_eq_false h1, if_neg (not_or.2 ⟨h1, h2⟩), if_neg (not_or.2 ⟨h1, h2⟩)]
      refine ⟨?_, ⟨12, ?_⟩, ?_⟩
      rotate_left
      · rt_exec [val5Code.skp_end.eq, val5Code.do_minus.eq, val5Code.convert.eq, hc, h1', h2']
        rfl
      · exact ⟨rfl, rfl, _, _, _, vkept⟩

/-- The error. -/
theorem val5_err (m : M) : ∃ m', Halts val5Code val5Code.set_err m m' ∧ m'.ax = m.ax ∧
    ValKept { m with zp := { m.zp with ioerr := 18 } } m' := by
  refine ⟨?_, ⟨4, ?_⟩, ?_⟩
  rotate_left
  · rt_exec [val5Code.set_err.eq, val5Code.end.eq]
    rfl
  · exact ⟨rfl, vkept⟩

/-- The error, after the sign was read. -/
theorem val5_ebig (m : M) (c z n v : Bool) (st : List Slot) (hs : m.stk = .flags c z n v :: st) :
    ∃ m', Halts val5Code val5Code.ebig m m' ∧ m'.ax = m.ax ∧ ValKept { m with stk := st, zp := { m.zp with ioerr := 18 } } m' := by
  refine ⟨?_, ⟨6, ?_⟩, ?_⟩
  rotate_left
  · rt_exec [val5Code.ebig.eq, val5Code.set_err.eq, val5Code.end.eq, hs]
    rfl
  · exact ⟨rfl, vkept⟩

/-- After the digits. -/
theorem val5_xit (m : M) (c z n v : Bool) (st : List Slot) (hs : m.stk = .flags c z n v :: st) :
    ∃ m', Halts val5Code val5Code.xit_n m m' ∧
      if m.y = m.zp.tmp2h then m'.ax = m.ax ∧ ValKept { m with stk := st, zp := { m.zp with ioerr := 18 } } m'
      else m'.ax = (if c then - m.ax else m.ax) ∧ ValKept { m with stk := st } m' := by
  by_cases h : m.y = m.zp.tmp2h
  · obtain ⟨m', r, h1, k⟩ := val5_ebig { m with c := addC m.y (~~~ m.zp.tmp2h) true, z := true, n := false } c z n v st hs
    refine ⟨m', Reach.halts ⟨2, ?_⟩ r, ?_⟩
    · rt_exec [val5Code.xit_n.eq, val5Code.ebig.eq, h]
    · rw [if_pos h]
      exact ⟨h1, k.stk, k.sl, k.sh, k.ram, k.sptr, k.saddr, k.saddrh, k.arr, k.arrh, k.mins, k.tmp3, k.tmp3h, k.tmp4, k.ioerr, k.tmp2h⟩
  · have h' : ¬ m.y - m.zp.tmp2h = 0#8 := fun e => h ((sub_eq_zero8 _ _).1 e)
    simp only [if_neg h]
    cases c
    · refine ⟨?_, ⟨5, ?_⟩, ?_⟩
      rotate_left
      · rt_exec [val5Code.xit_n.eq, val5Code.end.eq, h', hs]
        rfl
      · exact ⟨rfl, vkept⟩
    · refine ⟨?_, ⟨17, ?_⟩, ?_⟩
      rotate_left
      · rt_exec [val5Code.xit_n.eq, val5Code.end.eq, val5Code.neg_AX.eq, h', hs]
        rfl
      · refine ⟨?_, vkept⟩
        apply BitVec.eq_of_toNat_eq
        have := m.a.isLt; have := m.x.isLt
        simp [M.ax, xorFF']
        omega

theorem val5_start (m : M) : ∃ m', Reach val5Code val5Code.EXE_VAL m val5Code.skp m' ∧ m'.a = 32#8 ∧ m'.y = 0#8 ∧ m'.vp = m.ax ∧
    m'.zp.tmp4 = m.ram m.ax ∧ m'.zp.ioerr = 0 ∧ Kept m m' m.zp.sptr := by
  refine ⟨?_, ⟨8, ?_⟩, ?_⟩
  rotate_left
  · rt_exec [val5Code.EXE_VAL.eq, idx0]
    rfl
  · exact ⟨rfl, rfl, rfl, rfl, rfl, rfl, rfl, rfl, rfl, rfl, rfl, rfl, rfl, rfl, rfl⟩

theorem ValKept.kept {m0 m m' : M} (k : ValKept m m') (h : Kept m0 m m0.zp.sptr) : Kept m0 m' m0.zp.sptr :=
  ⟨k.stk.trans h.stk, k.sl.trans h.sl, k.sh.trans h.sh, k.ram.trans h.ram, k.sptr.trans h.sptr, k.saddr.trans h.saddr,
   k.saddrh.trans h.saddrh, k.arr.trans h.arr, k.arrh.trans h.arrh, k.mins.trans h.mins⟩

/-- A text with only blanks. -/
theorem val5_blank (m : M) (n : Nat) (hs : strAt m.ram m.ax = List.replicate n 32#8) :
    ∃ m', Halts val5Code val5Code.EXE_VAL m m' ∧ m'.zp.ioerr = 18 ∧ Kept m m' m.zp.sptr := by
  obtain ⟨m1, r1, a1, y1, p1, t1, i1, k1⟩ := val5_start m
  obtain ⟨m2, r2, k2⟩ := val5_skip n m1 [] a1 (by rw [t1, k1.ram, p1]) (by rw [y1]; exact Nat.zero_le _)
    (by rw [M.vs, k1.ram, p1, y1, List.append_nil]; exact hs) (by simp)
  obtain ⟨m3, r3, -, k3⟩ := val5_err m2
  refine ⟨m3, (r1.trans r2).halts r3, k3.ioerr, ?_⟩
  have h2 := k2.kept k1
  exact k3.kept ⟨h2.stk, h2.sl, h2.sh, h2.ram, h2.sptr, h2.saddr, h2.saddrh, h2.arr, h2.arrh, h2.mins⟩

/-- Blanks, a sign, digits and something else: all that the conversion does. -/
theorem val5_correct (m : M) (n : Nat) (sg ds rest : List B) (hs : strAt m.ram m.ax = List.replicate n 32#8 ++ (sg ++ (ds ++ rest)))
    (hsg : sg = [] ∨ sg = [43#8] ∨ sg = [45#8]) (hd : ∀ c ∈ ds, IsDig c) (hr : ∀ c, rest.head? = some c → ¬ IsDig c)
    (h0 : sg = [] → ∃ c, (ds ++ rest).head? = some c ∧ c ≠ 32#8 ∧ c ≠ 43#8 ∧ c ≠ 45#8) :
    ∃ m', Halts val5Code val5Code.EXE_VAL m m' ∧ Kept m m' m.zp.sptr ∧
      if 65536 ≤ numVal 0 ds then m'.zp.ioerr = 18
      else if ds.length + (if rest = [] then 0 else 1) = 1 then m'.zp.ioerr = 18 ∧ m'.ax = BitVec.ofNat 16 (numVal 0 ds)
      else m'.zp.ioerr = 0 ∧ m'.ax = if sg = [45#8] then - BitVec.ofNat 16 (numVal 0 ds) else BitVec.ofNat 16 (numVal 0 ds) := by
  obtain ⟨m1, r1, a1, y1, p1, t1, i1, k1⟩ := val5_start m
  -- the first character
  obtain ⟨c, l, hcl, hc32, hc⟩ : ∃ c l, sg ++ (ds ++ rest) = c :: l ∧ c ≠ 32#8 ∧
      ((sg = [c] ∧ (c = 45 ∨ c = 43) ∧ l = ds ++ rest) ∨ (sg = [] ∧ ¬ (c = 45 ∨ c = 43) ∧ c :: l = ds ++ rest)) := by
    rcases hsg with rfl | rfl | rfl
    · obtain ⟨c, h1, h2, h3, h4⟩ := h0 rfl
      cases hdr : ds ++ rest with
      | nil => rw [hdr] at h1; cases h1
      | cons c' l =>
        rw [hdr] at h1
        obtain rfl : c' = c := by simpa using h1
        exact ⟨c', l, rfl, h2, .inr ⟨rfl, fun h => h.elim h4 h3, rfl⟩⟩
    · exact ⟨43#8, _, rfl, by decide, .inl ⟨rfl, .inr rfl, rfl⟩⟩
    · exact ⟨45#8, _, rfl, by decide, .inl ⟨rfl, .inl rfl, rfl⟩⟩
  obtain ⟨m2, r2, k2, y2, c2, d2⟩ := val5_skip n m1 (c :: l) a1 (by rw [t1, k1.ram, p1]) (by rw [y1]; exact Nat.zero_le _)
    (by rw [M.vs, k1.ram, p1, y1, ← hcl]; exact hs) (by intro c' h; simp at h; rw [← h]; exact hc32)
  have kk2 := k2.kept k1
  have p2 : m2.vp = m.ax := by rw [← p1]; unfold M.vp; rw [k2.tmp3, k2.tmp3h]
  obtain ⟨m3, r3, ax3, y3, z, nn, v, k3⟩ := val5_sign m2 c (by rw [p2, k2.ram, ← p1]; exact c2)
  have hlen : m2.y.toNat ≤ (m.ram m.ax).toNat := by
    have := congrArg List.length d2
    rw [List.length_drop, strAt_length, k1.ram, p1, List.length_cons] at this
    omega
  have y2' : 1 ≤ m2.y.toNat := by omega
  have p3 : m3.vp = m.ax := by rw [← p2]; unfold M.vp; rw [k3.tmp3, k3.tmp3h]
  have ram3 : m3.ram = m.ram := k3.ram.trans (kk2.ram)
  have t43 : m3.zp.tmp4 = m.ram m.ax := by rw [k3.tmp4]; simp only; rw [k2.tmp4, t1]
  have y3n : m3.y.toNat = if c = 45 ∨ c = 43 then m2.y.toNat else m2.y.toNat - 1 := by
    rw [y3]; split
    · rfl
    · bv_omega
  have hvs : m3.vs = ds ++ rest := by
    rw [M.vs, ram3, p3, y3n]
    rw [k1.ram, p1] at d2
    rcases hc with ⟨_, h, rfl⟩ | ⟨_, h, hl⟩
    · rw [if_pos h]
      have := congrArg (List.drop 1) d2
      rw [List.drop_drop, List.drop_one, List.tail_cons, show m2.y.toNat - 1 + 1 = m2.y.toNat by omega] at this
      exact this
    · rw [if_neg h, d2, hl]
  have t2h : m3.zp.tmp2h = m3.y + 1 := by
    rw [k3.tmp2h, y3]; simp only
    split
    · rfl
    · bv_omega
  have hneg : decide (c = 45) = decide (sg = [45#8]) := by
    rcases hc with ⟨rfl, h, _⟩ | ⟨rfl, h, _⟩
    · simp
    · simp; intro h'; exact h (.inl h')
  have kd : ∀ m', ValKept { m3 with stk := m.stk } m' → Kept m m' m.zp.sptr := fun m' k =>
    ⟨k.stk, k.sl.trans (k3.sl.trans kk2.sl), k.sh.trans (k3.sh.trans kk2.sh), k.ram.trans ram3, k.sptr.trans (k3.sptr.trans kk2.sptr),
     k.saddr.trans (k3.saddr.trans kk2.saddr), k.saddrh.trans (k3.saddrh.trans kk2.saddrh), k.arr.trans (k3.arr.trans kk2.arr),
     k.arrh.trans (k3.arrh.trans kk2.arrh), k.mins.trans (k3.mins.trans kk2.mins)⟩
  have kd' : ∀ m' e, ValKept { m3 with stk := m.stk, zp := { m3.zp with ioerr := e } } m' → Kept m m' m.zp.sptr := fun m' e k =>
    ⟨k.stk, k.sl.trans (k3.sl.trans kk2.sl), k.sh.trans (k3.sh.trans kk2.sh), k.ram.trans ram3, k.sptr.trans (k3.sptr.trans kk2.sptr),
     k.saddr.trans (k3.saddr.trans kk2.saddr), k.saddrh.trans (k3.saddrh.trans kk2.saddrh), k.arr.trans (k3.arr.trans kk2.arr),
     k.arrh.trans (k3.arrh.trans kk2.arrh), k.mins.trans (k3.mins.trans kk2.mins)⟩
  have stk3 : m3.stk = .flags (decide (sg = [45#8])) z nn v :: m.stk := by
    rw [k3.stk, hneg]; simp only; rw [kk2.stk]
  have y3l : m3.y.toNat ≤ m3.zp.tmp4.toNat := by rw [t43, y3n]; split <;> omega
  have hlast := val5_loop ds m3 0 rest (by rw [ax3]; rfl) (by rw [t43, ram3, p3]) y3l hvs hd hr
  have io3 : m3.zp.ioerr = 0 := by rw [k3.ioerr]; simp only; rw [k2.ioerr, i1]
  have hlen3 : m3.y.toNat + ds.length + rest.length = m3.zp.tmp4.toNat := by
    have := congrArg List.length hvs
    rw [M.vs, List.length_drop, strAt_length, ram3, p3, ← t43, List.length_append] at this
    omega
  split at hlast
  · next hlt =>
    obtain ⟨m4, r4, ax4, y4, k4⟩ := hlast
    simp only [if_neg (show ¬ 65536 ≤ numVal 0 ds by omega)]
    have stk4 := k4.stk.trans stk3
    obtain ⟨m5, r5, h5⟩ := val5_xit m4 _ z nn v m.stk stk4
    have hax : m4.ax = BitVec.ofNat 16 (numVal 0 ds) := by
      apply BitVec.eq_of_toNat_eq; rw [ax4, BitVec.toNat_ofNat]; omega
    have hiff : m4.y = m4.zp.tmp2h ↔ ds.length + (if rest = [] then 0 else 1) = 1 := by
      have hrl : rest ≠ [] → 1 ≤ rest.length := by cases rest <;> simp
      have i4 := m3.zp.tmp4.isLt
      rw [k4.tmp2h, t2h]
      have e1 : (m3.y + 1).toNat = (m3.y.toNat + 1) % 256 := by rw [BitVec.toNat_add]; rfl
      constructor
      · intro h
        have := congrArg BitVec.toNat h
        rw [y4, e1] at this
        split at this <;> split <;> first | omega | (simp_all <;> omega)
      · intro h
        apply BitVec.eq_of_toNat_eq
        rw [y4, e1]
        split at h <;> split <;> first | omega | (simp_all <;> omega)
    refine ⟨m5, (((r1.trans r2).trans r3).trans r4).halts r5, ?_⟩
    by_cases hone : ds.length + (if rest = [] then 0 else 1) = 1
    · rw [if_pos hone]
      rw [if_pos (hiff.2 hone)] at h5
      refine ⟨kd' m5 18 ⟨h5.2.stk, h5.2.sl.trans k4.sl, h5.2.sh.trans k4.sh, h5.2.ram.trans k4.ram, h5.2.sptr.trans k4.sptr, h5.2.saddr.trans k4.saddr,
        h5.2.saddrh.trans k4.saddrh, h5.2.arr.trans k4.arr, h5.2.arrh.trans k4.arrh, h5.2.mins.trans k4.mins, h5.2.tmp3.trans k4.tmp3,
        h5.2.tmp3h.trans k4.tmp3h, h5.2.tmp4.trans k4.tmp4, h5.2.ioerr, h5.2.tmp2h.trans k4.tmp2h⟩, h5.2.ioerr, h5.1.trans hax⟩
    · rw [if_neg hone]
      rw [if_neg (fun h => hone (hiff.1 h))] at h5
      refine ⟨kd m5 ⟨h5.2.stk, h5.2.sl.trans k4.sl, h5.2.sh.trans k4.sh, h5.2.ram.trans k4.ram, h5.2.sptr.trans k4.sptr, h5.2.saddr.trans k4.saddr,
        h5.2.saddrh.trans k4.saddrh, h5.2.arr.trans k4.arr, h5.2.arrh.trans k4.arrh, h5.2.mins.trans k4.mins, h5.2.tmp3.trans k4.tmp3,
        h5.2.tmp3h.trans k4.tmp3h, h5.2.tmp4.trans k4.tmp4, h5.2.ioerr.trans k4.ioerr, h5.2.tmp2h.trans k4.tmp2h⟩,
        h5.2.ioerr.trans (k4.ioerr.trans io3), ?_⟩
      rw [h5.1, hax]
      simp only [decide_eq_true_eq]
  · next hlt =>
    obtain ⟨m4, r4, k4⟩ := hlast
    simp only [if_pos (show 65536 ≤ numVal 0 ds by omega)]
    obtain ⟨m5, r5, -, h5⟩ := val5_ebig m4 _ z nn v m.stk (k4.stk.trans stk3)
    refine ⟨m5, (((r1.trans r2).trans r3).trans r4).halts r5, ?_, h5.ioerr⟩
    exact kd' m5 18 ⟨h5.stk, h5.sl.trans k4.sl, h5.sh.trans k4.sh, h5.ram.trans k4.ram, h5.sptr.trans k4.sptr, h5.saddr.trans k4.saddr,
      h5.saddrh.trans k4.saddrh, h5.arr.trans k4.arr, h5.arrh.trans k4.arrh, h5.mins.trans k4.mins, h5.tmp3.trans k4.tmp3,
      h5.tmp3h.trans k4.tmp3h, h5.tmp4.trans k4.tmp4, h5.ioerr, h5.tmp2h.trans k4.tmp2h⟩

end FB.Rt
