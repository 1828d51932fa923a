import Verif.Rt.Div
import Verif.Rt.StrOps
/-!
# Integers to text, in the Atari 5200

Transcription of `/repo/src/interp/a5200/str.asm`.
-/
namespace FB.Rt
open Ins Opd

/-- `line_buf` in the Atari 5200, `/repo/src/a5200cart.asm:88`. -/
def LB5 : W := 0x280

/-- `EXE_INT_STR`, `a5200/str.asm:37-90`. -/
def strCode : Code :=
  asm!["EXE_INT_STR", cpx (imm 0x80), php, bcc "positive", jsr "neg_AX",
   "positive", sta (zp .tmp1), stx (zp .tmp1h), ldy (imm 7),
   "L1", lda (imm 0), clv, ldx (imm 16),
   "L2", cmp (imm 5), bcc "L3", sbc (imm 0x85), sec,
   "L3", rol (zp .tmp1), rol (zp .tmp1h), rol acc, dex, Ins.bne "L2",
   ora (imm 0x30), sta (absY LB5), dey, bvs "L1",
   plp, bcc "ok", lda (imm 0x2D), sta (absY LB5), dey,
   "ok", tya, eor (imm 7), sta (absY LB5), ldx (imm (hi LB5)), tya, clc, adc (imm (lo LB5)), bcc "ret", inx,
   "ret", next] ++ negax

set_option maxRecDepth 10000 in
code_labels strCode

/-- After the loop over bits, and after the loop over digits. -/
def strBits : Code := strCode.L3.drop 5
def strDigs : Code := strCode.L3.drop 9

/-- The number that is being divided. -/
def strT (m : M) : Nat := m.zp.tmp1.toNat + 256 * m.zp.tmp1h.toNat

/-- What the loop over bits keeps. -/
structure StrKept (m m' : M) : Prop where
  y : m'.y = m.y
  stk : m'.stk = m.stk
  sl : m'.sl = m.sl
  sh : m'.sh = m.sh
  ram : m'.ram = m.ram
  sptr : m'.zp.sptr = m.zp.sptr
  saddr : m'.zp.saddr = m.zp.saddr
  saddrh : m'.zp.saddrh = m.zp.saddrh
  arr : m'.zp.arr = m.zp.arr
  arrh : m'.zp.arrh = m.zp.arrh
  mins : m'.zp.mins = m.zp.mins

theorem StrKept.trans {a b c : M} (h : StrKept a b) (h' : StrKept b c) : StrKept a c :=
  ⟨h'.y.trans h.y, h'.stk.trans h.stk, h'.sl.trans h.sl, h'.sh.trans h.sh, h'.ram.trans h.ram, h'.sptr.trans h.sptr,
   h'.saddr.trans h.saddr, h'.saddrh.trans h.saddrh, h'.arr.trans h.arr, h'.arrh.trans h.arrh, h'.mins.trans h.mins⟩

theorem str_iter (m : M) (ha : m.a.toNat < 10) :
    ∃ m', Reach strCode strCode.L2 m (if m.x - 1 = 0 then strBits else strCode.L2) m' ∧ m'.x = m.x - 1 ∧ StrKept m m' ∧
      m'.v = (m.v || decide (10 ≤ 2 * m.a.toNat + strT m / 32768)) ∧
      (if 10 ≤ 2 * m.a.toNat + strT m / 32768 then
        m'.a.toNat = 2 * m.a.toNat + strT m / 32768 - 10 ∧ strT m' = 2 * strT m % 65536 + 1
       else m'.a.toNat = 2 * m.a.toNat + strT m / 32768 ∧ strT m' = 2 * strT m % 65536) := by
  have h1 := m.zp.tmp1.isLt; have h1h := m.zp.tmp1h.isLt
  cases hc : addC m.a 250#8 true
  · have hc' := congrArg Bool.toNat hc
    have hle : ¬ 10 ≤ 2 * m.a.toNat + strT m / 32768 := by
      simp only [strT, Bool.toNat_false, Bool.toNat_true, addC_toNat, BitVec.toNat_not, BitVec.toNat_ofNat] at *
      omega
    refine ⟨?_, ⟨7, ?_⟩, ?_⟩
    rotate_left
    · rt_exec [strCode.L2.eq, strCode.L3.eq, strBits, hc]
      rfl
    · refine ⟨rfl, ⟨rfl, rfl, rfl, rfl, rfl, rfl, rfl, rfl, rfl, rfl, rfl⟩, by simp [hle], ?_⟩
      rw [if_neg hle]
      simp only [strT, topBit_toNat, rol8_toNat, Bool.toNat_false] at *
      constructor <;> omega
  · have hc' := congrArg Bool.toNat hc
    have hle : 10 ≤ 2 * m.a.toNat + strT m / 32768 := by
      simp only [strT, Bool.toNat_false, Bool.toNat_true, addC_toNat, BitVec.toNat_not, BitVec.toNat_ofNat] at *
      omega
    have hv : addV m.a 122#8 true = true := by
      simp only [Bool.toNat_true, addC_toNat, BitVec.toNat_not, BitVec.toNat_ofNat] at hc'
      unfold addV
      rw [toInt8, toInt8]
      simp only [BitVec.toNat_ofNat, Bool.toNat_true, decide_eq_true_eq]
      split <;> simp <;> omega
    refine ⟨?_, ⟨10, ?_⟩, ?_⟩
    rotate_left
    · rt_exec [strCode.L2.eq, strCode.L3.eq, strBits, hc, hv]
      rfl
    · refine ⟨rfl, ⟨rfl, rfl, rfl, rfl, rfl, rfl, rfl, rfl, rfl, rfl, rfl⟩, by simp [hle], ?_⟩
      rw [if_pos hle]
      simp only [strT, topBit_toNat, rol8_toNat, add8_toNat, Bool.toNat_true, addC_toNat, BitVec.toNat_not,
        BitVec.toNat_ofNat] at *
      constructor <;> omega

/-- The loop over the bits divides by ten. -/
theorem str_bits (j : Nat) (hj : j < 16) : ∀ (m : M) (t q : Nat), m.a.toNat < 10 → m.x.toNat = j + 1 →
      strT m = t * 2 ^ (15 - j) + q → t < 2 ^ (j + 1) → q < 2 ^ (15 - j) →
      ∃ m', Reach strCode strCode.L2 m strBits m' ∧ StrKept m m' ∧ m'.a.toNat = (m.a.toNat * 2 ^ (j + 1) + t) % 10 ∧
        strT m' = q * 2 ^ (j + 1) + (m.a.toNat * 2 ^ (j + 1) + t) / 10 ∧
        m'.v = (m.v || decide (1 ≤ (m.a.toNat * 2 ^ (j + 1) + t) / 10)) := by
  induction j with
  | zero =>
    intro m t q ha hx hT ht hq
    obtain ⟨m', r, hx', k, hv, h⟩ := str_iter m ha
    have : m.x - 1 = 0 := by bv_omega
    rw [if_pos this] at r
    refine ⟨m', r, k, ?_⟩
    obtain ⟨e1, e2, -, -⟩ := div_arith 10 m.a.toNat (strT m) t q 0 hj hT ht hq
    rw [e1] at h hv
    rw [e2] at h
    simp [Nat.mod_one] at h hv ⊢
    rw [hv]
    simp at ht
    split at h
    · rw [h.1, h.2]
      refine ⟨by omega, by omega, ?_⟩
      congr 2
      simp; omega
    · rw [h.1, h.2]
      refine ⟨by omega, by omega, ?_⟩
      congr 2
      simp; omega
  | succ j ih =>
    intro m t q ha hx hT ht hq
    obtain ⟨m', r, hx', k, hv, h⟩ := str_iter m ha
    have : ¬ m.x - 1 = 0 := by bv_omega
    rw [if_neg this] at r
    obtain ⟨e1, e2, e3, e4⟩ := div_arith 10 m.a.toNat (strT m) t q (j + 1) hj hT ht hq
    have e15 : 15 - (j + 1) + 1 = 15 - j := by omega
    have hb : t / 2 ^ (j + 1) ≤ 1 := by
      have : t / 2 ^ (j + 1) < 2 := by
        rw [Nat.div_lt_iff_lt_mul (Nat.two_pow_pos _)]; rw [Nat.pow_succ] at ht; omega
      omega
    have hm : t % 2 ^ (j + 1) < 2 ^ (j + 1) := Nat.mod_lt _ (Nat.two_pow_pos _)
    have hq2 : 2 * q + 1 < 2 ^ (15 - j) := by rw [← e15, Nat.pow_succ]; omega
    rw [e1] at h hv
    rw [e2, e15] at h
    split at h
    · next hle =>
      obtain ⟨e5, e6⟩ := e3 hle
      obtain ⟨m'', r', k', hR, hT', hv'⟩ := ih (by omega) m' (t % 2 ^ (j + 1)) (2 * q + 1) (by rw [h.1]; omega) (by rw [hx']; bv_omega)
        (by rw [h.2]; omega) hm hq2
      have p1 : 1 ≤ 2 ^ (j + 1) := Nat.two_pow_pos _
      refine ⟨m'', r.trans r', k.trans k', ?_, ?_, ?_⟩
      · rw [hR, h.1, e6]
      · rw [hT', h.1, e5, if_neg (by omega)]
        ring
      · have : 1 ≤ (m.a.toNat * 2 ^ (j + 1 + 1) + t) / 10 := by
          rw [e5, if_neg (by omega)]
          omega
        rw [hv', hv]
        simp [hle, this]
    · next hle =>
      obtain ⟨m'', r', k', hR, hT', hv'⟩ := ih (by omega) m' (t % 2 ^ (j + 1)) (2 * q) (by rw [h.1]; omega) (by rw [hx']; bv_omega)
        (by rw [h.2]) hm (by omega)
      refine ⟨m'', r.trans r', k.trans k', ?_, ?_, ?_⟩
      · rw [hR, h.1, e4]
      · rw [hT', h.1, e4]
        ring
      · rw [hv', h.1, hv, e4]
        simp [hle]

/-- A list of bytes in memory. -/
def writeAt (r : W → B) (a : W) : List B → W → B
  | [] => r
  | b :: bs => upd (writeAt r (a + 1) bs) a b

theorem writeAt_append (r : W → B) (t : List B) (d : B) : ∀ a : W, writeAt r a (t ++ [d]) =
    writeAt (upd r (a + BitVec.ofNat 16 t.length) d) a t := by
  induction t with
  | nil => intro a; simp [writeAt]
  | cons b t ih =>
    intro a
    simp only [List.cons_append, writeAt, List.length_cons]
    rw [ih, BitVec.add_assoc, show (1 : W) + BitVec.ofNat 16 t.length = BitVec.ofNat 16 (t.length + 1) by
      rw [BitVec.ofNat_add, BitVec.add_comm]; rfl]

/-- Decimal representation: digits, without zeroes at the start. -/
structure Decimal (t : List B) (n : Nat) : Prop where
  dig : ∀ c ∈ t, 48 ≤ c.toNat ∧ c.toNat ≤ 57
  val : t.foldl (fun n c => n * 10 + (c.toNat - 48)) 0 = n
  ne : t ≠ []
  lead : 1 < t.length → t.head? ≠ some 48#8

theorem Decimal.one {n : Nat} (h : n < 10) {d : B} (hd : d.toNat = 48 + n) : Decimal [d] n :=
  ⟨fun c hc => by simp only [List.mem_singleton] at hc; subst hc; omega, by simp [hd], by simp, by simp⟩

theorem Decimal.snoc {n : Nat} {t : List B} (ht : Decimal t (n / 10)) (h : 10 ≤ n) {d : B} (hd : d.toNat = 48 + n % 10) :
    Decimal (t ++ [d]) n := by
  refine ⟨fun c hc => ?_, ?_, by simp, fun _ => ?_⟩
  · rcases List.mem_append.1 hc with hc | hc
    · exact ht.dig c hc
    · simp only [List.mem_singleton] at hc; subst hc; omega
  · rw [List.foldl_append, ht.val]
    simp only [List.foldl_cons, List.foldl_nil]
    omega
  · cases t with
    | nil => exact absurd rfl ht.ne
    | cons c t =>
      cases t with
      | nil =>
        intro h'
        simp only [List.cons_append, List.head?_cons, Option.some.injEq] at h'
        have := ht.val
        rw [h'] at this
        simp at this
        omega
      | cons c' t => exact ht.lead (by simp)

theorem ora_digit : ∀ a : B, a.toNat < 10 → (a ||| 48#8).toNat = 48 + a.toNat := by decide +kernel

/-- One digit. -/
theorem str_digit (m : M) (n : Nat) (hn : strT m = n) :
    ∃ m' d, Reach strCode strCode.L1 m (if 10 ≤ n then strCode.L1 else strDigs) m' ∧ d.toNat = 48 + n % 10 ∧ strT m' = n / 10 ∧
      StrKept { m with y := m.y - 1, ram := upd m.ram (idx LB5 m.y) d } m' := by
  have h1 := m.zp.tmp1.isLt; have h1h := m.zp.tmp1h.isLt
  have hlt : strT m < 2 ^ 16 := by unfold strT; omega
  have r1 : ∃ m1, Reach strCode strCode.L1 m strCode.L2 m1 ∧ m1.a = 0 ∧ m1.x = 16 ∧ m1.v = false ∧ m1.zp = m.zp ∧ StrKept m m1 := by
    refine ⟨?_, ⟨4, ?_⟩, ?_⟩
    rotate_left
    · rt_exec [strCode.L1.eq, strCode.L2.eq]
      rfl
    · exact ⟨rfl, rfl, rfl, rfl, ⟨rfl, rfl, rfl, rfl, rfl, rfl, rfl, rfl, rfl, rfl, rfl⟩⟩
  obtain ⟨m1, r1, a1, x1, v1, z1, k1⟩ := r1
  have t1 : strT m1 = strT m := by unfold strT; rw [z1]
  obtain ⟨m2, r2, k2, a2, t2, v2⟩ := str_bits 15 (by omega) m1 (strT m) 0 (by rw [a1]; decide) (by rw [x1]; rfl)
    (by rw [t1]; simp) hlt (by simp)
  rw [a1] at a2 t2 v2
  rw [v1] at v2
  simp at a2 t2 v2
  have k := k1.trans k2
  by_cases h : 10 ≤ n
  · have v2 : m2.v = true := by rw [v2]; simp; omega
    rw [if_pos h]
    refine ⟨?_, m2.a ||| 48#8, (r1.trans r2).trans ⟨4, ?_⟩, ?_⟩
    rotate_left
    · rt_exec [strCode.L1.eq, strBits, strCode.L3.eq, v2]
      rfl
    · refine ⟨by rw [ora_digit _ (by omega), a2, hn], by rw [← hn]; exact t2, ⟨?_, k.stk, k.sl, k.sh, ?_, k.sptr, k.saddr, k.saddrh,
        k.arr, k.arrh, k.mins⟩⟩
      · simp only [k.y]; rfl
      · simp only [k.y, k.ram]
  · have v2 : m2.v = false := by rw [v2]; simp; omega
    rw [if_neg h]
    refine ⟨?_, m2.a ||| 48#8, (r1.trans r2).trans ⟨4, ?_⟩, ?_⟩
    rotate_left
    · rt_exec [strDigs, strBits, strCode.L3.eq, v2]
      rfl
    · refine ⟨by rw [ora_digit _ (by omega), a2, hn], by rw [← hn]; exact t2, ⟨?_, k.stk, k.sl, k.sh, ?_, k.sptr, k.saddr, k.saddrh,
        k.arr, k.arrh, k.mins⟩⟩
      · simp only [k.y]; rfl
      · simp only [k.y, k.ram]

/-- The loop over the digits, for numbers of up to `j + 1` digits. -/
theorem str_digits (j : Nat) : ∀ (m : M) (n : Nat), n < 10 ^ (j + 1) → strT m = n → j < m.y.toNat →
    ∃ m' t, Reach strCode strCode.L1 m strDigs m' ∧ Decimal t n ∧ t.length ≤ j + 1 ∧
      StrKept { m with y := m.y - BitVec.ofNat 8 t.length
                       ram := writeAt m.ram (idx LB5 (m.y - BitVec.ofNat 8 t.length) + 1) t } m' := by
  induction j with
  | zero =>
    intro m n hn hT hy
    obtain ⟨m', d, r, hd, ht, k⟩ := str_digit m n hT
    rw [if_neg (by omega)] at r
    refine ⟨m', [d], r, .one (by omega) (by omega), by simp, ⟨k.y, k.stk, k.sl, k.sh, ?_, k.sptr, k.saddr, k.saddrh,
      k.arr, k.arrh, k.mins⟩⟩
    rw [k.ram]
    simp only [List.length_singleton, writeAt]
    congr 1
    unfold idx
    bv_omega
  | succ j ih =>
    intro m n hn hT hy
    obtain ⟨m', d, r, hd, ht, k⟩ := str_digit m n hT
    by_cases h : 10 ≤ n
    · rw [if_pos h] at r
      have hy' : m'.y.toNat = m.y.toNat - 1 := by rw [k.y]; simp only; have := m.y.isLt; bv_omega
      obtain ⟨m'', t, r', hD, hl, k'⟩ := ih m' (n / 10) (by rw [Nat.pow_succ] at hn; omega) ht (by omega)
      have e1 : m'.y - BitVec.ofNat 8 t.length = m.y - BitVec.ofNat 8 (t.length + 1) := by
        rw [k.y, BitVec.ofNat_add]; simp only
        bv_omega
      have hl' : t.length + 1 ≤ m.y.toNat := by omega
      have e2 : idx LB5 (m.y - BitVec.ofNat 8 (t.length + 1)) + 1 + BitVec.ofNat 16 t.length = idx LB5 m.y := by
        unfold idx
        generalize t.length = l at *
        have := m.y.isLt
        have : (m.y - BitVec.ofNat 8 (l + 1)).toNat = m.y.toNat - (l + 1) := by
          rw [BitVec.toNat_sub, BitVec.toNat_ofNat]; omega
        rw [this, BitVec.add_assoc, BitVec.add_assoc]
        congr 1
        apply BitVec.eq_of_toNat_eq
        rw [show (1 : W) = BitVec.ofNat 16 1 from rfl]
        simp only [BitVec.toNat_add, BitVec.toNat_ofNat]
        omega
      rw [e1] at k'
      refine ⟨m'', t ++ [d], r.trans r', hD.snoc h hd, by simp; omega, ?_⟩
      rw [writeAt_append, List.length_append, List.length_singleton, e2]
      exact ⟨k'.y, k'.stk.trans k.stk, k'.sl.trans k.sl, k'.sh.trans k.sh, k'.ram.trans (by rw [k.ram]), k'.sptr.trans k.sptr,
        k'.saddr.trans k.saddr, k'.saddrh.trans k.saddrh, k'.arr.trans k.arr, k'.arrh.trans k.arrh, k'.mins.trans k.mins⟩
    · rw [if_neg h] at r
      refine ⟨m', [d], r, .one (by omega) (by omega), by simp, ⟨k.y, k.stk, k.sl, k.sh, ?_, k.sptr, k.saddr, k.saddrh,
        k.arr, k.arrh, k.mins⟩⟩
      rw [k.ram]
      simp only [List.length_singleton, writeAt]
      congr 1
      unfold idx
      bv_omega

/-- The start: keeps the sign and takes the absolute value. -/
theorem str_start (m : M) : ∃ m1, Reach strCode strCode.EXE_INT_STR m strCode.L1 m1 ∧ strT m1 = m.ax.toInt.natAbs ∧
    ∃ z n v, StrKept { m with y := 7, stk := .flags (decide (m.ax.toInt < 0)) z n v :: m.stk } m1 := by
  have hx := m.x.isLt; have ha := m.a.isLt
  have hi : m.ax.toInt = if m.x.toNat < 128 then (m.a.toNat + 256 * m.x.toNat : Int) else m.a.toNat + 256 * m.x.toNat - 65536 := by
    rw [toInt16, M.ax, word_toNat]; split <;> split <;> omega
  by_cases h : m.x.toNat < 128
  · have h1 : addC m.x 127#8 true = false := by unfold addC; simp; omega
    rw [if_pos h] at hi
    have hd : decide (m.ax.toInt < 0) = false := by simp; omega
    rw [hd]
    refine ⟨?_, ⟨7, ?_⟩, ?_, ?_⟩
    rotate_left
    · rt_exec [strCode.EXE_INT_STR.eq, strCode.positive.eq, h1]
      rfl
    · simp only [strT, hi]; omega
    · exact ⟨_, _, _, rfl, rfl, rfl, rfl, rfl, rfl, rfl, rfl, rfl, rfl, rfl⟩
  · have h1 : addC m.x 127#8 true = true := by unfold addC; simp; omega
    rw [if_neg h] at hi
    have hd : decide (m.ax.toInt < 0) = true := by simp; omega
    rw [hd]
    refine ⟨?_, ⟨19, ?_⟩, ?_, ?_⟩
    rotate_left
    · rt_exec [strCode.EXE_INT_STR.eq, strCode.positive.eq, strCode.neg_AX.eq, h1]
      rfl
    · simp only [strT, hi]
      simp [xorFF']
      omega
    · exact ⟨_, _, _, rfl, rfl, rfl, rfl, rfl, rfl, rfl, rfl, rfl, rfl, rfl⟩

theorem lo_LB5 : lo LB5 = 0x80#8 := rfl
theorem hi_LB5 : hi LB5 = 2#8 := rfl

theorem y_xor7 : ∀ y : B, y.toNat ≤ 7 → y ^^^ 7#8 = 7#8 - y := by decide +kernel
theorem y_add128 (y : B) (h : y.toNat ≤ 7) : addC y 128#8 false = false := by unfold addC; simp; omega

/-- The end: the sign, the length and the address. -/
theorem str_end (m : M) (c z n v : Bool) (st : List Slot) (hs : m.stk = .flags c z n v :: st) (hy : m.y.toNat ≤ 7) (hy1 : 1 ≤ m.y.toNat) :
    ∃ m', Halts strCode strDigs m m' ∧ m'.ax = idx LB5 (if c then m.y - 1 else m.y) ∧
      StrKept { m with stk := st, y := if c then m.y - 1 else m.y
                       ram := if c then upd (upd m.ram (idx LB5 m.y) 45) (idx LB5 (m.y - 1)) (7 - (m.y - 1))
                              else upd m.ram (idx LB5 m.y) (7 - m.y) } m' := by
  have h1 : (m.y - 1#8).toNat ≤ 7 := by bv_omega
  cases c
  · refine ⟨?_, ⟨11, ?_⟩, ?_⟩
    rotate_left
    · rt_exec [strDigs, strCode.L3.eq, strCode.ok.eq, strCode.ret.eq, hs, lo_LB5, hi_LB5, y_xor7 _ hy, y_add128 _ hy]
      rfl
    · refine ⟨?_, rfl, rfl, rfl, rfl, rfl, rfl, rfl, rfl, rfl, rfl, rfl⟩
      apply BitVec.eq_of_toNat_eq
      simp [M.ax, idx, LB5]; omega
  · refine ⟨?_, ⟨15, ?_⟩, ?_⟩
    rotate_left
    · rt_exec [strDigs, strCode.L3.eq, strCode.ok.eq, strCode.ret.eq, hs, lo_LB5, hi_LB5, y_xor7 _ h1, y_add128 _ h1]
      rfl
    · refine ⟨?_, rfl, rfl, rfl, rfl, rfl, rfl, rfl, rfl, rfl, rfl, rfl⟩
      apply BitVec.eq_of_toNat_eq
      simp [M.ax, idx, LB5]
      generalize (m.y - 1#8).toNat = q at *
      omega

/-- The text of a number. -/
def decText (n : Int) (t : List B) : Prop := ∃ d, Decimal d n.natAbs ∧ t = (if n < 0 then [45#8] else []) ++ d

theorem str_correct (m : M) : ∃ m' t, Halts strCode strCode.EXE_INT_STR m m' ∧ decText m.ax.toInt t ∧ t.length ≤ 6 ∧
    m'.ax = LB5 + BitVec.ofNat 16 (7 - t.length) ∧ m'.ram = writeAt m.ram m'.ax (BitVec.ofNat 8 t.length :: t) ∧
    m'.stk = m.stk ∧ m'.sl = m.sl ∧ m'.sh = m.sh ∧ m'.zp.sptr = m.zp.sptr ∧ m'.zp.saddr = m.zp.saddr ∧ m'.zp.saddrh = m.zp.saddrh ∧
    m'.zp.arr = m.zp.arr ∧ m'.zp.arrh = m.zp.arrh ∧ m'.zp.mins = m.zp.mins := by
  obtain ⟨m1, r1, t1, z, n, v, k1⟩ := str_start m
  have hlt : m.ax.toInt.natAbs < 10 ^ (4 + 1) := by
    have := m.ax.isLt
    rw [toInt16]; split <;> omega
  obtain ⟨m2, t, r2, hD, hl, k2⟩ := str_digits 4 m1 _ hlt t1 (by rw [k1.y]; show 4 < (7 : B).toNat; decide)
  have l1 : 1 ≤ t.length := by cases t with | nil => exact absurd rfl hD.ne | cons => simp
  have y2 : m2.y = BitVec.ofNat 8 (7 - t.length) := by
    rw [k2.y]; simp only; rw [k1.y]
    apply BitVec.eq_of_toNat_eq
    simp only [BitVec.toNat_sub, BitVec.toNat_ofNat]
    rw [show (7 : B).toNat = 7 from rfl]; omega
  have n2 : m2.y.toNat = 7 - t.length := by rw [y2, BitVec.toNat_ofNat]; omega
  obtain ⟨m3, r3, ax3, k3⟩ := str_end m2 _ z n v m.stk (k2.stk.trans k1.stk) (by omega) (by omega)
  have hram : m2.ram = writeAt m.ram (idx LB5 m2.y + 1) t := by
    have := k2.ram
    have hy := k2.y
    simp only at this hy
    rw [this, ← hy, k1.ram]
  have fr : m3.stk = m.stk ∧ m3.sl = m.sl ∧ m3.sh = m.sh ∧ m3.zp.sptr = m.zp.sptr ∧ m3.zp.saddr = m.zp.saddr ∧ m3.zp.saddrh = m.zp.saddrh ∧
    m3.zp.arr = m.zp.arr ∧ m3.zp.arrh = m.zp.arrh ∧ m3.zp.mins = m.zp.mins :=
    ⟨k3.stk, k3.sl.trans (k2.sl.trans k1.sl), k3.sh.trans (k2.sh.trans k1.sh), k3.sptr.trans (k2.sptr.trans k1.sptr),
     k3.saddr.trans (k2.saddr.trans k1.saddr), k3.saddrh.trans (k2.saddrh.trans k1.saddrh), k3.arr.trans (k2.arr.trans k1.arr),
     k3.arrh.trans (k2.arrh.trans k1.arrh), k3.mins.trans (k2.mins.trans k1.mins)⟩
  have kr := k3.ram
  by_cases hn : m.ax.toInt < 0
  · rw [decide_eq_true hn] at ax3 kr
    simp only [if_true] at ax3 kr
    have ny : (m2.y - 1).toNat = 6 - t.length := by bv_omega
    refine ⟨m3, 45#8 :: t, (r1.trans r2).halts r3, ⟨t, hD, by rw [if_pos hn]; rfl⟩, by simp; omega, ?_, ?_, fr⟩
    · rw [ax3, idx, ny, List.length_cons]; congr 2; omega
    · rw [kr, ax3, hram]
      simp only [writeAt]
      have e : idx LB5 (m2.y - 1) + 1 = idx LB5 m2.y := by
        unfold idx; rw [ny, n2, BitVec.add_assoc]
        congr 1
        rw [show (1 : W) = BitVec.ofNat 16 1 from rfl, ← BitVec.ofNat_add]; congr 1; omega
      rw [e]
      congr 1
      apply BitVec.eq_of_toNat_eq
      rw [BitVec.toNat_sub, ny, BitVec.toNat_ofNat, List.length_cons]
      rw [show (7 : B).toNat = 7 from rfl]; omega
  · rw [decide_eq_false hn] at ax3 kr
    simp only [Bool.false_eq_true, if_false] at ax3 kr
    refine ⟨m3, t, (r1.trans r2).halts r3, ⟨t, hD, by rw [if_neg hn]; rfl⟩, by omega, ?_, ?_, fr⟩
    · rw [ax3, idx, n2]
    · rw [kr, ax3, hram]
      simp only [writeAt]
      congr 1
      apply BitVec.eq_of_toNat_eq
      rw [BitVec.toNat_sub, n2, BitVec.toNat_ofNat]
      rw [show (7 : B).toNat = 7 from rfl]; omega

end FB.Rt
