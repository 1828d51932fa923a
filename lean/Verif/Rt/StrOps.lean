import Verif.Rt.Str
/-!
# Strings: slices and comparison

Transcription of `/repo/src/interp/strindex.asm`, `/repo/src/interp/cmpstr.asm` and the parts of `comp0.asm` and
`interpreter.asm` that they use.
-/
namespace FB.Rt
open Ins Opd

/-- `line_buf - 1`: `line_buf` is `LBUFF` (`a800/input.asm:37`), `$580` in the Atari.  No proof depends on the value. -/
def LB : W := 0x57F

/-- `EXE_STR_IDX`, `strindex.asm:39-88`, and `next_ins_incsp_2`, `for_exit.asm:41-44`. -/
def idxCode : Code :=
  asm!["EXE_STR_IDX", cpx (imm 0), bmi "zero", beq "ok1", lda (imm 255),
   "ok1", sta (zp .tmp3h), ldx (stkH 0), Ins.bne "zero",
   ldx (stkL 1), stx (zp .tmp1), ldx (stkH 1), stx (zp .tmp1h), lda (stkL 0), tay, dey,
   ldx (imm 0xFF), lda (indXFF .tmp1 .tmp1h), sta (zp .tmp3),
   "copy_str", inx, lda (indY .tmp1 .tmp1h), sta (absX LB), cpy (zp .tmp3), bcs "xit", iny, cpx (zp .tmp3h), bcc "copy_str",
   "xit", stx (abs LB), lda (imm (lo LB)), ldx (imm (hi LB)), jmp "next_ins_incsp_2",
   "zero", ldx (imm 0), beq "xit",
   "next_ins_incsp_2", inc (zp .sptr), nextIncsp]

set_option maxRecDepth 10000 in
code_labels idxCode

/-- `EXE_CMP_STR`, `cmpstr.asm:35-79`, `pushXX_set0` and what follows it, `comp0.asm:36-49`, and `pushAX`,
`interpreter.asm:212-218` (`stack_l-1, y`). -/
def cmpStrCode : Code :=
  asm!["EXE_CMP_STR", sta (zp .tmp1), stx (zp .tmp1h), lda (stkL 0), sta (zp .tmp2), ldx (stkH 0), stx (zp .tmp2h),
   ldx (imm 1), ldy (imm 0), lda (indY .tmp1 .tmp1h), cmp (indY .tmp2 .tmp2h), beq "l1_equal", bcc "l1_shorter",
   dex, lda (indY .tmp2 .tmp2h),
   "l1_equal", dex,
   "l1_shorter", sta (zp .tmp3),
   "next_char", cpy (zp .tmp3), beq "xit", iny, lda (indY .tmp1 .tmp1h), cmp (indY .tmp2 .tmp2h), beq "next_char",
   ldx (imm 1), bcc "xit", ldx (imm 0xFF),
   "xit", inc (zp .sptr), jmp "pushXX_set0",
   "pushXX_set0", ldy (zp .sptr), txa,
   "EXE_PUSH_0", jsr "pushAX",
   "EXE_0", lda (imm 0), tax, next,
   "pushAX", sta (stkL 255), txa, sta (stkH 255), dec (zp .sptr), rts]

set_option maxRecDepth 10000 in
code_labels cmpStrCode

/-! ## Slices -/

theorem addC_le (a b : B) : addC a (~~~ b) true = decide (b.toNat ≤ a.toNat) := by
  have := a.isLt; have := b.isLt
  have e : (~~~ b).toNat = 255 - b.toNat := by simp
  unfold addC
  rw [e, decide_eq_decide]; simp; omega

theorem sub_eq_zero8 (a b : B) : (a - b = 0#8) ↔ a = b := by
  constructor
  · intro h; have := congrArg (· + b) h; simpa [BitVec.sub_add_cancel] using this
  · intro h; rw [h, BitVec.sub_self]

theorem idx_succ (w : W) (b : B) (h : b.toNat < 255) : idx w (b + 1#8) = idx w b + 1 := by
  simp only [idx]; bv_omega

/-- The copy loop of the slice, with `n` bytes left after this one. -/
theorem idx_loop (n : Nat) (m : M) (k v : Nat) (hk : (m.x + 1#8).toNat = k) (hv : m.y.toNat = v)
    (hn : n = min (m.zp.tmp3h.toNat - k) (m.zp.tmp3.toNat - v)) :
    ∃ m', Reach idxCode idxCode.copy_str m idxCode.xit m' ∧ ∃ a y c z nn, m' = { m with
      a := a, y := y, c := c, z := z, n := nn, x := m.x + 1 + BitVec.ofNat 8 n,
      ram := copyUp (idx (word m.zp.tmp1 m.zp.tmp1h) m.y) (idx LB (m.x + 1)) (n + 1) m.ram } := by
  have l1 := m.zp.tmp3h.isLt; have l2 := m.zp.tmp3.isLt; have l3 := m.y.isLt
  induction n generalizing m k v with
  | zero =>
    by_cases h : m.zp.tmp3.toNat ≤ m.y.toNat
    · have f : addC m.y (~~~ m.zp.tmp3) true = true := by rw [addC_le]; simpa using h
      refine ⟨?_, ⟨5, ?_⟩, ?_⟩
      rotate_left
      · rt_exec [idxCode.copy_str.eq, f, copyUp]
        rfl
      · exact ⟨_, _, _, _, _, by first | rfl | (simp [copyUp]; exact ⟨rfl, rfl, rfl, rfl, rfl⟩)⟩
    · have f : addC m.y (~~~ m.zp.tmp3) true = false := by rw [addC_le]; simpa using h
      have f2 : addC (m.x + 1#8) (~~~ m.zp.tmp3h) true = true := by rw [addC_le]; simp only [decide_eq_true_eq]; omega
      refine ⟨?_, ⟨9, ?_⟩, ?_⟩
      rotate_left
      · rt_exec [idxCode.copy_str.eq, f, f2, copyUp]
        rfl
      · exact ⟨_, _, _, _, _, by first | rfl | (simp [copyUp]; exact ⟨rfl, rfl, rfl, rfl, rfl⟩)⟩
  | succ n ih =>
    have f : addC m.y (~~~ m.zp.tmp3) true = false := by rw [addC_le]; simp only [decide_eq_false_iff_not]; omega
    have f2 : addC (m.x + 1#8) (~~~ m.zp.tmp3h) true = false := by rw [addC_le]; simp only [decide_eq_false_iff_not]; omega
    obtain ⟨m1, r1, e1⟩ : ∃ m1, Reach idxCode idxCode.copy_str m idxCode.copy_str m1 ∧ ∃ a c z n, m1 = { m with
        a := a, c := c, z := z, n := n, x := m.x + 1, y := m.y + 1,
        ram := upd m.ram (idx LB (m.x + 1)) (m.ram (idx (word m.zp.tmp1 m.zp.tmp1h) m.y)) } := by
      refine ⟨?_, ⟨8, ?_⟩, ?_⟩
      rotate_left
      · rt_exec [idxCode.copy_str.eq, f, f2]
        rfl
      · exact ⟨_, _, _, _, rfl⟩
    obtain ⟨a, c, z, nn, e1⟩ := e1
    have ky : (m.y + 1#8).toNat = v + 1 := by rw [BitVec.toNat_add]; simp; omega
    have kx : (m.x + 1#8 + 1#8).toNat = k + 1 := by rw [BitVec.toNat_add]; simp only [BitVec.toNat_ofNat]; omega
    obtain ⟨m2, r2, a', y', c', z', n', e2⟩ := ih m1 (k + 1) (v + 1) (by rw [e1]; exact kx) (by rw [e1]; exact ky) (by rw [e1]; show n = min (m.zp.tmp3h.toNat - (k+1)) (m.zp.tmp3.toNat - (v+1)); omega)
      (by rw [e1]; exact l1) (by rw [e1]; exact l2) (by rw [e1]; exact (m.y + 1#8).isLt)
    refine ⟨m2, r1.trans r2, a', y', c', z', n', ?_⟩
    subst e1
    have ex : m.x + 1#8 + 1#8 + BitVec.ofNat 8 n = m.x + 1#8 + BitVec.ofNat 8 (n + 1) := by
      rw [BitVec.add_assoc, ← BitVec.ofNat_add, Nat.add_comm]
    have i1 := idx_succ (word m.zp.tmp1 m.zp.tmp1h) m.y (by omega)
    have i2 := idx_succ LB (m.x + 1#8) (by omega)
    rw [e2]
    show ({ m with a := a', y := y', c := c', z := z', n := n', x := m.x + 1#8 + 1#8 + BitVec.ofNat 8 n, ram := copyUp (idx (word m.zp.tmp1 m.zp.tmp1h) (m.y + 1#8)) (idx LB (m.x + 1#8 + 1#8)) (n + 1) (upd m.ram (idx LB (m.x + 1#8)) (m.ram (idx (word m.zp.tmp1 m.zp.tmp1h) m.y))) } : M) = _
    rw [ex, i1, i2]
    rfl

/-- From `xit` on. -/
theorem idx_xit (m : M) (m0 : M) (h1 : m.stk = m0.stk) (h2 : m.sl = m0.sl) (h3 : m.sh = m0.sh) (h4 : m.zp.sptr = m0.zp.sptr)
    (h5 : m.zp.saddr = m0.zp.saddr) (h6 : m.zp.saddrh = m0.zp.saddrh) (h7 : m.zp.arr = m0.zp.arr) (h8 : m.zp.arrh = m0.zp.arrh)
    (h9 : m.zp.mins = m0.zp.mins) :
    ∃ m', Halts idxCode idxCode.xit m m' ∧ m'.ax = LB ∧ Moved m0 m' (upd m.ram LB m.x) := by
  refine ⟨?_, ⟨10, ?_⟩, ?_, ?_⟩
  rotate_left
  · rt_exec [idxCode.xit.eq, idxCode.next_ins_incsp_2.eq]
    rfl
  · have := LB.isLt
    apply BitVec.eq_of_toNat_eq
    simp [M.ax, lo, hi, Nat.shiftRight_eq_div_pow]; omega
  · refine ⟨h1, h2, h3, rfl, ?_, h5, h6, h7, h8, h9⟩
    simp [h4]; bv_omega

/-- The count, limited to a byte. -/
def idxCount (m : M) : B := if m.x = 0#8 then m.a else 255

theorem idx_start (m : M) (he : Entry m) (hx : topBit m.x = false) (hp : (m.sh m.y) = 0#8) : ∃ m', Reach idxCode idxCode.EXE_STR_IDX m idxCode.copy_str m' ∧
    ∃ a c z n, m' = { m with a := a, c := c, z := z, n := n, x := 255, y := m.sl m.y - 1, zp := { m.zp with
      tmp3h := idxCount m, tmp1 := m.sl (m.y + 1), tmp1h := m.sh (m.y + 1), tmp3 := m.ram (m.stkAt 1) } } := by
  have e1 : m.stkAt 1 = word (m.sl (m.y + 1#8)) (m.sh (m.y + 1#8)) := stkAt_y he 1
  rw [e1]
  by_cases h : m.x = 0#8
  · refine ⟨?_, ⟨3 + 14, ?_⟩, ?_⟩
    rotate_left
    · rt_exec [idxCode.EXE_STR_IDX.eq, idxCode.ok1.eq, h, hp]
      rfl
    · exact ⟨_, _, _, _, by rw [idxCount, if_pos h]; rfl⟩
  · refine ⟨?_, ⟨5 + 14, ?_⟩, ?_⟩
    rotate_left
    · rt_exec [idxCode.EXE_STR_IDX.eq, idxCode.ok1.eq, h, hx, hp]
      rfl
    · exact ⟨_, _, _, _, by rw [idxCount, if_neg h]; rfl⟩

theorem idx_zero_case (m : M) (h : topBit m.x = true ∨ m.sh m.y ≠ 0#8) : ∃ m', Halts idxCode idxCode.EXE_STR_IDX m m' ∧
    m'.ax = LB ∧ Moved m m' (upd m.ram LB 0) := by
  obtain ⟨m1, r1, k1, k2, k3, k4, k5, k6, k7, k8, k9, k10, k11⟩ : ∃ m1, Reach idxCode idxCode.EXE_STR_IDX m idxCode.xit m1 ∧ m1.x = 0 ∧ m1.stk = m.stk ∧ m1.sl = m.sl ∧
      m1.sh = m.sh ∧ m1.ram = m.ram ∧ m1.zp.sptr = m.zp.sptr ∧ m1.zp.saddr = m.zp.saddr ∧ m1.zp.saddrh = m.zp.saddrh ∧
      m1.zp.arr = m.zp.arr ∧ m1.zp.arrh = m.zp.arrh ∧ m1.zp.mins = m.zp.mins := by
    by_cases hx : topBit m.x = true
    · refine ⟨?_, ⟨4, ?_⟩, ?_⟩
      rotate_left
      · rt_exec [idxCode.EXE_STR_IDX.eq, idxCode.zero.eq, hx]
        rfl
      · simp
    · have hp : m.sh m.y ≠ 0#8 := by rcases h with h | h; exact absurd h hx; exact h
      have hx : topBit m.x = false := by simpa using hx
      by_cases h0 : m.x = 0#8
      · refine ⟨?_, ⟨8, ?_⟩, ?_⟩
        rotate_left
        · rt_exec [idxCode.EXE_STR_IDX.eq, idxCode.ok1.eq, idxCode.zero.eq, h0, hp]
          rfl
        · simp
      · refine ⟨?_, ⟨10, ?_⟩, ?_⟩
        rotate_left
        · rt_exec [idxCode.EXE_STR_IDX.eq, idxCode.ok1.eq, idxCode.zero.eq, hx, h0, hp]
          rfl
        · simp
  obtain ⟨m', h', e, k⟩ := idx_xit m1 m k2 k3 k4 k6 k7 k8 k9 k10 k11
  refine ⟨m', r1.halts h', e, ?_⟩
  rw [k1, k5] at k
  exact k

/-- Number of characters of the slice. -/
def sliceLen (len pos count : Nat) : Nat := min count (len - pos)

theorem slice_correct (m : M) (he : Entry m) (hx : topBit m.x = false) (hp : m.sh m.y = 0#8) : ∃ m', Halts idxCode idxCode.EXE_STR_IDX m m' ∧
    m'.ax = LB ∧ Moved m m' (upd (copyUp (idx (m.stkAt 1) (m.sl m.y - 1)) LB
      (sliceLen (m.ram (m.stkAt 1)).toNat (m.sl m.y - 1).toNat (idxCount m).toNat + 1) m.ram) LB
      (BitVec.ofNat 8 (sliceLen (m.ram (m.stkAt 1)).toNat (m.sl m.y - 1).toNat (idxCount m).toNat))) := by
  obtain ⟨m1, r1, a, c, z, n, e1⟩ := idx_start m he hx hp
  have est : word (m.sl (m.y + 1)) (m.sh (m.y + 1)) = m.stkAt 1 := (stkAt_y he 1).symm
  obtain ⟨m2, r2, a', y', c', z', n', e2⟩ := idx_loop (sliceLen (m.ram (m.stkAt 1)).toNat (m.sl m.y - 1).toNat (idxCount m).toNat) m1 0 (m.sl m.y - 1).toNat
    (by rw [e1]; exact (by decide : (255#8 + 1#8).toNat = 0)) (by rw [e1]) (by rw [e1]; show _ = min ((idxCount m).toNat - 0) _; rfl)
  subst e1
  have r3 := r1.trans r2
  have hm2 := e2.symm
  obtain ⟨m', h', e, k⟩ := idx_xit m2 m (by rw [← hm2]) (by rw [← hm2]) (by rw [← hm2]) (by rw [← hm2]) (by rw [← hm2]) (by rw [← hm2])
    (by rw [← hm2]) (by rw [← hm2]) (by rw [← hm2])
  refine ⟨m', r3.halts h', e, ?_⟩
  refine Eq.subst (motive := Moved m m') ?_ k
  rw [← hm2]
  have e0 : (255 + 1 : B) = 0 := rfl
  simp only [e0, est, idx_zero]
  rw [show (0 : B) = 0#8 from rfl, BitVec.zero_add]

theorem copyUp_out (s d : W) (n : Nat) (r : W → B) (a : W) (h : ∀ j < n, a ≠ d + BitVec.ofNat 16 j) : copyUp s d n r a = r a := by
  induction n generalizing s d r with
  | zero => rfl
  | succ n ih =>
    rw [copyUp, ih, upd, if_neg]
    · have := h 0 (by omega); rwa [off_zero] at this
    · intro j hj; rw [off_one]; exact h (j + 1) (by omega)

/-- Byte `i` of an ascending copy is the original one, if it was not overwritten before it was read. -/
theorem copyUp_in (s d : W) (n : Nat) (r : W → B) (hn : n ≤ 65536) (i : Nat) (hi : i < n)
    (h : ∀ j < i, s + BitVec.ofNat 16 i ≠ d + BitVec.ofNat 16 j) : copyUp s d n r (d + BitVec.ofNat 16 i) = r (s + BitVec.ofNat 16 i) := by
  induction n generalizing s d r i with
  | zero => omega
  | succ n ih =>
    rw [copyUp]
    cases i with
    | zero =>
      rw [copyUp_out]
      · simp [upd]
      · intro j hj
        rw [off_one]
        exact off_ne d (by omega) (by omega) (by omega)
    | succ i =>
      rw [← off_one, ih _ _ _ (by omega) _ (by omega), upd, if_neg, off_one]
      · have := h 0 (by omega); rwa [off_zero, ← off_one] at this
      · intro j hj
        rw [off_one, off_one]; exact h (j + 1) (by omega)

/-- As strings. -/
theorem slice_str (r : W → B) (s : W) (p c : Nat) (hp : 1 ≤ p) (hp' : p ≤ 255) (hc : c ≤ 255) (h : Apart r s LB) :
    strAt (upd (copyUp (s + BitVec.ofNat 16 (p - 1)) LB (sliceLen (r s).toNat (p - 1) c + 1) r) LB (BitVec.ofNat 8 (sliceLen (r s).toNat (p - 1) c))) LB =
      ((strAt r s).drop (p - 1)).take c := by
  have hn := (r s).isLt
  have hL : sliceLen (r s).toNat (p - 1) c ≤ 255 := by unfold sliceLen; omega
  have hL' : sliceLen (r s).toNat (p - 1) c = min c ((r s).toNat - (p - 1)) := rfl
  generalize sliceLen (r s).toNat (p - 1) c = L at *
  have e0 : upd (copyUp (s + BitVec.ofNat 16 (p - 1)) LB (L + 1) r) LB (BitVec.ofNat 8 L) LB = BitVec.ofNat 8 L := by simp [upd]
  have e1 : (BitVec.ofNat 8 L).toNat = L := by simp; omega
  apply List.ext_getElem
  · rw [strAt_length, e0, e1, List.length_take, List.length_drop, strAt_length, hL']
  · intro i h1 h2
    rw [strAt_length, e0, e1] at h1
    rw [strAt_get, List.getElem_take, List.getElem_drop, strAt_get, upd, if_neg, copyUp_in _ _ _ _ (by omega) _ (by omega), off_add]
    · congr 3
    · intro j hj
      rw [off_add]
      rcases h with h | h
      · rw [h]; exact off_ne _ (by omega) (by omega) (by omega)
      · exact h _ (by omega) _ (by omega)
    · exact off_ne' (i + 1) 0 rfl (off_zero _).symm (by omega) (by omega) (by omega)

theorem slice_out (r : W → B) (s : W) (n : Nat) (v : B) (hn : n ≤ 255) (a : W) (ha : 256 ≤ (a - LB).toNat) :
    upd (copyUp s LB (n + 1) r) LB v a = r a := by
  have hd := off_of LB a
  have hl := (a - LB).isLt
  rw [upd, if_neg, copyUp_out]
  · intro j hj
    exact off_ne' _ j hd rfl hl (by omega) (by omega)
  · exact off_ne' _ 0 hd (off_zero _).symm hl (by omega) (by omega)

/-! ## Comparison -/

/-- Result of the comparison of the rest of both strings. -/
def cmpX : List B → List B → B
  | [], [] => 0
  | [], _ :: _ => 1
  | _ :: _, [] => 255
  | a :: l, b :: l' => if a = b then cmpX l l' else if a.toNat < b.toNat then 1 else 255

theorem cmpX_spec (l l' : List B) : (cmpX l l' = 1 ↔ l.map BitVec.toNat < l'.map BitVec.toNat) ∧
    (cmpX l l' = 255 ↔ l'.map BitVec.toNat < l.map BitVec.toNat) ∧ (cmpX l l' = 0 ↔ l = l') := by
  induction l generalizing l' with
  | nil => cases l' <;> simp [cmpX]
  | cons a l ih =>
    cases l' with
    | nil => simp [cmpX]
    | cons b l' =>
      obtain ⟨h1, h2, h3⟩ := ih l'
      rw [cmpX]
      by_cases h : a = b
      · subst h
        rw [if_pos rfl, h1, h2, h3]
        simp [List.cons_lt_cons_iff]
      · have hne : a.toNat ≠ b.toNat := fun e => h (BitVec.eq_of_toNat_eq e)
        simp only [if_neg h, List.map_cons, List.cons_lt_cons_iff]
        by_cases hl : a.toNat < b.toNat
        · simp [hl, h, hne, Ne.symm hne]; omega
        · simp [hl, h, hne, Ne.symm hne]; omega

/-- Value of `X` before the loop: the comparison of the lengths. -/
def cmpLen (a b : B) : B := if a = b then 0 else if a.toNat < b.toNat then 1 else 255

theorem strAt_drop (r : W → B) (p : W) (y : B) (h : y.toNat < (r p).toNat) :
    (strAt r p).drop y.toNat = r (idx p (y + 1#8)) :: (strAt r p).drop (y + 1#8).toNat := by
  have hl := (r p).isLt
  rw [List.drop_eq_getElem_cons (by rw [strAt_length]; exact h), strAt_get]
  have e : (y + 1#8).toNat = y.toNat + 1 := by rw [BitVec.toNat_add]; simp; omega
  rw [idx, e]

theorem cmp_loop (n : Nat) (m : M) (P Q : W) (hP : word m.zp.tmp1 m.zp.tmp1h = P) (hQ : word m.zp.tmp2 m.zp.tmp2h = Q)
    (h3 : m.zp.tmp3.toNat = min (m.ram P).toNat (m.ram Q).toNat) (hx : m.x = cmpLen (m.ram P) (m.ram Q))
    (hn : m.y.toNat + n = m.zp.tmp3.toNat) :
    ∃ m', Reach cmpStrCode cmpStrCode.next_char m cmpStrCode.xit m' ∧ ∃ a y c z nn, m' = { m with
      a := a, y := y, c := c, z := z, n := nn,
      x := cmpX ((strAt m.ram P).drop m.y.toNat) ((strAt m.ram Q).drop m.y.toNat) } := by
  have lP := strAt_length m.ram P; have lQ := strAt_length m.ram Q
  induction n generalizing m with
  | zero =>
    have e : m.y = m.zp.tmp3 := BitVec.eq_of_toNat_eq (by omega)
    have ec : cmpX ((strAt m.ram P).drop m.y.toNat) ((strAt m.ram Q).drop m.y.toNat) = m.x := by
      rw [hx, cmpLen]
      rcases Nat.lt_trichotomy (m.ram P).toNat (m.ram Q).toNat with h | h | h
      · rw [List.drop_eq_nil_of_le (by omega), List.drop_eq_getElem_cons (by omega), cmpX, if_neg (by intro e; rw [e] at h; omega), if_pos h]
      · rw [List.drop_eq_nil_of_le (by omega), List.drop_eq_nil_of_le (by omega), cmpX, if_pos (BitVec.eq_of_toNat_eq h)]
      · rw [show (strAt m.ram Q).drop m.y.toNat = [] from List.drop_eq_nil_of_le (by omega), List.drop_eq_getElem_cons (by omega), cmpX, if_neg (by intro e; rw [e] at h; omega), if_neg (by omega)]
    rw [ec]
    refine ⟨?_, ⟨2, ?_⟩, ?_⟩
    rotate_left
    · rt_exec [cmpStrCode.next_char.eq, e]
      rfl
    · exact ⟨_, _, _, _, _, by first | rfl | (simp [copyUp]; exact ⟨rfl, rfl, rfl, rfl, rfl⟩)⟩
  | succ n ih =>
    have hne : ¬ (m.y - m.zp.tmp3 = 0#8) := by
      rw [sub_eq_zero8]; intro e; rw [e] at hn; omega
    rw [strAt_drop _ P _ (by omega), strAt_drop _ Q _ (by omega), cmpX]
    by_cases h : m.ram (idx P (m.y + 1#8)) = m.ram (idx Q (m.y + 1#8))
    · rw [if_pos h]
      obtain ⟨m1, r1, a, c, z, nn, e1⟩ : ∃ m1, Reach cmpStrCode cmpStrCode.next_char m cmpStrCode.next_char m1 ∧ ∃ a c z n, m1 = { m with
          a := a, c := c, z := z, n := n, y := m.y + 1 } := by
        refine ⟨?_, ⟨6, ?_⟩, ?_⟩
        rotate_left
        · rt_exec [cmpStrCode.next_char.eq, hne, hP, hQ, h]
          rfl
        · exact ⟨_, _, _, _, rfl⟩
      have ky : (m.y + 1#8).toNat = m.y.toNat + 1 := by have := m.zp.tmp3.isLt; rw [BitVec.toNat_add]; simp; omega
      obtain ⟨m2, r2, a', y', c', z', n', e2⟩ := ih m1 (by rw [e1]; exact hP) (by rw [e1]; exact hQ) (by rw [e1]; exact h3) (by rw [e1]; exact hx)
        (by rw [e1]; show (m.y + 1#8).toNat + n = _; rw [ky]; show _ = m.zp.tmp3.toNat; omega) (by rw [e1]; exact lP) (by rw [e1]; exact lQ)
      subst e1
      exact ⟨m2, r1.trans r2, a', y', c', z', n', e2⟩
    · have hz : ¬ (m.ram (idx P (m.y + 1#8)) - m.ram (idx Q (m.y + 1#8)) = 0#8) := by rwa [sub_eq_zero8]
      rw [if_neg h]
      have hne' : (m.ram (idx P (m.y + 1#8))).toNat ≠ (m.ram (idx Q (m.y + 1#8))).toNat := fun e => h (BitVec.eq_of_toNat_eq e)
      by_cases hl : (m.ram (idx P (m.y + 1#8))).toNat < (m.ram (idx Q (m.y + 1#8))).toNat
      · rw [if_pos hl]
        have f : addC (m.ram (idx P (m.y + 1#8))) (~~~ (m.ram (idx Q (m.y + 1#8)))) true = false := by rw [addC_le]; simpa using hl
        refine ⟨?_, ⟨8, ?_⟩, ?_⟩
        rotate_left
        · rt_exec [cmpStrCode.next_char.eq, hne, hP, hQ, hz, f]
          rfl
        · exact ⟨_, _, _, _, _, by first | rfl | (simp [copyUp]; exact ⟨rfl, rfl, rfl, rfl, rfl⟩)⟩
      · rw [if_neg hl]
        have f : addC (m.ram (idx P (m.y + 1#8))) (~~~ (m.ram (idx Q (m.y + 1#8)))) true = true := by rw [addC_le]; simpa using hl
        refine ⟨?_, ⟨10, ?_⟩, ?_⟩
        rotate_left
        · rt_exec [cmpStrCode.next_char.eq, hne, hP, hQ, hz, f]
          rfl
        · exact ⟨_, _, _, _, _, by first | rfl | (simp [copyUp]; exact ⟨rfl, rfl, rfl, rfl, rfl⟩)⟩

/-- What the comparison leaves: the same stack pointer, the result on the top of the stack, 0 in `AX`. -/
structure Compared (m m' : M) (v : B) : Prop where
  ax : m'.ax = 0
  stk : m'.stk = m.stk
  sl : m'.sl = upd m.sl m.zp.sptr v
  sh : m'.sh = upd m.sh m.zp.sptr v
  ram : m'.ram = m.ram
  zp : Same m.zp m'.zp

theorem cmp_correct (m : M) (he : Entry m) : ∃ m', Halts cmpStrCode cmpStrCode.EXE_CMP_STR m m' ∧
    Compared m m' (cmpX (strAt m.ram m.ax) (strAt m.ram (m.stkAt 0))) := by
  have e0 : m.stkAt 0 = word (m.sl m.y) (m.sh m.y) := stkAt0 he
  have hy : m.zp.sptr = m.y := he.symm
  obtain ⟨m1, r1, a, y, c, z, n, v, t3, e1, ht, hv⟩ : ∃ m1, Reach cmpStrCode cmpStrCode.EXE_CMP_STR m cmpStrCode.next_char m1 ∧ ∃ a x c z n v t3, m1 = { m with
      a := a, c := c, z := z, n := n, v := v, y := 0, x := x,
      zp := { m.zp with tmp1 := m.a, tmp1h := m.x, tmp2 := m.sl m.y, tmp2h := m.sh m.y, tmp3 := t3 } } ∧
      t3.toNat = min (m.ram m.ax).toNat (m.ram (m.stkAt 0)).toNat ∧ x = cmpLen (m.ram m.ax) (m.ram (m.stkAt 0)) := by
    rw [e0, M.ax]
    generalize hA : m.ram (word m.a m.x) = A
    generalize hB : m.ram (word (m.sl m.y) (m.sh m.y)) = D
    by_cases h : A = D
    · refine ⟨?_, ⟨15, ?_⟩, ?_⟩
      rotate_left
      · rt_exec [cmpStrCode.EXE_CMP_STR.eq, cmpStrCode.l1_equal.eq, cmpStrCode.l1_shorter.eq, idx0, hA, hB, h]
        rfl
      · exact ⟨_, _, _, _, _, _, _, rfl, by rw [h]; simp, by rw [cmpLen, if_pos h]; rfl⟩
    · have hz : ¬ (A - D = 0#8) := by rwa [sub_eq_zero8]
      have hne : A.toNat ≠ D.toNat := fun e => h (BitVec.eq_of_toNat_eq e)
      by_cases hl : A.toNat < D.toNat
      · have f : addC A (~~~ D) true = false := by rw [addC_le]; simpa using hl
        refine ⟨?_, ⟨14, ?_⟩, ?_⟩
        rotate_left
        · rt_exec [cmpStrCode.EXE_CMP_STR.eq, cmpStrCode.l1_equal.eq, cmpStrCode.l1_shorter.eq, idx0, hA, hB, hz, f]
          rfl
        · exact ⟨_, _, _, _, _, _, _, rfl, by omega, by rw [cmpLen, if_neg h, if_pos hl]; rfl⟩
      · have f : addC A (~~~ D) true = true := by rw [addC_le]; simpa using hl
        refine ⟨?_, ⟨19, ?_⟩, ?_⟩
        rotate_left
        · rt_exec [cmpStrCode.EXE_CMP_STR.eq, cmpStrCode.l1_equal.eq, cmpStrCode.l1_shorter.eq, idx0, hA, hB, hz, f]
          rfl
        · exact ⟨_, _, _, _, _, _, _, rfl, by omega, by rw [cmpLen, if_neg h, if_neg hl]; rfl⟩
  obtain ⟨m2, r2, a', y', c', z', n', e2⟩ := cmp_loop t3.toNat m1 m.ax (m.stkAt 0) (by rw [e1]; rfl) (by rw [e1]; exact e0.symm) (by rw [e1]; exact ht)
    (by rw [e1]; exact hv) (by rw [e1]; simp)
  subst e1
  generalize hX : cmpX _ _ = X at e2
  subst e2
  have eX : cmpX (strAt m.ram m.ax) (strAt m.ram (m.stkAt 0)) = X := hX
  rw [eX]
  refine ⟨?_, (r1.trans r2).halts ⟨20, ?_⟩, ?_⟩
  rotate_left
  · rt_exec [cmpStrCode.xit.eq, cmpStrCode.pushXX_set0.eq, cmpStrCode.EXE_PUSH_0.eq, cmpStrCode.EXE_0.eq, cmpStrCode.pushAX.eq]
    rfl
  · have es : m.zp.sptr + 1#8 + 255#8 = m.zp.sptr := by rw [BitVec.add_assoc]; simp
    refine ⟨rfl, rfl, ?_, ?_, rfl, ?_, rfl, rfl, rfl, rfl, rfl⟩
    · simp [es]
    · simp [es]
    · show m.zp.sptr + 1 - 1 = m.zp.sptr
      exact BitVec.add_sub_cancel _ _

end FB.Rt
