import Verif.Rt.NumVal
/-!
# Text to integers, in the Atari 8-bit computers

Transcription of `/repo/src/interp/a800/val.asm` and `/repo/src/interp/a800/streol.asm`.
-/
namespace FB.Rt
open Ins Opd

/-- `LBUFF`, in the memory map of the Atari OS (`atari.inc` of cc65). -/
def LB8 : W := 0x580

/-- `EXE_VAL` and `read_word`, `a800/val.asm:38-126`; `get_str_eol`, `a800/streol.asm:38-58`; and two routines of the ROM of
the computer that they call: `INTLBUF` ($DA51) sets `INBUFF` to `LBUFF`, and `SKBLANK` ($DBA1) skips blanks from `CIX` on.  The ROM is
not in the repository: these two are written from the published listing of the OS.  The labels `mul` and `big` are not in the source. -/
def val8Code : Code :=
  asm!["EXE_VAL", jsr "get_str_eol",
   "val_1", jsr "read_word",
   "val_2", bcc "xit", ldy (imm 18), sty (zp .ioerr),
   "xit", next,
   "read_word", jsr "SKBLANK",
   "rw_1", lda (indY .inb .inbh), cmp (imm 0x2D), beq "do_minus", clc, eor (imm 0x2B), Ins.bne "convert",
   "do_minus", iny,
   "convert", php, sty (zp .tmp2h), lda (imm 0), tax,
   "loop", sta (zp .tmp1), stx (zp .tmp1h),
   lda (indY .inb .inbh), eor (imm 0x30), cmp (imm 10), sta (zp .tmp2), lda (zp .tmp1), bcs "xit_n", iny,
   "mul", cpx (imm 26), bcs "ebig", asl acc, rol (zp .tmp1h), asl acc, rol (zp .tmp1h), adc (zp .tmp1), sta (zp .tmp1), txa, adc (zp .tmp1h),
   asl (zp .tmp1), rol acc, tax,
   "big", bcs "ebig", lda (zp .tmp2), adc (zp .tmp1), bcc "loop", inx, Ins.bne "loop",
   "ebig", plp, sec, rts,
   "xit_n", cpy (zp .tmp2h), beq "ebig", plp, bcc "ok", jsr "neg_AX",
   "xit_2", clc,
   "ok", rts,
   "get_str_eol", sta (zp .inb), stx (zp .inbh), ldy (imm 0), sty (zp .cix), lda (indY .inb .inbh), tay, bpl "ok_len", ldy (imm 0x7F),
   "ok_len", lda (imm 0x9B),
   "copy", sta (absY LB8), lda (indY .inb .inbh), dey, bpl "copy",
   jmp "INTLBUF",
   "INTLBUF", lda (imm (hi LB8)), sta (zp .inbh), lda (imm (lo LB8)), sta (zp .inb), rts,
   "SKBLANK", ldy (zp .cix), lda (imm 0x20),
   "skb_1", cmp (indY .inb .inbh), Ins.bne "skb_2", iny, Ins.bne "skb_1",
   "skb_2", sty (zp .cix), rts] ++ negax

set_option maxRecDepth 20000 in
code_labels val8Code

/-- What the conversion keeps. -/
structure ValKept8 (m m' : M) : Prop where
  stk : m'.stk = m.stk
  sl : m'.sl = m.sl
  sh : m'.sh = m.sh
  ram : m'.ram = m.ram
  sptr : m'.zp.sptr = m.zp.sptr
  saddr : m'.zp.saddr = m.zp.saddr
  saddrh : m'.zp.saddrh = m.zp.saddrh
  arr : m'.zp.arr = m.zp.arr
  arrh : m'.zp.arrh = m.zp.arrh
  mins : m'.zp.mins = m.zp.mins
  inb : m'.zp.inb = m.zp.inb
  inbh : m'.zp.inbh = m.zp.inbh
  ioerr : m'.zp.ioerr = m.zp.ioerr
  tmp2h : m'.zp.tmp2h = m.zp.tmp2h

theorem ValKept8.trans {a b c : M} (h : ValKept8 a b) (h' : ValKept8 b c) : ValKept8 a c :=
  ⟨h'.stk.trans h.stk, h'.sl.trans h.sl, h'.sh.trans h.sh, h'.ram.trans h.ram, h'.sptr.trans h.sptr,
   h'.saddr.trans h.saddr, h'.saddrh.trans h.saddrh, h'.arr.trans h.arr, h'.arrh.trans h.arrh, h'.mins.trans h.mins,
   h'.inb.trans h.inb, h'.inbh.trans h.inbh, h'.ioerr.trans h.ioerr, h'.tmp2h.trans h.tmp2h⟩

/-- `vkept8` proves the fields that are not touched. -/
macro "vkept8" : term => `(⟨rfl, rfl, rfl, rfl, rfl, rfl, rfl, rfl, rfl, rfl, rfl, rfl, rfl, rfl⟩)

/-- Multiplies by ten and adds the digit. -/
theorem val8_mul (m : M) (t d : Nat) (ht : m.ax.toNat = t) (h1 : m.zp.tmp1 = m.a) (h1h : m.zp.tmp1h = m.x) (hd : m.zp.tmp2.toNat = d)
    (hd9 : d < 10) :
    if 10 * t + d < 65536 then ∃ m', Reach val8Code val8Code.mul m val8Code.loop m' ∧ m'.ax.toNat = 10 * t + d ∧ m'.y = m.y ∧ ValKept8 m m'
    else ∃ m', Reach val8Code val8Code.mul m val8Code.ebig m' ∧ ValKept8 m m' := by
  have ha := m.a.isLt; have hx := m.x.isLt
  rw [M.ax, word_toNat] at ht
  cases hc : addC m.x 229#8 true
  · have hc' := congrArg Bool.toNat hc
    simp at hc'
    obtain ⟨m1, r1, e1, x1, y1, d1, k1⟩ : ∃ m1, Reach val8Code val8Code.mul m val8Code.big m1 ∧
        m1.zp.tmp1.toNat + 256 * m1.x.toNat + 65536 * m1.c.toNat = 10 * t ∧ m1.x.toNat < 256 ∧ m1.y = m.y ∧ m1.zp.tmp2 = m.zp.tmp2 ∧ ValKept8 m m1 := by
      refine ⟨?_, ⟨14, ?_⟩, ?_, ?_, ?_⟩
      rotate_left
      · rt_exec [val8Code.mul.eq, hc, h1, h1h]
        rfl
      · have e1 := rol16 m.a m.x
        have e2 := rol16 (rol8 m.a false) (rol8 m.x (topBit m.a))
        have c1 : topBit (rol8 m.x (topBit m.a)) = false := by
          have q : ((topBit (rol8 m.x (topBit m.a))).toNat : Nat) = 0 := by rw [topBit_toNat, rol8_toNat, topBit_toNat]; omega
          exact Bool.toNat_eq_zero.1 q
        have e3 := add16v (rol8 (rol8 m.a false) false) m.x m.a (rol8 (rol8 m.x (topBit m.a)) (topBit (rol8 m.a false))) false
        have e4 := rol16 (add8 (rol8 (rol8 m.a false) false) m.a false) (add8 m.x (rol8 (rol8 m.x (topBit m.a)) (topBit (rol8 m.a false)))
          (addC (rol8 (rol8 m.a false) false) m.a false))
        have b1 : (topBit m.x).toNat = 0 := by rw [topBit_toNat]; omega
        rw [c1] at e2
        have b2 : (addC m.x (rol8 (rol8 m.x (topBit m.a)) (topBit (rol8 m.a false))) (addC (rol8 (rol8 m.a false) false) m.a false)).toNat = 0 := by
          simp only [Bool.toNat_false] at e1 e2 e3
          have i1 := (add8 m.x (rol8 (rol8 m.x (topBit m.a)) (topBit (rol8 m.a false))) (addC (rol8 (rol8 m.a false) false) m.a false)).isLt
          omega
        simp only [c1, Bool.toNat_false] at e1 e2 e3 e4 ⊢
        omega
      · exact BitVec.isLt _
      · exact ⟨rfl, rfl, vkept8⟩
    have l1 := m1.zp.tmp1.isLt
    cases hb : m1.c
    · rw [hb] at e1
      have d2 : m1.zp.tmp2.toNat = d := by rw [d1, hd]
      cases hk : addC m1.zp.tmp2 m1.zp.tmp1 false
      · have hk' := congrArg Bool.toNat hk
        simp at hk' e1
        rw [if_pos (by omega)]
        refine ⟨?_, r1.trans ⟨4, ?_⟩, ?_, ?_⟩
        rotate_left
        · rt_exec [val8Code.big.eq, hb, hk]
          rfl
        · simp [M.ax]; omega
        · exact ⟨y1, k1.trans vkept8⟩
      · have hk' := congrArg Bool.toNat hk
        simp at hk' e1
        by_cases hz : m1.x + 1#8 = 0#8
        · have : m1.x.toNat = 255 := by bv_omega
          rw [if_neg (by omega)]
          refine ⟨?_, r1.trans ⟨7, ?_⟩, ?_⟩
          rotate_left
          · rt_exec [val8Code.big.eq, hb, hk, hz]
            rfl
          · exact k1.trans vkept8
        · have : m1.x.toNat ≠ 255 := by intro h; apply hz; bv_omega
          rw [if_pos (by omega)]
          refine ⟨?_, r1.trans ⟨6, ?_⟩, ?_, ?_⟩
          rotate_left
          · rt_exec [val8Code.big.eq, hb, hk, hz]
            rfl
          · simp [M.ax]; omega
          · exact ⟨y1, k1.trans vkept8⟩
    · rw [hb] at e1
      simp at e1
      rw [if_neg (by omega)]
      refine ⟨?_, r1.trans ⟨1, ?_⟩, ?_⟩
      rotate_left
      · rt_exec [val8Code.big.eq, hb]
        rfl
      · exact k1.trans vkept8
  · have hc' := congrArg Bool.toNat hc
    simp at hc'
    rw [if_neg (by omega)]
    refine ⟨?_, ⟨2, ?_⟩, ?_⟩
    rotate_left
    · rt_exec [val8Code.mul.eq, hc]
      rfl
    · exact vkept8

/-- The text in a buffer, from a position on. -/
def TextAt (r : W → B) (p : W) (l : List B) : Prop := ∀ i (h : i < l.length), r (p + BitVec.ofNat 16 i) = l[i]

theorem TextAt.head {r : W → B} {p : W} {c : B} {l : List B} (h : TextAt r p (c :: l)) : r p = c := by
  have := h 0 (by simp); simpa using this

theorem TextAt.tail {r : W → B} {p : W} {c : B} {l : List B} (h : TextAt r p (c :: l)) : TextAt r (p + 1) l := by
  intro i hi
  have := h (i + 1) (by simp; omega)
  rw [List.getElem_cons_succ] at this
  rw [← this, off_one]

/-- The pointer to the text. -/
def M.bp (m : M) : W := word m.zp.inb m.zp.inbh

/-- The digits. -/
theorem val8_loop (ds : List B) : ∀ (m : M) (t : Nat) (e : B) (rest : List B), m.ax.toNat = t →
    m.y.toNat + ds.length < 256 → TextAt m.ram (idx m.bp m.y) (ds ++ e :: rest) → (∀ c ∈ ds, IsDig c) → ¬ IsDig e →
    if numVal t ds < 65536 then ∃ m', Reach val8Code val8Code.loop m val8Code.xit_n m' ∧ m'.ax.toNat = numVal t ds ∧
      m'.y.toNat = m.y.toNat + ds.length ∧ ValKept8 m m'
    else ∃ m', Reach val8Code val8Code.loop m val8Code.ebig m' ∧ ValKept8 m m' := by
  induction ds with
  | nil =>
    intro m t c rest ht hy hs _ hr
    have : numVal t [] = t := rfl
    rw [this, if_pos (by rw [← ht]; exact m.ax.isLt)]
    have e3 : m.ram (idx (word m.zp.inb m.zp.inbh) m.y) = c := hs.head
    have hc : addC (c ^^^ 48#8) 245#8 true = true := by
      have := (digit_xor c).1
      cases h : addC (c ^^^ 48#8) 245#8 true
      · exact absurd (this.1 h) hr
      · rfl
    refine ⟨?_, ⟨8, ?_⟩, ?_⟩
    rotate_left
    · rt_exec [val8Code.loop.eq, e3, hc]
      rfl
    · exact ⟨ht, by simp, vkept8⟩
  | cons d ds ih =>
    intro m t e rest ht hy hs hd hr
    have hdig := hd d (List.mem_cons_self ..)
    have hc : addC (d ^^^ 48#8) 245#8 true = false := (digit_xor d).1.2 hdig
    have e3 : m.ram (idx (word m.zp.inb m.zp.inbh) m.y) = d := hs.head
    have hyl : m.y.toNat < 255 := by simp at hy; omega
    have e4 : (m.y + 1#8).toNat = m.y.toNat + 1 := by rw [BitVec.toNat_add]; simp only [BitVec.toNat_ofNat]; omega
    obtain ⟨m1, r1, ax1, t1, t1h, t2, y1, k1⟩ : ∃ m1, Reach val8Code val8Code.loop m val8Code.mul m1 ∧ m1.ax.toNat = t ∧ m1.zp.tmp1 = m1.a ∧
        m1.zp.tmp1h = m1.x ∧ m1.zp.tmp2.toNat = d.toNat - 48 ∧ m1.y = m.y + 1#8 ∧ ValKept8 m m1 := by
      refine ⟨?_, ⟨10, ?_⟩, ?_⟩
      rotate_left
      · rt_exec [val8Code.loop.eq, val8Code.mul.eq, e3, hc]
        rfl
      · exact ⟨ht, rfl, rfl, (digit_xor d).2 hdig, rfl, vkept8⟩
    have hm := val8_mul m1 t (d.toNat - 48) ax1 t1 t1h t2 (by have := hdig.2; omega)
    have hv : numVal t (d :: ds) = numVal (10 * t + (d.toNat - 48)) ds := by simp only [numVal, List.foldl_cons, Nat.mul_comm]
    rw [hv]
    split at hm
    · next hlt =>
      obtain ⟨m2, r2, ax2, y2, k2⟩ := hm
      have k12 := k1.trans k2
      have hvp : m2.bp = m.bp := by unfold M.bp; rw [k12.inb, k12.inbh]
      have := ih m2 _ e rest ax2 (by rw [y2, y1, e4]; simp at hy; omega)
        (by rw [k12.ram, hvp, y2, y1, idx_succ _ _ hyl]; exact hs.tail) (fun c hc => hd c (List.mem_cons_of_mem _ hc)) hr
      split at this
      · next hlt' =>
        obtain ⟨m3, r3, ax3, y3, k3⟩ := this
        rw [if_pos hlt']
        refine ⟨m3, (r1.trans r2).trans r3, ax3, ?_, k12.trans k3⟩
        rw [y3, y2, y1, e4, List.length_cons]; omega
      · next hlt' =>
        obtain ⟨m3, r3, k3⟩ := this
        rw [if_neg hlt']
        exact ⟨m3, (r1.trans r2).trans r3, k12.trans k3⟩
    · next hlt =>
      obtain ⟨m2, r2, k2⟩ := hm
      have := numVal_ge ds (10 * t + (d.toNat - 48))
      rw [if_neg (by omega)]
      exact ⟨m2, r1.trans r2, k1.trans k2⟩

/-- Blanks at the start. -/
theorem val8_skip (n : Nat) : ∀ (m : M) (c : B) (l : List B), m.a = 32#8 → m.y.toNat + n < 256 →
    TextAt m.ram (idx m.bp m.y) (List.replicate n 32#8 ++ c :: l) → c ≠ 32#8 →
    ∃ m', Reach val8Code val8Code.skb_1 m val8Code.skb_2 m' ∧ ValKept8 m m' ∧ m'.y.toNat = m.y.toNat + n ∧
      TextAt m'.ram (idx m'.bp m'.y) (c :: l) := by
  induction n with
  | zero =>
    intro m c l ha hy hs hc
    have e3 : m.ram (idx (word m.zp.inb m.zp.inbh) m.y) = c := hs.head
    have hc' : ¬ 32#8 - c = 0#8 := fun h => hc ((sub_eq_zero8 _ _).1 h).symm
    refine ⟨?_, ⟨2, ?_⟩, ?_⟩
    rotate_left
    · rt_exec [val8Code.skb_1.eq, ha, e3, hc']
      rfl
    · exact ⟨⟨rfl, rfl, rfl, rfl, rfl, rfl, rfl, rfl, rfl, rfl, rfl, rfl, rfl, rfl⟩, rfl, hs⟩
  | succ n ih =>
    intro m c l ha hy hs hc
    have e3 : m.ram (idx (word m.zp.inb m.zp.inbh) m.y) = 32#8 := hs.head
    have hyl : m.y.toNat < 255 := by omega
    have e4 : (m.y + 1#8).toNat = m.y.toNat + 1 := by rw [BitVec.toNat_add]; simp only [BitVec.toNat_ofNat]; omega
    have hz : ¬ m.y + 1#8 = 0#8 := fun h => by have := congrArg BitVec.toNat h; rw [e4] at this; simp at this
    obtain ⟨m1, r1, a1, y1, k1⟩ : ∃ m1, Reach val8Code val8Code.skb_1 m val8Code.skb_1 m1 ∧ m1.a = 32#8 ∧ m1.y = m.y + 1#8 ∧ ValKept8 m m1 := by
      refine ⟨?_, ⟨4, ?_⟩, ?_⟩
      rotate_left
      · rt_exec [val8Code.skb_1.eq, ha, e3, hz]
        rfl
      · exact ⟨rfl, rfl, vkept8⟩
    have hvp : m1.bp = m.bp := by unfold M.bp; rw [k1.inb, k1.inbh]
    obtain ⟨m2, r2, k2, y2, h2⟩ := ih m1 c l a1 (by rw [y1, e4]; omega) (by rw [k1.ram, hvp, y1, idx_succ _ _ hyl]; exact hs.tail) hc
    exact ⟨m2, r1.trans r2, k1.trans k2, by rw [y2, y1, e4]; omega, h2⟩

/-- The sign. -/
theorem val8_sign (m : M) (c : B) (hc : m.ram (idx m.bp m.y) = c) :
    ∃ m', Reach val8Code val8Code.rw_1 m val8Code.loop m' ∧ m'.ax = 0 ∧ m'.y = (if c = 45 ∨ c = 43 then m.y + 1 else m.y) ∧
      ∃ z n v, ValKept8 { m with stk := .flags (decide (c = 45)) z n v :: m.stk
                                 zp := { m.zp with tmp2h := if c = 45 ∨ c = 43 then m.y + 1 else m.y } } m' := by
  have hc : m.ram (idx (word m.zp.inb m.zp.inbh) m.y) = c := hc
  by_cases h1 : c = 45
  · subst h1
    have f : addC 45#8 210#8 true = true := rfl
    refine ⟨?_, ⟨10, ?_⟩, ?_⟩
    rotate_left
    · rt_exec [val8Code.rw_1.eq, val8Code.do_minus.eq, val8Code.convert.eq, hc, f]
      rfl
    · exact ⟨rfl, by simp, _, _, _, vkept8⟩
  · have h1' : ¬ c - 45#8 = 0#8 := fun h => h1 ((sub_eq_zero8 _ _).1 h)
    by_cases h2 : c = 43
    · subst h2
      refine ⟨?_, ⟨14, ?_⟩, ?_⟩
      rotate_left
      · rt_exec [val8Code.rw_1.eq, val8Code.do_minus.eq, val8Code.convert.eq, hc]
        rfl
      · exact ⟨rfl, by simp, _, _, _, vkept8⟩
    · have h2' : ¬ c ^^^ 43#8 = 0#8 := by
        intro h; apply h2
        have := congrArg (· ^^^ 43#8) h
        simpa [BitVec.xor_assoc] using this
      rw [show decide (c = 45) = false from decide_eq_false h1, if_neg (not_or.2 ⟨h1, h2⟩)]
      refine ⟨?_, ⟨11, ?_⟩, ?_⟩
      rotate_left
      · rt_exec [val8Code.rw_1.eq, val8Code.do_minus.eq, val8Code.convert.eq, hc, h1', h2']
        rfl
      · exact ⟨rfl, rfl, _, _, _, vkept8⟩

/-- The error. -/
theorem val8_ebig (m : M) (c z n v : Bool) (k : Code) (st : List Slot) (hs : m.stk = .flags c z n v :: .ret k :: st) :
    ∃ m', Reach val8Code val8Code.ebig m k m' ∧ m'.c = true ∧ ValKept8 { m with stk := st } m' := by
  refine ⟨?_, ⟨3, ?_⟩, ?_⟩
  rotate_left
  · rt_exec [val8Code.ebig.eq, hs]
    rfl
  · exact ⟨rfl, vkept8⟩

/-- After the digits. -/
theorem val8_xit (m : M) (c z n v : Bool) (k : Code) (st : List Slot) (hs : m.stk = .flags c z n v :: .ret k :: st) :
    ∃ m', Reach val8Code val8Code.xit_n m k m' ∧ ValKept8 { m with stk := st } m' ∧
      if m.y = m.zp.tmp2h then m'.c = true
      else m'.c = false ∧ m'.ax = (if c then - m.ax else m.ax) ∧ m'.y = m.y := by
  by_cases h : m.y = m.zp.tmp2h
  · obtain ⟨m', r, h1, k⟩ := val8_ebig { m with c := addC m.y (~~~ m.zp.tmp2h) true, z := true, n := false } c z n v k st hs
    refine ⟨m', Reach.trans ⟨2, ?_⟩ r, ?_⟩
    · rt_exec [val8Code.xit_n.eq, val8Code.ebig.eq, h]
    · rw [if_pos h]
      exact ⟨⟨k.stk, k.sl, k.sh, k.ram, k.sptr, k.saddr, k.saddrh, k.arr, k.arrh, k.mins, k.inb, k.inbh, k.ioerr, k.tmp2h⟩, h1⟩
  · have h' : ¬ m.y - m.zp.tmp2h = 0#8 := fun e => h ((sub_eq_zero8 _ _).1 e)
    simp only [if_neg h]
    cases c
    · refine ⟨?_, ⟨5, ?_⟩, ?_⟩
      rotate_left
      · rt_exec [val8Code.xit_n.eq, val8Code.ok.eq, h', hs]
        rfl
      · exact ⟨vkept8, rfl, rfl, rfl⟩
    · refine ⟨?_, ⟨19, ?_⟩, ?_⟩
      rotate_left
      · rt_exec [val8Code.xit_n.eq, val8Code.xit_2.eq, val8Code.ok.eq, val8Code.neg_AX.eq, h', hs]
        rfl
      · refine ⟨vkept8, rfl, ?_, rfl⟩
        apply BitVec.eq_of_toNat_eq
        have := m.a.isLt; have := m.x.isLt
        simp [M.ax, xorFF']
        omega

/-! ## The copy of the text -/

/-- What is to be written in `LBUFF`, for a text of `L` bytes at `p`. -/
def want (r : W → B) (p : W) (L j : Nat) : B := if j = L then 0x9B else r (p + BitVec.ofNat 16 (j + 1))

/-- The bytes above position `k` are written. -/
structure Copied (r0 : W → B) (p : W) (L : Nat) (k : Nat) (r : W → B) : Prop where
  done : ∀ j, k ≤ j → j ≤ L → r (LB8 + BitVec.ofNat 16 j) = want r0 p L j
  rest : ∀ a : W, ¬ (k ≤ (a - LB8).toNat ∧ (a - LB8).toNat ≤ L) → r a = r0 a

theorem lb8_off {j : Nat} (hj : j < 65536) : (LB8 + BitVec.ofNat 16 j - LB8).toNat = j := by
  rw [BitVec.add_comm, BitVec.add_sub_cancel, BitVec.toNat_ofNat]; omega

theorem lb8_eq {a : W} {j : Nat} (h : (a - LB8).toNat = j) : a = LB8 + BitVec.ofNat 16 j := by
  rw [← h, BitVec.ofNat_toNat, BitVec.setWidth_eq, BitVec.add_comm, BitVec.sub_add_cancel]

theorem Copied.step {r0 r : W → B} {p : W} {L k : Nat} (hL : L ≤ 127) (h : Copied r0 p L (k + 1) r) (hk : k ≤ L) :
    Copied r0 p L k (upd r (LB8 + BitVec.ofNat 16 k) (want r0 p L k)) := by
  constructor
  · intro j hj hjL
    by_cases e : j = k
    · subst e; rw [upd_at]
    · rw [upd, if_neg, h.done j (by omega) hjL]
      exact off_ne _ (by omega) (by omega) e
  · intro a ha
    rw [upd, if_neg, h.rest a (by omega)]
    intro e
    apply ha
    rw [e, lb8_off (by omega)]; omega

/-- Bytes of the text are still there when they are read. -/
theorem Copied.src {r0 r : W → B} {p : W} {L k : Nat} (hL : L ≤ 127) (h : Copied r0 p L (k + 1) r) (hk : k + 1 ≤ L) (hp : 128 ≤ (p - LB8).toNat) :
    r (p + BitVec.ofNat 16 (k + 1)) = want r0 p L k := by
  rw [h.rest, want, if_neg (by omega)]
  have e : (p + BitVec.ofNat 16 (k + 1) - LB8) = (p - LB8) + BitVec.ofNat 16 (k + 1) := by
    rw [BitVec.sub_eq_add_neg, BitVec.sub_eq_add_neg, BitVec.add_assoc, BitVec.add_assoc, BitVec.add_comm (BitVec.ofNat 16 (k + 1))]
  have := (p - LB8).isLt
  rw [e, BitVec.toNat_add, BitVec.toNat_ofNat]
  omega

theorem lo_LB8 : lo LB8 = 0x80#8 := rfl
theorem hi_LB8 : hi LB8 = 5#8 := rfl

/-- What `get_str_eol` keeps. -/
structure EolKept (m m' : M) : Prop where
  sl : m'.sl = m.sl
  sh : m'.sh = m.sh
  sptr : m'.zp.sptr = m.zp.sptr
  saddr : m'.zp.saddr = m.zp.saddr
  saddrh : m'.zp.saddrh = m.zp.saddrh
  arr : m'.zp.arr = m.zp.arr
  arrh : m'.zp.arrh = m.zp.arrh
  mins : m'.zp.mins = m.zp.mins
  ioerr : m'.zp.ioerr = m.zp.ioerr
  cix : m'.zp.cix = m.zp.cix

theorem EolKept.trans {a b c : M} (h : EolKept a b) (h' : EolKept b c) : EolKept a c :=
  ⟨h'.sl.trans h.sl, h'.sh.trans h.sh, h'.sptr.trans h.sptr, h'.saddr.trans h.saddr, h'.saddrh.trans h.saddrh, h'.arr.trans h.arr,
   h'.arrh.trans h.arrh, h'.mins.trans h.mins, h'.ioerr.trans h.ioerr, h'.cix.trans h.cix⟩

theorem val8_copy (r0 : W → B) (p : W) (L : Nat) (hL : L ≤ 127) (hp : 128 ≤ (p - LB8).toNat) (kc : Code) (st : List Slot) (k : Nat) :
    ∀ m : M, k ≤ L → m.y.toNat = k → m.bp = p → m.a = want r0 p L k → Copied r0 p L (k + 1) m.ram → m.stk = .ret kc :: st →
    ∃ m', Reach val8Code val8Code.copy m kc m' ∧ m'.bp = LB8 ∧ m'.stk = st ∧ Copied r0 p L 0 m'.ram ∧ EolKept m m' := by
  induction k with
  | zero =>
    intro m hk hy hb ha hc hs
    have hy0 : m.y = 0#8 := BitVec.eq_of_toNat_eq hy
    refine ⟨?_, ⟨10, ?_⟩, ?_⟩
    rotate_left
    · rt_exec [val8Code.copy.eq, val8Code.INTLBUF.eq, hy0, hs, lo_LB8, hi_LB8]
      rfl
    · refine ⟨rfl, rfl, ?_, ⟨rfl, rfl, rfl, rfl, rfl, rfl, rfl, rfl, rfl, rfl⟩⟩
      have := hc.step hL hk
      rw [← ha] at this
      exact this
  | succ k ih =>
    intro m hk hy hb ha hc hs
    have hyl := m.y.isLt
    have y1 : (m.y - 1#8).toNat = k := by bv_omega
    have ht : topBit (m.y - 1#8) = false := by unfold topBit; rw [y1]; simp; omega
    have hst := hc.step hL hk
    rw [← ha] at hst
    have hsrc := hst.src hL hk hp
    have e1 : idx LB8 m.y = LB8 + BitVec.ofNat 16 (k + 1) := by rw [idx, hy]
    have e2 : idx (word m.zp.inb m.zp.inbh) m.y = p + BitVec.ofNat 16 (k + 1) := by rw [idx, hy, ← hb]; rfl
    obtain ⟨m1, r1, a1, y1', ram1, b1, s1, k1⟩ : ∃ m1, Reach val8Code val8Code.copy m val8Code.copy m1 ∧ m1.a = want r0 p L k ∧ m1.y = m.y - 1#8 ∧
        m1.ram = upd m.ram (LB8 + BitVec.ofNat 16 (k + 1)) m.a ∧ m1.bp = p ∧ m1.stk = m.stk ∧ EolKept m m1 := by
      refine ⟨?_, ⟨4, ?_⟩, ?_⟩
      rotate_left
      · rt_exec [val8Code.copy.eq, e1, e2, ht, hsrc]
        rfl
      · exact ⟨rfl, rfl, rfl, hb, rfl, ⟨rfl, rfl, rfl, rfl, rfl, rfl, rfl, rfl, rfl, rfl⟩⟩
    obtain ⟨m2, r2, h2, h3, h4, k2⟩ := ih m1 (by omega) (by rw [y1', y1]) b1 a1 (by rw [ram1]; exact hst) (by rw [s1]; exact hs)
    exact ⟨m2, r1.trans r2, h2, h3, h4, k1.trans k2⟩

/-- `get_str_eol`: the first 127 characters and an end of line. -/
theorem get_str_eol_correct (m : M) (kc : Code) (st : List Slot) (hs : m.stk = .ret kc :: st) (hp : 128 ≤ (m.ax - LB8).toNat) :
    ∃ m', Reach val8Code val8Code.get_str_eol m kc m' ∧ m'.bp = LB8 ∧ m'.stk = st ∧ m'.zp.cix = 0 ∧
      TextAt m'.ram LB8 ((strAt m.ram m.ax).take 127 ++ [0x9B#8]) ∧ (∀ a : W, 128 ≤ (a - LB8).toNat → m'.ram a = m.ram a) ∧
      m'.sl = m.sl ∧ m'.sh = m.sh ∧ m'.zp.sptr = m.zp.sptr ∧ m'.zp.saddr = m.zp.saddr ∧ m'.zp.saddrh = m.zp.saddrh ∧
      m'.zp.arr = m.zp.arr ∧ m'.zp.arrh = m.zp.arrh ∧ m'.zp.mins = m.zp.mins ∧ m'.zp.ioerr = m.zp.ioerr := by
  have hl := (m.ram m.ax).isLt
  obtain ⟨m1, r1, y1, a1, b1, s1, c1, ram1, k1⟩ : ∃ m1, Reach val8Code val8Code.get_str_eol m val8Code.copy m1 ∧
      m1.y.toNat = min (m.ram m.ax).toNat 127 ∧ m1.a = 0x9B#8 ∧ m1.bp = m.ax ∧ m1.stk = m.stk ∧ m1.zp.cix = 0 ∧ m1.ram = m.ram ∧
      (m1.sl = m.sl ∧ m1.sh = m.sh ∧ m1.zp.sptr = m.zp.sptr ∧ m1.zp.saddr = m.zp.saddr ∧ m1.zp.saddrh = m.zp.saddrh ∧
      m1.zp.arr = m.zp.arr ∧ m1.zp.arrh = m.zp.arrh ∧ m1.zp.mins = m.zp.mins ∧ m1.zp.ioerr = m.zp.ioerr) := by
    have e : m.ram (idx (word m.a m.x) 0#8) = m.ram m.ax := by rw [idx0]; rfl
    by_cases h : 128 ≤ (m.ram m.ax).toNat
    · have ht : topBit (m.ram m.ax) = true := by unfold topBit; simpa using h
      refine ⟨?_, ⟨11, ?_⟩, ?_⟩
      rotate_left
      · rt_exec [val8Code.get_str_eol.eq, val8Code.ok_len.eq, e, ht]
        rfl
      · refine ⟨?_, rfl, rfl, rfl, rfl, rfl, rfl, rfl, rfl, rfl, rfl, rfl, rfl, rfl, rfl⟩
        show (127#8).toNat = _
        rw [Nat.min_eq_right (by omega)]; rfl
    · have ht : topBit (m.ram m.ax) = false := by unfold topBit; simpa using h
      refine ⟨?_, ⟨9, ?_⟩, ?_⟩
      rotate_left
      · rt_exec [val8Code.get_str_eol.eq, val8Code.ok_len.eq, e, ht]
        rfl
      · exact ⟨by simp only; omega, rfl, rfl, rfl, rfl, rfl, rfl, rfl, rfl, rfl, rfl, rfl, rfl, rfl, rfl⟩
  obtain ⟨m2, r2, b2, s2, h2, k2⟩ := val8_copy m.ram m.ax (min (m.ram m.ax).toNat 127) (by omega) hp kc st _ m1 (Nat.le_refl _) y1 b1
    (by rw [a1, want, if_pos rfl]; rfl) ⟨fun j h1 h2 => by omega, fun a _ => by rw [ram1]⟩ (by rw [s1, hs])
  refine ⟨m2, r1.trans r2, b2, s2, by rw [k2.cix, c1], ?_, ?_, k2.sl.trans k1.1, k2.sh.trans k1.2.1, k2.sptr.trans k1.2.2.1,
    k2.saddr.trans k1.2.2.2.1, k2.saddrh.trans k1.2.2.2.2.1, k2.arr.trans k1.2.2.2.2.2.1, k2.arrh.trans k1.2.2.2.2.2.2.1,
    k2.mins.trans k1.2.2.2.2.2.2.2.1, k2.ioerr.trans k1.2.2.2.2.2.2.2.2⟩
  · intro i hi
    have len : ((strAt m.ram m.ax).take 127).length = min (m.ram m.ax).toNat 127 := by rw [List.length_take, strAt_length, Nat.min_comm]
    rw [List.length_append, len] at hi
    simp at hi
    rw [h2.done i (by omega) (by omega), want]
    split
    · next e =>
      rw [List.getElem_append_right (by omega)]; simp
    · next e =>
      rw [List.getElem_append_left (by omega), List.getElem_take, strAt_get]
  · intro a ha
    exact h2.rest a (by omega)

/-- Blanks, a sign, digits and something else: all that the conversion does. -/
theorem val8_correct (m : M) (hp : 128 ≤ (m.ax - LB8).toNat) (n : Nat) (sg ds rest : List B)
    (hs : (strAt m.ram m.ax).take 127 = List.replicate n 32#8 ++ (sg ++ (ds ++ rest)))
    (hsg : sg = [] ∨ sg = [43#8] ∨ sg = [45#8]) (hd : ∀ c ∈ ds, IsDig c) (hr : ∀ c, rest.head? = some c → ¬ IsDig c)
    (h0 : sg = [] → ∀ c, (ds ++ rest).head? = some c → c ≠ 32#8 ∧ c ≠ 43#8 ∧ c ≠ 45#8) :
    ∃ m', Halts val8Code val8Code.EXE_VAL m m' ∧ (m'.stk = m.stk ∧ m'.sl = m.sl ∧ m'.sh = m.sh ∧ m'.zp.sptr = m.zp.sptr ∧
      m'.zp.saddr = m.zp.saddr ∧ m'.zp.saddrh = m.zp.saddrh ∧ m'.zp.arr = m.zp.arr ∧ m'.zp.arrh = m.zp.arrh ∧ m'.zp.mins = m.zp.mins) ∧
      (∀ a : W, 128 ≤ (a - LB8).toNat → m'.ram a = m.ram a) ∧
      if 65536 ≤ numVal 0 ds ∨ ds = [] then m'.zp.ioerr = 18
      else m'.zp.ioerr = m.zp.ioerr ∧ m'.ax = if sg = [45#8] then - BitVec.ofNat 16 (numVal 0 ds) else BitVec.ofNat 16 (numVal 0 ds) := by
  have hlen : n + (sg.length + (ds.length + rest.length)) ≤ 127 := by
    have := congrArg List.length hs
    rw [List.length_take] at this
    simp only [List.length_append, List.length_replicate] at this
    omega
  -- the text in the buffer
  obtain ⟨e, l, he, hed⟩ : ∃ e l, rest ++ [0x9B#8] = e :: l ∧ ¬ IsDig e := by
    cases rest with
    | nil => exact ⟨_, _, rfl, by unfold IsDig; decide⟩
    | cons c r => exact ⟨c, _, rfl, hr c rfl⟩
  -- the first character
  obtain ⟨c, q, hcq, hc32, hc⟩ : ∃ c q, sg ++ (ds ++ e :: l) = c :: q ∧ c ≠ 32#8 ∧
      ((sg = [c] ∧ (c = 45 ∨ c = 43) ∧ q = ds ++ e :: l) ∨ (sg = [] ∧ ¬ (c = 45 ∨ c = 43) ∧ c :: q = ds ++ e :: l)) := by
    rcases hsg with rfl | rfl | rfl
    · have h0 := h0 rfl
      cases ds with
      | cons c ds =>
        have := h0 c rfl
        exact ⟨c, _, rfl, this.1, .inr ⟨rfl, fun h => h.elim this.2.2 this.2.1, rfl⟩⟩
      | nil =>
        cases rest with
        | nil =>
          obtain ⟨rfl, rfl⟩ : 0x9B#8 = e ∧ [] = l := by simpa using he
          exact ⟨_, _, rfl, by decide, .inr ⟨rfl, by decide, rfl⟩⟩
        | cons c r =>
          obtain ⟨rfl, rfl⟩ : c = e ∧ r ++ [0x9B#8] = l := by simpa using he
          have := h0 c rfl
          exact ⟨c, _, rfl, this.1, .inr ⟨rfl, fun h => h.elim this.2.2 this.2.1, rfl⟩⟩
    · exact ⟨43#8, _, rfl, by decide, .inl ⟨rfl, .inr rfl, rfl⟩⟩
    · exact ⟨45#8, _, rfl, by decide, .inl ⟨rfl, .inl rfl, rfl⟩⟩
  -- copy
  have R1 : Reach val8Code val8Code.EXE_VAL m val8Code.get_str_eol { m with stk := .ret (.lb "val_1" :: val8Code.val_1) :: m.stk } := ⟨1, by rt_exec [val8Code.EXE_VAL.eq]⟩
  obtain ⟨m1, r1, b1, s1, c1, t1, o1, f1⟩ := get_str_eol_correct { m with stk := .ret (.lb "val_1" :: val8Code.val_1) :: m.stk } _ m.stk rfl hp
  have t1 : TextAt m1.ram LB8 ((strAt m.ram m.ax).take 127 ++ [0x9B#8]) := t1
  rw [hs, List.append_assoc, List.append_assoc, List.append_assoc, he, hcq] at t1
  -- blanks
  obtain ⟨m2, r2, y2, a2, k2⟩ : ∃ m2, Reach val8Code (.lb "val_1" :: val8Code.val_1) m1 val8Code.skb_1 m2 ∧ m2.y = 0#8 ∧ m2.a = 32#8 ∧
      ValKept8 { m1 with stk := .ret (.lb "rw_1" :: val8Code.rw_1) :: .ret (.lb "val_2" :: val8Code.val_2) :: m.stk } m2 := by
    refine ⟨?_, ⟨6, ?_⟩, ?_⟩
    rotate_left
    · rt_exec [val8Code.val_1.eq, val8Code.read_word.eq, val8Code.SKBLANK.eq, c1, s1]
      rfl
    · exact ⟨rfl, rfl, vkept8⟩
  have b2 : m2.bp = LB8 := by rw [← b1]; unfold M.bp; rw [k2.inb, k2.inbh]
  obtain ⟨m3, r3, k3, y3, h3⟩ := val8_skip n m2 c q a2 (by rw [y2]; simp; omega) (by rw [b2, y2, idx0, k2.ram]; exact t1) hc32
  obtain ⟨m4, r4, y4, k4, b4⟩ : ∃ m4, Reach val8Code val8Code.skb_2 m3 val8Code.rw_1 m4 ∧ m4.y = m3.y ∧
      ValKept8 { m3 with stk := .ret (.lb "val_2" :: val8Code.val_2) :: m.stk } m4 ∧ m4.bp = m3.bp := by
    have hst := k3.stk.trans k2.stk
    refine ⟨?_, ⟨3, ?_⟩, ?_⟩
    rotate_left
    · rt_exec [val8Code.skb_2.eq, hst]
      rfl
    · exact ⟨rfl, vkept8, rfl⟩
  obtain ⟨m5, r5, ax5, y5, z, nn, v, k5⟩ := val8_sign m4 c (by rw [k4.ram, b4, y4]; exact h3.head)
  have y3n : m3.y.toNat = n := by rw [y3, y2]; simp
  have y5n : m5.y.toNat = if c = 45 ∨ c = 43 then n + 1 else n := by
    rw [y5, y4]; split
    · rw [show m3.y + 1 = m3.y + 1#8 from rfl, BitVec.toNat_add, y3n]; simp; omega
    · exact y3n
  have b5 : m5.bp = m3.bp := by rw [← b4]; unfold M.bp; rw [k5.inb, k5.inbh]
  have ram5 : m5.ram = m3.ram := k5.ram.trans k4.ram
  have t5 : TextAt m5.ram (idx m5.bp m5.y) (ds ++ e :: l) := by
    rw [ram5, b5, y5, y4]
    rcases hc with ⟨-, h, rfl⟩ | ⟨-, h, hq⟩
    · rw [if_pos h, show m3.y + 1 = m3.y + 1#8 from rfl, idx_succ _ _ (by omega)]; exact h3.tail
    · rw [if_neg h, ← hq]; exact h3
  have hneg : decide (c = 45) = decide (sg = [45#8]) := by
    rcases hc with ⟨rfl, h, _⟩ | ⟨rfl, h, _⟩
    · simp
    · simp; intro h'; exact h (.inl h')
  have stk5 : m5.stk = .flags (decide (sg = [45#8])) z nn v :: .ret (.lb "val_2" :: val8Code.val_2) :: m.stk := by
    rw [k5.stk, hneg]; simp only; rw [k4.stk]
  have k15 : m5.ram = m1.ram ∧ m5.sl = m1.sl ∧ m5.sh = m1.sh ∧ m5.zp.sptr = m1.zp.sptr ∧ m5.zp.saddr = m1.zp.saddr ∧ m5.zp.saddrh = m1.zp.saddrh ∧
      m5.zp.arr = m1.zp.arr ∧ m5.zp.arrh = m1.zp.arrh ∧ m5.zp.mins = m1.zp.mins ∧ m5.zp.ioerr = m1.zp.ioerr :=
    ⟨ram5.trans (k3.ram.trans k2.ram), k5.sl.trans (k4.sl.trans (k3.sl.trans k2.sl)), k5.sh.trans (k4.sh.trans (k3.sh.trans k2.sh)),
     k5.sptr.trans (k4.sptr.trans (k3.sptr.trans k2.sptr)), k5.saddr.trans (k4.saddr.trans (k3.saddr.trans k2.saddr)),
     k5.saddrh.trans (k4.saddrh.trans (k3.saddrh.trans k2.saddrh)), k5.arr.trans (k4.arr.trans (k3.arr.trans k2.arr)),
     k5.arrh.trans (k4.arrh.trans (k3.arrh.trans k2.arrh)), k5.mins.trans (k4.mins.trans (k3.mins.trans k2.mins)),
     k5.ioerr.trans (k4.ioerr.trans (k3.ioerr.trans k2.ioerr))⟩
  obtain ⟨g1, g2, g3, g4, g5, g6, g7, g8, g9, g10⟩ := k15
  obtain ⟨f1, f2, f3, f4, f5, f6, f7, f8, f9⟩ := f1
  have t2h : m5.zp.tmp2h = m5.y := by rw [k5.tmp2h, y5]
  have R := (((((R1.trans r1).trans r2).trans r3).trans r4).trans r5)
  -- the end
  have fin : ∀ m6, Reach val8Code val8Code.loop m5 (.lb "val_2" :: val8Code.val_2) m6 → ValKept8 { m5 with stk := m.stk } m6 →
      ∃ m', Halts val8Code val8Code.EXE_VAL m m' ∧ (m'.stk = m.stk ∧ m'.sl = m.sl ∧ m'.sh = m.sh ∧ m'.zp.sptr = m.zp.sptr ∧
        m'.zp.saddr = m.zp.saddr ∧ m'.zp.saddrh = m.zp.saddrh ∧ m'.zp.arr = m.zp.arr ∧ m'.zp.arrh = m.zp.arrh ∧ m'.zp.mins = m.zp.mins) ∧
        (∀ a : W, 128 ≤ (a - LB8).toNat → m'.ram a = m.ram a) ∧ m'.ax = m6.ax ∧ m'.zp.ioerr = if m6.c then 18 else m.zp.ioerr := by
    intro m6 r6 k6
    have fr : (m6.stk = m.stk ∧ m6.sl = m.sl ∧ m6.sh = m.sh ∧ m6.zp.sptr = m.zp.sptr ∧
        m6.zp.saddr = m.zp.saddr ∧ m6.zp.saddrh = m.zp.saddrh ∧ m6.zp.arr = m.zp.arr ∧ m6.zp.arrh = m.zp.arrh ∧ m6.zp.mins = m.zp.mins) ∧
        (∀ a : W, 128 ≤ (a - LB8).toNat → m6.ram a = m.ram a) :=
      ⟨⟨k6.stk, (k6.sl.trans g2).trans f1, (k6.sh.trans g3).trans f2, (k6.sptr.trans g4).trans f3, (k6.saddr.trans g5).trans f4,
       (k6.saddrh.trans g6).trans f5, (k6.arr.trans g7).trans f6, (k6.arrh.trans g8).trans f7, (k6.mins.trans g9).trans f8⟩,
       fun a ha => by rw [k6.ram]; simp only; rw [g1, o1 a ha]⟩
    cases hcc : m6.c
    · refine ⟨?_, (R.trans r6).halts ⟨3, ?_⟩, ?_⟩
      rotate_left
      · rt_exec [val8Code.val_2.eq, val8Code.xit.eq, hcc]
        rfl
      · exact ⟨fr.1, fr.2, rfl, (k6.ioerr.trans g10).trans f9⟩
    · refine ⟨?_, (R.trans r6).halts ⟨6, ?_⟩, ?_⟩
      rotate_left
      · rt_exec [val8Code.val_2.eq, val8Code.xit.eq, hcc]
        rfl
      · exact ⟨fr.1, fr.2, rfl, rfl⟩
  have hlast := val8_loop ds m5 0 e l (by rw [ax5]; rfl) (by rw [y5n]; split <;> omega) t5 hd hed
  split at hlast
  · next hlt =>
    obtain ⟨m6, r6, ax6, y6, k6⟩ := hlast
    obtain ⟨m7, r7, k7, h7⟩ := val8_xit m6 _ z nn v _ m.stk (k6.stk.trans stk5)
    obtain ⟨m', hh, h1, h2, h3', h4⟩ := fin m7 (r6.trans r7) ⟨k7.stk, k7.sl.trans k6.sl, k7.sh.trans k6.sh, k7.ram.trans k6.ram, k7.sptr.trans k6.sptr,
      k7.saddr.trans k6.saddr, k7.saddrh.trans k6.saddrh, k7.arr.trans k6.arr, k7.arrh.trans k6.arrh, k7.mins.trans k6.mins, k7.inb.trans k6.inb,
      k7.inbh.trans k6.inbh, k7.ioerr.trans k6.ioerr, k7.tmp2h.trans k6.tmp2h⟩
    have hax : m6.ax = BitVec.ofNat 16 (numVal 0 ds) := by
      apply BitVec.eq_of_toNat_eq; rw [ax6, BitVec.toNat_ofNat]; omega
    have hiff : m6.y = m6.zp.tmp2h ↔ ds = [] := by
      rw [k6.tmp2h, t2h]
      constructor
      · intro h
        have := congrArg BitVec.toNat h
        rw [y6] at this
        exact List.eq_nil_of_length_eq_zero (by omega)
      · intro h
        apply BitVec.eq_of_toNat_eq
        rw [y6, h]; rfl
    refine ⟨m', hh, h1, h2, ?_⟩
    by_cases hn : ds = []
    · rw [if_pos (hiff.2 hn)] at h7
      rw [if_pos (.inr hn), h4, h7]; rfl
    · rw [if_neg (fun h => hn (hiff.1 h))] at h7
      rw [if_neg (by rintro (h | h); · omega
                     · exact hn h), h4, h7.1, h3', h7.2.1, hax]
      simp only [Bool.false_eq_true, if_false, decide_eq_true_eq, true_and]
  · next hlt =>
    obtain ⟨m6, r6, k6⟩ := hlast
    obtain ⟨m7, r7, c7, k7⟩ := val8_ebig m6 _ z nn v _ m.stk (k6.stk.trans stk5)
    obtain ⟨m', hh, h1, h2, h3', h4⟩ := fin m7 (r6.trans r7) ⟨k7.stk, k7.sl.trans k6.sl, k7.sh.trans k6.sh, k7.ram.trans k6.ram, k7.sptr.trans k6.sptr,
      k7.saddr.trans k6.saddr, k7.saddrh.trans k6.saddrh, k7.arr.trans k6.arr, k7.arrh.trans k6.arrh, k7.mins.trans k6.mins, k7.inb.trans k6.inb,
      k7.inbh.trans k6.inbh, k7.ioerr.trans k6.ioerr, k7.tmp2h.trans k6.tmp2h⟩
    refine ⟨m', hh, h1, h2, ?_⟩
    rw [if_pos (.inl (by omega)), h4, c7]; rfl

end FB.Rt
