import Verif.Rt.Graph
/-!
# Text on the screen of the Atari 5200

Transcription of `/repo/src/interp/a5200/putchar.asm`, of `locate_text` of `/repo/src/interp/a5200/locate.asm`, of `/repo/src/interp/a5200/input.asm` and of `get_key` of
`/repo/src/interp/a5200/getkey.asm`.
-/
namespace FB.Rt
open Ins Opd

/-! The key pressed last, `$FF` for none (`CH`, set by the interrupt of the keyboard), the variable `INPUT_WIDTH`, the buffer of lines and the table `trans` (`a5200/input.asm:31-37,86-88`). The addresses,
chosen by the linker, are arbitrary; the buffer is at the start of a page only to write its address. -/
scoped notation "kbCH" => (0x6D#16 : W)
scoped notation "inWidth" => (0x700#16 : W)
scoped notation "lineBuf" => (0x600#16 : W)
scoped notation "inTrans" => (0xB080#16 : W)

/-- `putc` and `get_text_addr`, `a5200/putchar.asm:39-110`, `locate_text`, `a5200/locate.asm:54-68`, `EXE_INPUT_STR`, `a5200/input.asm:41-84` (the label `again` is the first one), and `get_key`,
`a5200/getkey.asm:40-49`. -/
def txCode : Code :=
  asm!["putc", cmp (imm 155), Ins.bne "tx_noeol", lda (imm 0), sta (abs COLCRS), ldx (abs ROWCRS), inx, cpx (imm 24), bcc "tx_1", ldx (imm 0),
   "tx_1", stx (abs ROWCRS), rts,
   "tx_noeol", asl acc, php, sbc (imm 0x3F), bpl "tx_conv", eor (imm 0x40),
   "tx_conv", plp, ror acc, pha, jsr "get_text_addr",
   "tx_2", pla, ldx (imm 0), sta (indRX gTmp4), inc (abs COLCRS), rts,
   "get_text_addr", lda (imm 0), sta (abs gTmp41), lda (abs ROWCRS), asl acc, asl acc, adc (abs ROWCRS), asl acc, asl acc, rol (abs gTmp41),
   "tx_g1", Ins.bit (abs DINDEX), bvs "tx_m20", asl acc, rol (abs gTmp41),
   "tx_m20", adc (abs COLCRS), bcc "tx_3", inc (abs gTmp41), clc,
   "tx_3", adc (abs SAVMSC), sta (abs gTmp4), lda (abs gTmp41), adc (abs SAVMSC1), sta (abs gTmp41), rts,
   "locate_text", jsr "get_text_addr",
   "tx_4", ldx (imm 0), lda (indRX gTmp4), asl acc, php, bpl "tx_lc", eor (imm 0x40),
   "tx_lc", adc (imm 0x40), plp, ror acc, next,
   "EXE_INPUT_STR", ldy (imm 0),
   "in_key", lda (imm 0xDF), jsr "putc",
   "in_1", dec (abs COLCRS), jsr "get_key",
   "in_2", Ins.and (imm 15), tax, lda (absX inTrans), beq "in_ret", bpl "in_ok",
   "in_del", dey, bmi "EXE_INPUT_STR", lda (imm 32), jsr "putc",
   "in_3", dec (abs COLCRS), dec (abs COLCRS), bpl "in_key",
   "in_ok", sta (absY 0x601), jsr "putc",
   "in_4", iny, bmi "in_del", cpy (abs inWidth), Ins.bne "in_key", beq "in_del",
   "in_ret", sty (abs lineBuf), lda (imm 0x00), ldx (imm 0x06), next,
   "get_key", lda (abs kbCH), cmp (imm 0xFF), beq "get_key", ldx (imm 0xFF), stx (abs kbCH), inx, rts]

set_option maxRecDepth 20000 in
code_labels txCode

/-- What the text routines do not touch. -/
def M.txv (m : M) : B × (B → B) × (B → B) × Zp × List (B × B) × (List (B × B) → Regs) := (m.y, m.sl, m.sh, m.zp, m.out, m.dev)

/-- The row by 20. -/
theorem tx_row (m : M) (hr : (m.ram ROWCRS).toNat < 24) : ∃ m', Reach txCode txCode.get_text_addr m txCode.tx_g1 m' ∧ m'.a.toNat + 256 * (m'.ram gTmp41).toNat = 20 * (m.ram ROWCRS).toNat ∧
    m'.c = false ∧ GSame [gTmp4, gTmp41] m m' ∧ m'.stk = m.stk ∧ m'.txv = m.txv := by
  generalize hR : m.ram ROWCRS = r at hr
  have k : ∀ r : B, r.toNat < 24 → topBit r = false ∧ topBit (rol8 r false) = false ∧ addC (rol8 (rol8 r false) false) r false = false ∧
      topBit (add8 (rol8 (rol8 r false) false) r false) = false ∧
      (rol8 (rol8 (add8 (rol8 (rol8 r false) false) r false) false) false).toNat + 256 * (rol8 0#8 (topBit (rol8 (add8 (rol8 (rol8 r false) false) r false) false))).toNat = 20 * r.toNat := by
    decide +kernel
  obtain ⟨k1, k2, k3, k4, k5⟩ := k r hr
  refine ⟨?_, ⟨10, ?_⟩, ?_⟩
  rotate_left
  · rt_exec [txCode.get_text_addr.eq, upd_app, hR, k1, k2, k3, k4]
    rfl
  · refine ⟨?_, rfl, ?_, rfl, rfl⟩
    · simpa [upd_app] using k5
    · intro a ha
      simp at ha
      simp [upd_app, ha]

/-- The width of the rows. -/
def txWidth (d : B) : Nat := if topBit (rol8 d false) then 20 else 40

/-- The address of a character. -/
def txAddr (r : W → B) : W := word (r SAVMSC) (r SAVMSC1) + BitVec.ofNat 16 (txWidth (r DINDEX) * (r ROWCRS).toNat + (r COLCRS).toNat)

theorem tx_addr (m : M) (k : Code) (st : List Slot) (hk : m.stk = .ret k :: st) (hr : (m.ram ROWCRS).toNat < 24) :
    ∃ m', Reach txCode txCode.get_text_addr m k m' ∧ word (m'.ram gTmp4) (m'.ram gTmp41) = txAddr m.ram ∧ GSame [gTmp4, gTmp41] m m' ∧ m'.stk = st ∧ m'.txv = m.txv := by
  obtain ⟨m1, r1, a1, c1, g1, s1, v1⟩ := tx_row m hr
  obtain ⟨m2, r2, a2, c2, g2, s2, v2⟩ : ∃ m2, Reach txCode txCode.tx_g1 m1 txCode.tx_m20 m2 ∧ m2.a.toNat + 256 * (m2.ram gTmp41).toNat = txWidth (m.ram DINDEX) * (m.ram ROWCRS).toNat ∧
      m2.c = false ∧ GSame [gTmp4, gTmp41] m m2 ∧ m2.stk = m.stk ∧ m2.txv = m.txv := by
    have hd : m1.ram DINDEX = m.ram DINDEX := g1 _ (by decide)
    have la := m1.a.isLt
    cases ht : topBit (rol8 (m.ram DINDEX) false) with
    | true =>
      refine ⟨?_, ⟨2, ?_⟩, ?_⟩
      rotate_left
      · rt_exec [txCode.tx_g1.eq, hd, ht]
        rfl
      · refine ⟨?_, c1, g1, s1, v1⟩
        rw [txWidth, ht]; exact a1
    | false =>
      have ht41 : topBit (m1.ram gTmp41) = false := by simp [topBit]; omega
      refine ⟨?_, ⟨5, ?_⟩, ?_⟩
      rotate_left
      · rt_exec [txCode.tx_g1.eq, hd, ht, ht41]
        rfl
      · refine ⟨?_, rfl, ?_, s1, v1⟩
        · rw [txWidth, ht]
          have := dbl (a := m1.a) (x := m1.ram gTmp41) (by omega)
          simp only [upd_at]
          rw [this, a1]; simp; omega
        · intro a ha
          have := g1 a ha
          simp at ha
          simp [upd_app, ha, this]
  obtain ⟨m3, r3, a3, c3, g3, s3, v3⟩ : ∃ m3, Reach txCode txCode.tx_m20 m2 txCode.tx_3 m3 ∧ m3.a.toNat + 256 * (m3.ram gTmp41).toNat = txWidth (m.ram DINDEX) * (m.ram ROWCRS).toNat + (m.ram COLCRS).toNat ∧
      m3.c = false ∧ GSame [gTmp4, gTmp41] m m3 ∧ m3.stk = m.stk ∧ m3.txv = m.txv := by
    have hc : m2.ram COLCRS = m.ram COLCRS := g2 _ (by decide)
    have la := m2.a.isLt
    have lc := (m.ram COLCRS).isLt
    have lw : txWidth (m.ram DINDEX) * (m.ram ROWCRS).toNat ≤ 40 * 23 := Nat.mul_le_mul (by unfold txWidth; split <;> omega) (by omega)
    cases ht : addC m2.a (m.ram COLCRS) false with
    | false =>
      have h3 : m2.a.toNat + (m.ram COLCRS).toNat < 256 := by simpa [addC] using ht
      refine ⟨?_, ⟨2, ?_⟩, ?_⟩
      rotate_left
      · rt_exec [txCode.tx_m20.eq, hc, ht, c2]
        rfl
      · refine ⟨?_, rfl, g2, s2, v2⟩
        simp; omega
    | true =>
      have h3 : 256 ≤ m2.a.toNat + (m.ram COLCRS).toNat := by simpa [addC] using ht
      refine ⟨?_, ⟨5, ?_⟩, ?_⟩
      rotate_left
      · rt_exec [txCode.tx_m20.eq, hc, ht, c2]
        rfl
      · refine ⟨?_, rfl, ?_, s2, v2⟩
        · have e1 : (m2.a.toNat + (m.ram COLCRS).toNat) % 256 = m2.a.toNat + (m.ram COLCRS).toNat - 256 := by omega
          have e2 : ((m2.ram gTmp41).toNat + 1) % 256 = (m2.ram gTmp41).toNat + 1 := by omega
          simp [upd_at, e1, e2]; omega
        · intro a ha
          have := g2 a ha
          simp at ha
          simp [upd_app, ha, this]
  have hs0 : m3.ram SAVMSC = m.ram SAVMSC := g3 _ (by decide)
  have hs1 : m3.ram SAVMSC1 = m.ram SAVMSC1 := g3 _ (by decide)
  have hk3 := s3.trans hk
  refine ⟨?_, r1.trans (r2.trans (r3.trans ⟨6, ?_⟩)), ?_⟩
  rotate_left
  · rt_exec [txCode.tx_3.eq, hs0, hs1, hk3, c3, upd_app]
    rfl
  · refine ⟨?_, ?_, rfl, v3⟩
    · have l1 := m3.a.isLt
      have l2 := (m3.ram gTmp41).isLt
      have l3 := (m.ram SAVMSC).isLt
      have l4 := (m.ram SAVMSC1).isLt
      apply BitVec.eq_of_toNat_eq
      rw [txAddr, ← a3]
      simp [upd_app]
      omega
    · intro a ha
      have := g3 a ha
      simp at ha
      simp [upd_app, ha, this]

end FB.Rt
