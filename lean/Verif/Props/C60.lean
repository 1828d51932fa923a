import Verif.Rt.Text52
/-!
# C60: text on the screen of the Atari 5200
-/
namespace FB.Rt

/-! ## Specification -/

/-- Specification: the code in the memory of the screen of an ATASCII character: control characters are after the capitals, and lowercase letters stay; the top bit is inverse video. -/
def toScreen (c : B) : B :=
  if c.toNat % 128 < 32 then c + 64 else if c.toNat % 128 < 96 then c - 32 else c

/-- Specification: the width of a row, and the address of a position of the screen. -/
def cellAt (r : W → B) (row col : Nat) : W :=
  word (r SAVMSC) (r SAVMSC1) + BitVec.ofNat 16 ((if (r DINDEX).toNat / 64 % 2 = 1 then 20 else 40) * row + col)

theorem txWidth_eq (d : B) : txWidth d = if d.toNat / 64 % 2 = 1 then 20 else 40 := by
  have h := d.isLt
  unfold txWidth
  by_cases h' : d.toNat / 64 % 2 = 1
  · rw [if_pos h', if_pos]
    simp [topBit]; omega
  · rw [if_neg h', if_neg]
    simp [topBit]; omega

theorem txAddr_eq (r : W → B) : txAddr r = cellAt r (r ROWCRS).toNat (r COLCRS).toNat := by
  rw [txAddr, cellAt, txWidth_eq]

/-! ## Writing -/

/-- The conversion. -/
theorem tx_conv (m : M) (h : m.a ≠ 155) : ∃ m', Reach txCode txCode.putc m txCode.get_text_addr m' ∧ m'.stk = .ret (.lb "tx_2" :: txCode.tx_2) :: .byte (toScreen m.a) :: m.stk ∧
    m'.ram = m.ram ∧ m'.txv = m.txv := by
  have h1 : ¬ (m.a - 155#8 = 0#8) := fun e => h (by bv_omega)
  have key : ∀ a : B,
      (topBit (add8 (rol8 a false) 192#8 (topBit a)) = false → ror8 (add8 (rol8 a false) 192#8 (topBit a)) (topBit a) = toScreen a) ∧
      (topBit (add8 (rol8 a false) 192#8 (topBit a)) = true → ror8 (add8 (rol8 a false) 192#8 (topBit a) ^^^ 64#8) (topBit a) = toScreen a) := by
    decide +kernel
  obtain ⟨k1, k2⟩ := key m.a
  cases ht : topBit (add8 (rol8 m.a false) 192#8 (topBit m.a)) with
  | false =>
    refine ⟨?_, ⟨10, ?_⟩, ?_⟩
    rotate_left
    · rt_exec [txCode.putc.eq, txCode.tx_noeol.eq, txCode.tx_conv.eq, h1, ht, k1 ht]
      rfl
    · exact ⟨rfl, rfl, rfl⟩
  | true =>
    refine ⟨?_, ⟨12, ?_⟩, ?_⟩
    rotate_left
    · rt_exec [txCode.putc.eq, txCode.tx_noeol.eq, txCode.tx_conv.eq, h1, ht, k2 ht]
      rfl
    · exact ⟨rfl, rfl, rfl⟩

/-- A character that is not an end of line is written at the cursor, and the cursor goes one column to the right; nothing else changes but for the temporary cells. -/
theorem C60_putc (m : M) (k : Code) (st : List Slot) (hk : m.stk = .ret k :: st) (hc : m.a ≠ 155) (hr : (m.ram ROWCRS).toNat < 24)
    (hs : 256 ≤ (cellAt m.ram (m.ram ROWCRS).toNat (m.ram COLCRS).toNat).toNat) :
    ∃ m', Reach txCode txCode.putc m k m' ∧ m'.stk = st ∧ m'.txv = m.txv ∧ m'.ram (cellAt m.ram (m.ram ROWCRS).toNat (m.ram COLCRS).toNat) = toScreen m.a ∧
      m'.ram COLCRS = m.ram COLCRS + 1 ∧ (∀ a, a ∉ [gTmp4, gTmp41, COLCRS, cellAt m.ram (m.ram ROWCRS).toNat (m.ram COLCRS).toNat] → m'.ram a = m.ram a) := by
  rw [← txAddr_eq] at hs ⊢
  obtain ⟨m1, r1, s1, u1, v1⟩ := tx_conv m hc
  obtain ⟨m2, r2, a2, g2, s2, v2⟩ := tx_addr m1 _ _ s1 (by rw [u1]; exact hr)
  rw [u1] at a2
  have hne : ∀ a : W, a.toNat < 256 → a ≠ txAddr m.ram := fun a ha e => by rw [e] at ha; omega
  have n1 := hne COLCRS (by decide)
  refine ⟨?_, r1.trans (r2.trans ⟨6, ?_⟩), ?_⟩
  rotate_left
  · rt_exec [txCode.tx_2.eq, s2, hk, idx, a2, upd_app, n1]
    rfl
  · refine ⟨rfl, v2.trans v1, ?_, ?_, ?_⟩
    · simp [upd_app, n1.symm]
    · simp only [upd_at]
      rw [g2 _ (by decide), u1]; rfl
    · intro a ha
      have e := g2 a (by simp at ha ⊢; exact ⟨ha.1, ha.2.1⟩)
      simp at ha
      simp [upd_app, ha, e, u1]

/-- An end of line takes the cursor to the start of the next row, or of the first one. -/
theorem C60_eol (m : M) (k : Code) (st : List Slot) (hk : m.stk = .ret k :: st) (hc : m.a = 155) (hr : (m.ram ROWCRS).toNat < 24) :
    ∃ m', Reach txCode txCode.putc m k m' ∧ m'.stk = st ∧ m'.txv = m.txv ∧ (m'.ram ROWCRS).toNat = ((m.ram ROWCRS).toNat + 1) % 24 ∧ m'.ram COLCRS = 0 ∧
      GSame [ROWCRS, COLCRS] m m' := by
  have hc : m.a = 155#8 := hc
  generalize hR : m.ram ROWCRS = r at hr
  cases ht : addC (r + 1#8) 231#8 true with
  | false =>
    have h3 : r.toNat + 1 < 24 := by
      simp only [addC] at ht
      simp at ht; omega
    refine ⟨?_, ⟨10, ?_⟩, ?_⟩
    rotate_left
    · rt_exec [txCode.putc.eq, txCode.tx_1.eq, hc, hR, ht, upd_app, hk]
      rfl
    · refine ⟨rfl, rfl, ?_, rfl, ?_⟩
      · simp [upd_app]; omega
      · intro a ha
        simp at ha
        simp [upd_app, ha]
  | true =>
    have h3 : 24 ≤ r.toNat + 1 := by
      simp only [addC] at ht
      simp at ht; omega
    refine ⟨?_, ⟨12, ?_⟩, ?_⟩
    rotate_left
    · rt_exec [txCode.putc.eq, txCode.tx_1.eq, hc, hR, ht, upd_app, hk]
      rfl
    · refine ⟨rfl, rfl, ?_, rfl, ?_⟩
      · simp [upd_app]; omega
      · intro a ha
        simp at ha
        simp [upd_app, ha]

/-! ## Reading -/

/-- `LOCATE` on a text screen gives the character whose code is at the cursor. -/
theorem C60_locate (m : M) (hr : (m.ram ROWCRS).toNat < 24) (c : B) (hc : m.ram (cellAt m.ram (m.ram ROWCRS).toNat (m.ram COLCRS).toNat) = toScreen c)
    (hs : 256 ≤ (cellAt m.ram (m.ram ROWCRS).toNat (m.ram COLCRS).toNat).toNat) :
    ∃ m', Halts txCode txCode.locate_text m m' ∧ m'.a = c ∧ m'.x = 0 ∧ m'.stk = m.stk ∧ m'.txv = m.txv ∧ GSame [gTmp4, gTmp41] m m' := by
  rw [← txAddr_eq] at hs hc
  have key : ∀ a : B,
      (topBit (rol8 (toScreen a) false) = false → ror8 (add8 (rol8 (toScreen a) false) 64#8 (topBit (toScreen a))) (topBit (toScreen a)) = a) ∧
      (topBit (rol8 (toScreen a) false) = true → ror8 (add8 (rol8 (toScreen a) false ^^^ 64#8) 64#8 (topBit (toScreen a))) (topBit (toScreen a)) = a) := by
    decide +kernel
  obtain ⟨k1, k2⟩ := key c
  obtain ⟨m1, r1, s1, u1, v1⟩ : ∃ m1, Reach txCode txCode.locate_text m txCode.get_text_addr m1 ∧ m1.stk = .ret (.lb "tx_4" :: txCode.tx_4) :: m.stk ∧ m1.ram = m.ram ∧ m1.txv = m.txv := by
    refine ⟨?_, ⟨1, ?_⟩, ?_⟩
    rotate_left
    · rt_exec [txCode.locate_text.eq]
      rfl
    · exact ⟨rfl, rfl, rfl⟩
  obtain ⟨m2, r2, a2, g2, s2, v2⟩ := tx_addr m1 _ _ s1 (by rw [u1]; exact hr)
  rw [u1] at a2
  have hv : m2.ram (txAddr m.ram) = toScreen c := by
    rw [g2, u1, hc]
    simp only [List.mem_cons, List.not_mem_nil, or_false, not_or]
    refine ⟨fun e => ?_, fun e => ?_⟩ <;> (rw [e] at hs; simp at hs)
  have g2 : GSame [gTmp4, gTmp41] m m2 := fun a ha => by rw [g2 a ha, u1]
  cases ht : topBit (rol8 (toScreen c) false) with
  | false =>
    refine ⟨?_, r1.halts (r2.halts ⟨10, ?_⟩), ?_⟩
    rotate_left
    · rt_exec [txCode.tx_4.eq, txCode.tx_lc.eq, idx, a2, hv, ht, k1 ht]
      rfl
    · exact ⟨rfl, rfl, s2, v2.trans v1, g2⟩
  | true =>
    refine ⟨?_, r1.halts (r2.halts ⟨12, ?_⟩), ?_⟩
    rotate_left
    · rt_exec [txCode.tx_4.eq, txCode.tx_lc.eq, idx, a2, hv, ht, k2 ht]
      rfl
    · exact ⟨rfl, rfl, s2, v2.trans v1, g2⟩

/-! ## A text -/

/-- Specification: the characters of a text are put one after the other. -/
def PutAll : List B → M → M → Prop
  | [], m, m' => m' = m
  | c :: l, m, m' => ∃ m1, Reach txCode txCode.putc { m with a := c, stk := .ret [] :: m.stk } [] m1 ∧ PutAll l m1 m'

/-- Specification: the first position of a row. -/
def rowStart (r : W → B) (row : Nat) : Nat := (word (r SAVMSC) (r SAVMSC1)).toNat + (if (r DINDEX).toNat / 64 % 2 = 1 then 20 else 40) * row

theorem cellAt_toNat (r : W → B) (row col : Nat) (h : rowStart r row + col < 65536) : (cellAt r row col).toNat = rowStart r row + col := by
  have : rowStart r row = (word (r SAVMSC) (r SAVMSC1)).toNat + (if (r DINDEX).toNat / 64 % 2 = 1 then 20 else 40) * row := rfl
  rw [cellAt, BitVec.toNat_add, BitVec.toNat_ofNat]
  generalize (if (r DINDEX).toNat / 64 % 2 = 1 then 20 else 40) * row = q at *
  omega

theorem cellAt_same {r r' : W → B} (h1 : r' SAVMSC = r SAVMSC) (h2 : r' SAVMSC1 = r SAVMSC1) (h3 : r' DINDEX = r DINDEX) (row col : Nat) :
    cellAt r' row col = cellAt r row col ∧ rowStart r' row = rowStart r row := by
  simp only [cellAt, rowStart, h1, h2, h3, and_self]

/-- A text with no end of line is on the screen from the cursor on, one code after the other; nothing else changes, but for the column and the temporary cells. -/
theorem C60_text (l : List B) (m : M) (hl : 155 ∉ l) (hr : (m.ram ROWCRS).toNat < 24) (hc : (m.ram COLCRS).toNat + l.length < 256)
    (h0 : 256 ≤ rowStart m.ram (m.ram ROWCRS).toNat) (h1 : rowStart m.ram (m.ram ROWCRS).toNat + 256 ≤ 65536) :
    ∃ m', PutAll l m m' ∧ m'.stk = m.stk ∧ m'.txv = m.txv ∧
      (∀ i (hi : i < l.length), m'.ram (cellAt m.ram (m.ram ROWCRS).toNat ((m.ram COLCRS).toNat + i)) = toScreen l[i]) ∧
      (m'.ram COLCRS).toNat = (m.ram COLCRS).toNat + l.length ∧
      (∀ a, a ∉ [gTmp4, gTmp41, COLCRS] → (∀ i, i < l.length → a ≠ cellAt m.ram (m.ram ROWCRS).toNat ((m.ram COLCRS).toNat + i)) → m'.ram a = m.ram a) := by
  induction l generalizing m with
  | nil => exact ⟨m, rfl, rfl, rfl, fun i hi => by simp at hi, by simp, fun a _ _ => rfl⟩
  | cons c l ih =>
    simp only [List.length_cons] at hc
    have hb := cellAt_toNat m.ram (m.ram ROWCRS).toNat (m.ram COLCRS).toNat (by omega)
    have hcc : c ≠ 155 := fun e => hl (by simp [e])
    obtain ⟨m1, r1, s1, v1, w1, c1, o1⟩ := C60_putc { m with a := c, stk := .ret [] :: m.stk } [] m.stk rfl hcc hr (by show 256 ≤ (cellAt m.ram _ _).toNat; rw [hb]; omega)
    have w1 : m1.ram (cellAt m.ram (m.ram ROWCRS).toNat (m.ram COLCRS).toNat) = toScreen c := w1
    have c1 : m1.ram COLCRS = m.ram COLCRS + 1 := c1
    have o1 : ∀ a, a ∉ [gTmp4, gTmp41, COLCRS, cellAt m.ram (m.ram ROWCRS).toNat (m.ram COLCRS).toNat] → m1.ram a = m.ram a := o1
    have lo : ∀ a : W, a.toNat < 256 → a ∉ [gTmp4, gTmp41, COLCRS] → m1.ram a = m.ram a := fun a ha h => o1 a (by
      simp only [List.mem_cons, List.not_mem_nil, or_false, not_or] at h ⊢
      exact ⟨h.1, h.2.1, h.2.2, fun e => by rw [e] at ha; omega⟩)
    have e1 := lo SAVMSC (by decide) (by decide)
    have e2 := lo SAVMSC1 (by decide) (by decide)
    have e3 := lo DINDEX (by decide) (by decide)
    have e4 := lo ROWCRS (by decide) (by decide)
    have e5 : (m1.ram COLCRS).toNat = (m.ram COLCRS).toNat + 1 := by
      rw [c1, BitVec.toNat_add]
      show ((m.ram COLCRS).toNat + 1) % 256 = _
      omega
    have cs := cellAt_same e1 e2 e3
    obtain ⟨m2, p2, s2, v2, w2, c2, o2⟩ := ih m1 (fun h => hl (List.mem_cons_of_mem _ h)) (by rw [e4]; exact hr) (by rw [e5]; omega) (by rw [e4, (cs _ 0).2]; exact h0) (by rw [e4, (cs _ 0).2]; exact h1)
    rw [e4, e5] at w2 o2
    simp only [(cs _ _).1] at w2 o2
    refine ⟨m2, ⟨m1, r1, p2⟩, s2.trans s1, v2.trans v1, ?_, by rw [c2, e5]; simp; omega, ?_⟩
    · intro i hi
      cases i with
      | zero =>
        rw [o2]
        · exact w1
        · simp only [List.mem_cons, List.not_mem_nil, or_false, not_or]
          refine ⟨fun e => ?_, fun e => ?_, fun e => ?_⟩ <;> (have e := congrArg BitVec.toNat e; rw [Nat.add_zero, hb] at e; simp at e; omega)
        · intro i hi e
          have e := congrArg BitVec.toNat e
          rw [Nat.add_zero, hb, cellAt_toNat m.ram _ _ (by omega)] at e
          omega
      | succ i =>
        have := w2 i (by simpa using hi)
        rw [show (m.ram COLCRS).toNat + (i + 1) = (m.ram COLCRS).toNat + 1 + i by omega, this]
        rfl
    · intro a ha hi
      rw [o2 a ha, o1 a]
      · simp only [List.mem_cons, List.not_mem_nil, or_false, not_or] at ha ⊢
        exact ⟨ha.1, ha.2.1, ha.2.2, by simpa using hi 0 (by simp)⟩
      · intro i hi'
        rw [show (m.ram COLCRS).toNat + 1 + i = (m.ram COLCRS).toNat + (i + 1) by omega]
        exact hi (i + 1) (by simpa using hi')

/-! ## A concrete case -/

/-- The cursor at row 23 and column 30 of `GRAPHICS 0`. -/
def exText : W → B := fun a => if a = SAVMSC then 0x40 else if a = SAVMSC1 then 0x3C else if a = DINDEX then 0x86 else if a = ROWCRS then 23 else if a = COLCRS then 30 else 0

/-- The text `Ab!` and a character in inverse video. -/
example (m : M) (h : m.ram = exText) : ∃ m', PutAll [0x41, 0x62, 0x21, 0xC1] m m' ∧ m'.ram 0x3FF6 = 0x21 ∧ m'.ram 0x3FF7 = 0x62 ∧ m'.ram 0x3FF8 = 0x01 ∧ m'.ram 0x3FF9 = 0xA1 ∧ m'.ram 0x3FFA = 0 ∧
    (m'.ram COLCRS).toNat = 34 := by
  obtain ⟨m', p, -, -, w, c, o⟩ := C60_text [0x41, 0x62, 0x21, 0xC1] m (by decide) (by rw [h]; decide) (by rw [h]; decide) (by rw [h]; decide) (by rw [h]; decide)
  rw [h] at w c o
  exact ⟨m', p, (w 0 (by decide)).trans (by decide), (w 1 (by decide)).trans (by decide), (w 2 (by decide)).trans (by decide), (w 3 (by decide)).trans (by decide), o 0x3FFA (by decide) (by decide), c⟩

/-- An end of line in the last row. -/
example (m : M) (k : Code) (h : m.ram = exText) (ha : m.a = 155) (hk : m.stk = [.ret k]) : ∃ m', Reach txCode txCode.putc m k m' ∧ (m'.ram ROWCRS).toNat = 0 := by
  obtain ⟨m', r, -, -, w, -⟩ := C60_eol m k [] hk ha (by rw [h]; decide)
  rw [h] at w
  exact ⟨m', r, w⟩

/-- Reading a control character. -/
example (m : M) (h : m.ram = fun a => if a = 0x3FF6 then 0x45 else exText a) : ∃ m', Halts txCode txCode.locate_text m m' ∧ m'.a = 0x05 ∧ m'.x = 0 := by
  obtain ⟨m', r, a, x, -⟩ := C60_locate m (by rw [h]; decide) 0x05 (by rw [h]; decide) (by rw [h]; decide)
  exact ⟨m', r, a, x⟩

end FB.Rt
