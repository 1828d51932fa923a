import Verif.Rt.Char8
/-!
# C69: characters, keys and sounds on the Atari 8-bit computers
-/
namespace FB.Rt

/-- **C69, the output of a character**: the handler of the channel gets the character in `A`, the channel in `X` and the mode of the channel in `ICAX1Z`; its address (minus 1, as the OS keeps it) is on the stack, above the return. Only `ICAX1Z` changes in memory. -/
theorem C69_putc (m : M) (hch : m.zp.chn.toNat < 128) :
    ∃ m', Halts chCode chCode.ch_putc m m' ∧ m'.a = m.a ∧ m'.x = m.zp.chn ∧ m'.zp = { m.zp with tmp3h := m.y } ∧
      m'.ram = upd m.ram 0x2A (m.ram (0x34A + m.zp.chn.setWidth 16)) ∧
      m'.stk = .byte (m.ram (0x346 + m.zp.chn.setWidth 16)) :: .byte (m.ram (0x347 + m.zp.chn.setWidth 16)) :: .ret (.lb "ch_back" :: chCode.ch_back) :: m.stk := by
  have en : BitVec.ofNat 16 m.zp.chn.toNat = m.zp.chn.setWidth 16 := by
    apply BitVec.eq_of_toNat_eq; simp
  have n1 : ¬ (0x346#16 + m.zp.chn.setWidth 16 = 0x2A#16) := by
    intro e; have := congrArg BitVec.toNat e; simp at this; omega
  have n2 : ¬ (0x347#16 + m.zp.chn.setWidth 16 = 0x2A#16) := by
    intro e; have := congrArg BitVec.toNat e; simp at this; omega
  refine ⟨?_, ⟨12, ?_⟩, ?_⟩
  rotate_left
  · rt_exec [chCode.ch_putc.eq, chCode.ch_direct.eq, idx, en, upd_app, n1, n2]
    rfl
  · exact ⟨rfl, rfl, rfl, rfl, rfl⟩

/-- **C69, after the handler**: its status in `Y` goes to the error of the program, and `Y` is the one before the call: with any registers and memory that the handler leaves, if it does not use `tmp3+1`. -/
theorem C69_putc_back (m : M) (k : Code) (st : List Slot) (hs : m.stk = .ret k :: st) :
    ∃ m', Reach chCode (.lb "ch_back" :: chCode.ch_back) m k m' ∧ m'.y = m.zp.tmp3h ∧ m'.zp = { m.zp with ioerr := m.y } ∧ m'.a = m.a ∧ m'.x = m.x ∧ m'.ram = m.ram ∧ m'.stk = st := by
  refine ⟨?_, ⟨4, ?_⟩, ?_⟩
  rotate_left
  · rt_exec [chCode.ch_back.eq, hs]
    rfl
  · exact ⟨rfl, rfl, rfl, rfl, rfl, rfl⟩

/-- **C69, the whole of PUT**: for a handler that keeps `tmp3+1`, `IOCHN` and the stack, and returns with the status `Y`, the caller gets its `Y` and the status is the error. -/
theorem C69_put (m : M) (hch : m.zp.chn.toNat < 128) (k : Code) (st : List Slot) (hs : m.stk = .ret k :: st) :
    ∃ m1, Halts chCode chCode.ch_putc m m1 ∧ m1.a = m.a ∧ m1.x = m.zp.chn ∧
      ∀ m2 : M, m2.zp = m1.zp → m2.stk = .ret k :: st → ∃ m3, Reach chCode (.lb "ch_back" :: chCode.ch_back) m2 k m3 ∧
        m3.y = m.y ∧ m3.zp.ioerr = m2.y ∧ m3.zp.chn = m.zp.chn ∧ m3.zp.sptr = m.zp.sptr ∧ m3.stk = st ∧ m3.ram = m2.ram ∧ m1.stk.drop 2 = .ret (.lb "ch_back" :: chCode.ch_back) :: m2.stk := by
  obtain ⟨m1, h1, a1, x1, z1, -, s1⟩ := C69_putc m hch
  refine ⟨m1, h1, a1, x1, fun m2 hz h2 => ?_⟩
  obtain ⟨m3, r3, y3, z3, -, -, e3, s3⟩ := C69_putc_back m2 k st h2
  refine ⟨m3, r3, by rw [y3, hz, z1], by rw [z3], by rw [z3, hz, z1], by rw [z3, hz, z1], s3, e3, by rw [s1, hs, h2]; rfl⟩

/-- **C69, GETKEY**: the handler of the keyboard is called with the mode 12; `KEYBDV+4` is its address minus 1. -/
theorem C69_getkey (m : M) :
    ∃ m', Halts chCode chCode.ch_GETKEY m m' ∧ m'.ram = upd m.ram 0x2A 12 ∧ m'.zp = m.zp ∧
      m'.stk = .byte (m.ram 0xE424) :: .byte (m.ram 0xE425) :: .ret (.lb "ch_kback" :: chCode.ch_kback) :: m.stk := by
  refine ⟨?_, ⟨8, ?_⟩, ?_⟩
  rotate_left
  · rt_exec [chCode.ch_GETKEY.eq, chCode.ch_getkey.eq]
    rfl
  · exact ⟨rfl, rfl, rfl⟩

/-- The value is the key, from 0 to 255, and the status is the error. -/
theorem C69_getkey_back (m : M) :
    ∃ m', Halts chCode (.lb "ch_kback" :: chCode.ch_kback) m m' ∧ m'.ax.toNat = m.a.toNat ∧ m'.zp = { m.zp with ioerr := m.y } ∧ m'.ram = m.ram ∧ m'.stk = m.stk := by
  refine ⟨?_, ⟨4, ?_⟩, ?_⟩
  rotate_left
  · rt_exec [chCode.ch_kback.eq]
    rfl
  · exact ⟨by simp [M.ax], rfl, rfl, rfl⟩

/-- **C69, POSITION**: the column is the 16 bits of the first expression, the row is the low byte of the second one, and the first is removed from the stack. -/
theorem C69_position (m : M) (hy : m.y = m.zp.sptr) :
    ∃ m', Halts chCode chCode.ch_POSITION m m' ∧ word (m'.ram COLCRS) (m'.ram COLCRS1) = m.stkAt 0 ∧ m'.ram ROWCRS = m.a ∧
      (∀ a, a ∉ [ROWCRS, COLCRS, COLCRS1] → m'.ram a = m.ram a) ∧ m'.zp = { m.zp with sptr := m.zp.sptr + 1 } ∧ m'.sl = m.sl ∧ m'.sh = m.sh := by
  refine ⟨?_, ⟨7, ?_⟩, ?_⟩
  rotate_left
  · rt_exec [chCode.ch_POSITION.eq]
    rfl
  · refine ⟨by simp [upd_app, M.stkAt, hy], by simp [upd_app], ?_, rfl, rfl, rfl⟩
    intro a ha
    simp only [List.mem_cons, List.not_mem_nil, or_false, not_or] at ha
    simp [upd_app, ha]

/-- **C69, the sounds off**: the eight registers of frequency and control are 0, and nothing else changes. -/
theorem C69_sound_off (m : M) (k : Code) (st : List Slot) (hs : m.stk = .ret k :: st) :
    ∃ m', Reach chCode chCode.ch_SOUND_OFF m k m' ∧ (∀ a, m'.ram a = if 0xD200 ≤ a.toNat ∧ a.toNat < 0xD208 then 0 else m.ram a) ∧ m'.zp = m.zp ∧ m'.stk = st := by
  refine ⟨?_, ⟨29, ?_⟩, ?_⟩
  rotate_left
  · rt_exec [chCode.ch_SOUND_OFF.eq, chCode.ch_snd.eq, chCode.ch_sx.eq, hs, topBit, idx]
    rfl
  · refine ⟨?_, rfl, rfl⟩
    intro a
    by_cases h : 0xD200 ≤ a.toNat ∧ a.toNat < 0xD208
    · rw [if_pos h]
      have : a = 0xD200 ∨ a = 0xD201 ∨ a = 0xD202 ∨ a = 0xD203 ∨ a = 0xD204 ∨ a = 0xD205 ∨ a = 0xD206 ∨ a = 0xD207 := by
        simp only [← BitVec.toNat_inj]; simp; omega
      rcases this with rfl | rfl | rfl | rfl | rfl | rfl | rfl | rfl <;> simp [upd_app]
    · rw [if_neg h]
      have n : ∀ b : W, 0xD200 ≤ b.toNat ∧ b.toNat < 0xD208 → ¬ a = b := by rintro b hb rfl; exact h hb
      simp [upd_app, n]

/-! ## Examples -/

/-- The channel 6 (`$60`) with a handler at `$F3B1`. -/
example (m : M) (hc : m.zp.chn = 0x60) (hm : m.ram = upd (upd (upd (fun _ => 0) 0x3A6 0xB0) 0x3A7 0xF3) 0x3AA 0x1C) :
    ∃ m', Halts chCode chCode.ch_putc m m' ∧ m'.ram 0x2A = 0x1C#8 ∧ m'.stk = .byte 0xB0 :: .byte 0xF3 :: .ret (.lb "ch_back" :: chCode.ch_back) :: m.stk := by
  obtain ⟨m', h, -, -, -, e, s⟩ := C69_putc m (by rw [hc]; decide)
  refine ⟨m', h, ?_, ?_⟩
  · rw [e, hc, hm]; simp [upd_app]
  · rw [s, hc, hm]; simp [upd_app]

/-- `POSITION 300, 7`. -/
example (m : M) (hy : m.y = m.zp.sptr) (ha : m.a = 7) (hl : m.sl m.zp.sptr = 0x2C) (hh : m.sh m.zp.sptr = 1) :
    ∃ m', Halts chCode chCode.ch_POSITION m m' ∧ (word (m'.ram COLCRS) (m'.ram COLCRS1)).toNat = 300 ∧ m'.ram ROWCRS = 7#8 := by
  obtain ⟨m', h, c, r, -⟩ := C69_position m hy
  exact ⟨m', h, by rw [c]; simp [M.stkAt, hl, hh], by rw [r, ha]; rfl⟩

/-- A key with code 155 (return) and status 1. -/
example (m : M) (ha : m.a = 155) (hy : m.y = 1) :
    ∃ m', Halts chCode (.lb "ch_kback" :: chCode.ch_kback) m m' ∧ m'.ax.toNat = 155 ∧ m'.zp.ioerr = 1#8 := by
  obtain ⟨m', h, x, z, -⟩ := C69_getkey_back m
  exact ⟨m', h, by rw [x, ha]; rfl, by rw [z, hy]; rfl⟩

/-- A tone in the third voice (`$D204`, `$D205`) is off, and `AUDCTL` (`$D208`) stays. -/
example (m : M) (k : Code) (st : List Slot) (hs : m.stk = .ret k :: st) (hm : m.ram = upd (upd (upd (fun _ => 0) 0xD204 0x79) 0xD205 0xAF) 0xD208 3) :
    ∃ m', Reach chCode chCode.ch_SOUND_OFF m k m' ∧ m'.ram 0xD204 = 0#8 ∧ m'.ram 0xD205 = 0#8 ∧ m'.ram 0xD208 = 3#8 := by
  obtain ⟨m', h, e, -⟩ := C69_sound_off m k st hs
  exact ⟨m', h, by rw [e]; simp, by rw [e]; simp, by rw [e, hm]; simp [upd_app]⟩

end FB.Rt
