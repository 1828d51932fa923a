import Verif.Rt.Cio
import Verif.Rt.For
/-!
# C62: the requests to the I/O system of the Atari 8-bit computers
-/
namespace FB.Rt

/-! ## Specification -/

/-- Specification: a request in the control block of a channel: command, address, length and the two auxiliary bytes. -/
structure Iocb where
  cmd : B
  addr : W
  len : W
  aux1 : B
  aux2 : B

/-- Specification: the request in the control block at `$340 + x`. -/
def iocb (r : W → B) (x : B) : Iocb :=
  ⟨r (idx 0x342 x), word (r (idx 0x344 x)) (r (idx 0x345 x)), word (r (idx 0x348 x)) (r (idx 0x349 x)), r (idx 0x34A x), r (idx 0x34B x)⟩

/-- Specification: the cells of a control block that a program fills. -/
def iocbCells (x : B) : List W := [0x342, 0x344, 0x345, 0x348, 0x349, 0x34A, 0x34B].map (idx · x)

/-- Specification: element `k` of the stack of integers. -/
def M.elem (m : M) (k : B) : W := word (m.sl (m.zp.sptr + k)) (m.sh (m.zp.sptr + k))

/-- Specification: the code starts, and calls the I/O system with the request `q` on the channel `x`; the call will return to `k`, with the stack of the processor as it was at the start. -/
structure Asks (start : Code) (m : M) (x : B) (q : Iocb) (k : Code) (m1 : M) : Prop where
  run : Reach cioCode start m cioCode.CIOV m1
  stk : m1.stk = .ret k :: m.stk
  chn : m1.x = x
  req : iocb m1.ram x = q
  sl : m1.sl = m.sl
  sh : m1.sh = m.sh


/-- What is in memory after the end of the requests with an address. -/
theorem iocb_upd (r : W → B) (x al h lh ll y : B) :
    iocb (upd (upd (upd (upd (upd r (idx ICBAL x) al) (idx ICBAH x) h) (idx ICBLH x) lh) (idx ICBLL x) ll) (idx ICCOM x) y) x = ⟨y, word al h, word ll lh, r (idx ICAX1 x), r (idx ICAX2 x)⟩ ∧
    ∀ a, a ∉ iocbCells x → upd (upd (upd (upd (upd r (idx ICBAL x) al) (idx ICBAH x) h) (idx ICBLH x) lh) (idx ICBLL x) ll) (idx ICCOM x) y a = r a := by
  constructor
  · simp [iocb, upd_app, idx_inj_eq]
  · intro a ha
    simp [iocbCells] at ha
    simp [upd_app, ha]

theorem elem0 (m : M) : m.elem 0 = word (m.sl m.zp.sptr) (m.sh m.zp.sptr) := by simp [M.elem]

theorem cio_ask {start : Code} {m m0 : M} {h lh ll : B} (r0 : Reach cioCode start m cioCode.CIOV_CMD_A m0) (hs : m0.stk = .byte h :: .byte lh :: .byte ll :: m.stk) (h1 : m0.sl = m.sl) (h2 : m0.sh = m.sh) :
    ∃ m1, Asks start m m0.x ⟨m0.y, word m0.a h, word ll lh, m0.ram (idx ICAX1 m0.x), m0.ram (idx ICAX2 m0.x)⟩ (.lb "cio_ret" :: cioCode.cio_ret) m1 ∧ m1.zp = m0.zp ∧ m1.a = m0.y ∧
      ∀ a, a ∉ iocbCells m0.x → m1.ram a = m0.ram a := by
  obtain ⟨m1, r1, s1, a1, x1, z1, l1, k1, u1⟩ := cio_cmd_a m0 h lh ll m.stk hs
  have := iocb_upd m0.ram m0.x m0.a h lh ll m0.y
  rw [← u1] at this
  exact ⟨m1, ⟨r0.trans r1, s1, x1, this.1, l1.trans h1, k1.trans h2⟩, z1, a1, this.2⟩

/-! ## The statements -/

/-- **C62, `BGET`**: the channel, the address and the length of the statement. -/
theorem C62_bget (m : M) (hy : m.y = m.zp.sptr) (x : B) (hx : x = lo (m.elem 1) * 16) :
    ∃ m1, Asks cioCode.EXE_BGET m x ⟨7, m.elem 0, m.ax, m.ram (idx ICAX1 x), m.ram (idx ICAX2 x)⟩ (.lb "cio_ret" :: cioCode.cio_ret) m1 ∧
      m1.zp = { m.zp with sptr := m.zp.sptr + 2 } ∧ m1.a = 7 ∧ ∀ a, a ∉ iocbCells x → m1.ram a = m.ram a := by
  obtain ⟨m0, r0, s0, a0, x0, y0, u0, l0, k0, z0⟩ : ∃ m0, Reach cioCode cioCode.EXE_BGET m cioCode.CIOV_CMD_A m0 ∧ m0.stk = .byte (m.sh m.y) :: .byte m.x :: .byte m.a :: m.stk ∧ m0.a = m.sl m.y ∧
      m0.x = m.sl (m.y + 1#8) * 16#8 ∧ m0.y = 7 ∧ m0.ram = m.ram ∧ m0.sl = m.sl ∧ m0.sh = m.sh ∧ m0.zp = { m.zp with sptr := m.zp.sptr + 1#8 + 1#8 } := by
    refine ⟨?_, ⟨25, ?_⟩, ?_⟩
    rotate_left
    · rt_exec [cioCode.EXE_BGET.eq, cioCode.bg_0.eq, cioCode.bget.eq, cioCode.IOCHN_16.eq, cioCode.bg_1.eq, cioCode.CIOV_CMD_POP2.eq, ch16]
      rfl
    · exact ⟨rfl, rfl, rfl, rfl, rfl, rfl, rfl, rfl⟩
  obtain ⟨m1, q, z1, a1, o⟩ := cio_ask r0 s0 l0 k0
  have hxx : m0.x = x := by rw [x0, hx, M.elem, lo_word, hy]; rfl
  rw [hxx, y0, a0, hy, u0] at q
  rw [hxx, u0] at o
  refine ⟨m1, ?_, by rw [z1, z0, BitVec.add_assoc]; rfl, a1.trans y0, o⟩
  rw [elem0]
  exact q

/-- **C62, `BPUT`**: the same with the other command. -/
theorem C62_bput (m : M) (hy : m.y = m.zp.sptr) (x : B) (hx : x = lo (m.elem 1) * 16) :
    ∃ m1, Asks cioCode.EXE_BPUT m x ⟨11, m.elem 0, m.ax, m.ram (idx ICAX1 x), m.ram (idx ICAX2 x)⟩ (.lb "cio_ret" :: cioCode.cio_ret) m1 ∧
      m1.zp = { m.zp with sptr := m.zp.sptr + 2 } ∧ m1.a = 11 ∧ ∀ a, a ∉ iocbCells x → m1.ram a = m.ram a := by
  obtain ⟨m0, r0, s0, a0, x0, y0, u0, l0, k0, z0⟩ : ∃ m0, Reach cioCode cioCode.EXE_BPUT m cioCode.CIOV_CMD_A m0 ∧ m0.stk = .byte (m.sh m.y) :: .byte m.x :: .byte m.a :: m.stk ∧ m0.a = m.sl m.y ∧
      m0.x = m.sl (m.y + 1#8) * 16#8 ∧ m0.y = 11 ∧ m0.ram = m.ram ∧ m0.sl = m.sl ∧ m0.sh = m.sh ∧ m0.zp = { m.zp with sptr := m.zp.sptr + 1#8 + 1#8 } := by
    refine ⟨?_, ⟨27, ?_⟩, ?_⟩
    rotate_left
    · rt_exec [cioCode.EXE_BPUT.eq, cioCode.bg_0.eq, cioCode.bget.eq, cioCode.IOCHN_16.eq, cioCode.bg_1.eq, cioCode.CIOV_CMD_POP2.eq, ch16]
      rfl
    · exact ⟨rfl, rfl, rfl, rfl, rfl, rfl, rfl, rfl⟩
  obtain ⟨m1, q, z1, a1, o⟩ := cio_ask r0 s0 l0 k0
  have hxx : m0.x = x := by rw [x0, hx, M.elem, lo_word, hy]; rfl
  rw [hxx, y0, a0, hy, u0] at q
  rw [hxx, u0] at o
  refine ⟨m1, ?_, by rw [z1, z0, BitVec.add_assoc]; rfl, a1.trans y0, o⟩
  rw [elem0]
  exact q

/-- **C62, `XIO` and `OPEN`**: the channel, the command, the two bytes of the third argument, and the first 127 characters of the name, with an end of line, in the buffer. -/
theorem C62_xio (m : M) (hp : 128 ≤ (m.ax - LB8).toNat) (x : B) (hx : x = lo (m.elem 2) * 16) :
    ∃ m1, Asks cioCode.EXE_XIO m x ⟨lo (m.elem 1), LB8, 255, lo (m.elem 0), hi (m.elem 0)⟩ (.lb "cio_ret" :: cioCode.cio_ret) m1 ∧
      (∀ i (h : i < ((strAt m.ram m.ax).take 127 ++ [0x9B#8]).length), m1.ram (LB8 + BitVec.ofNat 16 i) = ((strAt m.ram m.ax).take 127 ++ [0x9B#8])[i]) ∧
      m1.zp.sptr = m.zp.sptr + 3 ∧ ∀ a, a ∉ iocbCells x → 128 ≤ (a - LB8).toNat → m1.ram a = m.ram a := by
  obtain ⟨m2, r2, b2, s2, -, t2, o2, l2, k2, p2, -⟩ := cio_eol { m with stk := .ret (.lb "xio_1" :: cioCode.xio_1) :: m.stk } _ m.stk rfl hp
  obtain ⟨m0, r0, s0, a0, x0, y0, u0, l0, k0, z0⟩ : ∃ m0, Reach cioCode (.lb "xio_1" :: cioCode.xio_1) m2 cioCode.CIOV_CMD_A m0 ∧ m0.stk = .byte m2.zp.inbh :: .byte 0 :: .byte 0xFF :: m2.stk ∧ m0.a = m2.zp.inb ∧
      m0.x = m2.sl (m2.zp.sptr + 2#8) * 16#8 ∧ m0.y = m2.sl (m2.zp.sptr + 1#8) ∧
      m0.ram = upd (upd m2.ram (idx ICAX1 (m2.sl (m2.zp.sptr + 2#8) * 16#8)) (m2.sl m2.zp.sptr)) (idx ICAX2 (m2.sl (m2.zp.sptr + 2#8) * 16#8)) (m2.sh m2.zp.sptr) ∧ m0.sl = m2.sl ∧ m0.sh = m2.sh ∧
      m0.zp = { m2.zp with sptr := m2.zp.sptr + 1#8 + 1#8 + 1#8 } := by
    refine ⟨?_, ⟨29, ?_⟩, ?_⟩
    rotate_left
    · rt_exec [cioCode.xio_1.eq, cioCode.xio_2.eq, cioCode.IOCHN_16.eq, cioCode.CIOV_CMD_POP2.eq, ch16]
      rfl
    · exact ⟨rfl, rfl, rfl, rfl, rfl, rfl, rfl, rfl⟩
  have r1 : Reach cioCode cioCode.EXE_XIO m cioCode.get_str_eol { m with stk := .ret (.lb "xio_1" :: cioCode.xio_1) :: m.stk } := ⟨1, by rt_exec [cioCode.EXE_XIO.eq]⟩
  have l2 : m2.sl = m.sl := l2
  have k2 : m2.sh = m.sh := k2
  have p2 : m2.zp.sptr = m.zp.sptr := p2
  obtain ⟨m1, q, z1, a1, o⟩ := cio_ask (r1.trans (r2.trans r0)) (by rw [s0, s2]) (l0.trans l2) (k0.trans k2)
  have hxx : m0.x = x := by rw [x0, hx, M.elem, lo_word, l2, p2]; rfl
  rw [← x0, hxx, l2, k2, p2] at u0
  rw [hxx] at q o
  have hne : ∀ a, a ∉ iocbCells x → m0.ram a = m2.ram a := fun a ha => by
    simp [iocbCells] at ha
    simp [u0, upd_app, ha]
  have hcell : ∀ i, i < 128 → LB8 + BitVec.ofNat 16 i ∉ iocbCells x := fun i hi => by
    have := x.isLt
    have e : (LB8 + BitVec.ofNat 16 i).toNat = 0x580 + i := by
      rw [BitVec.toNat_add, BitVec.toNat_ofNat]
      show (0x580 + i % 65536) % 65536 = _
      omega
    have e2 : ∀ w : W, w.toNat < 0x400 → (idx w x).toNat < 0x500 := fun w hw => by
      rw [idx, BitVec.toNat_add, BitVec.toNat_ofNat]; omega
    intro hm
    simp only [iocbCells, List.mem_map] at hm
    obtain ⟨w, hw, e3⟩ := hm
    have hw' : ∀ w ∈ ([0x342, 0x344, 0x345, 0x348, 0x349, 0x34A, 0x34B] : List W), w.toNat < 0x400 := by simp
    have e4 := e2 w (hw' w hw)
    rw [e3, e] at e4
    omega
  refine ⟨m1, ?_, ?_, ?_, ?_⟩
  · have hq : (⟨m0.y, word m0.a m2.zp.inbh, word 0xFF 0, m0.ram (idx ICAX1 x), m0.ram (idx ICAX2 x)⟩ : Iocb) = ⟨lo (m.elem 1), LB8, 255, lo (m.elem 0), hi (m.elem 0)⟩ := by
      have hb : word m0.a m2.zp.inbh = LB8 := by rw [a0]; exact b2
      rw [hb, y0, l2, p2, u0]
      simp [upd_app, idx_inj_eq, M.elem, lo_word, hi_word]
      rfl
    rw [← hq]
    exact q
  · intro i hi
    have hl : i < 128 := by simp at hi; omega
    rw [o _ (hcell i hl), hne _ (hcell i hl)]
    exact t2 i hi
  · rw [z1, z0, p2]
    show m.zp.sptr + 1#8 + 1#8 + 1#8 = m.zp.sptr + 3#8
    rw [BitVec.add_assoc, BitVec.add_assoc]; rfl
  · intro a h1 h2
    rw [o a h1, hne a h1, o2 a h2]

/-- **C62, `GRAPHICS`**: channel 6 is opened with `S:`; bits 4 and 5 of the mode are those of the text window, inverted, and of the clear of the screen, in the first auxiliary byte. -/
theorem C62_graphics (m : M) : ∃ m1 len, Asks cioCode.EXE_GRAPHICS m 0x60 ⟨3, devS, len, m.a &&& 0xF0 ^^^ 0x1C, m.a⟩ (.lb "cio_ret" :: cioCode.cio_ret) m1 ∧ m1.zp = m.zp ∧
    ∀ a, a ∉ iocbCells 0x60 → m1.ram a = m.ram a := by
  obtain ⟨m0, r0, s0, a0, x0, y0, u0, l0, k0, z0⟩ : ∃ m0, Reach cioCode cioCode.EXE_GRAPHICS m cioCode.CIOV_CMD_A m0 ∧ m0.stk = .byte 0x2F :: .byte (m.a &&& 0xF0#8 ^^^ 0x1C#8) :: .byte (m.a &&& 0xF0#8 ^^^ 0x1C#8) :: m.stk ∧
      m0.a = 0x40 ∧ m0.x = 0x60 ∧ m0.y = 3 ∧ m0.ram = upd (upd m.ram (idx ICAX2 0x60) m.a) (idx ICAX1 0x60) (m.a &&& 0xF0#8 ^^^ 0x1C#8) ∧ m0.sl = m.sl ∧ m0.sh = m.sh ∧ m0.zp = m.zp := by
    refine ⟨?_, ⟨12, ?_⟩, ?_⟩
    rotate_left
    · rt_exec [cioCode.EXE_GRAPHICS.eq]
      rfl
    · exact ⟨rfl, rfl, rfl, rfl, rfl, rfl, rfl, rfl⟩
  obtain ⟨m1, q, z1, a1, o⟩ := cio_ask r0 s0 l0 k0
  refine ⟨m1, word (m.a &&& 0xF0#8 ^^^ 0x1C#8) (m.a &&& 0xF0#8 ^^^ 0x1C#8), ?_, z1.trans z0, fun a ha => ?_⟩
  · rw [x0, y0, a0, u0] at q
    simp only [upd_app, idx_inj_eq] at q
    exact q
  · rw [x0] at o
    rw [o a ha, u0]
    simp [iocbCells] at ha
    simp [upd_app, ha]

/-- **C62, `CLOSE`**: command 12; the other fields of the request are as they were. -/
theorem C62_close (m : M) : ∃ m1, Asks cioCode.EXE_CLOSE m (m.a * 16) { iocb m.ram (m.a * 16) with cmd := 12 } (.lb "cio_ret" :: cioCode.cio_ret) m1 ∧ m1.zp = m.zp ∧
    ∀ a, a ∉ iocbCells (m.a * 16) → m1.ram a = m.ram a := by
  obtain ⟨m1, r1, s1, x1, u1, l1, k1, z1⟩ : ∃ m1, Reach cioCode cioCode.EXE_CLOSE m cioCode.CIOV m1 ∧ m1.stk = .ret (.lb "cio_ret" :: cioCode.cio_ret) :: m.stk ∧ m1.x = m.a * 16#8 ∧
      m1.ram = upd m.ram (idx ICCOM (m.a * 16#8)) 12 ∧ m1.sl = m.sl ∧ m1.sh = m.sh ∧ m1.zp = m.zp := by
    refine ⟨?_, ⟨12, ?_⟩, ?_⟩
    rotate_left
    · rt_exec [cioCode.EXE_CLOSE.eq, cioCode.IOCHN_16.eq, cioCode.cl_1.eq, cioCode.CIOV_CMD.eq, ch16]
      rfl
    · exact ⟨rfl, rfl, rfl, rfl, rfl, rfl⟩
  refine ⟨m1, ⟨r1, s1, x1, ?_, l1, k1⟩, z1, fun a ha => ?_⟩
  · simp [iocb, u1, upd_app, idx_inj_eq]
  · simp [iocbCells] at ha
    simp [u1, upd_app, ha]

/-- **C62, `DRAWTO` and `FILLTO`**: the command in `A` on channel 6, with the color for the screen handler. -/
theorem C62_drawto (m : M) : ∃ m1, Asks cioCode.EXE_DRAWTO m 0x60 { iocb m.ram 0x60 with cmd := m.a } (.lb "cio_ret" :: cioCode.cio_ret) m1 ∧ m1.zp = m.zp ∧ m1.ram ATACHR = m.ram ioColor ∧
    ∀ a, a ∉ iocbCells 0x60 → a ≠ ATACHR → m1.ram a = m.ram a := by
  obtain ⟨m1, r1, s1, x1, u1, l1, k1, z1⟩ : ∃ m1, Reach cioCode cioCode.EXE_DRAWTO m cioCode.CIOV m1 ∧ m1.stk = .ret (.lb "cio_ret" :: cioCode.cio_ret) :: m.stk ∧ m1.x = 0x60 ∧
      m1.ram = upd (upd m.ram ATACHR (m.ram ioColor)) (idx ICCOM 0x60) m.a ∧ m1.sl = m.sl ∧ m1.sh = m.sh ∧ m1.zp = m.zp := by
    refine ⟨?_, ⟨6, ?_⟩, ?_⟩
    rotate_left
    · rt_exec [cioCode.EXE_DRAWTO.eq, cioCode.CIOV_CMD.eq]
      rfl
    · exact ⟨rfl, rfl, rfl, rfl, rfl, rfl⟩
  refine ⟨m1, ⟨r1, s1, x1, ?_, l1, k1⟩, z1, ?_, fun a ha h2 => ?_⟩
  · simp [iocb, u1, upd_app, idx]
  · simp [u1, upd_app, idx]
  · simp [iocbCells] at ha
    simp [u1, upd_app, ha, h2]

/-- **C62, `GET`**: a length of 0, for one character in `A`. -/
theorem C62_get (m : M) (x : B) (hx : x = m.zp.chn) : ∃ m1, Asks cioCode.EXE_GET m x { iocb m.ram x with cmd := 7, len := 0 } (.lb "cio_ret" :: cioCode.cio_ret) m1 ∧ m1.zp = m.zp ∧
    ∀ a, a ∉ iocbCells x → m1.ram a = m.ram a := by
  obtain ⟨m1, r1, s1, x1, u1, l1, k1, z1⟩ : ∃ m1, Reach cioCode cioCode.EXE_GET m cioCode.CIOV m1 ∧ m1.stk = .ret (.lb "cio_ret" :: cioCode.cio_ret) :: m.stk ∧ m1.x = x ∧
      m1.ram = upd (upd (upd m.ram (idx ICBLH x) 0) (idx ICBLL x) 0) (idx ICCOM x) 7 ∧ m1.sl = m.sl ∧ m1.sh = m.sh ∧ m1.zp = m.zp := by
    refine ⟨?_, ⟨12, ?_⟩, ?_⟩
    rotate_left
    · rt_exec [cioCode.EXE_GET.eq, cioCode.CIOV_CMD_L.eq, cioCode.CIOV_CMD.eq, ← hx]
      rfl
    · exact ⟨rfl, rfl, rfl, rfl, rfl, rfl⟩
  refine ⟨m1, ⟨r1, s1, x1, ?_, l1, k1⟩, z1, fun a ha => ?_⟩
  · simp [iocb, u1, upd_app, idx_inj_eq]
    rfl
  · simp [iocbCells] at ha
    simp [u1, upd_app, ha]

/-- **C62, the channel of `PRINT`, `GET` and `INPUT`**: it is kept times 16, the place of its control block. -/
theorem C62_channel (m : M) : ∃ m', Halts cioCode cioCode.EXE_IOCHN m m' ∧ m'.zp = { m.zp with chn := m.a * 16 } ∧ m'.ram = m.ram ∧ m'.stk = m.stk ∧ m'.sl = m.sl ∧ m'.sh = m.sh := by
  refine ⟨?_, ⟨10, ?_⟩, ?_⟩
  rotate_left
  · rt_exec [cioCode.EXE_IOCHN.eq, cioCode.IOCHN_16.eq, cioCode.io_1.eq, ch16]
    rfl
  · exact ⟨rfl, rfl, rfl, rfl, rfl⟩

/-- **C62, after the call**: whatever the I/O system does, its status is the code of error, and the character of `GET` is the value. -/
theorem C62_return (m : M) : ∃ m', Halts cioCode (.lb "cio_ret" :: cioCode.cio_ret) m m' ∧ m'.zp = { m.zp with ioerr := m.y } ∧ m'.ax = word m.a 0 ∧ m'.ram = m.ram ∧ m'.stk = m.stk ∧ m'.sl = m.sl ∧ m'.sh = m.sh := by
  refine ⟨?_, ⟨5, ?_⟩, ?_⟩
  rotate_left
  · rt_exec [cioCode.cio_ret.eq, cioCode.CIOV_IOERR.eq]
    rfl
  · exact ⟨rfl, rfl, rfl, rfl, rfl, rfl⟩

/-- **C62, `INPUT`**: a line of up to 255 characters to the buffer. -/
theorem C62_input (m : M) (x : B) (hx : x = m.zp.chn) : ∃ m1, Asks cioCode.EXE_INPUT_STR m x { iocb m.ram x with cmd := 5, addr := LB8, len := 255 } (.lb "in8_1" :: cioCode.in8_1) m1 ∧ m1.zp = m.zp ∧
    ∀ a, a ∉ iocbCells x → m1.ram a = m.ram a := by
  obtain ⟨m1, r1, s1, x1, u1, l1, k1, z1⟩ : ∃ m1, Reach cioCode cioCode.EXE_INPUT_STR m cioCode.CIOV m1 ∧ m1.stk = .ret (.lb "in8_1" :: cioCode.in8_1) :: m.stk ∧ m1.x = x ∧
      m1.ram = upd (upd (upd (upd (upd m.ram (idx ICBAH x) 5) (idx ICCOM x) 5) (idx ICBAL x) 0x80) (idx ICBLH x) 0) (idx ICBLL x) 0xFF ∧ m1.sl = m.sl ∧ m1.sh = m.sh ∧ m1.zp = m.zp := by
    refine ⟨?_, ⟨11, ?_⟩, ?_⟩
    rotate_left
    · rt_exec [cioCode.EXE_INPUT_STR.eq, ← hx]
      rfl
    · exact ⟨rfl, rfl, rfl, rfl, rfl, rfl⟩
  refine ⟨m1, ⟨r1, s1, x1, ?_, l1, k1⟩, z1, fun a ha => ?_⟩
  · simp [iocb, u1, upd_app, idx_inj_eq]
    exact ⟨rfl, rfl⟩
  · simp [iocbCells] at ha
    simp [u1, upd_app, ha]

/-- **C62, the text of `INPUT`**: with `n` characters read to the buffer, the value is the string of all of them but the last, the end of line, or of all if there was an error (a status from 128 on). -/
theorem C62_text (m : M) (n : Nat) (hn : (m.ram (idx ICBLL m.x)).toNat = n) : ∃ m', Halts cioCode (.lb "in8_1" :: cioCode.in8_1) m m' ∧ m'.zp = { m.zp with ioerr := m.y } ∧
    strAt m'.ram m'.ax = (List.range (if m.y.toNat < 128 then n - 1 else n)).map (fun i => m.ram (LB8 + BitVec.ofNat 16 i)) ∧ m'.stk = m.stk ∧ m'.sl = m.sl ∧ m'.sh = m.sh ∧
    ∀ a, a ≠ 0x57F → m'.ram a = m.ram a := by
  obtain ⟨m', h, z, a, x, u, k, l1, l2⟩ : ∃ m', Halts cioCode (.lb "in8_1" :: cioCode.in8_1) m m' ∧ m'.zp = { m.zp with ioerr := m.y } ∧ m'.a = 0x7F ∧ m'.x = 5 ∧
      m'.ram = upd m.ram 0x57F (BitVec.ofNat 8 (if m.y.toNat < 128 then n - 1 else n)) ∧ m'.stk = m.stk ∧ m'.sl = m.sl ∧ m'.sh = m.sh := by
    generalize hq : m.ram (idx ICBLL m.x) = q at hn
    by_cases h0 : q = 0#8
    · have : n = 0 := by rw [← hn, h0]; rfl
      refine ⟨?_, ⟨9, ?_⟩, ?_⟩
      rotate_left
      · rt_exec [cioCode.in8_1.eq, cioCode.no_eol.eq, hq, h0]
        rfl
      · refine ⟨rfl, rfl, rfl, ?_, rfl, rfl, rfl⟩
        simp [this]
    · have hn0 : n ≠ 0 := fun e => h0 (BitVec.eq_of_toNat_eq (by rw [hn, e]; rfl))
      by_cases hy : m.y.toNat < 128
      · have ht : topBit m.y = false := by simp [topBit]; omega
        have hd : q - 1#8 = BitVec.ofNat 8 (n - 1) := by
          apply BitVec.eq_of_toNat_eq
          have := q.isLt
          have e : (BitVec.ofNat 8 (n - 1)).toNat = n - 1 := by rw [BitVec.toNat_ofNat]; omega
          rw [BitVec.toNat_sub, hn, e]
          show (255 + n) % 256 = _
          omega
        refine ⟨?_, ⟨13, ?_⟩, ?_⟩
        rotate_left
        · rt_exec [cioCode.in8_1.eq, cioCode.no_eol.eq, hq, h0, ht, hd]
          rfl
        · refine ⟨rfl, rfl, rfl, ?_, rfl, rfl, rfl⟩
          simp [hy]
      · have ht : topBit m.y = true := by simp [topBit]; omega
        have hd : q = BitVec.ofNat 8 n := by rw [← hn]; simp
        refine ⟨?_, ⟨11, ?_⟩, ?_⟩
        rotate_left
        · rt_exec [cioCode.in8_1.eq, cioCode.no_eol.eq, hq, h0, ht]
          rfl
        · refine ⟨rfl, rfl, rfl, ?_, rfl, rfl, rfl⟩
          simp [hy, hd]
  have hb := (m.ram (idx ICBLL m.x)).isLt
  refine ⟨m', h, z, ?_, k, l1, l2, fun a ha => by rw [u, upd_ne ha]⟩
  have hax : m'.ax = 0x57F := by rw [M.ax, a, x]; rfl
  rw [hax]
  have hlen : (m'.ram 0x57F).toNat = if m.y.toNat < 128 then n - 1 else n := by
    rw [u, upd_at, BitVec.toNat_ofNat]; split <;> omega
  apply List.ext_getElem
  · rw [strAt_length, hlen]; simp
  · intro i h1 h2
    have hi : i < 255 := by simp at h2; split at h2 <;> omega
    rw [strAt_get]
    simp only [List.getElem_map, List.getElem_range]
    have e : (0x57F : W) + BitVec.ofNat 16 (i + 1) = LB8 + BitVec.ofNat 16 i := by
      apply BitVec.eq_of_toNat_eq
      rw [BitVec.toNat_add, BitVec.toNat_add, BitVec.toNat_ofNat, BitVec.toNat_ofNat]
      show (0x57F + (i + 1) % 65536) % 65536 = (0x580 + i % 65536) % 65536
      omega
    rw [e, u, upd_ne]
    intro e'
    have := congrArg BitVec.toNat e'
    rw [BitVec.toNat_add, BitVec.toNat_ofNat] at this
    change (0x580 + i % 65536) % 65536 = 0x57F at this
    omega

/-! ## A case -/

/-- A memory with the string `D:A` at `$4000`. -/
def exName (a : W) : B := if a = 0x4000 then 3 else if a = 0x4001 then 68 else if a = 0x4002 then 58 else if a = 0x4003 then 65 else 0

/-- `OPEN #2,4,0,"D:A"`: command 3 on channel 2, with 4 and 0 as auxiliary bytes, and the name in the buffer. -/
example (m : M) (hr : m.ram = exName) (ha : m.ax = 0x4000) (h0 : m.elem 0 = 4) (h1 : m.elem 1 = 3) (h2 : m.elem 2 = 2) :
    ∃ m1, Asks cioCode.EXE_XIO m 0x20 ⟨3, 0x580, 255, 4, 0⟩ (.lb "cio_ret" :: cioCode.cio_ret) m1 ∧ m1.ram 0x362 = 3 ∧ m1.ram 0x580 = 68 ∧ m1.ram 0x581 = 58 ∧ m1.ram 0x582 = 65 ∧ m1.ram 0x583 = 0x9B := by
  obtain ⟨m1, q, t, -, -⟩ := C62_xio m (by rw [ha]; decide) 0x20 (by rw [h2]; rfl)
  rw [h0, h1] at q
  have hs : strAt m.ram m.ax = [68, 58, 65] := by rw [hr, ha]; decide
  rw [hs] at t
  exact ⟨m1, q, congrArg Iocb.cmd q.req, t 0 (by decide), t 1 (by decide), t 2 (by decide), t 3 (by decide)⟩

/-- `INPUT` of a line with two characters and its end, and of two characters before the end of the file (136). -/
example (m : M) (h2 : m.ram 0x348 = 3) (h3 : m.ram 0x580 = 72) (h4 : m.ram 0x581 = 105) (hx : m.x = 0) :
    (m.y = 1 → ∃ m', Halts cioCode (.lb "in8_1" :: cioCode.in8_1) m m' ∧ strAt m'.ram m'.ax = [72, 105]) ∧
    (m.y = 136 → ∃ m', Halts cioCode (.lb "in8_1" :: cioCode.in8_1) m m' ∧ (strAt m'.ram m'.ax).length = 3 ∧ m'.zp.ioerr = 136) := by
  have hn : (m.ram (idx ICBLL m.x)).toNat = 3 := by rw [hx]; show (m.ram 0x348).toNat = 3; rw [h2]; rfl
  obtain ⟨m', h, z, t, -⟩ := C62_text m 3 hn
  refine ⟨fun hy => ⟨m', h, ?_⟩, fun hy => ⟨m', h, ?_, ?_⟩⟩
  · rw [t, hy]
    show [m.ram 0x580, m.ram 0x581] = _
    rw [h3, h4]
  · rw [t, hy]; rfl
  · rw [z, hy]

end FB.Rt
