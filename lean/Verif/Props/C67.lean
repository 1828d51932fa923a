import Verif.Rt.CompBuf
/-!
# C67: compilation from the editor
-/
namespace FB.Rt

/-! ## Specification -/

/-- Specification: the two bytes at an address, low byte first. -/
def wordAt (r : W → B) (a : W) : W := word (r a) (r (a + 1))

/-! ## The parts -/

/-- **C67, the start**: the address that the editor gives goes to the allocation of memory, which returns to the part that calls the parser. -/
theorem C67_start (m : M) (lo hi : B) (st : List Slot) (hs : m.stk = .byte hi :: .byte lo :: st) :
    ∃ m', Halts cbCode cbCode.COMPILE_BUFFER m m' ∧ m'.y = hi ∧ m'.a = lo ∧ m'.stk = .ret (.lb "cb_1" :: cbCode.cb_1) :: st ∧ m'.ram = m.ram ∧ m'.zp = m.zp := by
  refine ⟨?_, ⟨5, ?_⟩, ?_⟩
  rotate_left
  · rt_exec [cbCode.COMPILE_BUFFER.eq, cbCode.parser_alloc_init.eq, hs]
    rfl
  · exact ⟨rfl, rfl, rfl, rfl, rfl⟩

/-- Then the parser is called, with `saved_cpu_stack` of the editor in the stack. -/
theorem C67_parse (m : M) : ∃ m', Halts cbCode (.lb "cb_1" :: cbCode.cb_1) m m' ∧ m'.stk = .ret (.lb "cb_2" :: cbCode.cb_2) :: .byte (m.ram cbSaved) :: m.stk ∧ m'.ram = m.ram ∧ m'.zp = m.zp := by
  refine ⟨?_, ⟨5, ?_⟩, ?_⟩
  rotate_left
  · rt_exec [cbCode.cb_1.eq, cbCode.parser_start.eq]
    rfl
  · exact ⟨rfl, rfl, rfl⟩

/-- **C67, with an error**: the value is `$FEFE`, and the vector of BREAK has not changed. -/
theorem C67_error (m : M) (hc : m.c = true) (sv : B) (kc : Code) (st : List Slot) (hs : m.stk = .byte sv :: .ret kc :: st) :
    ∃ m', Reach cbCode (.lb "cb_2" :: cbCode.cb_2) m kc m' ∧ m'.ax = 0xFEFE ∧ m'.stk = st ∧ m'.ram = upd m.ram cbSaved sv ∧ m'.zp = m.zp := by
  refine ⟨?_, ⟨7, ?_⟩, ?_⟩
  rotate_left
  · rt_exec [cbCode.cb_2.eq, cbCode.cb_ed.eq, hc, hs]
    rfl
  · exact ⟨by simp [M.ax, word], rfl, rfl, rfl⟩

/-- Memory after `sto_loop` (`compile.asm:88-103`), in the order of the code. -/
def stoRam (r : W → B) : W → B :=
  let p := r cbProg
  let r1 := upd (upd (upd (upd r cbSave (r cbBrkky)) cbBrkky (r cbNew)) cbNewptr p) cbHead (add8 p (r cbReloc) false)
  let q := r 0x191
  upd (upd (upd (upd r1 (cbSave + 1) (r (cbBrkky + 1))) (cbBrkky + 1) (r (cbNew + 1))) (cbNewptr + 1) q) (cbHead + 1) (add8 q (r 0x193) (addC p (r cbReloc) false))

theorem cb_sto (m : M) (hc : m.c = false) :
    ∃ m', Reach cbCode (.lb "cb_2" :: cbCode.cb_2) m cbCode.cb_hdr m' ∧ m'.ram = stoRam m.ram ∧ m'.a = stoRam m.ram (cbHead + 1) ∧ m'.x = 0#8 ∧ m'.stk = m.stk ∧ m'.zp = m.zp := by
  refine ⟨?_, ⟨25, ?_⟩, ?_⟩
  rotate_left
  · rt_exec [cbCode.cb_2.eq, cbCode.cb_sto.eq, hc, idx, upd_app]
    rfl
  · refine ⟨?_, ?_, rfl, rfl, rfl⟩
    · simp [stoRam]
    · simp [stoRam, upd_app]

theorem sto_head (r : W → B) : wordAt (stoRam r) cbHead = wordAt r cbProg + wordAt r cbReloc := by
  have e : wordAt (stoRam r) cbHead = word (add8 (r cbProg) (r cbReloc) false) (add8 (r 0x191) (r 0x193) (addC (r cbProg) (r cbReloc) false)) := by
    simp [wordAt, stoRam, upd_app]
  rw [e]
  have := (r cbProg).isLt; have := (r cbReloc).isLt; have := (r 0x191).isLt; have := (r 0x193).isLt
  apply BitVec.eq_of_toNat_eq
  have e1 : r (cbProg + 1) = r 0x191 := rfl
  have e2 : r (cbReloc + 1) = r 0x193 := rfl
  simp only [wordAt, e1, e2, add8_toNat, addC_toNat, word_toNat, BitVec.toNat_add, Bool.toNat_false]
  omega

/-- The rest of the header, `compile.asm:107-112`. -/
def hdrRam (r : W → B) : W → B := upd (upd (stoRam r) cbVarPage (stoRam r (cbHead + 1) + 1)) cbNumVars (r cbCount)

/-- Memory after `restore_break` and the exit, `compile.asm:147-163`. -/
def restRam (r : W → B) (sv : B) : W → B :=
  upd (upd (upd (upd r (cbBrkky + 1) (r (cbSave + 1))) cbBrkky (r cbSave)) cbFixup 0x4C) cbSaved sv

theorem cb_rest (m : M) (sv : B) (kc : Code) (st : List Slot) (hs : m.stk = .byte sv :: .ret kc :: st) :
    ∃ m', Reach cbCode cbCode.cb_rest m kc m' ∧ m'.ax = 0 ∧ m'.stk = st ∧ m'.ram = restRam m.ram sv ∧ m'.zp = m.zp := by
  refine ⟨?_, ⟨18, ?_⟩, ?_⟩
  rotate_left
  · rt_exec [cbCode.cb_rest.eq, cbCode.cb_rb.eq, cbCode.cb_jmp.eq, cbCode.cb_ed.eq, hs, idx, upd_app]
    rfl
  · exact ⟨by simp [M.ax, word], rfl, by simp [restRam], rfl⟩

theorem cb_hdr (m : M) (h : m.ram 0x193#16 ≠ 0#8) :
    ∃ m', Reach cbCode cbCode.cb_hdr m cbCode.cb_rest m' ∧ m'.ram = upd (upd m.ram cbVarPage (m.a + 1)) cbNumVars (m.ram cbCount) ∧ m'.stk = m.stk ∧ m'.zp = m.zp := by
  refine ⟨?_, ⟨7, ?_⟩, ?_⟩
  rotate_left
  · rt_exec [cbCode.cb_hdr.eq, upd_app, h]
    rfl
  · exact ⟨by simp [upd_app], rfl, rfl⟩

theorem cb_run (m : M) (h : m.ram 0x193#16 = 0#8) :
    ∃ m', Halts cbCode cbCode.cb_hdr m m' ∧ m'.a = 125#8 ∧ m'.ram = upd (upd m.ram cbVarPage (m.a + 1)) cbNumVars (m.ram cbCount) ∧
      m'.stk = .ret (.lb "cb_3" :: cbCode.cb_3) :: .byte (m.ram 0x197) :: .byte (m.ram cbCptr) :: .byte m.zp.sptr :: m.stk ∧ m'.zp = m.zp := by
  refine ⟨?_, ⟨17, ?_⟩, ?_⟩
  rotate_left
  · rt_exec [cbCode.cb_hdr.eq, cbCode.cb_run.eq, cbCode.cb_putc.eq, upd_app, h]
    rfl
  · exact ⟨rfl, by simp [upd_app], by simp [upd_app], rfl⟩

/-! ## The claims -/

/-- What the header says after a good compilation: `NEWPTR` is the address of the program, the header has that address plus the relocation, the page of the variables is the one after it, and the number of variables is that of the parser. -/
structure Header (r r' : W → B) : Prop where
  ptr : wordAt r' cbNewptr = wordAt r cbProg
  head : wordAt r' cbHead = wordAt r cbProg + wordAt r cbReloc
  page : (r' cbVarPage).toNat = ((wordAt r cbProg + wordAt r cbReloc).toNat / 256 + 1) % 256
  vars : r' cbNumVars = r cbCount

theorem hdr_ok (r r' : W → B) (h : ∀ a ∈ [cbNewptr, cbNewptr + 1, cbHead, cbHead + 1, cbVarPage, cbNumVars], r' a = hdrRam r a) : Header r r' := by
  simp only [List.mem_cons, List.not_mem_nil, or_false, forall_eq_or_imp, forall_eq] at h
  obtain ⟨h1, h2, h3, h4, h5, h6⟩ := h
  have e : wordAt r' cbHead = wordAt (stoRam r) cbHead := by
    simp only [wordAt]; rw [h3, h4]; simp [hdrRam, upd_app]
  refine ⟨?_, e.trans (sto_head r), ?_, ?_⟩
  · simp only [wordAt]; rw [h1, h2]; simp [hdrRam, stoRam, upd_app]
  · rw [h5, ← sto_head]
    have := (stoRam r cbHead).isLt
    have := (stoRam r (cbHead + 1)).isLt
    have e5 : hdrRam r cbVarPage = stoRam r (cbHead + 1) + 1 := by simp [hdrRam, upd_app]
    rw [e5]
    simp only [wordAt, word_toNat, BitVec.toNat_add]
    simp
    omega
  · rw [h6]; simp [hdrRam, upd_app]

/-- **C67, a program that is not to run** (`reloc_addr` has a high byte): the value is 0, the header is complete, and the vector of BREAK, the jump of the interpreter and `saved_cpu_stack` are those of the editor. -/
theorem C67_saved (m : M) (hc : m.c = false) (hr : m.ram 0x193#16 ≠ 0#8) (sv : B) (kc : Code) (st : List Slot) (hs : m.stk = .byte sv :: .ret kc :: st) :
    ∃ m', Reach cbCode (.lb "cb_2" :: cbCode.cb_2) m kc m' ∧ m'.ax = 0 ∧ m'.stk = st ∧ m'.zp = m.zp ∧ Header m.ram m'.ram ∧
      wordAt m'.ram cbBrkky = wordAt m.ram cbBrkky ∧ m'.ram cbFixup = 0x4C#8 ∧ m'.ram cbSaved = sv := by
  obtain ⟨m1, r1, e1, a1, -, s1, z1⟩ := cb_sto m hc
  obtain ⟨m2, r2, e2, s2, z2⟩ := cb_hdr m1 (by rw [e1]; simpa [stoRam, upd_app] using hr)
  obtain ⟨m3, r3, x3, s3, e3, z3⟩ := cb_rest m2 sv kc st (by rw [s2, s1, hs])
  have e2' : m2.ram = hdrRam m.ram := by
    rw [e2, a1, e1]; simp [hdrRam, stoRam, upd_app]
  refine ⟨m3, r1.trans (r2.trans r3), x3, s3, by rw [z3, z2, z1], hdr_ok _ _ ?_, ?_, ?_, ?_⟩
  · rw [e3, e2']; simp [restRam, upd_app]
  · rw [e3, e2']; simp [wordAt, restRam, hdrRam, stoRam, upd_app]
  · rw [e3]; simp [restRam, upd_app]
  · rw [e3]; simp [restRam, upd_app]

/-- **C67, a program that runs**: the header is complete, BREAK goes to the handler of the compiler, which has the address of the one before, and the screen is cleared with the place of the editor in the stack. -/
theorem C67_run (m : M) (hc : m.c = false) (hr : m.ram 0x193#16 = 0#8) :
    ∃ m', Halts cbCode (.lb "cb_2" :: cbCode.cb_2) m m' ∧ m'.a = 125#8 ∧ m'.zp = m.zp ∧ Header m.ram m'.ram ∧
      wordAt m'.ram cbBrkky = wordAt m.ram cbNew ∧ wordAt m'.ram cbSave = wordAt m.ram cbBrkky ∧
      m'.stk = .ret (.lb "cb_3" :: cbCode.cb_3) :: .byte (m.ram (cbCptr + 1)) :: .byte (m.ram cbCptr) :: .byte m.zp.sptr :: m.stk := by
  obtain ⟨m1, r1, e1, a1, -, s1, z1⟩ := cb_sto m hc
  obtain ⟨m2, r2, x2, e2, s2, z2⟩ := cb_run m1 (by rw [e1]; simpa [stoRam, upd_app] using hr)
  have e2' : m2.ram = hdrRam m.ram := by
    rw [e2, a1, e1]; simp [hdrRam, stoRam, upd_app]
  refine ⟨m2, r1.halts r2, x2, by rw [z2, z1], hdr_ok _ _ (by rw [e2']; simp), ?_, ?_, ?_⟩
  · rw [e2']; simp [wordAt, hdrRam, stoRam, upd_app]
  · rw [e2']; simp [wordAt, hdrRam, stoRam, upd_app]
  · rw [s2, s1, z1, e1]; simp [stoRam, upd_app]

/-- The interpreter gets the end of the program. -/
theorem C67_call (m : M) : ∃ m', Halts cbCode (.lb "cb_3" :: cbCode.cb_3) m m' ∧ m'.ax = wordAt m.ram cbEnd ∧ m'.stk = .ret (.lb "cb_4" :: cbCode.cb_4) :: m.stk ∧ m'.ram = m.ram ∧ m'.zp = m.zp := by
  refine ⟨?_, ⟨5, ?_⟩, ?_⟩
  rotate_left
  · rt_exec [cbCode.cb_3.eq, cbCode.interpreter_run.eq]
    rfl
  · exact ⟨rfl, rfl, rfl, rfl⟩

/-- **C67, after the program**: whatever it did to memory and to the pointers of the interpreter, the editor continues with its own ones, with the value 0; BREAK is what `brkky_save` says, and the jump of the interpreter is again a jump, also if BREAK had ended the program. -/
theorem C67_back (m : M) (h l p sv : B) (kc : Code) (st : List Slot) (hs : m.stk = .byte h :: .byte l :: .byte p :: .byte sv :: .ret kc :: st) :
    ∃ m', Reach cbCode (.lb "cb_4" :: cbCode.cb_4) m kc m' ∧ m'.ax = 0 ∧ m'.stk = st ∧ m'.zp = { m.zp with sptr := p } ∧
      wordAt m'.ram cbCptr = word l h ∧ m'.ram cbPage = 0x3A#8 ∧ wordAt m'.ram cbBrkky = wordAt m.ram cbSave ∧ m'.ram cbFixup = 0x4C#8 ∧ m'.ram cbSaved = sv ∧
      ∀ a, a ∉ [cbCptr, cbCptr + 1, cbPage, cbBrkky, cbBrkky + 1, cbFixup, cbSaved] → m'.ram a = m.ram a := by
  have k : ∃ m', Reach cbCode (.lb "cb_4" :: cbCode.cb_4) m cbCode.cb_rest m' ∧ m'.stk = .byte sv :: .ret kc :: st ∧ m'.zp = { m.zp with sptr := p } ∧
      m'.ram = upd (upd (upd m.ram (cbCptr + 1) h) cbCptr l) cbPage 0x3A := by
    refine ⟨?_, ⟨10, ?_⟩, ?_⟩
    rotate_left
    · rt_exec [cbCode.cb_4.eq, cbCode.cb_rest.eq, hs]
      rfl
    · exact ⟨rfl, rfl, rfl⟩
  obtain ⟨m1, r1, s1, z1, e1⟩ := k
  obtain ⟨m2, r2, x2, s2, e2, z2⟩ := cb_rest m1 sv kc st s1
  refine ⟨m2, r1.trans r2, x2, s2, by rw [z2, z1], ?_, ?_, ?_, ?_, ?_, ?_⟩
  · rw [e2, e1]; simp [wordAt, restRam, upd_app]
  · rw [e2, e1]; simp [restRam, upd_app]
  · rw [e2, e1]; simp [wordAt, restRam, upd_app]
  · rw [e2]; simp [restRam, upd_app]
  · rw [e2]; simp [restRam, upd_app]
  · intro a ha
    simp only [List.mem_cons, List.not_mem_nil, or_false, not_or] at ha
    obtain ⟨h1, h2, h3, h4, h5, h6, h7⟩ := ha
    rw [e2, e1]; simp at h2 h5; simp [restRam, upd_app, h1, h2, h3, h4, h5, h6, h7]

/-- **C67, BREAK**: the handler only turns the jump of the interpreter into a `BIT`. -/
theorem C67_break (m : M) : ∃ m', Halts brkCode brkCode.break_irq m m' ∧ m'.ram = upd m.ram cbFixup 0x2C ∧ m'.stk = m.stk ∧ m'.zp = m.zp ∧ m'.x = m.x ∧ m'.y = m.y := by
  refine ⟨?_, ⟨3, ?_⟩, ?_⟩
  rotate_left
  · rt_exec [brkCode.break_irq.eq]
    rfl
  · exact ⟨rfl, rfl, rfl, rfl, rfl⟩

/-- **C67, the vector is not changed at once** (finding 32): between the two turns of the loop, with interruptions enabled, BREAK goes to an address with the low byte of the new handler and the high byte of the old one. -/
theorem C67_race (m : M) (hc : m.c = false) :
    ∃ m', Reach cbCode (.lb "cb_2" :: cbCode.cb_2) m cbCode.cb_sto m' ∧ m'.x = 0xFF#8 ∧ wordAt m'.ram cbBrkky = word (m.ram cbNew) (m.ram (cbBrkky + 1)) := by
  refine ⟨?_, ⟨14, ?_⟩, ?_⟩
  rotate_left
  · rt_exec [cbCode.cb_2.eq, cbCode.cb_sto.eq, hc, idx, upd_app]
    rfl
  · exact ⟨rfl, by simp [wordAt, upd_app]⟩

/-! ## The command line compiler -/

/-- Its parser is called with `saved_cpu_stack` in the stack, after the allocation with the address from the stack. -/
theorem C67_menu_start (m : M) (lo hi : B) (st : List Slot) (hs : m.stk = .byte hi :: .byte lo :: st) :
    (∃ m', Halts cmCode cmCode.cm_COMPILE_BUFFER m m' ∧ m'.y = hi ∧ m'.a = lo ∧ m'.stk = .ret (.lb "cm_1" :: cmCode.cm_1) :: st ∧ m'.ram = m.ram ∧ m'.zp = m.zp) ∧
    ∀ n : M, ∃ n', Halts cmCode (.lb "cm_1" :: cmCode.cm_1) n n' ∧ n'.stk = .ret (.lb "cm_2" :: cmCode.cm_2) :: .byte (n.ram cbSaved) :: n.stk ∧ n'.ram = n.ram ∧ n'.zp = n.zp := by
  constructor
  · refine ⟨?_, ⟨5, ?_⟩, ?_⟩
    rotate_left
    · rt_exec [cmCode.cm_COMPILE_BUFFER.eq, cmCode.cm_alloc_init.eq, hs]
      rfl
    · exact ⟨rfl, rfl, rfl, rfl, rfl⟩
  · intro n
    refine ⟨?_, ⟨5, ?_⟩, ?_⟩
    rotate_left
    · rt_exec [cmCode.cm_1.eq, cmCode.cm_parser.eq]
      rfl
    · exact ⟨rfl, rfl, rfl⟩

/-- **C67, the command line compiler**: with an error the value is `$FEFE` and only `saved_cpu_stack` is written; else the value is 0, the header is complete, and no other cell changes. -/
theorem C67_menu (m : M) (sv : B) (kc : Code) (st : List Slot) (hs : m.stk = .byte sv :: .ret kc :: st) :
    ∃ m', Reach cmCode (.lb "cm_2" :: cmCode.cm_2) m kc m' ∧ m'.stk = st ∧ m'.zp = m.zp ∧ m'.ram cbSaved = sv ∧
      (m.c = true → m'.ax = 0xFEFE ∧ ∀ a, a ≠ cbSaved → m'.ram a = m.ram a) ∧
      (m.c = false → m'.ax = 0 ∧ Header m.ram m'.ram ∧
        ∀ a, a ∉ [cbNewptr, cbNewptr + 1, cbHead, cbHead + 1, cbVarPage, cbNumVars, cbSaved] → m'.ram a = m.ram a) := by
  cases hc : m.c
  · have k : ∃ m', Reach cmCode (.lb "cm_2" :: cmCode.cm_2) m kc m' ∧ m'.stk = st ∧ m'.zp = m.zp ∧ m'.a = 0#8 ∧ m'.x = 0#8 ∧
        m'.ram = upd (upd (upd (upd (upd (upd (upd m.ram cbNewptr (m.ram cbProg)) cbHead (stoRam m.ram cbHead)) (cbNewptr + 1) (m.ram 0x191)) (cbHead + 1) (stoRam m.ram (cbHead + 1)))
          cbVarPage (stoRam m.ram (cbHead + 1) + 1)) cbNumVars (m.ram cbCount)) cbSaved sv := by
      refine ⟨?_, ⟨27, ?_⟩, ?_⟩
      rotate_left
      · rt_exec [cmCode.cm_2.eq, cmCode.cm_sto.eq, cmCode.cm_hdr.eq, cmCode.cm_end.eq, hc, hs, idx, upd_app]
        rfl
      · exact ⟨rfl, rfl, rfl, rfl, by simp [stoRam, upd_app]⟩
    obtain ⟨m', r, s, z, a, x, e⟩ := k
    refine ⟨m', r, s, z, by rw [e]; simp [upd_app], fun h => by simp at h, fun _ => ⟨by simp [M.ax, a, x, word], hdr_ok _ _ ?_, ?_⟩⟩
    · rw [e]; simp [hdrRam, stoRam, upd_app]
    · intro b hb
      simp only [List.mem_cons, List.not_mem_nil, or_false, not_or] at hb
      obtain ⟨h1, h2, h3, h4, h5, h6, h7⟩ := hb
      simp at h2 h4
      rw [e]; simp [upd_app, h1, h2, h3, h4, h5, h6, h7]
  · have k : ∃ m', Reach cmCode (.lb "cm_2" :: cmCode.cm_2) m kc m' ∧ m'.ax = 0xFEFE ∧ m'.stk = st ∧ m'.ram = upd m.ram cbSaved sv ∧ m'.zp = m.zp := by
      refine ⟨?_, ⟨7, ?_⟩, ?_⟩
      rotate_left
      · rt_exec [cmCode.cm_2.eq, cmCode.cm_end.eq, hc, hs]
        rfl
      · exact ⟨by simp [M.ax, word], rfl, rfl, rfl⟩
    obtain ⟨m', r, x, s, e, z⟩ := k
    refine ⟨m', r, s, z, by rw [e]; simp [upd_app], fun _ => ⟨x, fun b hb => by rw [e]; simp [upd_app, hb]⟩, fun h => by simp at h⟩

/-! ## Examples -/

/-- A program at `$3A80`, with relocation `$E590`, three variables and the BREAK of the OS at `$E754`. -/
def exCb (r : W → B) : W → B :=
  upd (upd (upd (upd (upd (upd (upd r cbBrkky 0x54) (cbBrkky + 1) 0xE7) cbProg 0x80) 0x191 0x3A) cbReloc 0x90) 0x193 0xE5) cbCount 3

/-- A program that BREAK ended (the jump is a `BIT`) after it changed `sptr`: the editor gets its own `sptr`, place and BREAK. -/
example (m : M) (kc : Code) (hs : m.stk = [.byte 0x21, .byte 0x43, .byte 0x28, .byte 0xF0, .ret kc]) (hm : m.ram = upd (upd (upd (fun _ => 0) cbSave 0x54) (cbSave + 1) 0xE7) cbFixup 0x2C) :
    ∃ m', Reach cbCode (.lb "cb_4" :: cbCode.cb_4) m kc m' ∧ m'.zp.sptr = 0x28#8 ∧ wordAt m'.ram cbCptr = 0x2143#16 ∧ wordAt m'.ram cbBrkky = 0xE754#16 ∧ m'.ram cbFixup = 0x4C#8 := by
  obtain ⟨m', r, -, -, z, c, -, b, f, -⟩ := C67_back m 0x21 0x43 0x28 0xF0 kc [] hs
  refine ⟨m', r, by rw [z]; rfl, by rw [c]; simp [word], ?_, f⟩
  rw [b, hm]; simp [wordAt, upd_app, word]

/-- The BREAK of the OS at `$E754` and the new handler at `$3B12`: between the two turns BREAK goes to `$E712`. -/
example (m : M) (hc : m.c = false) (hm : m.ram = upd (upd (exCb (fun _ => 0)) cbNew 0x12) (cbNew + 1) 0x3B) :
    ∃ m', Reach cbCode (.lb "cb_2" :: cbCode.cb_2) m cbCode.cb_sto m' ∧ wordAt m'.ram cbBrkky = 0xE712#16 := by
  obtain ⟨m', r, -, e⟩ := C67_race m hc
  exact ⟨m', r, by rw [e, hm]; simp [exCb, upd_app, word]⟩

/-- With a relocation of 0 the same program is run, from the page after it. -/
example (m : M) (hc : m.c = false) (hm : m.ram = upd (upd (exCb (fun _ => 0)) cbReloc 0) 0x193 0) :
    ∃ m', Halts cbCode (.lb "cb_2" :: cbCode.cb_2) m m' ∧ m'.a = 125#8 ∧ wordAt m'.ram cbHead = 0x3A80#16 ∧ wordAt m'.ram cbSave = 0xE754#16 := by
  obtain ⟨m', r, a, -, h, -, b, -⟩ := C67_run m hc (by rw [hm]; simp [upd_app])
  refine ⟨m', r, a, ?_, ?_⟩
  · rw [h.head, hm]; simp [wordAt, exCb, upd_app, word]
  · rw [b, hm]; simp [wordAt, exCb, upd_app, word]

/-! Example: a program at `$3A80` of the editor, to run from `$2010` when loaded: the relocation is negative, and there is a carry between the bytes -/

example (m : M) (hc : m.c = false) (kc : Code) (st : List Slot) (hs : m.stk = .byte 0xF0 :: .ret kc :: st) (hm : m.ram = exCb (fun _ => 0)) :
    ∃ m', Reach cbCode (.lb "cb_2" :: cbCode.cb_2) m kc m' ∧ wordAt m'.ram cbHead = 0x2010#16 ∧ m'.ram cbVarPage = 0x21#8 ∧ wordAt m'.ram cbBrkky = 0xE754#16 := by
  obtain ⟨m', r, -, -, -, h, b, -, -⟩ := C67_saved m hc (by rw [hm]; simp [exCb, upd_app]) 0xF0 kc st hs
  refine ⟨m', r, ?_, ?_, ?_⟩
  · rw [h.head, hm]; simp [wordAt, exCb, upd_app, word]
  · apply BitVec.eq_of_toNat_eq
    rw [h.page, hm]; simp [wordAt, exCb, upd_app, word]
  · rw [b, hm]; simp [wordAt, exCb, upd_app, word]

/-- The same program in the command line compiler. -/
example (m : M) (hc : m.c = false) (kc : Code) (st : List Slot) (hs : m.stk = .byte 0xF0 :: .ret kc :: st) (hm : m.ram = exCb (fun _ => 0)) :
    ∃ m', Reach cmCode (.lb "cm_2" :: cmCode.cm_2) m kc m' ∧ wordAt m'.ram cbHead = 0x2010#16 ∧ m'.ram cbBrkky = 0x54#8 := by
  obtain ⟨m', r, -, -, -, -, h⟩ := C67_menu m 0xF0 kc st hs
  obtain ⟨-, h, b⟩ := h hc
  refine ⟨m', r, ?_, ?_⟩
  · rw [h.head, hm]; simp [wordAt, exCb, upd_app, word]
  · rw [b _ (by simp), hm]; simp [exCb, upd_app]

end FB.Rt
