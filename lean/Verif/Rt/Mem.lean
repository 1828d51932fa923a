import Verif.Rt.For
/-!
# `MOVE`, `-MOVE`, `MSET` and the allocation of memory

Transcription of `/repo/src/interp/{move,nmove,mset,clearmem,copystr}.asm`, of `/repo/src/alloc.asm` and of `move_loop` in
`/repo/src/interpreter.asm`.  Local labels carry a prefix; the anonymous labels have names.
-/
namespace FB.Rt
open Ins Opd

/-- `move_loop`, `interpreter.asm:121-128`. The operands of `lda` and `sta`, and the opcode of `dey`, are cells. -/
def moveLoop : Code :=
  asm!["move_loop", lda (indY .msrc .msrch), sta (indY .mdst .mdsth), mod .mins, Ins.bne "move_loop", rts]

/-- `next_ins_incsp_2`, `for_exit.asm:41-44`. -/
def incsp2 : Code := asm!["next_ins_incsp_2", inc (zp .sptr), nextIncsp]

/-- `move_get_ptr`, `nmove.asm:46-58`. -/
def moveGetPtr : Code :=
  asm!["move_get_ptr", pha, lda (stkL 0), sta (zp .mdst), lda (stkH 0), sta (zp .mdsth),
   lda (stkL 1), sta (zp .msrc), lda (stkH 1), sta (zp .msrch), pla, rts]

/-- `EXE_MOVE`, `move.asm:37-82`. -/
def moveUp : Code :=
  asm!["EXE_MOVE", jsr "move_get_ptr", inx, tay, clc, adc (zp .msrc), sta (zp .msrc), bcs "mv_1", dec (zp .msrch),
   "mv_1", tya, clc, adc (zp .mdst), sta (zp .mdst), bcs "mv_2", dec (zp .mdsth),
   "mv_2", lda (imm 0xC8), sta (zp .mins), tya, beq "mv_cpage", eor (imm 0xFF), tay, iny,
   "mv_cloop", jsr "move_loop",
   "mv_cpage", inc (zp .msrch), inc (zp .mdsth), dex, Ins.bne "mv_cloop",
   lda (imm 0x88), sta (zp .mins), jmp "next_ins_incsp_2"]

/-- `EXE_NMOVE` and `move_dwn`, `nmove.asm:40-44,61-141`. -/
def moveDwn : Code :=
  asm!["EXE_NMOVE", jsr "move_get_ptr", jsr "move_dwn", jmp "next_ins_incsp_2",
   "move_dwn", clc, sta (zp .tmp3), txa, adc (zp .tmp3), tay, bcc "md_1", inx, iny,
   "md_1", beq "md_xit", stx (zp .tmp3), dex,
   clc, lda (zp .msrc), sbc (zp .tmp3), sta (zp .msrc), txa, adc (zp .msrch), sta (zp .msrch),
   clc, lda (zp .mdst), sbc (zp .tmp3), sta (zp .mdst), txa, adc (zp .mdsth), sta (zp .mdsth),
   inx, inx,
   "md_cloop", jsr "move_loop",
   "md_next", inc (zp .msrc), beq "md_2", dec (zp .msrch),
   "md_2", inc (zp .mdst), beq "md_3", dec (zp .mdsth),
   "md_3", dey, dex, Ins.bne "md_cloop",
   "md_xit", rts]

/-- `alloc_array`, `mem_set_0` and `mem_set`, `clearmem.asm:89-136`, and `err_nomem`, `clearmem.asm:145-148`;
`alloc_size` is `tmp1`, and `MEMTOP` is at `$2E5` (`a800/target.inc`). -/
def memSet : Code :=
  asm!["alloc_array", sta (zp .tmp1), stx (zp .tmp1h),
   lda (zp .arr), sta (zp .mdst), clc, adc (zp .tmp1), sta (zp .arr), tay,
   lda (zp .arrh), sta (zp .mdsth), adc (zp .tmp1h), sta (zp .arrh), bcs "err_nomem",
   cpy (abs 0x2E5), sbc (abs 0x2E6), bcs "err_nomem",
   "mem_set_0", ldy (imm 0),
   "mem_set", txa, clc, adc (zp .mdsth), sta (zp .mdsth), tya, inx, ldy (zp .tmp1), beq "ms_nxt", Ins.bne "ms_loop",
   "ms_pgloop", dec (zp .mdsth),
   "ms_loop", dey, sta (indY .mdst .mdsth), Ins.bne "ms_loop",
   "ms_nxt", dex, Ins.bne "ms_pgloop", rts,
   "err_nomem", fail]

/-- `EXE_MSET`, `mset.asm:35-50`. -/
def mset : Code :=
  asm!["EXE_MSET", ldx (stkL 1), stx (zp .mdst), ldx (stkH 1), stx (zp .mdsth), ldx (stkL 0), stx (zp .tmp1), ldx (stkH 0),
   tay, jsr "mem_set", jmp "next_ins_incsp_2"]

/-- `get_pointers`, `EXE_COPY_STR`, `EXE_CAT_STR`, `copystr.asm:38-109`. -/
def copyStr : Code :=
  asm!["get_pointers", sta (zp .msrc), stx (zp .msrch), ldy (imm 1), lda (indY .saddr .saddrh), beq "gp_alloc",
   sta (zp .mdsth), dey, lda (indY .saddr .saddrh), sta (zp .mdst), rts,
   "gp_alloc", lda (zp .arrh), sta (indY .saddr .saddrh), dey, lda (zp .arr), sta (indY .saddr .saddrh), tya, ldx (imm 1),
   jmp "alloc_array",
   "EXE_COPY_STR", jsr "get_pointers", lda (indY .msrc .msrch), sta (indY .mdst .mdsth), tay, beq "cs_xit",
   "cs_cloop", jsr "move_loop",
   "cs_xit", next,
   "EXE_CAT_STR", jsr "get_pointers", lda (indY .mdst .mdsth), sta (zp .tmp1), clc, adc (indY .msrc .msrch), bcc "ct_ok",
   lda (imm 255),
   "ct_ok", sta (indY .mdst .mdsth), sec, sbc (zp .tmp1), beq "cs_xit", tay, lda (zp .tmp1), clc, adc (zp .mdst), sta (zp .mdst),
   bcc "cs_cloop", inc (zp .mdsth), bcs "cs_cloop"]

/-- The pointers of the compiler in page zero, two bytes each (`memptr.asm:30-48`), then `save_x` (`alloc.asm:72`) and `opos`
(`parse.asm:57`).  The addresses are chosen by the linker; these are arbitrary. -/
abbrev endPtr : W := 0xA0
abbrev memStart : W := 0xA2
abbrev memEnd : W := 0xAA
abbrev saveX : W := 0xAC
abbrev oPos : W := 0xAD

/-- `alloc_prog`, `alloc_laddr`, `alloc_area_8` and `parser_alloc_init`, `alloc.asm:86-180`; these run in the native compiler, where the
runtime is present too.  The byte `$2C` that skips the instruction at `alloc_laddr` is written as a jump. -/
def allocArea : Code :=
  asm!["alloc_prog", lda (abs oPos), ldx (imm 0), stx (abs oPos), jmp "alloc_area_8",
   "alloc_laddr", ldx (imm 8),
   "alloc_area_8", sta (zp .tmp1), clc, adc (abs memEnd), tay, lda (imm 0), adc (abs (memEnd + 1)),
   cpy (abs 0x2E5), sbc (abs 0x2E6), bcc "aa_ok", jmp "err_nomem",
   "aa_ok", stx (abs saveX), lda (absX memStart), sta (zp .msrc), adc (zp .tmp1), sta (zp .mdst),
   lda (absX (memStart + 1)), sta (zp .msrch), adc (imm 0), sta (zp .mdsth),
   lda (abs memEnd), sec, sbc (absX memStart), pha, lda (abs (memEnd + 1)), sbc (absX (memStart + 1)), tax, pla,
   jsr "move_dwn",
   "aa_ret", ldx (abs saveX),
   "aa_loop", clc, lda (absX memStart), adc (zp .tmp1), sta (absX memStart), bcc "aa_skip", inc (absX (memStart + 1)),
   "aa_skip", inx, inx, cpx (imm 10), Ins.bne "aa_loop", rts,
   "parser_alloc_init", ldx (imm 10), iny,
   "pai_loop", sta (absX endPtr), sty (absX (endPtr + 1)), dex, dex, bpl "pai_loop",
   dec (abs (memStart + 1)), dec (abs (endPtr + 1)), rts]

/-- `var_count` and `label_count` (`parse.asm:61-62`), in page zero. -/
abbrev varCount : W := 0xAE
abbrev lblCount : W := 0xAF

/-- `vars.asm:57-240`, in the version with floating point, and the ROM routine `SKBLANK` that it calls (`parser_skipws`; from the published
listing of the OS).  The byte `$2C` that skips the two `pla` is written as a jump, and the two `pla` as `dropRet`.  In the version without
floating point the four instructions between `ls_next` and `ls_nofloat` do not exist. -/
def names : Code :=
  asm!["check_char", cmp (imm 0x30), bcc "ret_sec", cmp (imm 0x3A), bcc "cc_exit",
   "cc_first", cmp (imm 0x5F), beq "ret_clc", sbc (imm 0x40), cmp (imm 26),
   "cc_exit", rts,
   "label_search", ldy (abs lblCount), ldx (imm 4), Ins.bne "list_search",
   "var_search", ldx (imm 2), ldy (abs varCount),
   "list_search", sty (zp .scnt), lda (absX memStart), sta (zp .vr), lda (absX (memStart + 1)), sta (zp .vrh), jsr "var_getlen",
   "ls_1", ldx (imm 0xFF), Ins.bne "ls_start",
   "ls_loop", ldy (imm 0),
   "ls_cmp", lda (indY .vr .vrh), eor (indY .nam .namh), asl acc, Ins.bne "ls_skip", iny, bcc "ls_cmp",
   "ls_end", cpy (zp .vlen), Ins.bne "ls_next",
   lda (indY .vr .vrh),
   "ret_clc", clc, rts,
   "ls_skip", lda (indY .vr .vrh), asl acc, iny, bcc "ls_skip",
   "ls_next", lda (indY .vr .vrh), bpl "ls_nofloat", inx, inx,
   "ls_nofloat", tya, sec, adc (zp .vr), sta (zp .vr), bcc "ls_start", inc (zp .vrh),
   "ls_start", inx, cpx (zp .scnt), Ins.bne "ls_loop",
   "ret_sec", sec, rts,
   "var_getlen", jsr "skip_ws",
   "vg_1", lda (indY .inb .inbh), jsr "cc_first",
   "vg_2", tya, ldy (imm 0), bcs "vg_drop", adc (zp .inb), sta (zp .nam), lda (zp .inbh), adc (imm 0), sta (zp .namh),
   "vg_next", inc (zp .cix), iny, lda (indY .nam .namh), jsr "check_char",
   "vg_3", bcc "vg_next", cmp (imm 0x2E), beq "vg_drop", jmp "vg_end",
   "vg_drop", dropRet,
   "vg_end", sty (zp .vlen), sec, rts,
   "name_new", lda (absX memStart), sta (zp .vr), lda (absX (memStart + 1)), sta (zp .vrh), lda (zp .vlen), beq "vg_drop", clc, adc (imm 1),
   jsr "alloc_area_8",
   "nn_1", ldy (zp .vlen), lda (imm 0), sta (indY .vr .vrh), dey, lda (imm 0x80),
   "nn_loop", ora (indY .nam .namh), sta (indY .vr .vrh), lda (imm 0), dey, bpl "nn_loop", rts,
   "skip_ws", ldy (zp .cix), lda (imm 0x20),
   "sw_1", cmp (indY .inb .inbh), Ins.bne "sw_2", iny, Ins.bne "sw_1",
   "sw_2", sty (zp .cix), rts]

/-- `last_label_num` (`actions.asm`). -/
def lastLabel : W := 0xB0

/-- `E_VAR_CREATE` up to the byte that is emitted, which is in `A` (`actions.asm:333-350`), and `E_LABEL_CREATE` (`actions.asm:580-593`).  The jump to
`parser_emit_byte` is a return here: the output of the compiler is not part of this model. -/
def create : Code :=
  asm!["var_create", jsr "var_search",
   "vc_1", bcc "vc_found", ldx (imm 4), jsr "name_new",
   "vc_2", ldx (abs varCount), inc (abs varCount), txa, clc, rts,
   "vc_found", sec, rts,
   "label_create", jsr "label_search",
   "lc_1", stx (abs lastLabel), bcc "lc_ret", ldx (imm 6), jsr "name_new",
   "lc_2", inc (abs lblCount), clc,
   "lc_ret", rts]

/-- `ucase_line`, `parse.asm:219-258`, with the ROM routine `INTLBUF`, which sets `INBUFF` to `LBUFF` ($580). -/
def ucase : Code :=
  asm!["ucase_line", jsr "int_lbuf",
   "uc_1", ldy (imm 0xFF),
   "uc_loop", iny, lda (indY .bufp .bufph),
   "uc_redo", sta (indY .inb .inbh), cmp (imm 0x9B), beq "uc_end", cmp (imm 0x22), Ins.bne "uc_skip", txa, eor (imm 1), tax,
   "uc_skip", cpx (imm 1), beq "uc_loop", sbc (imm 0x60), cmp (imm 26), bcs "uc_loop", adc (imm 0x41), bcc "uc_redo",
   "uc_end", tya, adc (zp .bufp), sta (zp .bufp), bcc "uc_done", inc (zp .bufph),
   "uc_done", lda (imm 0), rts,
   "int_lbuf", lda (imm 5), sta (zp .inbh), lda (imm 0x80), sta (zp .inb), rts]

/-- All the routines of this file. -/
def memCode : Code := moveUp ++ moveDwn ++ moveGetPtr ++ mset ++ memSet ++ copyStr ++ moveLoop ++ incsp2 ++ allocArea ++ names ++ create ++ ucase

set_option maxRecDepth 10000 in
code_labels memCode

/-! ## Specification: loops over bytes -/

/-- `for i = 0 to n-1: mem[d+i] = mem[s+i]`, one byte after another. -/
def copyUp (s d : W) : Nat → (W → B) → W → B
  | 0, r => r
  | n + 1, r => copyUp (s + 1) (d + 1) n (upd r d (r s))

/-- `for i = n-1 downto 0: mem[d+i] = mem[s+i]`. -/
def copyDown (s d : W) : Nat → (W → B) → W → B
  | 0, r => r
  | n + 1, r => copyDown s d n (upd r (d + BitVec.ofNat 16 n) (r (s + BitVec.ofNat 16 n)))

/-- Memory with the value `v` in the `n` bytes from `d` on. -/
def fill (d : W) (n : Nat) (v : B) (r : W → B) : W → B := fun a => if (a - d).toNat < n then v else r a

theorem copyUp_add (a b : Nat) (s d : W) (r : W → B) :
    copyUp s d (a + b) r = copyUp (s + BitVec.ofNat 16 a) (d + BitVec.ofNat 16 a) b (copyUp s d a r) := by
  induction a generalizing s d r with
  | zero => simp [copyUp]
  | succ a ih =>
    rw [Nat.succ_add, copyUp, ih, copyUp]
    have e : ∀ w : W, w + 1 + BitVec.ofNat 16 a = w + BitVec.ofNat 16 (a + 1) := by intro w; bv_omega
    rw [e, e]

theorem copyDown_add (a b : Nat) (s d : W) (r : W → B) :
    copyDown s d (a + b) r = copyDown s d a (copyDown (s + BitVec.ofNat 16 a) (d + BitVec.ofNat 16 a) b r) := by
  induction b generalizing r with
  | zero => simp [copyDown]
  | succ b ih =>
    rw [← Nat.add_assoc, copyDown, ih, copyDown]
    have e : ∀ w : W, w + BitVec.ofNat 16 (a + b) = w + BitVec.ofNat 16 a + BitVec.ofNat 16 b := by intro w; bv_omega
    rw [e, e]

/-! ## The copy loop -/

theorem loop_up (n : Nat) (m : M) (k : Code) (s : List Slot) (hn : m.y.toNat + n = 255) (hs : m.stk = .ret k :: s) (hi : m.zp.mins = 0xC8) :
    ∃ a b, Reach memCode memCode.move_loop m k
      { m with a := a, y := 0, z := true, n := b, stk := s
               ram := copyUp (idx (word m.zp.msrc m.zp.msrch) m.y) (idx (word m.zp.mdst m.zp.mdsth) m.y) (n + 1) m.ram } := by
  induction n generalizing m with
  | zero =>
    have hy : m.y = 255 := BitVec.eq_of_toNat_eq (by simpa using hn)
    have hy' : m.y + 1#8 = 0#8 := by rw [hy]; rfl
    refine ⟨m.ram (idx (word m.zp.msrc m.zp.msrch) m.y), false, 5, ?_⟩
    rt_exec [memCode.move_loop.eq, hs, hi, hy', copyUp]
  | succ n ih =>
    have hy' : m.y + 1#8 ≠ 0#8 := by bv_omega
    obtain ⟨m1, r1, e1⟩ : ∃ m1, Reach memCode memCode.move_loop m memCode.move_loop m1 ∧ m1 = { m with
        a := m.ram (idx (word m.zp.msrc m.zp.msrch) m.y), y := m.y + 1, z := false, n := topBit (m.y + 1),
        ram := upd m.ram (idx (word m.zp.mdst m.zp.mdsth) m.y) (m.ram (idx (word m.zp.msrc m.zp.msrch) m.y)) } := by
      refine ⟨_, ⟨4, ?_⟩, rfl⟩
      rt_exec [memCode.move_loop.eq, hs, hi, hy']
    · obtain ⟨a, b, r⟩ := ih m1 (by rw [e1]; bv_omega) (by rw [e1]; exact hs) (by rw [e1]; exact hi)
      subst e1
      refine ⟨a, b, ?_⟩
      have r2 := r1.trans r
      have e : ∀ w : W, idx w (m.y + 1) = idx w m.y + 1 := by
        intro w; simp only [idx]; bv_omega
      simp only [e] at r2
      exact r2

theorem loop_down (n : Nat) (m : M) (k : Code) (s : List Slot) (hn : m.y.toNat = n + 1) (hs : m.stk = .ret k :: s) (hi : m.zp.mins = 0x88) :
    ∃ a b, Reach memCode memCode.move_loop m k
      { m with a := a, y := 0, z := true, n := b, stk := s
               ram := copyDown (word m.zp.msrc m.zp.msrch + 1) (word m.zp.mdst m.zp.mdsth + 1) (n + 1) m.ram } := by
  induction n generalizing m with
  | zero =>
    have hy : m.y = 1 := BitVec.eq_of_toNat_eq (by simpa using hn)
    refine ⟨m.ram (idx (word m.zp.msrc m.zp.msrch) m.y), false, 5, ?_⟩
    rt_exec [memCode.move_loop.eq, hs, hi, hy, copyDown, idx1]
  | succ n ih =>
    have hy' : m.y - 1#8 ≠ 0#8 := by bv_omega
    obtain ⟨m1, r1, e1⟩ : ∃ m1, Reach memCode memCode.move_loop m memCode.move_loop m1 ∧ m1 = { m with
        a := m.ram (idx (word m.zp.msrc m.zp.msrch) m.y), y := m.y - 1, z := false, n := topBit (m.y - 1),
        ram := upd m.ram (idx (word m.zp.mdst m.zp.mdsth) m.y) (m.ram (idx (word m.zp.msrc m.zp.msrch) m.y)) } := by
      refine ⟨_, ⟨4, ?_⟩, rfl⟩
      rt_exec [memCode.move_loop.eq, hs, hi, hy']
    · obtain ⟨a, b, r⟩ := ih m1 (by rw [e1]; bv_omega) (by rw [e1]; exact hs) (by rw [e1]; exact hi)
      subst e1
      refine ⟨a, b, ?_⟩
      have r2 := r1.trans r
      have e : ∀ w : W, idx w m.y = w + 1 + BitVec.ofNat 16 (n + 1) := by
        intro w; simp only [idx]; rw [hn]; bv_omega
      rw [copyDown, ← e, ← e]
      exact r2

/-! ## `MOVE` -/

/-- What the program can observe is as before, except for `AX` and memory, which is `r`; two entries are dropped. -/
structure Moved (m m' : M) (r : W → B) : Prop where
  stk : m'.stk = m.stk
  sl : m'.sl = m.sl
  sh : m'.sh = m.sh
  ram : m'.ram = r
  sptr : m'.zp.sptr = m.zp.sptr + 2
  saddr : m'.zp.saddr = m.zp.saddr
  saddrh : m'.zp.saddrh = m.zp.saddrh
  arr : m'.zp.arr = m.zp.arr
  arrh : m'.zp.arrh = m.zp.arrh
  mins : m'.zp.mins = m.zp.mins

/-- The pages that are left, from `cpage` on: `X - 1` times 256 bytes. -/
theorem move_pages (n : Nat) (m : M) (hx : (m.x - 1).toNat = n) (hy : m.y = 0) (hi : m.zp.mins = 0xC8) (r0 : M) (h0 : r0.zp.mins = 0x88)
    (k1 : m.stk = r0.stk) (k2 : m.sl = r0.sl) (k3 : m.sh = r0.sh) (k4 : m.zp.sptr = r0.zp.sptr) (k5 : m.zp.saddr = r0.zp.saddr)
    (k6 : m.zp.saddrh = r0.zp.saddrh) (k7 : m.zp.arr = r0.zp.arr) (k8 : m.zp.arrh = r0.zp.arrh) :
    ∃ m', Halts memCode memCode.mv_cpage m m' ∧
      Moved r0 m' (copyUp (word m.zp.msrc m.zp.msrch + 256) (word m.zp.mdst m.zp.mdsth + 256) (256 * n) m.ram) := by
  have w256 : ∀ l h : B, word l (h + 1) = word l h + 256 := by
    intro l h; have := l.isLt; have := h.isLt; apply BitVec.eq_of_toNat_eq; simp; omega
  induction n generalizing m with
  | zero =>
    have hx1 : m.x = 1 := by bv_omega
    refine ⟨?_, ⟨20, ?_⟩, ?_⟩
    rotate_left
    · rt_exec [memCode.mv_cpage.eq, memCode.next_ins_incsp_2.eq, hx1]
      rfl
    · refine ⟨k1, k2, k3, rfl, ?_, k5, k6, k7, k8, h0.symm⟩
      simp [k4]; bv_omega
  | succ n ih =>
    have hx1 : m.x - 1#8 ≠ 0#8 := by bv_omega
    obtain ⟨m1, r1, e1⟩ : ∃ m1, Reach memCode memCode.mv_cpage m memCode.move_loop m1 ∧ m1 =
        { m with x := m.x - 1, z := false, n := topBit (m.x - 1), zp := { m.zp with msrch := m.zp.msrch + 1, mdsth := m.zp.mdsth + 1 },
                 stk := .ret (.lb "mv_cpage" :: memCode.mv_cpage) :: m.stk } := by
      refine ⟨_, ⟨5, ?_⟩, rfl⟩
      rt_exec [memCode.mv_cpage.eq, memCode.mv_cloop.eq, hx1]
    obtain ⟨a, b, r2⟩ := loop_up 255 m1 _ _ (by rw [e1]; simp [hy]) (by rw [e1]) (by rw [e1]; exact hi)
    have r3 := (r1.trans r2).trans ⟨1, rfl⟩
    subst e1
    generalize hm2 : M.mk _ _ _ _ _ _ _ _ _ _ _ _ _ _ = m2 at r3
    obtain ⟨m', h, k⟩ := ih m2 (by rw [← hm2]; simp only; bv_omega) (by rw [← hm2]) (by rw [← hm2]; exact hi) (by rw [← hm2]; exact k1)
      (by rw [← hm2]; exact k2) (by rw [← hm2]; exact k3) (by rw [← hm2]; exact k4)
      (by rw [← hm2]; exact k5) (by rw [← hm2]; exact k6) (by rw [← hm2]; exact k7) (by rw [← hm2]; exact k8)
    refine ⟨m', r3.halts h, ?_⟩
    refine Eq.subst (motive := Moved r0 m') ?_ k
    rw [show 256 * (n + 1) = 256 + 256 * n by ring, copyUp_add, ← hm2]
    have i0 : ∀ w, idx w 0 = w := idx0
    simp only [w256, hy, i0]
    rfl

/-- Adding the low byte of the length to a pointer and going back a page. -/
theorem back_page (a l h : B) : word (add8 a l false) (if addC a l false then h else h - 1) = word l h + BitVec.ofNat 16 a.toNat - 256 := by
  have := a.isLt; have := l.isLt; have := h.isLt
  apply BitVec.eq_of_toNat_eq
  by_cases c : 256 ≤ a.toNat + l.toNat
  · have : addC a l false = true := by simp [addC]; omega
    simp [this, BitVec.toNat_sub]; omega
  · have : addC a l false = false := by simp [addC]; omega
    simp [this, BitVec.toNat_sub]; omega

/-- Start of `MOVE`, up to the copy of the first bytes. -/
theorem move_start (m : M) (he : Entry m) (hi : m.zp.mins = 0x88) : ∃ m1, Reach memCode memCode.EXE_MOVE m memCode.mv_2 m1 ∧
    m1.x = m.x + 1 ∧ m1.y = m.a ∧ m1.stk = m.stk ∧ m1.sl = m.sl ∧ m1.sh = m.sh ∧ m1.ram = m.ram ∧ m1.zp.sptr = m.zp.sptr ∧
    m1.zp.saddr = m.zp.saddr ∧ m1.zp.saddrh = m.zp.saddrh ∧ m1.zp.arr = m.zp.arr ∧ m1.zp.arrh = m.zp.arrh ∧
    word m1.zp.msrc m1.zp.msrch = m.stkAt 1 + BitVec.ofNat 16 m.a.toNat - 256 ∧
    word m1.zp.mdst m1.zp.mdsth = m.stkAt 0 + BitVec.ofNat 16 m.a.toNat - 256 := by
  have e0 : m.stkAt 0 = word (m.sl m.y) (m.sh m.y) := stkAt0 he
  have e1 : m.stkAt 1 = word (m.sl (m.y + 1#8)) (m.sh (m.y + 1#8)) := stkAt_y he 1
  rw [e0, e1, ← back_page, ← back_page]
  cases h1 : addC m.a (m.sl (m.y + 1#8)) false <;> cases h2 : addC m.a (m.sl m.y) false
  · refine ⟨?_, ⟨23 + 4, ?_⟩, ?_⟩
    rotate_left
    · rt_exec [memCode.EXE_MOVE.eq, memCode.move_get_ptr.eq, memCode.mv_1.eq, h1, h2]
      rfl
    · exact ⟨rfl, rfl, rfl, rfl, rfl, rfl, rfl, rfl, rfl, rfl, rfl, rfl, rfl⟩
  · refine ⟨?_, ⟨23 + 2, ?_⟩, ?_⟩
    rotate_left
    · rt_exec [memCode.EXE_MOVE.eq, memCode.move_get_ptr.eq, memCode.mv_1.eq, h1, h2]
      rfl
    · exact ⟨rfl, rfl, rfl, rfl, rfl, rfl, rfl, rfl, rfl, rfl, rfl, rfl, rfl⟩
  · refine ⟨?_, ⟨23 + 2, ?_⟩, ?_⟩
    rotate_left
    · rt_exec [memCode.EXE_MOVE.eq, memCode.move_get_ptr.eq, memCode.mv_1.eq, h1, h2]
      rfl
    · exact ⟨rfl, rfl, rfl, rfl, rfl, rfl, rfl, rfl, rfl, rfl, rfl, rfl, rfl⟩
  · refine ⟨?_, ⟨23, ?_⟩, ?_⟩
    rotate_left
    · rt_exec [memCode.EXE_MOVE.eq, memCode.move_get_ptr.eq, memCode.mv_1.eq, h1, h2]
      rfl
    · exact ⟨rfl, rfl, rfl, rfl, rfl, rfl, rfl, rfl, rfl, rfl, rfl, rfl, rfl⟩

theorem neg_byte (y : B) : (y ^^^ 255#8) + 1#8 = 0#8 - y := by
  have := y.isLt
  apply BitVec.eq_of_toNat_eq
  rw [BitVec.toNat_add, xorFF, BitVec.toNat_sub]; simp; omega

theorem first_bytes (w : W) (a : B) (h : a.toNat ≠ 0) : idx (w + BitVec.ofNat 16 a.toNat - 256) (0 - a) = w := by
  have ha := a.isLt; have hw := w.isLt
  have e : (0 - a).toNat = 256 - a.toNat := by simp [BitVec.toNat_neg]; omega
  rw [idx, e]
  apply BitVec.eq_of_toNat_eq
  simp [BitVec.toNat_sub]; omega

/-- `MOVE source, destination, length`. -/
theorem move_correct (m : M) (he : Entry m) (hi : m.zp.mins = 0x88) : ∃ m', Halts memCode memCode.EXE_MOVE m m' ∧
    Moved m m' (copyUp (m.stkAt 1) (m.stkAt 0) m.ax.toNat m.ram) := by
  obtain ⟨m1, r1, hx, hy, k1, k2, k3, kr, k4, k5, k6, k7, k8, hs, hd⟩ := move_start m he hi
  have ha := m.a.isLt; have hxl := m.x.isLt
  have hlen : m.ax.toNat = m.a.toNat + 256 * m.x.toNat := by simp [M.ax]
  have cancel : ∀ w v : W, w + v - 256 + 256 = w + v := fun w v => BitVec.sub_add_cancel _ _
  by_cases h : m.a = 0
  · have h0 : m1.y = 0#8 := by rw [hy, h]; rfl
    obtain ⟨m2, r2, e2⟩ : ∃ m2, Reach memCode memCode.mv_2 m1 memCode.mv_cpage m2 ∧ m2 =
        { m1 with a := 0, z := true, n := false, zp := { m1.zp with mins := 0xC8 } } := by
      refine ⟨_, ⟨4, ?_⟩, rfl⟩
      rt_exec [memCode.mv_2.eq, h0]
    obtain ⟨m', h', k⟩ := move_pages m.x.toNat m2 (by rw [e2]; show (m1.x - 1).toNat = _; rw [hx, BitVec.add_sub_cancel]) (by rw [e2]; exact h0) (by rw [e2]) m hi
      (by rw [e2]; exact k1) (by rw [e2]; exact k2) (by rw [e2]; exact k3) (by rw [e2]; exact k4) (by rw [e2]; exact k5)
      (by rw [e2]; exact k6) (by rw [e2]; exact k7) (by rw [e2]; exact k8)
    refine ⟨m', (r1.trans r2).halts h', ?_⟩
    subst e2
    simp only [hs, hd, kr, cancel] at k
    rw [hlen, h]
    simpa [h] using k
  · have h0 : m1.y ≠ 0#8 := by rw [hy]; exact h
    have hneg : (m1.y ^^^ 255#8) + 1#8 = 0#8 - m1.y := neg_byte _
    obtain ⟨m2, r2, e2⟩ : ∃ m2, Reach memCode memCode.mv_2 m1 memCode.move_loop m2 ∧ m2 =
        { m1 with a := m1.y ^^^ 0xFF, y := 0 - m1.y, z := false, n := topBit (0 - m1.y), zp := { m1.zp with mins := 0xC8 },
                  stk := .ret (.lb "mv_cpage" :: memCode.mv_cpage) :: m1.stk } := by
      refine ⟨_, ⟨9, ?_⟩, rfl⟩
      have : ¬ (0#8 - m1.y = 0#8) := by bv_omega
      rt_exec [memCode.mv_2.eq, memCode.mv_cloop.eq, h0, hneg, this]
    have hyn : m1.y.toNat ≠ 0 := by intro e; exact h0 (BitVec.eq_of_toNat_eq e)
    obtain ⟨a, b, r3⟩ := loop_up (m.a.toNat - 1) m2 _ _ (by rw [e2]; simp [BitVec.toNat_neg, hy] at hyn ⊢; omega) (by rw [e2]) (by rw [e2])
    have r3 := (r2.trans r3).trans ⟨1, rfl⟩
    subst e2
    generalize hm2 : M.mk _ _ _ _ _ _ _ _ _ _ _ _ _ _ = m2 at r3
    obtain ⟨m', h', k⟩ := move_pages m.x.toNat m2 (by rw [← hm2]; show (m1.x - 1).toNat = _; rw [hx, BitVec.add_sub_cancel]) (by rw [← hm2]) (by rw [← hm2]) m hi
      (by rw [← hm2]; exact k1) (by rw [← hm2]; exact k2) (by rw [← hm2]; exact k3) (by rw [← hm2]; exact k4) (by rw [← hm2]; exact k5)
      (by rw [← hm2]; exact k6) (by rw [← hm2]; exact k7) (by rw [← hm2]; exact k8)
    refine ⟨m', (r1.trans r3).halts h', ?_⟩
    refine Eq.subst (motive := Moved m m') ?_ k
    rw [hlen, copyUp_add, ← hm2]
    have e : ∀ w : W, idx (w + BitVec.ofNat 16 m.a.toNat - 256) (0 - m1.y) = w := by
      intro w; rw [hy]; exact first_bytes w m.a (by rw [← hy]; exact hyn)
    have e' : m.a.toNat - 1 + 1 = m.a.toNat := by rw [hy] at hyn; omega
    simp only [hs, hd, kr, cancel, e, e']

/-! ## `-MOVE` -/

/-- Cells other than the pointers of the copy loop and `tmp3`. -/
structure Same (z z' : Zp) : Prop where
  sptr : z'.sptr = z.sptr
  saddr : z'.saddr = z.saddr
  saddrh : z'.saddrh = z.saddrh
  arr : z'.arr = z.arr
  arrh : z'.arrh = z.arrh
  mins : z'.mins = z.mins

theorem Same.trans {a b c : Zp} (h : Same a b) (h' : Same b c) : Same a c :=
  ⟨h'.sptr.trans h.sptr, h'.saddr.trans h.saddr, h'.saddrh.trans h.saddrh, h'.arr.trans h.arr, h'.arrh.trans h.arrh, h'.mins.trans h.mins⟩

/-- The cells of the text and the names (`vars.asm:24-29`, `parse.asm`). -/
def Zp.texts (z : Zp) : List B := [z.inb, z.inbh, z.cix, z.nam, z.namh, z.vr, z.vrh, z.vlen, z.scnt, z.bufp, z.bufph]

/-- The same, `tmp1` (the size of an allocation, `alloc.asm`) and the cells of the compiler. -/
structure DSame (z z' : Zp) : Prop extends Same z z' where
  tmp1 : z'.tmp1 = z.tmp1
  texts : z'.texts = z.texts

theorem DSame.trans {a b c : Zp} (h : DSame a b) (h' : DSame b c) : DSame a c :=
  ⟨h.toSame.trans h'.toSame, h'.tmp1.trans h.tmp1, h'.texts.trans h.texts⟩

/-- Going back 255 bytes. -/
theorem back_255 (l h : B) : word (l + 1) (if l + 1 = 0 then h else h - 1) = word l h - 255 := by
  have := l.isLt; have := h.isLt
  apply BitVec.eq_of_toNat_eq
  by_cases c : l.toNat = 255
  · have e : l + 1 = 0 := BitVec.eq_of_toNat_eq (by simp [c])
    rw [if_pos e]; simp [BitVec.toNat_sub, c]; omega
  · have e : ¬ (l + 1 = 0) := fun e => by have := congrArg BitVec.toNat e; simp at this; omega
    rw [if_neg e]; simp [BitVec.toNat_sub]; omega

theorem dwn_next (m : M) : ∃ m1, Reach memCode memCode.md_next m memCode.md_3 m1 ∧
    m1.x = m.x ∧ m1.y = m.y ∧ m1.stk = m.stk ∧ m1.sl = m.sl ∧ m1.sh = m.sh ∧ m1.ram = m.ram ∧ DSame m.zp m1.zp ∧
    word m1.zp.msrc m1.zp.msrch = word m.zp.msrc m.zp.msrch - 255 ∧ word m1.zp.mdst m1.zp.mdsth = word m.zp.mdst m.zp.mdsth - 255 := by
  rw [← back_255, ← back_255]
  by_cases h1 : m.zp.msrc + 1#8 = 0#8 <;> by_cases h2 : m.zp.mdst + 1#8 = 0#8
  · refine ⟨?_, ⟨4, ?_⟩, ?_⟩
    rotate_left
    · rt_exec [memCode.md_next.eq, memCode.md_2.eq, h1, h2]
      rfl
    · refine ⟨rfl, rfl, rfl, rfl, rfl, rfl, ⟨⟨rfl, rfl, rfl, rfl, rfl, rfl⟩, rfl, rfl⟩, ?_, ?_⟩ <;> simp [h1, h2]
  · refine ⟨?_, ⟨6, ?_⟩, ?_⟩
    rotate_left
    · rt_exec [memCode.md_next.eq, memCode.md_2.eq, h1, h2]
      rfl
    · refine ⟨rfl, rfl, rfl, rfl, rfl, rfl, ⟨⟨rfl, rfl, rfl, rfl, rfl, rfl⟩, rfl, rfl⟩, ?_, ?_⟩ <;> simp [h1, h2]
  · refine ⟨?_, ⟨6, ?_⟩, ?_⟩
    rotate_left
    · rt_exec [memCode.md_next.eq, memCode.md_2.eq, h1, h2]
      rfl
    · refine ⟨rfl, rfl, rfl, rfl, rfl, rfl, ⟨⟨rfl, rfl, rfl, rfl, rfl, rfl⟩, rfl, rfl⟩, ?_, ?_⟩ <;> simp [h1, h2]
  · refine ⟨?_, ⟨8, ?_⟩, ?_⟩
    rotate_left
    · rt_exec [memCode.md_next.eq, memCode.md_2.eq, h1, h2]
      rfl
    · refine ⟨rfl, rfl, rfl, rfl, rfl, rfl, ⟨⟨rfl, rfl, rfl, rfl, rfl, rfl⟩, rfl, rfl⟩, ?_, ?_⟩ <;> simp [h1, h2]

theorem dwn_back (w s : W) (n : Nat) (h : w + 1 = s + BitVec.ofNat 16 (255 * (n + 1))) : w - 255 + 1 = s + BitVec.ofNat 16 (255 * n) := by
  have e : BitVec.ofNat 16 (255 * (n + 1)) = BitVec.ofNat 16 (255 * n) + 255 := by
    rw [Nat.mul_add, BitVec.ofNat_add]; rfl
  rw [e] at h
  rw [show w = s + (BitVec.ofNat 16 (255 * n) + 255) - 1 by rw [← h, BitVec.add_sub_cancel]]
  generalize BitVec.ofNat 16 (255 * n) = v
  bv_omega

/-- Copy of `Y` bytes and of the blocks of 255 bytes that are left. -/
theorem dwn_loop (n : Nat) (m : M) (k : Code) (st : List Slot) (s d : W) (hx : (m.x - 1).toNat = n) (hy : m.y ≠ 0) (hi : m.zp.mins = 0x88)
    (hk : m.stk = .ret k :: st) (hs : word m.zp.msrc m.zp.msrch + 1 = s + BitVec.ofNat 16 (255 * n))
    (hd : word m.zp.mdst m.zp.mdsth + 1 = d + BitVec.ofNat 16 (255 * n)) :
    ∃ m', Reach memCode memCode.md_cloop m k m' ∧ m'.stk = st ∧ m'.sl = m.sl ∧ m'.sh = m.sh ∧ DSame m.zp m'.zp ∧
      m'.ram = copyDown s d (255 * n + m.y.toNat) m.ram := by
  induction n generalizing m with
  | zero =>
    have hyn : m.y.toNat ≠ 0 := fun e => hy (BitVec.eq_of_toNat_eq e)
    obtain ⟨m1, r1, e1⟩ : ∃ m1, Reach memCode memCode.md_cloop m memCode.move_loop m1 ∧ m1 =
        { m with stk := .ret (.lb "md_next" :: memCode.md_next) :: m.stk } := by
      refine ⟨_, ⟨1, ?_⟩, rfl⟩
      rt_exec [memCode.md_cloop.eq]
    obtain ⟨a, b, r2⟩ := loop_down (m.y.toNat - 1) m1 _ _ (by rw [e1]; show m.y.toNat = _; omega) (by rw [e1]) (by rw [e1]; exact hi)
    have r2 := (r1.trans r2).trans ⟨1, rfl⟩
    subst e1
    generalize hm2 : M.mk _ _ _ _ _ _ _ _ _ _ _ _ _ _ = m2 at r2
    obtain ⟨m3, r3, k1, k2, k3, k4, k5, k6, k7, k8, k9⟩ := dwn_next m2
    have hx1 : m3.x - 1#8 = 0#8 := by rw [k1, ← hm2]; exact BitVec.eq_of_toNat_eq hx
    have hk3 : m3.stk = .ret k :: st := by rw [k3, ← hm2]; exact hk
    refine ⟨?_, r2.trans (r3.trans ⟨5, ?_⟩), ?_⟩
    rotate_left
    · rt_exec [memCode.md_3.eq, memCode.md_xit.eq, hx1, hk3]
      rfl
    · refine ⟨rfl, k4.trans (by rw [← hm2]), k5.trans (by rw [← hm2]), ?_, k6.trans ?_⟩
      · refine DSame.trans ?_ k7
        rw [← hm2]; exact ⟨⟨rfl, rfl, rfl, rfl, rfl, rfl⟩, rfl, rfl⟩
      · rw [← hm2]
        simp only [hs, hd, Nat.sub_add_cancel (Nat.pos_of_ne_zero hyn)]
        simp
  | succ n ih =>
    have hyn : m.y.toNat ≠ 0 := fun e => hy (BitVec.eq_of_toNat_eq e)
    obtain ⟨m1, r1, e1⟩ : ∃ m1, Reach memCode memCode.md_cloop m memCode.move_loop m1 ∧ m1 =
        { m with stk := .ret (.lb "md_next" :: memCode.md_next) :: m.stk } := by
      refine ⟨_, ⟨1, ?_⟩, rfl⟩
      rt_exec [memCode.md_cloop.eq]
    obtain ⟨a, b, r2⟩ := loop_down (m.y.toNat - 1) m1 _ _ (by rw [e1]; show m.y.toNat = _; omega) (by rw [e1]) (by rw [e1]; exact hi)
    have r2 := (r1.trans r2).trans ⟨1, rfl⟩
    subst e1
    generalize hm2 : M.mk _ _ _ _ _ _ _ _ _ _ _ _ _ _ = m2 at r2
    obtain ⟨m3, r3, k1, k2, k3, k4, k5, k6, k7, k8, k9⟩ := dwn_next m2
    have hx1 : (m3.x - 1#8).toNat = n + 1 := by rw [k1, ← hm2]; exact hx
    have hx2 : ¬ (m3.x - 1#8 = 0#8) := fun e => by rw [e] at hx1; simp at hx1
    have hy3 : m3.y - 1#8 = 255#8 := by rw [k2, ← hm2]; rfl
    obtain ⟨m4, r4, e4⟩ : ∃ m4, Reach memCode memCode.md_3 m3 memCode.md_cloop m4 ∧ m4 =
        { m3 with y := 255, x := m3.x - 1, z := false, n := topBit (m3.x - 1) } := by
      refine ⟨_, ⟨3, ?_⟩, rfl⟩
      rt_exec [memCode.md_3.eq, hx2, hy3]
    obtain ⟨m', r5, j1, j2, j3, j4, j5⟩ := ih m4 (by rw [e4]; show (m3.x - 1#8 - 1#8).toNat = n; bv_omega) (by rw [e4]; show (255 : B) ≠ 0; decide)
      (by rw [e4]; show m3.zp.mins = _; rw [k7.mins, ← hm2]; exact hi) (by rw [e4]; show m3.stk = _; rw [k3, ← hm2]; exact hk)
      (by rw [e4]; show word m3.zp.msrc m3.zp.msrch + 1 = _; rw [k8, ← hm2]; exact dwn_back _ _ _ hs)
      (by rw [e4]; show word m3.zp.mdst m3.zp.mdsth + 1 = _; rw [k9, ← hm2]; exact dwn_back _ _ _ hd)
    refine ⟨m', r2.trans (r3.trans (r4.trans r5)), j1, ?_, ?_, ?_, ?_⟩
    · rw [j2, e4]; show m3.sl = _; rw [k4, ← hm2]
    · rw [j3, e4]; show m3.sh = _; rw [k5, ← hm2]
    · refine DSame.trans ?_ j4
      rw [e4]
      refine DSame.trans ?_ k7
      rw [← hm2]; exact ⟨⟨rfl, rfl, rfl, rfl, rfl, rfl⟩, rfl, rfl⟩
    · rw [j5, e4]
      show copyDown s d (255 * n + 255) m3.ram = _
      rw [k6, ← hm2, copyDown_add (255 * (n + 1))]
      simp only [hs, hd, Nat.sub_add_cancel (Nat.pos_of_ne_zero hyn)]
      rfl

/-- Adding `255 * x - 1` to a pointer, as the code does it. -/
theorem dwn_ptr (l h x : B) : word (add8 l (~~~ x) false) (add8 (x - 1) h (addC l (~~~ x) false)) + 1 = word l h + BitVec.ofNat 16 (255 * x.toNat) := by
  have hx := x.isLt
  have w : ∀ l h : B, word l h = BitVec.ofNat 16 l.toNat + BitVec.ofNat 16 (256 * h.toNat) := by
    intro l h; rw [word, BitVec.ofNat_add]
  rw [add16, w, w, w]
  have e : (~~~ x).toNat = 255 - x.toNat := by simp
  have e1 : (x - 1).toNat = if x.toNat = 0 then 255 else x.toNat - 1 := by simp [BitVec.toNat_sub]; split <;> omega
  have key : BitVec.ofNat 16 (256 * (x - 1).toNat) + BitVec.ofNat 16 (~~~ x).toNat + 1 = BitVec.ofNat 16 (255 * x.toNat) := by
    apply BitVec.eq_of_toNat_eq
    rw [e, e1]
    have one : (1 : W).toNat = 1 := rfl
    simp only [BitVec.toNat_add, BitVec.toNat_ofNat, one]
    split <;> omega
  rw [← key]
  ac_rfl

/-- Copy with the pointers in place: `x` blocks of 255 bytes and one of `y`. -/
theorem dwn_main (m : M) (k : Code) (st : List Slot) (hz : m.z = false) (hy : m.y ≠ 0) (hi : m.zp.mins = 0x88) (hk : m.stk = .ret k :: st) :
    ∃ m', Reach memCode memCode.md_1 m k m' ∧ m'.stk = st ∧ m'.sl = m.sl ∧ m'.sh = m.sh ∧ DSame m.zp m'.zp ∧
      m'.ram = copyDown (word m.zp.msrc m.zp.msrch) (word m.zp.mdst m.zp.mdsth) (255 * m.x.toNat + m.y.toNat) m.ram := by
  have x1 : m.x - 1#8 + 1#8 + 1#8 = m.x + 1#8 := by rw [BitVec.sub_add_cancel]
  obtain ⟨m1, r1, j1, j2, j3, j4, j5, j6, j7, j8, j9⟩ : ∃ m1, Reach memCode memCode.md_1 m memCode.md_cloop m1 ∧
      m1.x = m.x + 1 ∧ m1.y = m.y ∧ m1.stk = m.stk ∧ m1.sl = m.sl ∧ m1.sh = m.sh ∧ m1.ram = m.ram ∧ DSame m.zp m1.zp ∧
      word m1.zp.msrc m1.zp.msrch + 1 = word m.zp.msrc m.zp.msrch + BitVec.ofNat 16 (255 * m.x.toNat) ∧
      word m1.zp.mdst m1.zp.mdsth + 1 = word m.zp.mdst m.zp.mdsth + BitVec.ofNat 16 (255 * m.x.toNat) := by
    refine ⟨?_, ⟨20, ?_⟩, ?_⟩
    rotate_left
    · rt_exec [memCode.md_1.eq, hz, x1]
      rfl
    · exact ⟨rfl, rfl, rfl, rfl, rfl, rfl, ⟨⟨rfl, rfl, rfl, rfl, rfl, rfl⟩, rfl, rfl⟩, dwn_ptr _ _ _, dwn_ptr _ _ _⟩
  obtain ⟨m', r2, i1, i2, i3, i4, i5⟩ := dwn_loop m.x.toNat m1 k st _ _ (by rw [j1, BitVec.add_sub_cancel]) (by rw [j2]; exact hy)
    (by rw [j7.mins]; exact hi) (by rw [j3]; exact hk) j8 j9
  exact ⟨m', r1.trans r2, i1, i2.trans j4, i3.trans j5, j7.trans i4, by rw [i5, j2, j6]⟩

/-- `move_dwn`: the length is in `AX`. -/
theorem move_dwn_correct (m : M) (k : Code) (st : List Slot) (hi : m.zp.mins = 0x88) (hk : m.stk = .ret k :: st) (hl : m.ax.toNat ≤ 65280) :
    ∃ m', Reach memCode memCode.move_dwn m k m' ∧ m'.stk = st ∧ m'.sl = m.sl ∧ m'.sh = m.sh ∧ DSame m.zp m'.zp ∧
      m'.ram = copyDown (word m.zp.msrc m.zp.msrch) (word m.zp.mdst m.zp.mdsth) m.ax.toNat m.ram := by
  have ha := m.a.isLt; have hx := m.x.isLt
  have hlen : m.ax.toNat = m.a.toNat + 256 * m.x.toNat := by simp [M.ax]
  rw [hlen] at hl ⊢
  cases hc : addC m.x m.a false
  · have hc' : m.x.toNat + m.a.toNat < 256 := by simp [addC] at hc; omega
    have hyn : (add8 m.x m.a false).toNat = m.x.toNat + m.a.toNat := by simp; omega
    by_cases hz : add8 m.x m.a false = 0#8
    · have : m.x.toNat = 0 ∧ m.a.toNat = 0 := by rw [hz] at hyn; simp at hyn; omega
      refine ⟨?_, ⟨8, ?_⟩, ?_⟩
      rotate_left
      · rt_exec [memCode.move_dwn.eq, memCode.md_1.eq, memCode.md_xit.eq, hc, hz, hk]
        rfl
      · refine ⟨rfl, rfl, rfl, ⟨⟨rfl, rfl, rfl, rfl, rfl, rfl⟩, rfl, rfl⟩, ?_⟩
        simp [this, copyDown]
    · obtain ⟨m1, r1, e1⟩ : ∃ m1, Reach memCode memCode.move_dwn m memCode.md_1 m1 ∧ m1 =
          { m with a := add8 m.x m.a false, y := add8 m.x m.a false, c := false, z := false, n := topBit (add8 m.x m.a false),
                   v := addV m.x m.a false, zp := { m.zp with tmp3 := m.a } } := by
        refine ⟨_, ⟨6, ?_⟩, rfl⟩
        rt_exec [memCode.move_dwn.eq, hc, hz]
      obtain ⟨m', r2, i1, i2, i3, i4, i5⟩ := dwn_main m1 k st (by rw [e1]) (by rw [e1]; exact hz) (by rw [e1]; exact hi) (by rw [e1]; exact hk)
      subst e1
      refine ⟨m', r1.trans r2, i1, i2, i3, ⟨⟨i4.sptr, i4.saddr, i4.saddrh, i4.arr, i4.arrh, i4.mins⟩, i4.tmp1, i4.texts⟩, i5.trans ?_⟩
      show copyDown _ _ (255 * m.x.toNat + (add8 m.x m.a false).toNat) _ = _
      rw [hyn]
      congr 1; omega
  · have hc' : 256 ≤ m.x.toNat + m.a.toNat := by simp [addC] at hc; omega
    have hyn : (add8 m.x m.a false + 1#8).toNat = m.x.toNat + m.a.toNat - 255 := by rw [BitVec.toNat_add]; simp; omega
    have hz : ¬ (add8 m.x m.a false + 1#8 = 0#8) := fun e => by rw [e] at hyn; simp at hyn; omega
    obtain ⟨m1, r1, e1⟩ : ∃ m1, Reach memCode memCode.move_dwn m memCode.md_1 m1 ∧ m1 =
        { m with a := add8 m.x m.a false, x := m.x + 1, y := add8 m.x m.a false + 1, c := true, z := false, n := topBit (add8 m.x m.a false + 1),
                 v := addV m.x m.a false, zp := { m.zp with tmp3 := m.a } } := by
      refine ⟨_, ⟨9, ?_⟩, rfl⟩
      rt_exec [memCode.move_dwn.eq, hc, hz]
    obtain ⟨m', r2, i1, i2, i3, i4, i5⟩ := dwn_main m1 k st (by rw [e1]) (by rw [e1]; exact hz) (by rw [e1]; exact hi) (by rw [e1]; exact hk)
    subst e1
    refine ⟨m', r1.trans r2, i1, i2, i3, ⟨⟨i4.sptr, i4.saddr, i4.saddrh, i4.arr, i4.arrh, i4.mins⟩, i4.tmp1, i4.texts⟩, i5.trans ?_⟩
    show copyDown _ _ (255 * (m.x + 1#8).toNat + (add8 m.x m.a false + 1#8).toNat) _ = _
    have e : 255 * (m.x + 1#8).toNat + (add8 m.x m.a false + 1#8).toNat = m.a.toNat + 256 * m.x.toNat := by
      rw [hyn, show (m.x + 1#8).toNat = m.x.toNat + 1 by rw [BitVec.toNat_add]; simp; omega]; omega
    rw [e]

/-- `-MOVE source, destination, length`, for lengths up to 65280. -/
theorem nmove_correct (m : M) (he : Entry m) (hi : m.zp.mins = 0x88) (hl : m.ax.toNat ≤ 65280) : ∃ m', Halts memCode memCode.EXE_NMOVE m m' ∧
    Moved m m' (copyDown (m.stkAt 1) (m.stkAt 0) m.ax.toNat m.ram) := by
  have e0 : m.stkAt 0 = word (m.sl m.y) (m.sh m.y) := stkAt0 he
  have e1 : m.stkAt 1 = word (m.sl (m.y + 1#8)) (m.sh (m.y + 1#8)) := stkAt_y he 1
  obtain ⟨m1, r1, em⟩ : ∃ m1, Reach memCode memCode.EXE_NMOVE m memCode.move_dwn m1 ∧ m1 =
      { m.nz m.a with zp := { m.zp with mdst := m.sl m.y, mdsth := m.sh m.y, msrc := m.sl (m.y + 1), msrch := m.sh (m.y + 1) },
                      stk := .ret (.ins (jmp "next_ins_incsp_2") :: .lb "move_dwn" :: memCode.move_dwn) :: m.stk } := by
    refine ⟨_, ⟨13, ?_⟩, rfl⟩
    rt_exec [memCode.EXE_NMOVE.eq, memCode.move_get_ptr.eq]
  obtain ⟨m2, r2, i1, i2, i3, i4, i5⟩ := move_dwn_correct m1 _ _ (by rw [em]; exact hi) (by rw [em]) (by rw [em]; exact hl)
  subst em
  refine ⟨?_, (r1.trans r2).halts ⟨3, ?_⟩, ?_⟩
  rotate_left
  · rt_exec [memCode.next_ins_incsp_2.eq]
    rfl
  · refine ⟨i1, i2, i3, ?_, ?_, i4.saddr, i4.saddrh, i4.arr, i4.arrh, i4.mins⟩
    · rw [e0, e1]; exact i5
    · show m2.zp.sptr + 1 + 1 = _
      rw [i4.sptr, BitVec.add_assoc]; rfl

/-- For longer ones, `-MOVE` copies only the first `length - 65280` bytes. -/
theorem nmove_long (m : M) (he : Entry m) (hi : m.zp.mins = 0x88) (hl : 65280 < m.ax.toNat) : ∃ m', Halts memCode memCode.EXE_NMOVE m m' ∧
    Moved m m' (copyDown (m.stkAt 1) (m.stkAt 0) (m.ax.toNat - 65280) m.ram) := by
  have e0 : m.stkAt 0 = word (m.sl m.y) (m.sh m.y) := stkAt0 he
  have e1 : m.stkAt 1 = word (m.sl (m.y + 1#8)) (m.sh (m.y + 1#8)) := stkAt_y he 1
  have ha := m.a.isLt; have hx := m.x.isLt
  have hlen : m.ax.toNat = m.a.toNat + 256 * m.x.toNat := by simp [M.ax]
  rw [hlen] at hl
  have hx1 : m.x = 255#8 := BitVec.eq_of_toNat_eq (by show m.x.toNat = 255; omega)
  have ha1 : 1 ≤ m.a.toNat := by omega
  have hc : addC 255#8 m.a false = true := by simp [addC]; omega
  have hyn : (add8 255#8 m.a false + 1#8).toNat = m.a.toNat := by rw [BitVec.toNat_add]; simp; omega
  have hz : ¬ (add8 255#8 m.a false + 1#8 = 0#8) := fun e => by rw [e] at hyn; simp at hyn; omega
  obtain ⟨m1, r1, em⟩ : ∃ m1, Reach memCode memCode.EXE_NMOVE m memCode.md_1 m1 ∧ m1 =
      { m with zp := { m.zp with mdst := m.sl m.y, mdsth := m.sh m.y, msrc := m.sl (m.y + 1), msrch := m.sh (m.y + 1), tmp3 := m.a },
               a := add8 255 m.a false, x := 0, y := add8 255 m.a false + 1, c := true, z := false, n := topBit (add8 255 m.a false + 1),
               v := addV 255 m.a false,
               stk := .ret (.ins (jmp "next_ins_incsp_2") :: .lb "move_dwn" :: memCode.move_dwn) :: m.stk } := by
    refine ⟨_, ⟨22, ?_⟩, rfl⟩
    rt_exec [memCode.EXE_NMOVE.eq, memCode.move_get_ptr.eq, memCode.move_dwn.eq, hx1, hc, hz]
  obtain ⟨m2, r2, i1, i2, i3, i4, i5⟩ := dwn_main m1 _ _ (by rw [em]) (by rw [em]; exact hz) (by rw [em]; exact hi) (by rw [em])
  subst em
  refine ⟨?_, (r1.trans r2).halts ⟨3, ?_⟩, ?_⟩
  rotate_left
  · rt_exec [memCode.next_ins_incsp_2.eq]
    rfl
  · refine ⟨i1, i2, i3, ?_, ?_, i4.saddr, i4.saddrh, i4.arr, i4.arrh, i4.mins⟩
    · rw [e0, e1]
      refine i5.trans ?_
      show copyDown _ _ (255 * 0 + (add8 255#8 m.a false + 1#8).toNat) _ = _
      rw [hyn, hlen, hx1, Nat.mul_zero, Nat.zero_add, show m.a.toNat + 256 * (255#8).toNat - 65280 = m.a.toNat by simp]
      rfl
    · show m2.zp.sptr + 1 + 1 = _
      rw [i4.sptr, BitVec.add_assoc]; rfl

/-! ## `MSET` -/

/-- The inner loop: bytes `n-1` down to 0 of the page. -/
theorem set_loop (n : Nat) (m : M) (hn : m.y = BitVec.ofNat 8 (n + 1)) (hn' : n < 256) :
    ∃ b, Reach memCode memCode.ms_loop m memCode.ms_nxt
      { m with y := 0, z := true, n := b, ram := fill (word m.zp.mdst m.zp.mdsth) (n + 1) m.a m.ram } := by
  induction n generalizing m with
  | zero =>
    refine ⟨false, 4, ?_⟩
    rt_exec [memCode.ms_loop.eq, hn, idx0]
    funext a
    simp only [fill, upd]
    by_cases h : a = word m.zp.mdst m.zp.mdsth
    · subst h; simp
    · rw [if_neg h, if_neg]
      intro e
      apply h
      have : a - word m.zp.mdst m.zp.mdsth = 0 := BitVec.eq_of_toNat_eq (by simpa using e)
      rw [← BitVec.sub_add_cancel a (word m.zp.mdst m.zp.mdsth), this]; simp
  | succ n ih =>
    have hy : m.y - 1#8 = BitVec.ofNat 8 (n + 1) := by rw [hn]; bv_omega
    have hyn : (BitVec.ofNat 8 (n + 1)).toNat = n + 1 := by simp; omega
    have hy' : ¬ (BitVec.ofNat 8 (n + 1) = 0#8) := fun e => by rw [e] at hyn; simp at hyn
    obtain ⟨m1, r1, e1⟩ : ∃ m1, Reach memCode memCode.ms_loop m memCode.ms_loop m1 ∧ m1 = { m with
        y := BitVec.ofNat 8 (n + 1), z := false, n := topBit (BitVec.ofNat 8 (n + 1)),
        ram := upd m.ram (idx (word m.zp.mdst m.zp.mdsth) (BitVec.ofNat 8 (n + 1))) m.a } := by
      refine ⟨_, ⟨3, ?_⟩, rfl⟩
      rt_exec [memCode.ms_loop.eq, hy, hy']
    obtain ⟨b, r⟩ := ih m1 (by rw [e1]) (by omega)
    subst e1
    refine ⟨b, ?_⟩
    have e : fill (word m.zp.mdst m.zp.mdsth) (n + 1) m.a (upd m.ram (idx (word m.zp.mdst m.zp.mdsth) (BitVec.ofNat 8 (n + 1))) m.a) =
        fill (word m.zp.mdst m.zp.mdsth) (n + 1 + 1) m.a m.ram := by
      funext a
      simp only [fill, upd, idx, hyn]
      by_cases h1 : (a - word m.zp.mdst m.zp.mdsth).toNat < n + 1
      · rw [if_pos h1, if_pos (by omega)]
      · rw [if_neg h1]
        by_cases h2 : a = word m.zp.mdst m.zp.mdsth + BitVec.ofNat 16 (n + 1)
        · rw [if_pos h2, if_pos]
          rw [h2, BitVec.add_comm, BitVec.add_sub_cancel]; simp; omega
        · rw [if_neg h2, if_neg]
          intro h3
          apply h2
          have : a - word m.zp.mdst m.zp.mdsth = BitVec.ofNat 16 (n + 1) := BitVec.eq_of_toNat_eq (by rw [BitVec.toNat_ofNat]; omega)
          rw [← this, BitVec.add_comm, BitVec.sub_add_cancel]
    rw [← e]
    exact r1.trans r

theorem fill_add (d : W) (a b : Nat) (v : B) (r : W → B) (h : a + b ≤ 65536) :
    fill d a v (fill (d + BitVec.ofNat 16 a) b v r) = fill d (a + b) v r := by
  funext w
  simp only [fill]
  by_cases h1 : (w - d).toNat < a
  · rw [if_pos h1, if_pos (by omega)]
  · rw [if_neg h1]
    have e : w - (d + BitVec.ofNat 16 a) = (w - d) - BitVec.ofNat 16 a := by bv_omega
    rw [e]
    generalize w - d = u at *
    have hu := u.isLt
    by_cases hb : b = 0
    · subst hb; rw [if_neg (by omega), if_neg (by omega)]
    · have : (u - BitVec.ofNat 16 a).toNat = u.toNat - a := by
        rw [BitVec.toNat_sub, BitVec.toNat_ofNat]; omega
      rw [this]
      by_cases h2 : u.toNat < a + b
      · rw [if_pos h2, if_pos (by omega)]
      · rw [if_neg h2, if_neg (by omega)]

theorem fill_zero (d : W) (v : B) (r : W → B) : fill d 0 v r = r := by funext w; simp [fill]

theorem page_back (l h : B) : word l (h - 1) + 256 = word l h := by
  have := l.isLt; have := h.isLt
  apply BitVec.eq_of_toNat_eq
  simp [BitVec.toNat_sub]; omega

/-- Pages that are left. -/
theorem set_pages (n : Nat) (m : M) (k : Code) (st : List Slot) (d : W) (hx : (m.x - 1).toNat = n) (hy : m.y = 0)
    (hk : m.stk = .ret k :: st) (hd : word m.zp.mdst m.zp.mdsth = d + BitVec.ofNat 16 (256 * n)) :
    ∃ b h, Reach memCode memCode.ms_nxt m k { m with x := 0, y := 0, z := true, n := b, stk := st, zp := { m.zp with mdsth := h }, ram := fill d (256 * n) m.a m.ram } ∧ word m.zp.mdst h = d := by
  induction n generalizing m with
  | zero =>
    have hx1 : m.x - 1#8 = 0#8 := BitVec.eq_of_toNat_eq hx
    refine ⟨false, m.zp.mdsth, ⟨3, ?_⟩, ?_⟩
    · rt_exec [memCode.ms_nxt.eq, hx1, hk, fill_zero, hy]
    · rw [hd]; simp
  | succ n ih =>
    have hx2 : ¬ (m.x - 1#8 = 0#8) := fun e => by
      have : (m.x - 1#8).toNat = n + 1 := hx
      rw [e] at this; simp at this
    obtain ⟨m1, r1, e1⟩ : ∃ m1, Reach memCode memCode.ms_nxt m memCode.ms_loop m1 ∧ m1 =
        { m with x := m.x - 1, z := decide (m.zp.mdsth - 1#8 = 0#8), n := topBit (m.zp.mdsth - 1#8), zp := { m.zp with mdsth := m.zp.mdsth - 1 } } := by
      refine ⟨_, ⟨4, ?_⟩, rfl⟩
      rt_exec [memCode.ms_nxt.eq, memCode.ms_pgloop.eq, hx2]
      rfl
    obtain ⟨b, r2⟩ := set_loop 255 m1 (by rw [e1]; exact hy) (by decide)
    have r2 := r1.trans r2
    subst e1
    generalize hm2 : M.mk _ _ _ _ _ _ _ _ _ _ _ _ _ _ = m2 at r2
    have hd' : word m.zp.mdst (m.zp.mdsth - 1) = d + BitVec.ofNat 16 (256 * n) := by
      have h := page_back m.zp.mdst m.zp.mdsth
      rw [hd, Nat.mul_add, BitVec.ofNat_add, ← BitVec.add_assoc] at h
      have h := congrArg (· - 256#16) h
      simpa [BitVec.add_sub_cancel] using h
    obtain ⟨b', h', r3, w⟩ := ih m2 (by rw [← hm2]; show (m.x - 1 - 1).toNat = n; bv_omega) (by rw [← hm2]) (by rw [← hm2]; exact hk)
      (by rw [← hm2]; exact hd')
    refine ⟨b', h', ?_, by rw [← hm2] at w; exact w⟩
    have r4 := r2.trans r3
    subst hm2
    have e : fill d (256 * n) m.a (fill (word m.zp.mdst (m.zp.mdsth - 1)) (255 + 1) m.a m.ram) = fill d (256 * (n + 1)) m.a m.ram := by
      rw [hd', fill_add]
      · rfl
      · have := (m.x - 1).isLt; omega
    rw [← e]
    exact r4

/-- `mem_set`: `Y` is the value, `X` and `tmp1` the length. -/
theorem mem_set_correct (m : M) (k : Code) (st : List Slot) (hk : m.stk = .ret k :: st) :
    ∃ b c v h, Reach memCode memCode.mem_set m k { m with a := m.y, x := 0, y := 0, z := true, n := b, c := c, v := v, stk := st, zp := { m.zp with mdsth := h }, ram := fill (word m.zp.mdst m.zp.mdsth) (word m.zp.tmp1 m.x).toNat m.y m.ram } ∧
      word m.zp.mdst h = word m.zp.mdst m.zp.mdsth := by
  have ht := m.zp.tmp1.isLt; have hxl := m.x.isLt
  have hp : word m.zp.mdst (add8 m.x m.zp.mdsth false) = word m.zp.mdst m.zp.mdsth + BitVec.ofNat 16 (256 * m.x.toNat) := by
    have := m.zp.mdst.isLt; have := m.zp.mdsth.isLt
    apply BitVec.eq_of_toNat_eq
    simp; omega
  by_cases h : m.zp.tmp1 = 0#8
  · obtain ⟨m1, r1, e1⟩ : ∃ m1, Reach memCode memCode.mem_set m memCode.ms_nxt m1 ∧ m1 =
        { m with a := m.y, x := m.x + 1, y := 0, z := true, n := false, c := addC m.x m.zp.mdsth false, v := addV m.x m.zp.mdsth false
                 zp := { m.zp with mdsth := add8 m.x m.zp.mdsth false } } := by
      refine ⟨_, ⟨8, ?_⟩, rfl⟩
      rt_exec [memCode.mem_set.eq, h]
    obtain ⟨b, h', r2, w⟩ := set_pages m.x.toNat m1 k st (word m.zp.mdst m.zp.mdsth) (by rw [e1]; show (m.x + 1 - 1).toNat = _; rw [BitVec.add_sub_cancel])
      (by rw [e1]) (by rw [e1]; exact hk) (by rw [e1]; exact hp)
    have r3 := r1.trans r2
    subst e1
    refine ⟨b, addC m.x m.zp.mdsth false, addV m.x m.zp.mdsth false, h', ?_, w⟩
    have e : (word m.zp.tmp1 m.x).toNat = 256 * m.x.toNat := by simp [h]
    rw [e]
    exact r3
  · have hn : m.zp.tmp1.toNat ≠ 0 := fun e => h (BitVec.eq_of_toNat_eq e)
    obtain ⟨m1, r1, e1⟩ : ∃ m1, Reach memCode memCode.mem_set m memCode.ms_loop m1 ∧ m1 =
        { m with a := m.y, x := m.x + 1, y := m.zp.tmp1, z := false, n := topBit m.zp.tmp1, c := addC m.x m.zp.mdsth false, v := addV m.x m.zp.mdsth false
                 zp := { m.zp with mdsth := add8 m.x m.zp.mdsth false } } := by
      refine ⟨_, ⟨9, ?_⟩, rfl⟩
      rt_exec [memCode.mem_set.eq, h]
    obtain ⟨b, r2⟩ := set_loop (m.zp.tmp1.toNat - 1) m1 (by rw [e1]; show m.zp.tmp1 = _; apply BitVec.eq_of_toNat_eq; simp; omega) (by omega)
    have r2 := r1.trans r2
    subst e1
    generalize hm2 : M.mk _ _ _ _ _ _ _ _ _ _ _ _ _ _ = m2 at r2
    obtain ⟨b', h', r3, w⟩ := set_pages m.x.toNat m2 k st (word m.zp.mdst m.zp.mdsth) (by rw [← hm2]; show (m.x + 1 - 1).toNat = _; rw [BitVec.add_sub_cancel])
      (by rw [← hm2]) (by rw [← hm2]; exact hk) (by rw [← hm2]; exact hp)
    have r4 := r2.trans r3
    subst hm2
    refine ⟨b', addC m.x m.zp.mdsth false, addV m.x m.zp.mdsth false, h', ?_, w⟩
    have e : fill (word m.zp.mdst m.zp.mdsth) (256 * m.x.toNat) m.y
        (fill (word m.zp.mdst (add8 m.x m.zp.mdsth false)) (m.zp.tmp1.toNat - 1 + 1) m.y m.ram) =
        fill (word m.zp.mdst m.zp.mdsth) (word m.zp.tmp1 m.x).toNat m.y m.ram := by
      rw [hp, fill_add _ _ _ _ _ (by omega)]
      congr 1
      simp; omega
    rw [← e]
    exact r4

/-- `MSET address, length, value`. -/
theorem mset_correct (m : M) (he : Entry m) : ∃ m', Halts memCode memCode.EXE_MSET m m' ∧
    Moved m m' (fill (m.stkAt 1) (m.stkAt 0).toNat (lo m.ax) m.ram) := by
  have e0 : m.stkAt 0 = word (m.sl m.y) (m.sh m.y) := stkAt0 he
  have e1 : m.stkAt 1 = word (m.sl (m.y + 1#8)) (m.sh (m.y + 1#8)) := stkAt_y he 1
  obtain ⟨m1, r1, em⟩ : ∃ m1, Reach memCode memCode.EXE_MSET m memCode.mem_set m1 ∧ m1 =
      { m.nz m.a with zp := { m.zp with mdst := m.sl (m.y + 1), mdsth := m.sh (m.y + 1), tmp1 := m.sl m.y }, x := m.sh m.y, y := m.a
                      stk := .ret (.ins (jmp "next_ins_incsp_2") :: .lb "alloc_array" :: memCode.alloc_array) :: m.stk } := by
    refine ⟨_, ⟨9, ?_⟩, rfl⟩
    rt_exec [memCode.EXE_MSET.eq]
  obtain ⟨b, c, v, h, r2, w⟩ := mem_set_correct m1 _ _ (by rw [em])
  subst em
  refine ⟨?_, (r1.trans r2).halts ⟨3, ?_⟩, ?_⟩
  rotate_left
  · rt_exec [memCode.next_ins_incsp_2.eq]
    rfl
  · refine ⟨rfl, rfl, rfl, ?_, ?_, rfl, rfl, rfl, rfl, rfl⟩
    · rw [e0, e1, M.ax, lo_word, word_toNat]
    · show m.zp.sptr + 1 + 1 = _
      rw [BitVec.add_assoc]; rfl

end FB.Rt
