import Verif.Eng.JLab
/-!
# The native compiler: start, end of the program and messages of errors

Transcription of `/repo/src/parse.asm:118-151,163-217` and of the table of messages of `/repo/src/errors.asm`.
-/
namespace FB.Rt
open Ins Opd

/-- Cells of page zero: `linenum` (`parse.asm:58`), `saved_cpu_stack` (`interpreter.asm`). The addresses are chosen by the linker; these are arbitrary. -/
abbrev lineNum : W := 0xB6
abbrev lineNum1 : W := 0xB7
abbrev savedStk : W := 0xB8

/-- `parse.asm:118-151` (`lbl_chk_nxt` and `parse_eof`), `163-189` (`emit_const` and `parser_error`) and `192-217` (`parser_start` and `parse_line`). The parameter is the address `error_msg_list`; the
offsets of the messages are those of `errImage`. The loop of `parser_start` that clears eight bytes is written as eight stores, as the cells are not together in the model; the last byte is after
`zp_clear_end`, and it is the low byte of `name`, that is first in the next file (`vars.asm:44`, in the order of `Makefile:181-186`). `EXE_END` (`jump.asm:59-64`) takes away all that was pushed since
`parser_start` and returns to its caller: `ext` stands for it. The copy of the line (`parse.asm:219-258`, `Rt/Ucase.lean`) and the parser (`Eng/Code.lean`) follow at `ucase_line`, with another `ext`. -/
def eofCode (msg : W) : Code :=
  asm!["rts1", rts,
   "lbl_chk_nxt", lda (indRY laBuf), beq "parser_error",
   "lc_ok", lda (abs laBuf), adc (imm 4), sta (abs laBuf), bcc "parse_eof", inc (abs laBuf1),
   "parse_eof", ldy (imm 1), lda (abs laBuf), cmp (abs laPtr), lda (abs laBuf1), sbc (abs laPtr1), Ins.bne "lbl_chk_nxt",
   "chk_loop", ldy (imm 39), lda (abs loopSp), Ins.bne "parser_error",
   "eof_ok", clc, jmp "emit_const",
   "emit_const", ldy (zp .opos), sta (indY .prgp .prgph), inc (zp .opos), Ins.bne "rts1",
   "too_long", ldy (imm 12),
   "parser_error", lda (absY msg), iny, lsr acc, php, putc, plp, bcc "parser_error",
   "EXE_END", ext,
   "parser_start", tsx, stx (abs savedStk), lda (imm 0), sta (zp .nam), sta (abs varCount), sta (abs lblCount), sta (abs varSp), sta (abs loopSp), sta (abs lineNum1), sta (abs lineNum), sta (zp .opos),
   "parse_line", ldx (imm 0), stx (zp .cix), stx (zp .bmax), lda (zp .bufp), cmp (abs endPtr), lda (zp .bufph), sbc (abs (endPtr + 1)), bcs "parse_eof",
   "pl_inc", inc (abs lineNum), Ins.bne "ucase_line", inc (abs lineNum1),
   "ucase_line", ext]

set_option maxRecDepth 20000 in
code_labels_p eofCode (msg : W)

/-- The texts of the messages, `errors.asm:40-44`: `undef label`, `too long`, `bad loop`, `parse error`, `no end loop/proc/if`. -/
def errTexts : List (List B) :=
  [[117, 110, 100, 101, 102, 32, 108, 97, 98, 101, 108], [116, 111, 111, 32, 108, 111, 110, 103], [98, 97, 100, 32, 108, 111, 111, 112], [112, 97, 114, 115, 101, 32, 101, 114, 114, 111, 114],
   [110, 111, 32, 101, 110, 100, 32, 108, 111, 111, 112, 47, 112, 114, 111, 99, 47, 105, 102]]

/-- The macro `def_error`, `errors.asm:31-39`: each character times two, and one more for the last. -/
def errEnc : List B → List B
  | [] => []
  | [c] => [c * 2 + 1]
  | c :: t => c * 2 :: errEnc t

/-- The table of messages; `error_msg_list` is the address before it. -/
def errImage : List B := errTexts.flatMap errEnc

end FB.Rt

namespace FB.Eng
open FB.Rt
open FB.Native (NS LAd)

/-- The message `t` is at the offset `o` of the table at `msg`. -/
def MsgAt (r : W → B) (msg : W) : Nat → List B → Prop
  | _, [] => False
  | o, [c] => r (msg + BitVec.ofNat 16 o) = c * 2 + 1 ∧ c.toNat < 128 ∧ o < 256
  | o, c :: t => r (msg + BitVec.ofNat 16 o) = c * 2 ∧ c.toNat < 128 ∧ MsgAt r msg (o + 1) t

/-- What the writing of a message leaves. -/
structure EKeep (m m' : M) (o : List (B × B)) : Prop where
  ram : m'.ram = m.ram
  stk : m'.stk = m.stk
  sl : m'.sl = m.sl
  sh : m'.sh = m.sh
  zp : m'.zp = { m.zp with ioerr := m'.zp.ioerr }
  dev : m'.dev = m.dev
  out : m'.out = m.out ++ o

section
variable (msg : W)
local notation "P" => eofCode msg

theorem e_last (m : M) {b : B} (hb : m.ram (idx msg m.y) = b) (h : lowBit b = true) : ∃ m', Reach P (eofCode.parser_error msg) m (eofCode.EXE_END msg) m' ∧ m'.c = true ∧ EKeep m m' [(m.zp.chn, ror8 b false)] := by
  refine ⟨?_, ⟨8, ?_⟩, ?_⟩
  rotate_left
  · rt_exec [eofCode.parser_error.eq, hb, h]
    rfl
  · exact ⟨rfl, rfl, rfl, rfl, rfl, rfl, rfl, rfl⟩

theorem e_next (m : M) {b : B} (hb : m.ram (idx msg m.y) = b) (h : lowBit b = false) : ∃ m', Reach P (eofCode.parser_error msg) m (eofCode.parser_error msg) m' ∧ m'.y = m.y + 1#8 ∧ EKeep m m' [(m.zp.chn, ror8 b false)] := by
  refine ⟨?_, ⟨7, ?_⟩, ?_⟩
  rotate_left
  · rt_exec [eofCode.parser_error.eq, hb, h]
    rfl
  · exact ⟨rfl, rfl, rfl, rfl, rfl, rfl, rfl, rfl⟩

theorem MsgAt.lt {r : W → B} : ∀ {t : List B} {o : Nat}, MsgAt r msg o t → o + t.length ≤ 256 := by
  intro t
  induction t with
  | nil => intro o h; exact h.elim
  | cons c t ih =>
    intro o h
    cases t with
    | nil => have := h.2.2; simp; omega
    | cons d t => have := ih h.2.2; simp at this ⊢; omega

theorem enc_last {c : B} (hc : c.toNat < 128) : ror8 (c * 2 + 1) false = c ∧ lowBit (c * 2 + 1) = true := by
  constructor
  · apply BitVec.eq_of_toNat_eq
    simp
    omega
  · simp [lowBit]

theorem enc_next {c : B} (hc : c.toNat < 128) : ror8 (c * 2) false = c ∧ lowBit (c * 2) = false := by
  constructor
  · apply BitVec.eq_of_toNat_eq
    simp
    omega
  · simp [lowBit]

theorem idx_msg (y : B) : msg + BitVec.ofNat 16 y.toNat = idx msg y := rfl

/-- `parser_error` writes the message and goes to the end with the carry set. -/
theorem e_msg : ∀ (t : List B) (m : M), MsgAt m.ram msg m.y.toNat t → ∃ m', Reach P (eofCode.parser_error msg) m (eofCode.EXE_END msg) m' ∧ m'.c = true ∧ EKeep m m' (t.map fun c => (m.zp.chn, c)) := by
  intro t
  induction t with
  | nil => intro m h; exact h.elim
  | cons c t ih =>
    intro m h
    cases t with
    | nil =>
      obtain ⟨h, hc, -⟩ := h
      rw [idx_msg] at h
      obtain ⟨m1, r1, c1, k1⟩ := e_last msg m h (enc_last hc).2
      rw [(enc_last hc).1] at k1
      exact ⟨m1, r1, c1, k1⟩
    | cons d t =>
      obtain ⟨h, hc, ht⟩ := h
      have hl := MsgAt.lt msg ht
      rw [idx_msg] at h
      obtain ⟨m1, r1, y1, k1⟩ := e_next msg m h (enc_next hc).2
      rw [(enc_next hc).1] at k1
      have hy : m1.y.toNat = m.y.toNat + 1 := by rw [y1]; simp at hl ⊢; omega
      obtain ⟨m2, r2, c2, k2⟩ := ih m1 (by rw [k1.ram, hy]; exact ht)
      have hch : m1.zp.chn = m.zp.chn := by rw [k1.zp]
      refine ⟨m2, r1.trans r2, c2, k2.ram.trans k1.ram, k2.stk.trans k1.stk, k2.sl.trans k1.sl, k2.sh.trans k1.sh, ?_, k2.dev.trans k1.dev, ?_⟩
      · rw [k2.zp, k1.zp]
      · rw [k2.out, k1.out, hch, List.append_assoc]
        rfl

/-- The parts of the state that the check at the end does not change. -/
structure CKeep (m m' : M) : Prop where
  ram : ∀ a : W, a ≠ 0xA8 → a ≠ 0xA9 → m'.ram a = m.ram a
  stk : m'.stk = m.stk
  sl : m'.sl = m.sl
  sh : m'.sh = m.sh
  zp : m'.zp = m.zp
  dev : m'.dev = m.dev
  out : m'.out = m.out

theorem CKeep.refl (m : M) : CKeep m m := ⟨fun _ _ _ => rfl, rfl, rfl, rfl, rfl, rfl, rfl⟩

theorem CKeep.trans {a b c : M} (h : CKeep a b) (h' : CKeep b c) : CKeep a c :=
  ⟨fun x h1 h2 => (h'.ram x h1 h2).trans (h.ram x h1 h2), h'.stk.trans h.stk, h'.sl.trans h.sl, h'.sh.trans h.sh, h'.zp.trans h.zp, h'.dev.trans h.dev, h'.out.trans h.out⟩

/-- Value of `laddr_buf`. -/
def lab (r : W → B) : W := word (r 0xA8) (r 0xA9)

/-- The comparison of the two pointers. -/
theorem cmp_ne {l h l' h' : B} (hlt : (word l h).toNat < (word l' h').toNat) (hm : (word l' h').toNat ≤ 65280) :
    addC h (~~~ h') (addC l (~~~ l') true) = false ∧ ¬ add8 h (~~~ h') (addC l (~~~ l') true) = 0#8 := by
  refine ⟨by rw [cmp_word]; exact decide_eq_false (by omega), fun e => ?_⟩
  have e' := congrArg BitVec.toNat e
  rw [word_toNat, word_toNat] at hlt
  rw [word_toNat] at hm
  have := l.isLt; have := h.isLt; have := l'.isLt; have := h'.isLt
  simp at e'
  omega

theorem cmp_eq {l h l' h' : B} (e : word l h = word l' h') : add8 h (~~~ h') (addC l (~~~ l') true) = 0#8 := by
  have e := congrArg BitVec.toNat e
  rw [word_toNat, word_toNat] at e
  apply BitVec.eq_of_toNat_eq
  have := l.isLt; have := h.isLt; have := l'.isLt; have := h'.isLt
  simp
  omega

/-- At the end of the list. -/
theorem f_end (m : M) (h : lab m.ram = lap m.ram) : ∃ m', Reach P (eofCode.parse_eof msg) m (eofCode.chk_loop msg) m' ∧ CKeep m m' := by
  have e : add8 (m.ram 169#16) (~~~ m.ram 171#16) (addC (m.ram 168#16) (~~~ m.ram 170#16) true) = 0#8 := cmp_eq h
  refine ⟨?_, ⟨7, ?_⟩, ?_⟩
  rotate_left
  · rt_exec [eofCode.parse_eof.eq, e]
    rfl
  · exact ⟨fun _ _ _ => rfl, rfl, rfl, rfl, rfl, rfl, rfl⟩

/-- Before the end: to the check of an entry, with the carry clear. -/
theorem f_more (m : M) (h : (lab m.ram).toNat < (lap m.ram).toNat) (hm : (lap m.ram).toNat ≤ 65280) :
    ∃ m', Reach P (eofCode.parse_eof msg) m (eofCode.lbl_chk_nxt msg) m' ∧ CKeep m m' ∧ m'.y = 1#8 ∧ m'.c = false ∧ m'.ram = m.ram := by
  obtain ⟨e1, e2⟩ : addC (m.ram 169#16) (~~~ m.ram 171#16) (addC (m.ram 168#16) (~~~ m.ram 170#16) true) = false ∧ ¬ add8 (m.ram 169#16) (~~~ m.ram 171#16) (addC (m.ram 168#16) (~~~ m.ram 170#16) true) = 0#8 :=
    cmp_ne h hm
  refine ⟨?_, ⟨6, ?_⟩, ?_⟩
  rotate_left
  · rt_exec [eofCode.parse_eof.eq, e1, e2]
    rfl
  · exact ⟨⟨fun _ _ _ => rfl, rfl, rfl, rfl, rfl, rfl, rfl⟩, rfl, rfl, rfl⟩

/-- An entry of a label that is not defined. -/
theorem f_bad (m : M) (hy : m.y = 1#8) (h : m.ram (lab m.ram + 1#16) = 0#8) : ∃ m', Reach P (eofCode.lbl_chk_nxt msg) m (eofCode.parser_error msg) m' ∧ CKeep m m' ∧ m'.y = 1#8 := by
  have h' : m.ram (idx (word (m.ram 168#16) (m.ram 169#16)) 1#8) = 0#8 := h
  refine ⟨?_, ⟨2, ?_⟩, ?_⟩
  rotate_left
  · rt_exec [eofCode.lbl_chk_nxt.eq, hy, h']
    rfl
  · exact ⟨⟨fun _ _ _ => rfl, rfl, rfl, rfl, rfl, rfl, rfl⟩, rfl⟩

/-- An entry that is defined or resolved: to the next. -/
theorem f_good (m : M) (hy : m.y = 1#8) (hc : m.c = false) (h : m.ram (lab m.ram + 1#16) ≠ 0#8) (hl : (lab m.ram).toNat + 4 < 65536) :
    ∃ m', Reach P (eofCode.lbl_chk_nxt msg) m (eofCode.parse_eof msg) m' ∧ CKeep m m' ∧ (lab m'.ram).toNat = (lab m.ram).toNat + 4 := by
  have h' : ¬ m.ram (idx (word (m.ram 168#16) (m.ram 169#16)) 1#8) = 0#8 := h
  rw [lab, word_toNat] at hl
  have b1 := (m.ram 0xA8).isLt; have b2 := (m.ram 0xA9).isLt
  cases hx : addC (m.ram 168#16) 4#8 false with
  | false =>
    refine ⟨?_, ⟨7, ?_⟩, ?_⟩
    rotate_left
    · rt_exec [eofCode.lbl_chk_nxt.eq, eofCode.lc_ok.eq, hy, hc, h', hx]
      rfl
    · refine ⟨⟨fun a h1 _ => upd_ne h1, rfl, rfl, rfl, rfl, rfl, rfl⟩, ?_⟩
      have hx' := congrArg Bool.toNat hx
      simp only [addC] at hx'
      simp [lab, word_toNat, upd, add8] at hx' hl b1 b2 ⊢
      omega
  | true =>
    refine ⟨?_, ⟨9, ?_⟩, ?_⟩
    rotate_left
    · rt_exec [eofCode.lbl_chk_nxt.eq, eofCode.lc_ok.eq, hy, hc, h', hx]
      rfl
    · refine ⟨⟨fun a h1 h2 => (upd_ne h2).trans (upd_ne h1), rfl, rfl, rfl, rfl, rfl, rfl⟩, ?_⟩
      have hx' := congrArg Bool.toNat hx
      simp only [addC] at hx'
      simp [lab, word_toNat, upd, add8] at hx' hl b1 b2 ⊢
      omega

/-- The end of the check: the loops. -/
theorem f_open (m : M) (h : m.ram 0xB3 ≠ 0#8) : ∃ m', Reach P (eofCode.chk_loop msg) m (eofCode.parser_error msg) m' ∧ CKeep m m' ∧ m'.y = 39#8 := by
  have h' : ¬ m.ram 179#16 = 0#8 := h
  refine ⟨?_, ⟨3, ?_⟩, ?_⟩
  rotate_left
  · rt_exec [eofCode.chk_loop.eq, h']
    rfl
  · exact ⟨⟨fun _ _ _ => rfl, rfl, rfl, rfl, rfl, rfl, rfl⟩, rfl⟩

/-- All well: the last byte of the program. -/
theorem f_ok (m : M) (h : m.ram 0xB3 = 0#8) {k : Code} {st : List Slot} (hs : m.stk = .ret k :: st) (ho : m.zp.opos ≠ 255#8) :
    ∃ m', Reach P (eofCode.chk_loop msg) m k m' ∧ m'.c = false ∧ m'.stk = st ∧ m'.zp = { m.zp with opos := m.zp.opos + 1#8 } ∧ m'.ram = upd m.ram (idx (word m.zp.prgp m.zp.prgph) m.zp.opos) 0#8 ∧
      m'.sl = m.sl ∧ m'.sh = m.sh ∧ m'.out = m.out ∧ m'.dev = m.dev := by
  have h' : m.ram 179#16 = 0#8 := h
  have ho' : ¬ m.zp.opos + 1#8 = 0#8 := fun e => ho (by
    apply BitVec.eq_of_toNat_eq
    have := congrArg BitVec.toNat e
    have := m.zp.opos.isLt
    simp at *
    omega)
  refine ⟨?_, ⟨11, ?_⟩, ?_⟩
  rotate_left
  · rt_exec [eofCode.chk_loop.eq, eofCode.eof_ok.eq, eofCode.emit_const.eq, eofCode.rts1.eq, h', hs, ho']
    rfl
  · exact ⟨rfl, rfl, rfl, rfl, rfl, rfl, rfl, rfl⟩

/-- `parser_start`: all is cleared. -/
theorem f_start (m : M) : ∃ m', Reach P (eofCode.parser_start msg) m (eofCode.parse_line msg) m' ∧ m'.zp = { m.zp with nam := 0, opos := 0 } ∧ m'.stk = m.stk ∧ m'.sl = m.sl ∧ m'.sh = m.sh ∧
    m'.out = m.out ∧ m'.dev = m.dev ∧ (∀ a ∈ [varCount, lblCount, varSp, loopSp, lineNum, lineNum1], m'.ram a = 0#8) ∧
    ∀ a ∉ [savedStk, varCount, lblCount, varSp, loopSp, lineNum, lineNum1], m'.ram a = m.ram a := by
  refine ⟨?_, ⟨12, ?_⟩, ?_⟩
  rotate_left
  · rt_exec [eofCode.parser_start.eq]
    rfl
  · refine ⟨rfl, rfl, rfl, rfl, rfl, rfl, ?_, ?_⟩
    · intro a ha
      simp only [List.mem_cons, List.not_mem_nil, or_false] at ha
      rcases ha with rfl | rfl | rfl | rfl | rfl | rfl <;> simp [upd]
    · intro a ha
      simp only [List.mem_cons, List.not_mem_nil, or_false, not_or] at ha
      obtain ⟨h1, h2, h3, h4, h5, h6, h7⟩ := ha
      simp only [savedStk, varCount, lblCount, varSp, loopSp, lineNum, lineNum1] at h1 h2 h3 h4 h5 h6 h7
      simp at h1 h2 h3 h4 h5 h6 h7
      simp [upd, h1, h2, h3, h4, h5, h6, h7]

/-- `parse_line` at the end of the source. -/
theorem f_last (m : M) (h : (word (m.ram 0xA0) (m.ram 0xA1)).toNat ≤ (word m.zp.bufp m.zp.bufph).toNat) :
    ∃ m', Reach P (eofCode.parse_line msg) m (eofCode.parse_eof msg) m' ∧ m'.zp = { m.zp with cix := 0, bmax := 0 } ∧ m'.ram = m.ram ∧ m'.stk = m.stk ∧ m'.sl = m.sl ∧ m'.sh = m.sh ∧ m'.out = m.out ∧ m'.dev = m.dev := by
  have e : addC m.zp.bufph (~~~ m.ram 161#16) (addC m.zp.bufp (~~~ m.ram 160#16) true) = true := by
    rw [cmp_word]; exact decide_eq_true h
  refine ⟨?_, ⟨8, ?_⟩, ?_⟩
  rotate_left
  · rt_exec [eofCode.parse_line.eq, e]
    rfl
  · exact ⟨rfl, rfl, rfl, rfl, rfl, rfl, rfl⟩

/-- `parse_line` with a line to read: the number of lines goes up. -/
theorem f_line (m : M) (h : (word m.zp.bufp m.zp.bufph).toNat < (word (m.ram 0xA0) (m.ram 0xA1)).toNat) :
    ∃ m', Reach P (eofCode.parse_line msg) m (eofCode.ucase_line msg) m' ∧ m'.zp = { m.zp with cix := 0, bmax := 0 } ∧ word (m'.ram lineNum) (m'.ram lineNum1) = word (m.ram lineNum) (m.ram lineNum1) + 1 ∧
      (∀ a, a ≠ lineNum → a ≠ lineNum1 → m'.ram a = m.ram a) ∧ m'.x = 0 ∧ m'.stk = m.stk ∧ m'.sl = m.sl ∧ m'.sh = m.sh ∧ m'.out = m.out ∧ m'.dev = m.dev := by
  have e : addC m.zp.bufph (~~~ m.ram 161#16) (addC m.zp.bufp (~~~ m.ram 160#16) true) = false := by
    rw [cmp_word]; exact decide_eq_false (Nat.not_le.2 h)
  have b1 := (m.ram 182#16).isLt; have b2 := (m.ram 183#16).isLt
  by_cases hz : m.ram 182#16 + 1#8 = 0#8
  · refine ⟨?_, ⟨13, ?_⟩, ?_⟩
    rotate_left
    · rt_exec [eofCode.parse_line.eq, eofCode.pl_inc.eq, e, hz]
      rfl
    · refine ⟨rfl, ?_, fun a h1 h2 => (upd_ne h2).trans (upd_ne h1), rfl, rfl, rfl, rfl, rfl, rfl⟩
      have := congrArg BitVec.toNat hz
      apply BitVec.eq_of_toNat_eq
      simp [word_toNat, upd] at this ⊢
      omega
  · refine ⟨?_, ⟨11, ?_⟩, ?_⟩
    rotate_left
    · rt_exec [eofCode.parse_line.eq, eofCode.pl_inc.eq, e, hz]
      rfl
    · refine ⟨rfl, ?_, fun a h1 h2 => upd_ne h1, rfl, rfl, rfl, rfl, rfl, rfl⟩
      have : ¬ (m.ram 182#16).toNat = 255 := fun h => hz (by apply BitVec.eq_of_toNat_eq; simp [h])
      apply BitVec.eq_of_toNat_eq
      simp [word_toNat, upd] at this ⊢
      omega

end

end FB.Eng
