import Verif.Rt.Sqrt
/-!
# The stack of floating point numbers and its tokens

Transcription of `/repo/src/interp/atarifp/`: `fp_push.asm`, `fp_pop.asm`, `fp_const.asm`, `fp_load.asm`, `fp_store.asm`, `fp_sub.asm`, `fp_mul.asm`, `fp_div.asm`, `fp_abs.asm`, `fp_sgn.asm`, `fp_intfp.asm`,
`fp_int.asm`, `fp_cmp.asm`, and `int_to_fp` of `a800/str.asm:50-68`, `pushXX_set0` of `comp0.asm:37-50`, `pushAX` of `interpreter.asm:212-218`.
-/
namespace FB.Rt
open Ins Opd

/-- The routines of the tokens.  `fptr` is the byte `$B0` of page zero; `fpstk_0` is `stack_end` = `$4D0` and the other five arrays are 8 bytes apart (`fpmain.asm:43-49`, `interpreter.asm:76-84`). -/
def fpCode : Code :=
  asm!["push_fr0", dec (abs 0xB0), ldy (abs 0xB0), lda (abs 0xD4), sta (absY 0x4D0), lda (abs 0xD5), sta (absY 0x4D8), lda (abs 0xD6), sta (absY 0x4E0), lda (abs 0xD7), sta (absY 0x4E8),
     lda (abs 0xD8), sta (absY 0x4F0), lda (abs 0xD9), sta (absY 0x4F8), rts,
   "pop_fr1", jsr "FMOVE",
   "pop_fr0", ldy (abs 0xB0), inc (abs 0xB0), lda (absY 0x4D0), sta (abs 0xD4), lda (absY 0x4D8), sta (abs 0xD5), lda (absY 0x4E0), sta (abs 0xD6), lda (absY 0x4E8), sta (abs 0xD7),
     lda (absY 0x4F0), sta (abs 0xD8), lda (absY 0x4F8), sta (abs 0xD9), rts,
   "EXE_FLOAT", jsr "push_fr0",
   "fl_1", ldy (imm 5),
   "ldloop", lda (indY .cptr .cptrh), sta (absY 0xD4), dey, bpl "ldloop", lda (zp .cptr), clc, adc (imm 6), sta (zp .cptr), bcc "xit", inc (zp .cptrh), bcs "xit",
   "EXE_FP_ADD", jsr "pop_fr1",
   "ad_1", jsr "FADD",
   "check_fp_err", bcc "xit", lda (imm 3), sta (zp .ioerr),
   "xit", next,
   "EXE_FP_SUB", jsr "pop_fr1",
   "sb_1", jsr "FSUB",
   "sb_2", jmp "check_fp_err",
   "EXE_FP_MUL", jsr "pop_fr1",
   "mu_1", jsr "FMUL",
   "mu_2", jmp "check_fp_err",
   "EXE_FP_DIV", jsr "pop_fr1",
   "di_1", jsr "FDIV",
   "di_2", jmp "check_fp_err",
   "EXE_FP_LOAD", stx (abs 0xFD), sta (abs 0xFC), jsr "push_fr0",
   "lo_1", jsr "FLD0P",
   "lo_2", next,
   "EXE_FP_STORE", ldx (zp .saddr), ldy (zp .saddrh), jsr "FST0R",
   "st_1", jsr "pop_fr0",
   "st_2", next,
   "EXE_FP_ABS", asl (abs 0xD4), lsr (abs 0xD4), next,
   "EXE_FP_NEG", lda (abs 0xD4), eor (imm 0x80), sta (abs 0xD4), next,
   "EXE_FP_SGN", asl (abs 0xD4), beq "zero", ldy (imm 0x80), sty (abs 0xD4), ror (abs 0xD4), ldy (imm 1), sty (abs 0xD5), ldy (imm 0), sty (abs 0xD6), sty (abs 0xD7), sty (abs 0xD8), sty (abs 0xD9),
   "zero", next,
   "EXE_INT_FP", pha, jsr "push_fr0",
   "if_1", pla, jsr "int_to_fp",
   "if_2", next,
   "int_to_fp", cpx (imm 0x80), php, bcc "positive", jsr "neg_AX",
   "positive", sta (abs 0xD4), stx (abs 0xD5), jsr "IFP",
   "if_3", asl (abs 0xD4), plp, ror (abs 0xD4), rts,
   "EXE_FP_INT", asl (abs 0xD4), php, lsr (abs 0xD4), jsr "FPI",
   "in_1", bcs "err3", ldx (abs 0xD5), bpl "ok",
   "err3", lda (imm 3), sta (zp .ioerr),
   "ok", lda (abs 0xD4), pha, jsr "pop_fr0",
   "in_2", pla, plp, bcc "pos", jsr "neg_AX",
   "pos", next,
   "EXE_FP_CMP", jsr "pop_fr1",
   "cm_1", jsr "FSUB",
   "cm_2", ldx (abs 0xD4), jsr "pop_fr0",
   "pushXX_set0", ldy (zp .sptr), txa, jsr "pushAX",
   "EXE_0", lda (imm 0), tax, next,
   "pushAX", sta (stkL 255), txa, sta (stkH 255), dec (zp .sptr), rts,
   "FMOVE", ext, "FMOVE_r", rts,
   "FADD", ext, "FADD_r", rts,
   "FSUB", ext, "FSUB_r", rts,
   "FMUL", ext, "FMUL_r", rts,
   "FDIV", ext, "FDIV_r", rts,
   "FLD0P", ext, "FLD0P_r", rts,
   "FST0R", ext, "FST0R_r", rts,
   "FPI", ext, "FPI_r", rts,
   "IFP", ext, "IFP_r", rts] ++ negax

set_option maxRecDepth 4000 in
code_labels fpCode

/-- The number at a place of the stack: one byte in each of the six arrays. -/
def slot (ram : W → B) (y : B) : Num := ⟨ram (idx 0x4D0#16 y), ram (idx 0x4D8#16 y), ram (idx 0x4E0#16 y), ram (idx 0x4E8#16 y), ram (idx 0x4F0#16 y), ram (idx 0x4F8#16 y)⟩

/-- The top of the stack is in `FR0`, and the other numbers are from `fptr` on. -/
structure FpSt (ram : W → B) (top : Num) (st : List Num) : Prop where
  fptr : (ram 0xB0#16).toNat + st.length = 8
  slots : ∀ i (h : i < st.length), slot ram (BitVec.ofNat 8 ((ram 0xB0#16).toNat + i)) = st[i]
  top : numAt ram 0xD4#16 = top

/-- Where memory may change: `fptr`, the cells of the OS for floating point, the stack. -/
def FpKeep (r r' : W → B) : Prop := ∀ a : W, a ≠ 0xB0#16 → (a.toNat < 0xD4 ∨ (0x100 ≤ a.toNat ∧ a.toNat < 0x4D0) ∨ 0x500 ≤ a.toNat) → r' a = r a

theorem FpKeep.refl (r : W → B) : FpKeep r r := fun _ _ _ => rfl
theorem FpKeep.trans {r r1 r2 : W → B} (h : FpKeep r r1) (h' : FpKeep r1 r2) : FpKeep r r2 := fun a h1 h2 => (h' a h1 h2).trans (h a h1 h2)

theorem idx_toNat (w : W) (y : B) (h : w.toNat + y.toNat < 65536) : (idx w y).toNat = w.toNat + y.toNat := by
  have := y.isLt
  rw [idx, BitVec.toNat_add, BitVec.toNat_ofNat, Nat.mod_eq_of_lt (show y.toNat < 2 ^ 16 by omega), Nat.mod_eq_of_lt (by omega)]

/-- Changes outside of the stack and of `fptr`. -/
theorem FpSt.keep {r r' : W → B} {top : Num} {st : List Num} (h : FpSt r top st) (hk : ∀ a : W, a = 0xB0#16 ∨ (0x4D0 ≤ a.toNat ∧ a.toNat < 0x500) → r' a = r a) : FpSt r' (numAt r' 0xD4#16) st := by
  have e : r' 0xB0#16 = r 0xB0#16 := hk _ (.inl rfl)
  refine ⟨by rw [e]; exact h.fptr, fun i hi => ?_, rfl⟩
  rw [e, ← h.slots i hi]
  have hp := h.fptr
  have hl : (BitVec.ofNat 8 ((r 0xB0#16).toNat + i)).toNat < 8 := by rw [BitVec.toNat_ofNat, Nat.mod_eq_of_lt (by omega)]; omega
  generalize BitVec.ofNat 8 ((r 0xB0#16).toNat + i) = y at hl
  simp only [slot]
  have q : ∀ w : W, 0x4D0 ≤ w.toNat → w.toNat ≤ 0x4F8 → r' (idx w y) = r (idx w y) := fun w h1 h2 => hk _ (.inr (by rw [idx_toNat w y (by omega)]; omega))
  rw [q _ (by decide) (by decide), q _ (by decide) (by decide), q _ (by decide) (by decide), q _ (by decide) (by decide), q _ (by decide) (by decide), q _ (by decide) (by decide)]

/-- What a routine leaves as it was. -/
structure FpC (m m' : M) (st : List Slot) : Prop where
  zp : m'.zp = m.zp
  sl : m'.sl = m.sl
  sh : m'.sh = m.sh
  stk : m'.stk = st

section
variable {O : NOps}

/-- `push_fr0`, at any place. -/
theorem push_raw (m : M) (k : Code) (st : List Slot) (hs : m.stk = .ret k :: st) : ∃ m', Reach fpCode fpCode.push_fr0 m k m' ∧ m'.x = m.x ∧ FpC m m' st ∧
    m'.ram = upd (upd (upd (upd (upd (upd (upd m.ram 0xB0#16 (m.ram 0xB0#16 - 1#8)) (idx 0x4D0#16 (m.ram 0xB0#16 - 1#8)) (m.ram 0xD4#16)) (idx 0x4D8#16 (m.ram 0xB0#16 - 1#8)) (m.ram 0xD5#16))
      (idx 0x4E0#16 (m.ram 0xB0#16 - 1#8)) (m.ram 0xD6#16)) (idx 0x4E8#16 (m.ram 0xB0#16 - 1#8)) (m.ram 0xD7#16)) (idx 0x4F0#16 (m.ram 0xB0#16 - 1#8)) (m.ram 0xD8#16))
      (idx 0x4F8#16 (m.ram 0xB0#16 - 1#8)) (m.ram 0xD9#16) := by
  have hy := (m.ram 0xB0#16 - 1#8).isLt
  have q : ∀ w : W, 0x4D0 ≤ w.toNat → w.toNat ≤ 0x4F8 → ∀ a : W, a.toNat < 0x100 → a ≠ idx w (m.ram 0xB0#16 - 1#8) := fun w h1 h2 a ha e => by
    have := idx_toNat w (m.ram 0xB0#16 - 1#8) (by omega)
    rw [← e] at this
    omega
  have r0 : upd m.ram 0xB0#16 (m.ram 0xB0#16 - 1#8) 0xD4#16 = m.ram 0xD4#16 := upd_ne (by decide)
  refine ⟨?_, ⟨15, ?_⟩, ?_⟩
  rotate_left
  · rw [fpCode.push_fr0.eq]
    rt_exec [hs, upd_at, upd_ne (show (0xD4#16 : W) ≠ 0xB0#16 by decide), upd_ne (show (0xD5#16 : W) ≠ 0xB0#16 by decide), upd_ne (show (0xD6#16 : W) ≠ 0xB0#16 by decide),
      upd_ne (show (0xD7#16 : W) ≠ 0xB0#16 by decide), upd_ne (show (0xD8#16 : W) ≠ 0xB0#16 by decide), upd_ne (show (0xD9#16 : W) ≠ 0xB0#16 by decide),
      upd_ne (q 0x4D0#16 (by decide) (by decide) 0xD5#16 (by decide)), upd_ne (q 0x4D0#16 (by decide) (by decide) 0xD6#16 (by decide)), upd_ne (q 0x4D0#16 (by decide) (by decide) 0xD7#16 (by decide)),
      upd_ne (q 0x4D0#16 (by decide) (by decide) 0xD8#16 (by decide)), upd_ne (q 0x4D0#16 (by decide) (by decide) 0xD9#16 (by decide)),
      upd_ne (q 0x4D8#16 (by decide) (by decide) 0xD6#16 (by decide)), upd_ne (q 0x4D8#16 (by decide) (by decide) 0xD7#16 (by decide)),
      upd_ne (q 0x4D8#16 (by decide) (by decide) 0xD8#16 (by decide)), upd_ne (q 0x4D8#16 (by decide) (by decide) 0xD9#16 (by decide)),
      upd_ne (q 0x4E0#16 (by decide) (by decide) 0xD7#16 (by decide)), upd_ne (q 0x4E0#16 (by decide) (by decide) 0xD8#16 (by decide)), upd_ne (q 0x4E0#16 (by decide) (by decide) 0xD9#16 (by decide)),
      upd_ne (q 0x4E8#16 (by decide) (by decide) 0xD8#16 (by decide)), upd_ne (q 0x4E8#16 (by decide) (by decide) 0xD9#16 (by decide)), upd_ne (q 0x4F0#16 (by decide) (by decide) 0xD9#16 (by decide))]
    rfl
  · exact ⟨rfl, ⟨rfl, rfl, rfl, rfl⟩, rfl⟩

theorem idx_inj {w w' : W} {j y : B} (hw : w.toNat % 8 = 0) (hw' : w'.toNat % 8 = 0) (h1 : w.toNat < 0x600) (h2 : w'.toNat < 0x600) (hj : j.toNat < 8) (hy : y.toNat < 8) (h : idx w j = idx w' y) : w = w' ∧ j = y := by
  have e : (idx w j).toNat = (idx w' y).toNat := by rw [h]
  rw [idx_toNat w j (by omega), idx_toNat w' y (by omega)] at e
  exact ⟨BitVec.eq_of_toNat_eq (by omega), BitVec.eq_of_toNat_eq (by omega)⟩

/-- Six bytes are stored in a place of the stack. -/
theorem slot_upd (r : W → B) (n : Num) (y j : B) (hy : y.toNat < 8) (hj : j.toNat < 8) :
    slot (upd (upd (upd (upd (upd (upd r (idx 0x4D0#16 y) n.e) (idx 0x4D8#16 y) n.d1) (idx 0x4E0#16 y) n.d2) (idx 0x4E8#16 y) n.d3) (idx 0x4F0#16 y) n.d4) (idx 0x4F8#16 y) n.d5) j = if j = y then n else slot r j := by
  have q : ∀ w w' : W, w.toNat % 8 = 0 → w'.toNat % 8 = 0 → w.toNat < 0x600 → w'.toNat < 0x600 → w ≠ w' → idx w j ≠ idx w' y := fun w w' a b c d ne e => ne (idx_inj a b c d hj hy e).1
  have q2 : j ≠ y → ∀ w w' : W, w.toNat % 8 = 0 → w'.toNat % 8 = 0 → w.toNat < 0x600 → w'.toNat < 0x600 → idx w j ≠ idx w' y := fun ne w w' a b c d e => ne (idx_inj a b c d hj hy e).2
  by_cases h : j = y
  · subst h
    rw [if_pos rfl]
    simp only [slot]
    simp only [upd_at, upd_ne (q 0x4D0#16 0x4D8#16 (by decide) (by decide) (by decide) (by decide) (by decide)), upd_ne (q 0x4D0#16 0x4E0#16 (by decide) (by decide) (by decide) (by decide) (by decide)),
      upd_ne (q 0x4D0#16 0x4E8#16 (by decide) (by decide) (by decide) (by decide) (by decide)), upd_ne (q 0x4D0#16 0x4F0#16 (by decide) (by decide) (by decide) (by decide) (by decide)),
      upd_ne (q 0x4D0#16 0x4F8#16 (by decide) (by decide) (by decide) (by decide) (by decide)), upd_ne (q 0x4D8#16 0x4E0#16 (by decide) (by decide) (by decide) (by decide) (by decide)),
      upd_ne (q 0x4D8#16 0x4E8#16 (by decide) (by decide) (by decide) (by decide) (by decide)), upd_ne (q 0x4D8#16 0x4F0#16 (by decide) (by decide) (by decide) (by decide) (by decide)),
      upd_ne (q 0x4D8#16 0x4F8#16 (by decide) (by decide) (by decide) (by decide) (by decide)), upd_ne (q 0x4E0#16 0x4E8#16 (by decide) (by decide) (by decide) (by decide) (by decide)),
      upd_ne (q 0x4E0#16 0x4F0#16 (by decide) (by decide) (by decide) (by decide) (by decide)), upd_ne (q 0x4E0#16 0x4F8#16 (by decide) (by decide) (by decide) (by decide) (by decide)),
      upd_ne (q 0x4E8#16 0x4F0#16 (by decide) (by decide) (by decide) (by decide) (by decide)), upd_ne (q 0x4E8#16 0x4F8#16 (by decide) (by decide) (by decide) (by decide) (by decide)),
      upd_ne (q 0x4F0#16 0x4F8#16 (by decide) (by decide) (by decide) (by decide) (by decide))]
  · rw [if_neg h]
    have u : ∀ w : W, w.toNat % 8 = 0 → w.toNat < 0x600 → (upd (upd (upd (upd (upd (upd r (idx 0x4D0#16 y) n.e) (idx 0x4D8#16 y) n.d1) (idx 0x4E0#16 y) n.d2) (idx 0x4E8#16 y) n.d3) (idx 0x4F0#16 y) n.d4) (idx 0x4F8#16 y) n.d5) (idx w j)
        = r (idx w j) := fun w h1 h2 => by
      rw [upd_ne (q2 h _ _ h1 (by decide) h2 (by decide)), upd_ne (q2 h _ _ h1 (by decide) h2 (by decide)), upd_ne (q2 h _ _ h1 (by decide) h2 (by decide)), upd_ne (q2 h _ _ h1 (by decide) h2 (by decide)),
        upd_ne (q2 h _ _ h1 (by decide) h2 (by decide)), upd_ne (q2 h _ _ h1 (by decide) h2 (by decide))]
    simp only [slot]
    rw [u _ (by decide) (by decide), u _ (by decide) (by decide), u _ (by decide) (by decide), u _ (by decide) (by decide), u _ (by decide) (by decide), u _ (by decide) (by decide)]

theorem slot_ptr (r : W → B) (v : B) (j : B) (hj : j.toNat < 8) : slot (upd r 0xB0#16 v) j = slot r j := by
  have q : ∀ w : W, 0x4D0 ≤ w.toNat → w.toNat < 0x600 → upd r 0xB0#16 v (idx w j) = r (idx w j) := fun w h1 h2 => upd_ne fun e => by
    have := idx_toNat w j (by omega)
    rw [e] at this
    simp at this
    omega
  simp only [slot]
  rw [q _ (by decide) (by decide), q _ (by decide) (by decide), q _ (by decide) (by decide), q _ (by decide) (by decide), q _ (by decide) (by decide), q _ (by decide) (by decide)]

/-- `push_fr0`, with room in the stack. -/
theorem push_ok (m : M) (k : Code) (st : List Slot) (hs : m.stk = .ret k :: st) {top : Num} {l : List Num} (hf : FpSt m.ram top l) (hl : l.length < 8) :
    ∃ m', Reach fpCode fpCode.push_fr0 m k m' ∧ m'.x = m.x ∧ FpC m m' st ∧ FpSt m'.ram top (top :: l) ∧ (∀ a : W, a ≠ 0xB0#16 → a.toNat < 0x4D0 ∨ 0x500 ≤ a.toNat → m'.ram a = m.ram a) := by
  obtain ⟨m', r, hx, c, e⟩ := push_raw m k st hs
  have hp := hf.fptr
  have hlt := (m.ram 0xB0#16).isLt
  have hy : (m.ram 0xB0#16 - 1#8).toNat = (m.ram 0xB0#16).toNat - 1 := by simp [BitVec.toNat_sub]; omega
  have hy8 : (m.ram 0xB0#16 - 1#8).toNat < 8 := by omega
  generalize hyd : m.ram 0xB0#16 - 1#8 = y at *
  have hfr : m.fr0 = top := hf.top
  have e' : m'.ram = upd (upd (upd (upd (upd (upd (upd m.ram 0xB0#16 y) (idx 0x4D0#16 y) top.e) (idx 0x4D8#16 y) top.d1) (idx 0x4E0#16 y) top.d2) (idx 0x4E8#16 y) top.d3) (idx 0x4F0#16 y) top.d4)
      (idx 0x4F8#16 y) top.d5 := by rw [e, ← hfr]; rfl
  have oth : ∀ a : W, a.toNat < 0x4D0 ∨ 0x500 ≤ a.toNat → m'.ram a = upd m.ram 0xB0#16 y a := fun a ha => by
    have q : ∀ w : W, 0x4D0 ≤ w.toNat → w.toNat ≤ 0x4F8 → a ≠ idx w y := fun w h1 h2 e => by
      have := idx_toNat w y (by omega)
      rw [← e] at this
      omega
    rw [e', upd_ne (q _ (by decide) (by decide)), upd_ne (q _ (by decide) (by decide)), upd_ne (q _ (by decide) (by decide)), upd_ne (q _ (by decide) (by decide)), upd_ne (q _ (by decide) (by decide)),
      upd_ne (q _ (by decide) (by decide))]
  have p' : m'.ram 0xB0#16 = y := by rw [oth _ (.inl (by decide)), upd_at]
  refine ⟨m', r, hx, c, ⟨by rw [p', List.length_cons]; omega, fun i hi => ?_, ?_⟩, fun a h1 h2 => by rw [oth a h2, upd_ne h1]⟩
  · rw [p']
    rw [List.length_cons] at hi
    have hj : (BitVec.ofNat 8 (y.toNat + i)).toNat = y.toNat + i := by rw [BitVec.toNat_ofNat, Nat.mod_eq_of_lt (by omega)]
    rw [e', slot_upd _ top y _ hy8 (by omega)]
    match i, hi with
    | 0, _ => rw [if_pos (BitVec.eq_of_toNat_eq (by rw [hj]; omega))]; rfl
    | i + 1, hi =>
      rw [if_neg (fun e => by have := congrArg BitVec.toNat e; rw [hj] at this; omega), slot_ptr _ _ _ (by omega)]
      have := hf.slots i (by omega)
      rw [show y.toNat + (i + 1) = (m.ram 0xB0#16).toNat + i by omega, this]
      rfl
  · rw [← hf.top]
    refine numAt_congr ?_ ?_ ?_ ?_ ?_ ?_ <;> exact (oth _ (.inl (by decide))).trans (upd_ne (by decide))

/-- `pop_fr0`. -/
theorem pop_ok (m : M) (k : Code) (st : List Slot) (hs : m.stk = .ret k :: st) {top b : Num} {l : List Num} (hf : FpSt m.ram top (b :: l)) :
    ∃ m', Reach fpCode fpCode.pop_fr0 m k m' ∧ m'.x = m.x ∧ FpC m m' st ∧ FpSt m'.ram b l ∧ (∀ a : W, a ≠ 0xB0#16 → a.toNat < 0xD4 ∨ 0xDA ≤ a.toNat → m'.ram a = m.ram a) := by
  have hp := hf.fptr
  rw [List.length_cons] at hp
  have hlt := (m.ram 0xB0#16).isLt
  have hy : (m.ram 0xB0#16 + 1#8).toNat = (m.ram 0xB0#16).toNat + 1 := by simp [BitVec.toNat_add]; omega
  have q : ∀ w : W, 0x4D0 ≤ w.toNat → w.toNat ≤ 0x4F8 → ∀ a : W, a.toNat < 0x100 → idx w (m.ram 0xB0#16) ≠ a := fun w h1 h2 a ha e => by
    have := idx_toNat w (m.ram 0xB0#16) (by omega)
    rw [e] at this
    omega
  obtain ⟨m', r, hx, c, e⟩ : ∃ m', Reach fpCode fpCode.pop_fr0 m k m' ∧ m'.x = m.x ∧ FpC m m' st ∧ m'.ram = upd (upd (upd (upd (upd (upd (upd m.ram 0xB0#16 (m.ram 0xB0#16 + 1#8)) 0xD4#16 (m.ram (idx 0x4D0#16 (m.ram 0xB0#16))))
      0xD5#16 (m.ram (idx 0x4D8#16 (m.ram 0xB0#16)))) 0xD6#16 (m.ram (idx 0x4E0#16 (m.ram 0xB0#16)))) 0xD7#16 (m.ram (idx 0x4E8#16 (m.ram 0xB0#16)))) 0xD8#16 (m.ram (idx 0x4F0#16 (m.ram 0xB0#16))))
      0xD9#16 (m.ram (idx 0x4F8#16 (m.ram 0xB0#16))) := by
    refine ⟨?_, ⟨15, ?_⟩, ?_⟩
    rotate_left
    · rw [fpCode.pop_fr0.eq]
      have z : ∀ (w : W) (r : W → B) (v : B) (a : W), 0x4D0 ≤ w.toNat → w.toNat ≤ 0x4F8 → a.toNat < 0x100 → upd r a v (idx w (m.ram 0xB0#16)) = r (idx w (m.ram 0xB0#16)) := fun w r v a h1 h2 h3 => upd_ne (q w h1 h2 a h3)
      have z0 := fun r v a => z 0x4D0#16 r v a (by decide) (by decide)
      have z1 := fun r v a => z 0x4D8#16 r v a (by decide) (by decide)
      have z2 := fun r v a => z 0x4E0#16 r v a (by decide) (by decide)
      have z3 := fun r v a => z 0x4E8#16 r v a (by decide) (by decide)
      have z4 := fun r v a => z 0x4F0#16 r v a (by decide) (by decide)
      have z5 := fun r v a => z 0x4F8#16 r v a (by decide) (by decide)
      rt_exec [hs, z0, z1, z2, z3, z4, z5]
      rfl
    · exact ⟨rfl, ⟨rfl, rfl, rfl, rfl⟩, rfl⟩
  have hb := hf.slots 0 (by simp)
  rw [Nat.add_zero, show BitVec.ofNat 8 (m.ram 0xB0#16).toNat = m.ram 0xB0#16 from BitVec.eq_of_toNat_eq (by rw [BitVec.toNat_ofNat]; omega)] at hb
  have oth : ∀ a : W, a.toNat < 0xD4 ∨ 0xDA ≤ a.toNat → m'.ram a = upd m.ram 0xB0#16 (m.ram 0xB0#16 + 1#8) a := fun a ha => by
    have n : ∀ c : W, 0xD4 ≤ c.toNat → c.toNat < 0xDA → a ≠ c := fun c h1 h2 e => by rw [e] at ha; omega
    rw [e, upd_ne (n _ (by decide) (by decide)), upd_ne (n _ (by decide) (by decide)), upd_ne (n _ (by decide) (by decide)), upd_ne (n _ (by decide) (by decide)), upd_ne (n _ (by decide) (by decide)),
      upd_ne (n _ (by decide) (by decide))]
  have p' : m'.ram 0xB0#16 = m.ram 0xB0#16 + 1#8 := by rw [oth _ (.inl (by decide)), upd_at]
  refine ⟨m', r, hx, c, ⟨by rw [p']; omega, fun i hi => ?_, ?_⟩, fun a h1 h2 => by rw [oth a h2, upd_ne h1]⟩
  · have h := hf.slots (i + 1) (by simpa using hi)
    rw [p', hy, show (m.ram 0xB0#16).toNat + 1 + i = (m.ram 0xB0#16).toNat + (i + 1) by omega]
    have hj : (BitVec.ofNat 8 ((m.ram 0xB0#16).toNat + (i + 1))).toNat < 8 := by rw [BitVec.toNat_ofNat, Nat.mod_eq_of_lt (by omega)]; omega
    have h' : slot m.ram (BitVec.ofNat 8 ((m.ram 0xB0#16).toNat + (i + 1))) = l[i] := h
    rw [← h']
    generalize BitVec.ofNat 8 ((m.ram 0xB0#16).toNat + (i + 1)) = j at hj
    rw [← slot_ptr m.ram (m.ram 0xB0#16 + 1#8) j hj]
    have qq : ∀ w : W, 0x4D0 ≤ w.toNat → w.toNat ≤ 0x4F8 → m'.ram (idx w j) = upd m.ram 0xB0#16 (m.ram 0xB0#16 + 1#8) (idx w j) := fun w h1 h2 => oth _ (.inr (by rw [idx_toNat w j (by omega)]; omega))
    simp only [slot]
    rw [qq _ (by decide) (by decide), qq _ (by decide) (by decide), qq _ (by decide) (by decide), qq _ (by decide) (by decide), qq _ (by decide) (by decide), qq _ (by decide) (by decide)]
  · have hb' : slot m.ram (m.ram 0xB0#16) = b := hb
    rw [← hb', e]
    rfl

end
end FB.Rt
