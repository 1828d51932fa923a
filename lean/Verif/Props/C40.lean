import Verif.Parse.Compile
import Verif.Parse.GrammarFp
import Verif.Props.C17
import Verif.Props.C18

/-!
# C40: the reported error position

Each time the parser expects something (the start of a table with a description, a keyword, a closing
parenthesis or bracket, a variable of some type…) at a position, `error` records it; the model keeps the
complete history in the ghost field `trail`. A control structure error (`loop_error`) replaces all that
was recorded.
-/

namespace FB.Parse

open Frame

/-! ## Specification -/

/-- What is reported agrees with the history: the position reported is the largest at which something was
expected (0 if nothing was), the items reported are exactly those expected at that position, and the
position is inside the line. -/
structure ErrSpec (s : PS) : Prop where
  max : ∀ e ∈ s.trail, e.1 ≤ s.maxPos
  reached : s.trail ≠ [] → ∃ e ∈ s.trail, e.1 = s.maxPos
  none : s.trail = [] → s.maxPos = 0
  items : ∀ lv m, (lv, m) ∈ s.errs ↔ (s.maxPos, lv, m) ∈ s.trail
  inLine : s.maxPos ≤ s.str.length

/-! ## Proofs -/

/-- The invariant: the position is inside the line and the report agrees with the history. -/
def PosErr (s : PS) : Prop := s.pos ≤ s.str.length ∧ ErrSpec s

theorem ErrSpec.same {s s' : PS} (h : ErrSpec s) (h1 : s'.trail = s.trail) (h2 : s'.maxPos = s.maxPos)
    (h3 : s'.errs = s.errs) (h4 : s'.str = s.str) : ErrSpec s' := by
  constructor
  · rw [h1, h2]; exact h.max
  · rw [h1, h2]; exact h.reached
  · rw [h1, h2]; exact h.none
  · rw [h1, h2, h3]; exact h.items
  · rw [h2, h4]; exact h.inLine

theorem PosErr.error {s : PS} (h : PosErr s) (m : Str) : PosErr (s.error m) := by
  refine ⟨by simpa using h.1, ?_⟩
  obtain ⟨hp, h⟩ := h
  unfold PS.error
  split
  · exact h
  · dsimp only
    split
    · next hge =>
      constructor
      · intro e he
        simp only [List.mem_cons] at he
        rcases he with rfl | he
        · exact Nat.le_refl _
        · exact Nat.le_trans (h.max e he) hge
      · intro _; exact ⟨_, List.mem_cons_self, rfl⟩
      · intro hc; cases hc
      · intro lv m'
        dsimp only
        by_cases hgt : s.pos > s.maxPos
        · simp only [if_pos hgt]
          constructor
          · intro hm; simp at hm; simp [hm]
          · intro hm
            simp only [List.mem_cons, Prod.mk.injEq, true_and] at hm
            rcases hm with ⟨rfl, rfl⟩ | hm
            · simp
            · exact absurd (h.max _ hm) (by simpa using hgt)
        · have heq : s.pos = s.maxPos := by omega
          simp only [if_neg hgt]
          rw [heq]
          split
          · next hin =>
            rw [h.items, List.mem_cons]
            constructor
            · exact .inr
            · rintro (hm | hm)
              · simp only [Prod.mk.injEq, true_and] at hm
                obtain ⟨rfl, rfl⟩ := hm
                exact (h.items _ _).1 hin
              · exact hm
          · simp only [List.mem_cons, Prod.mk.injEq, true_and]
            rw [h.items]
      · exact hp
    · next hlt =>
      constructor
      · intro e he
        simp only [List.mem_cons] at he
        rcases he with rfl | he
        · dsimp only at hlt ⊢; omega
        · exact h.max e he
      · intro _
        dsimp only
        by_cases ht : s.trail = []
        · have := h.none ht; omega
        · obtain ⟨e, he, h2⟩ := h.reached ht
          exact ⟨e, List.mem_cons_of_mem _ he, h2⟩
      · intro hc; cases hc
      · intro lv m'
        dsimp only
        rw [h.items, List.mem_cons]
        constructor
        · exact .inr
        · rintro (hm | hm)
          · simp only [Prod.mk.injEq] at hm; omega
          · exact hm
      · exact h.inLine

theorem PosErr.loopError {s : PS} (h : PosErr s) (m : Str) : PosErr (s.loopError m) := by
  refine ⟨h.1, ?_⟩
  unfold PS.loopError
  constructor <;> simp [h.1]

/-- Changing fields that the invariant does not mention. -/
theorem PosErr.same {s s' : PS} (h : PosErr s) (h0 : s'.pos = s.pos) (h1 : s'.trail = s.trail)
    (h2 : s'.maxPos = s.maxPos) (h3 : s'.errs = s.errs) (h4 : s'.str = s.str) : PosErr s' :=
  ⟨by rw [h0, h4]; exact h.1, h.2.same h1 h2 h3 h4⟩

/-- Moving to a position inside the line. -/
theorem PosErr.move {s s' : PS} (h : PosErr s) (h0 : s'.pos ≤ s.str.length) (h1 : s'.trail = s.trail)
    (h2 : s'.maxPos = s.maxPos) (h3 : s'.errs = s.errs) (h4 : s'.str = s.str) : PosErr s' :=
  ⟨by rw [h4]; exact h0, h.2.same h1 h2 h3 h4⟩

theorem PosErr.adv {s : PS} (h : PosErr s) (hc : s.pos < s.str.length) : PosErr s.adv :=
  h.move hc rfl rfl rfl rfl

theorem PosErr.expect {s : PS} (h : PosErr s) (c : Nat) : PosErr (s.expect c).2 := by
  unfold PS.expect
  split
  · next hc =>
    refine h.adv ?_
    unfold PS.cur at hc
    refine Nat.lt_of_not_le fun hle => ?_
    rw [List.getElem?_eq_none hle] at hc
    cases hc
  · split
    · exact h.error _
    · split
      · exact h.error _
      · exact h

theorem wsLen_le (l : Str) : PS.wsLen l ≤ l.length := by
  induction l with
  | nil => simp [PS.wsLen]
  | cons c cs ih => simp only [PS.wsLen]; split <;> simp <;> omega

theorem PosErr.skipws {s : PS} (h : PosErr s) : PosErr s.skipws := by
  refine h.move ?_ rfl rfl rfl rfl
  have := wsLen_le (s.str.drop s.pos)
  have hp := h.1
  simp only [List.length_drop] at this
  simp only [PS.skipws]; omega

theorem identLoop_le (l : Str) : (PS.identLoop l).1.length ≤ l.length := by
  induction l with
  | nil => simp [PS.identLoop]
  | cons c cs ih =>
    simp only [PS.identLoop]
    split
    · simpa using ih
    · split <;> simp

theorem PosErr.getIdent {s : PS} (h : PosErr s) : PosErr s.getIdent.2 := by
  have h1 := h.skipws
  unfold PS.getIdent
  dsimp only
  split
  · have hm : PosErr { s.skipws with pos := s.skipws.pos +
        (PS.identLoop (s.skipws.str.drop s.skipws.pos)).1.length } := by
      refine h1.move ?_ rfl rfl rfl rfl
      have := identLoop_le (s.skipws.str.drop s.skipws.pos)
      have hp := h1.1
      simp only [List.length_drop] at this
      dsimp only; omega
    split
    · exact hm.skipws
    · exact hm
  · exact h1

theorem PosErr.eol {s : PS} (h : PosErr s) : PosErr s.eol.2 := by
  unfold PS.eol
  split
  · next c hc =>
    have hlt : s.pos < s.str.length := by
      unfold PS.cur at hc
      exact (List.getElem?_eq_some_iff.1 hc).1
    split
    · exact h.adv hlt
    · split
      · next h2 => exact h.move (by dsimp only; omega) rfl rfl rfl rfl
      · exact h
  · exact h

theorem digLoop_le (val : Nat → Option Nat) (base : Nat) (l : Str) (num cnt : Nat) :
    (digLoop val base l num cnt).2 ≤ cnt + l.length := by
  induction l generalizing num cnt with
  | nil => simp [digLoop]
  | cons c cs ih =>
    simp only [digLoop]
    split
    · simp
    · split
      · simp
      · have := ih (num * base + ‹Nat›) (cnt + 1)
        simp only [List.length_cons]; omega

theorem PosErr.getDigits {s : PS} (h : PosErr s) (val : Nat → Option Nat) (base : Nat) :
    PosErr (getDigits val base s).2 := by
  refine h.move ?_ rfl rfl rfl rfl
  have := digLoop_le val base (s.str.drop s.pos) 0 0
  have hp := h.1
  simp only [List.length_drop] at this
  simp only [FB.Parse.getDigits]; omega

theorem PosErr.getHex {s : PS} (h : PosErr s) : PosErr (getHex s).2 := h.getDigits _ _
theorem PosErr.getDec {s : PS} (h : PosErr s) : PosErr (getDec s).2 := h.getDigits _ _

/-- Discharges goals that only change fields not mentioned by the invariant. -/
macro "posErr_same" h:term : tactic =>
  `(tactic| exact PosErr.same $h (by simp) (by simp) (by simp) (by simp) (by simp))

theorem PosErr.emit {s : PS} (h : PosErr s) (k : CK) : PosErr (s.emit k) := by posErr_same h
theorem PosErr.setCode {s : PS} (h : PosErr s) (k : List CW) : PosErr (s.setCode k) := by posErr_same h
theorem PosErr.addText {s : PS} (h : PosErr s) (t : Str) : PosErr (s.addText t) := by posErr_same h
theorem PosErr.addSVar {s : PS} (h : PosErr s) (t : Str) : PosErr (s.addSVar t) := by posErr_same h
theorem PosErr.addSInt {s : PS} (h : PosErr s) (t : Nat) : PosErr (s.addSInt t) := by posErr_same h
theorem PosErr.addSFp {s : PS} (h : PosErr s) (t : Str) : PosErr (s.addSFp t) := by posErr_same h
theorem PosErr.addSStr {s : PS} (h : PosErr s) (t : Str) : PosErr (s.addSStr t) := by posErr_same h
theorem PosErr.addTextStr {s : PS} (h : PosErr s) (t : Str) : PosErr (s.addTextStr t) := by posErr_same h
theorem PosErr.setLabel {s : PS} (h : PosErr s) (n : Str) (l : LabelT) : PosErr (setLabel s n l) := by
  posErr_same h
theorem PosErr.pushLoop {s : PS} (h : PosErr s) (t : LT) : PosErr (s.pushLoop t).2 := by posErr_same h
theorem PosErr.emitVarn {s : PS} (h : PosErr s) (n : Str) : PosErr (emitVarn s n) := by posErr_same h
theorem PosErr.emitData {s : PS} (h : PosErr s) (n : List Nat) : PosErr (emitData n s) := by posErr_same h
theorem PosErr.pushProc {s : PS} (h : PosErr s) (n : Str) : PosErr (s.pushProc n) := by posErr_same h

theorem PosErr.popLoop {s : PS} (h : PosErr s) (t : LT) : PosErr (s.popLoop t).2 := by
  unfold PS.popLoop
  split
  · exact h.loopError _
  · split
    · exact h.loopError _
    · dsimp only; split
      · exact h.same rfl rfl rfl rfl rfl
      · exact h.same rfl rfl rfl rfl rfl

theorem PosErr.getNumber {s : PS} (h : PosErr s) : PosErr (getNumber s).2 := by
  simp only [FB.Parse.getNumber]
  split
  · split
    · exact (h.expect _).getHex
    · exact ((h.expect _).getHex.addText _).addSInt _
  · have hd := ((h.expect 36).expect 45).getDec
    split
    · exact hd
    · split
      · exact (hd.expect 46).move (by simpa using h.1) rfl rfl rfl rfl
      · exact ((hd.expect 46).addText _).addSInt _

theorem PosErr.getAsmWord {s : PS} (h : PosErr s) : PosErr (getAsmWord s).2 := by
  simp only [FB.Parse.getAsmWord]
  split
  · split
    · exact ((((h.expect _).getIdent.addText _).addSVar _).emit _).skipws
    · exact (h.expect _).getIdent.move (by simpa using h.1) rfl rfl rfl rfl
  · exact (h.expect _).move (by simpa using h.1) rfl rfl rfl rfl

theorem PosErr.getAsmByte {s : PS} (h : PosErr s) : PosErr (getAsmByte s).2 := by
  simp only [FB.Parse.getAsmByte]
  split
  · split
    · split
      · exact (((((h.expect _).expect _).getIdent.addText _).addSVar _).emit _).skipws
      · exact ((h.expect _).expect _).getIdent.move (by simpa using h.1) rfl rfl rfl rfl
    · exact ((h.expect _).expect _).move (by simpa using h.1) rfl rfl rfl rfl
  · exact (h.expect _).move (by simpa using h.1) rfl rfl rfl rfl

theorem PosErr.hexLoop (n : Nat) {s : PS} (h : PosErr s) (t : Str) : PosErr (hexLoop n s t).2 := by
  induction n generalizing s t with
  | zero => exact h
  | succ n ih =>
    simp only [FB.Parse.hexLoop]
    split
    · exact h.getHex
    · split
      · exact ih (h.getHex.expect _) _
      · exact h.getHex.expect _

theorem PosErr.constLoop (n : Nat) {s : PS} (h : PosErr s) (t : Str) : PosErr (constLoop n s t).2 := by
  induction n generalizing s t with
  | zero => exact h
  | succ n ih =>
    simp only [FB.Parse.constLoop]
    split
    · exact h
    · next c hc =>
      split
      · split
        · exact ih ((h.expect _).expect _) _
        · split
          · split
            · exact PosErr.hexLoop _ (((h.expect _).expect _).expect _) _
            · split
              · exact ih ((PosErr.hexLoop _ (((h.expect _).expect _).expect _) _).expect _) _
              · exact (PosErr.hexLoop _ (((h.expect _).expect _).expect _) _).expect _
          · exact ((h.expect _).expect _).expect _
      · next hq =>
        refine ih ((h.expect _).adv ?_) _
        rw [expect_pos_false (by simpa using hq)]
        unfold PS.cur at hc
        simpa using (List.getElem?_eq_some_iff.1 hc).1

theorem PosErr.getConstString {s : PS} (h : PosErr s) : PosErr (getConstString s).2 := by
  simp only [FB.Parse.getConstString]
  split
  · exact ((PosErr.constLoop _ h _).addTextStr _).addSStr _
  · exact PosErr.constLoop _ h _

theorem PosErr.popElifs (n : Nat) {s : PS} (h : PosErr s) : PosErr (popElifs n s) := by
  induction n generalizing s with
  | zero => exact h
  | succ n ih =>
    simp only [FB.Parse.popElifs]
    split
    · exact ih ((h.popLoop _).emit _)
    · exact h

theorem remText_le (l : Str) : (remText l).length ≤ l.length := by
  induction l with
  | nil => simp [remText]
  | cons c cs ih => simp only [remText]; split <;> simp [ih]

theorem PosErr.eRem {s : PS} (h : PosErr s) : (eRem s).All PosErr := by
  refine h.move ?_ rfl rfl rfl rfl
  have := remText_le (s.str.drop s.pos)
  have hp := h.1
  dsimp only
  simp only [List.length_drop] at this ⊢
  split <;> omega

theorem fpDigits_le (l : Str) : (fpDigits l).length ≤ l.length := by
  induction l with
  | nil => simp [fpDigits]
  | cons c cs ih => simp only [fpDigits]; split <;> simp [ih]

theorem PosErr.restore {s : PS} (h : PosErr s) (v : PS.Saved) (hv : v.pos ≤ s.str.length) :
    PosErr (s.restore v) := h.move hv rfl rfl rfl rfl

theorem digitAt_lt {s : PS} {d : Nat} (h : digitAt s = some d) : s.pos < s.str.length := by
  unfold digitAt PS.cur at h
  refine Nat.lt_of_not_le fun hle => ?_
  rw [List.getElem?_eq_none hle] at h
  cases h

theorem PosErr.parseFpExp {s : PS} (h : PosErr s) : PosErr (parseFpExp s).2 := by
  simp only [FB.Parse.parseFpExp]
  have h1 : ∀ b : Bool, PosErr (if b then ((s.expect 69).2.expect 45).2
      else (((s.expect 69).2.expect 45).2.expect 43).2) := by
    intro b; cases b
    · exact ((h.expect _).expect _).expect _
    · exact (h.expect _).expect _
  have hs : ∀ b : Bool, (if b then ((s.expect 69).2.expect 45).2
      else (((s.expect 69).2.expect 45).2.expect 43).2).str = s.str := by
    intro b; cases b <;> simp
  split
  · split
    · refine (h1 _).restore _ ?_; rw [hs]; exact h.1
    · next hd =>
      split
      · exact (h1 _).adv (digitAt_lt hd)
      · next hd2 => exact ((h1 _).adv (digitAt_lt hd)).adv (digitAt_lt hd2)
  · refine (h.expect _).restore _ ?_; rw [expect_str]; exact h.1

theorem PosErr.varCheck {s : PS} (h : PosErr s) (t : VT) : (varCheck t s).All PosErr := by
  simp only [FB.Parse.varCheck]
  split
  · exact h.getIdent
  · split
    · exact h.getIdent.error _
    · split
      · exact h.getIdent.error _
      · exact ((h.getIdent.addText _).addSVar _).emitVarn _

theorem PosErr.action (env : Env) (a : Act) {s : PS} (h : PosErr s) : (action env a s).All PosErr := by
  cases a <;> simp only [FB.Parse.action]
  case CONST_STRING =>
    simp only [eConstString]; split
    · exact h.getConstString.emit _
    · exact h.getConstString
  case COUNT_PARAM => simp only [eCountParam]; posErr_same h
  case DATA_FILE =>
    simp only [eDataFile]; split
    · exact h.skipws.getConstString
    · split
      · trivial
      · exact h.skipws.getConstString.emitData _
  case DO_EXEC =>
    simp only [eDoExec]; split
    · exact (h.setLabel _ _).emit _
    · trivial
  case ELSEIF =>
    simp only [eElseIf]; split
    · exact h.popLoop _
    · split
      · trivial
      · obtain ⟨c, cs, n, -, rfl, -⟩ := removeLT_code ‹_›
        exact ((((h.popLoop _).setCode _).pushLoop _).emit _).emit _
  case EOL =>
    simp only [eEol]; split
    · exact ((h.skipws.expect _).addText _).eRem
    · split
      · exact h.skipws.expect _
      · split
        · exact h.skipws.expect _
        · split
          · exact (h.skipws.expect _).eol
          · exact (h.skipws.expect _).eol
  case EXIT_LOOP =>
    simp only [eExitLoop]; split
    · exact h.loopError _
    · exact h.loopError _
    · exact h.emit _
  case LABEL =>
    simp only [eLabel]; split
    · trivial
    · obtain ⟨c, cs, -, rfl, -⟩ := removeStr_code ‹_›
      split
      · trivial
      · split
        · exact (h.setCode _).getIdent
        · split
          · exact (h.setCode _).getIdent
          · split
            · exact (h.setCode _).getIdent
            · exact (((h.setCode _).getIdent.addText _).addSVar _).emit _
  case LABEL_CREATE =>
    simp only [eLabelCreate]; split
    · exact h.getIdent
    · split
      · exact (h.getIdent.setLabel _ _).loopError _
      · posErr_same h.getIdent
  case LABEL_DEF =>
    simp only [eLabelDef]; split
    · trivial
    · obtain ⟨cs, -, rfl⟩ := removeLast_code ‹_›
      split
      · exact ((((h.pushLoop _).setCode _).pushProc _).setLabel _ _).loopError _
      · posErr_same h
  case LABEL_SET_TYPE =>
    simp only [eLabelSetType]; split
    · trivial
    · obtain ⟨c, cs, -, rfl, -⟩ := removeStr_code ‹_›
      split
      · trivial
      · exact (h.skipws.setCode _).setLabel _ _
  case DATA_SET_ROM_SEG => exact h.skipws.setLabel _ _
  case DATA_SET_SEGMENT =>
    simp only [eDataSetSegment]; split
    · exact h.skipws.getIdent.setLabel _ _
    · exact h.skipws.getIdent.error _
  case NUMBER_BYTE =>
    simp only [eNumberByte]; split
    · exact h.skipws.getAsmByte
    · split
      · exact h.skipws.getAsmByte.getNumber
      · exact (h.skipws.getAsmByte.getNumber.emit _).skipws
  case NUMBER_WORD =>
    simp only [eNumberWord]; split
    · exact h.skipws.getAsmWord
    · split
      · exact h.skipws.getAsmWord.getNumber
      · exact (h.skipws.getAsmWord.getNumber.emit _).skipws
  case NUMBER_FP =>
    simp only [eNumberFp]
    have h1 := h.skipws.expect 45
    have h2 : PosErr { (s.skipws.expect 45).2 with pos := (s.skipws.expect 45).2.pos +
        (fpDigits ((s.skipws.expect 45).2.str.drop (s.skipws.expect 45).2.pos)).length } := by
      refine h1.move ?_ rfl rfl rfl rfl
      have := fpDigits_le ((s.skipws.expect 45).2.str.drop (s.skipws.expect 45).2.pos)
      have hp := h1.1
      simp only [List.length_drop] at this
      dsimp only; omega
    split
    · exact h2
    · split
      · exact h2.parseFpExp
      · exact (((h2.parseFpExp.addText _).addSFp _).emit _).skipws
  case POP_FOR =>
    simp only [ePopFor]; split
    · split
      · trivial
      · obtain ⟨cs, -, rfl⟩ := removeLast_code ‹_›
        exact (((((h.popLoop _).popLoop _).setCode _).emit _).emit _).emit _
    · exact (h.popLoop _).popLoop _
  case POP_IF =>
    simp only [ePopIf]; split
    · exact h.popLoop _
    · exact PosErr.popElifs _ ((h.popLoop _).emit _)
  case POP_LOOP =>
    simp only [ePopLoop]; split
    · exact (h.popLoop _).loopError _
    · exact ((h.popLoop _).emit _).emit _
  case POP_PROC_2 =>
    simp only [ePopProc2]; split
    · exact h.popLoop _
    · exact (h.popLoop _).emit _
  case POP_PROC_DATA =>
    simp only [ePopProcData]; split
    · exact h.popLoop _
    · split
      · trivial
      · next hp =>
        unfold PS.popProc at hp
        split at hp
        · cases hp
        · split at hp
          · cases hp; exact (h.popLoop _).same rfl rfl rfl rfl rfl
          · cases hp
  case POP_REPEAT =>
    simp only [ePopRepeat]; split
    · exact h.popLoop _
    · exact ((h.popLoop _).emit _).emit _
  case POP_VAR =>
    simp only [ePopVar]; split
    · trivial
    · posErr_same h
  case POP_WHILE =>
    simp only [ePopWhile]; split
    · exact ((((h.popLoop _).popLoop _).emit _).emit _).emit _
    · exact (h.popLoop _).popLoop _
  case PROC_CHECK =>
    simp only [eProcCheck]; split
    · exact h.setLabel _ _
    · trivial
  case PUSH_LT =>
    simp only [ePushLT]; split
    · trivial
    · obtain ⟨c, cs, n, -, rfl, -⟩ := removeLT_code ‹_›
      have h1 := fun t => (h.setCode cs).pushLoop t
      split <;> first
        | exact (h1 _).emit _
        | exact h1 _
        | skip
      split
      · trivial
      · obtain ⟨cs, -, rfl⟩ := removeLast_code ‹_›
        exact ((h1 _).setCode _).pushProc _
  case PUSH_VAR =>
    simp only [ePushVar]; split
    · trivial
    · obtain ⟨cs, -, rfl⟩ := removeLast_code ‹_›
      posErr_same h
  case REM => exact h.eRem
  case VAR_CREATE =>
    simp only [eVarCreate]; split
    · exact h.getIdent
    · split
      · exact h.getIdent
      · refine PosErr.addSVar (PosErr.addText ?_ _) _
        exact h.getIdent.same rfl rfl rfl rfl rfl
  case VAR_SEARCH =>
    simp only [eVarSearch]; split
    · trivial
    · obtain ⟨c, cs, -, rfl, -⟩ := removeStr_code ‹_›
      exact (h.setCode _).varCheck _
  case VAR_SET_TYPE =>
    simp only [eVarSetType]; split
    · trivial
    · obtain ⟨c, cs, -, rfl, -⟩ := removeStr_code ‹_›
      split
      · posErr_same h.skipws
      · posErr_same h.skipws
  case VAR_WORD => exact h.varCheck _

theorem PosErr.matchLit (l : Str) {s : PS} (h : PosErr s) : PosErr (matchLit l s).2 := by
  induction l generalizing s with
  | nil => exact h
  | cons c cs ih =>
    simp only [FB.Parse.matchLit]
    split
    · split
      · exact ih (h.expect _)
      · exact (h.expect _).expect _
    · split
      · exact ih (h.expect _)
      · exact h.expect _

section
variable {act : Act → PS → Res}

/-- The invariant, in a line of text `str`. -/
def PosErrIn (str : Str) (s : PS) : Prop := PosErr s ∧ s.str = str

theorem parseLine_posErr {str : Str} (ha : ∀ a s, PosErrIn str s → (act a s).All (PosErrIn str))
    {tab : Nat → PS → Res} (htab : ∀ t s, PosErrIn str s → (tab t s).All (PosErrIn str))
    (l : List PCode) (s : PS) (h : PosErrIn str s) : (parseLine act tab l s).All (PosErrIn str) := by
  induction l generalizing s with
  | nil => exact h
  | cons c cs ih =>
    have step : ∀ {r : Res}, (r.All (PosErrIn str)) →
        (r.andThen (parseLine act tab cs)).All (PosErrIn str) := fun h =>
      h.andThen (fun s1 h1 => ih s1 h1) (fun _ h => h)
    cases c with
    | lit l =>
      refine step ?_
      unfold parseLiteral
      dsimp only
      have h1 : PosErr (matchLit l (s.error ([39] ++ ucase l ++ [39]))).2 := PosErr.matchLit l (h.1.error _)
      split
      · exact ⟨by posErr_same h1, by simpa using h.2⟩
      · exact ⟨h1, by simpa using h.2⟩
    | emit d => exact ih (emitBytes d s) ⟨by posErr_same h.1, by simpa using h.2⟩
    | emitRet d => exact ⟨by posErr_same h.1, by simpa using h.2⟩
    | call t => exact step (htab t s h)
    | ext a => exact step (ha a s h)
    | ret => exact h

theorem parseLines_posErr {str : Str} (ha : ∀ a s, PosErrIn str s → (act a s).All (PosErrIn str))
    {tab : Nat → PS → Res} (htab : ∀ t s, PosErrIn str s → (tab t s).All (PosErrIn str))
    (sp : PS.Saved) (hsp : sp.pos ≤ str.length) (ls : List (List PCode)) (s : PS) (h : PosErrIn str s) :
    (parseLines act tab sp ls s).All (PosErrIn str) := by
  induction ls generalizing s with
  | nil => exact ⟨by posErr_same h.1, h.2⟩
  | cons l ls ih =>
    have h1 := parseLine_posErr ha htab l s h
    unfold parseLines
    split
    · next heq => rw [heq] at h1; exact ⟨h1.1.same rfl rfl rfl rfl rfl, h1.2⟩
    · next heq =>
      rw [heq] at h1
      exact ih _ ⟨h1.1.restore _ (by rw [h1.2]; exact hsp), by simpa using h1.2⟩
    · trivial

theorem parseTable_posErr {str : Str} (ha : ∀ a s, PosErrIn str s → (act a s).All (PosErrIn str))
    (G : Grammar) (n t : Nat) (s : PS) (h : PosErrIn str s) :
    (parseTable act G n t s).All (PosErrIn str) := by
  induction n generalizing t s with
  | zero => trivial
  | succ n ih =>
    unfold parseTable
    split
    · trivial
    · split
      · trivial
      · next T _ _ =>
        have h1 : PosErrIn str (enterTable T s) :=
          ⟨PosErr.error (PosErr.skipws (s := { s with lvl := s.lvl + 1 }) (h.1.same rfl rfl rfl rfl rfl)) _,
            by simpa [enterTable] using h.2⟩
        exact parseLines_posErr ha (fun t s hs => ih t s hs) _ (by rw [← h1.2]; exact h1.1.1) _ _ h1

end

/-- **C40 (parser)**. For every grammar, table and state of the parser whose report agrees with its history
(as it does at the start of a line), after parsing, successfully or not, the report agrees with the
history: what is reported is the furthest position at which something was expected, and exactly what was
expected there; that position and the current one are inside the line. -/
theorem C40_report (env : Env) (G : Grammar) (n t : Nat) (s : PS) (hp : s.pos ≤ s.str.length)
    (h : ErrSpec s) :
    (parseTable (action env) G n t s).All fun s' =>
      ErrSpec s' ∧ s'.pos ≤ s'.str.length ∧ s'.str = s.str := by
  have ha : ∀ a s', PosErrIn s.str s' → (action env a s').All (PosErrIn s.str) := by
    intro a s' h'
    have h1 := PosErr.action env a h'.1
    have h2 := action_frame env a s'
    cases hr : action env a s' <;> rw [hr] at h1 h2
    · exact ⟨h1, h2.2.1.trans h'.2⟩
    · exact ⟨h1, h2.2.1.trans h'.2⟩
    · trivial
  exact (parseTable_posErr ha G n t s ⟨⟨hp, h⟩, rfl⟩).mono fun s' h' => ⟨h'.1.2, h'.1.1, h'.2⟩

/-- The position in an exception raised by an action is inside the line. -/
theorem action_err_pos (env : Env) (a : Act) {s : PS} (h : s.pos ≤ s.str.length) (m : Str) (p : Nat)
    (he : action env a s = .err (.parseErr m p)) : p ≤ s.str.length := by
  have hS : ∀ s e, removeStr s = .error e → e ≠ .parseErr m p := by
    intro s e h; unfold removeStr at h; (repeat' split at h) <;> simp at h <;> simp [← h]
  have hL : ∀ s e, removeLT s = .error e → e ≠ .parseErr m p := by
    intro s e h; unfold removeLT at h; split at h
    · next h' => cases h; exact hS _ _ h'
    · split at h <;> simp at h; simp [← h]
  cases a <;> simp only [FB.Parse.action, eConstString, eCountParam, eDataFile, eDoExec, eElseIf, eEol, eRem,
    eExitLoop, eLabel, eLabelCreate, eLabelDef, eLabelSetType, eDataSetRomSeg, eDataSetSegment,
    eNumberByte, eNumberFp, eNumberWord, ePopFor, ePopIf, ePopLoop, ePopProc2, ePopProcData, ePopRepeat,
    ePopVar, ePopWhile, eProcCheck, ePushLT, ePushVar, eVarCreate, eVarSearch, varCheck, eVarSetType,
    eVarWord] at he <;> (repeat' split at he) <;> simp at he
  all_goals first
    | exact absurd he (hS _ _ ‹_›)
    | exact absurd he (hL _ _ ‹_›)
    | (obtain ⟨-, rfl⟩ := he; exact h)
    | (obtain ⟨-, rfl⟩ := he
       have := wsLen_le (s.str.drop s.pos)
       simp only [List.length_drop] at this
       simp only [PS.skipws]; omega)

section
variable {act : Act → PS → Res}

/-- An exception with a position after the end of the line does not happen. -/
def ErrPosIn (str : Str) (r : Res) : Prop := ∀ m p, r = .err (.parseErr m p) → p ≤ str.length

theorem parseLine_errPos {str : Str} (ha : ∀ a s, PosErrIn str s → (act a s).All (PosErrIn str))
    (hb : ∀ a s, PosErrIn str s → ErrPosIn str (act a s))
    {tab : Nat → PS → Res} (htab : ∀ t s, PosErrIn str s → (tab t s).All (PosErrIn str))
    (htb : ∀ t s, PosErrIn str s → ErrPosIn str (tab t s))
    (l : List PCode) (s : PS) (h : PosErrIn str s) : ErrPosIn str (parseLine act tab l s) := by
  induction l generalizing s with
  | nil => intro m p h; cases h
  | cons c cs ih =>
    have step : ∀ {r : Res}, (r.All (PosErrIn str)) → ErrPosIn str r →
        ErrPosIn str (r.andThen (parseLine act tab cs)) := by
      intro r h1 h2
      cases r with
      | ok s => exact ih s h1
      | fail s => intro m p h; cases h
      | err e => exact h2
    cases c with
    | lit l =>
      refine step ?_ ?_
      · have := parseLine_posErr ha htab [.lit l] s h
        simp only [parseLine] at this
        cases hr : parseLiteral l s <;> rw [hr] at this <;> exact this
      · intro m p hh; unfold parseLiteral at hh; dsimp only at hh; split at hh <;> cases hh
    | emit d =>
      refine ih (emitBytes d s) ?_
      exact parseLine_posErr ha htab [.emit d] s h
    | emitRet d => intro m p h; cases h
    | call t => exact step (htab t s h) (htb t s h)
    | ext a => exact step (ha a s h) (hb a s h)
    | ret => intro m p h; cases h

theorem parseLines_errPos {str : Str} (ha : ∀ a s, PosErrIn str s → (act a s).All (PosErrIn str))
    (hb : ∀ a s, PosErrIn str s → ErrPosIn str (act a s))
    {tab : Nat → PS → Res} (htab : ∀ t s, PosErrIn str s → (tab t s).All (PosErrIn str))
    (htb : ∀ t s, PosErrIn str s → ErrPosIn str (tab t s))
    (sp : PS.Saved) (hsp : sp.pos ≤ str.length) (ls : List (List PCode)) (s : PS) (h : PosErrIn str s) :
    ErrPosIn str (parseLines act tab sp ls s) := by
  induction ls generalizing s with
  | nil => intro m p h; cases h
  | cons l ls ih =>
    have h1 := parseLine_posErr ha htab l s h
    have h2 := parseLine_errPos ha hb htab htb l s h
    unfold parseLines
    split
    · intro m p h; cases h
    · next heq =>
      rw [heq] at h1
      exact ih _ ⟨h1.1.restore _ (by rw [h1.2]; exact hsp), by simpa using h1.2⟩
    · next heq => rw [heq] at h2; intro m p h; exact h2 m p (by rw [← h])

theorem parseTable_errPos {str : Str} (ha : ∀ a s, PosErrIn str s → (act a s).All (PosErrIn str))
    (hb : ∀ a s, PosErrIn str s → ErrPosIn str (act a s))
    (G : Grammar) (n t : Nat) (s : PS) (h : PosErrIn str s) :
    ErrPosIn str (parseTable act G n t s) := by
  induction n generalizing t s with
  | zero => intro m p h; cases h
  | succ n ih =>
    unfold parseTable
    split
    · intro m p h; cases h
    · split
      · intro m p hh; cases hh; rw [← h.2]; exact h.1.1
      · next T _ _ =>
        have h1 : PosErrIn str (enterTable T s) :=
          ⟨PosErr.error (PosErr.skipws (s := { s with lvl := s.lvl + 1 }) (h.1.same rfl rfl rfl rfl rfl)) _,
            by simpa [enterTable] using h.2⟩
        exact parseLines_errPos ha hb (fun t s hs => parseTable_posErr ha G n t s hs) (fun t s hs => ih t s hs)
          _ (by rw [← h1.2]; exact h1.1.1) _ _ h1

end

theorem PosErr.newLine (s : PS) (l : Str) (ln : Nat) : PosErr (s.newLine l ln) := by
  refine ⟨by simp [PS.newLine], ?_⟩
  constructor <;> simp [PS.newLine]

/-- **C40 (compiler)**. Whatever the line, the state of the compiler before it and the grammar: if the line
is rejected, the position in the error message is not after the end of the line. -/
theorem C40_position_in_line (env : Env) (G : Grammar) (start : Nat) (line : Str) (ln : Nat) (s : PS)
    (m : Str) (p : Nat)
    (h : compileLine (parseStart (action env) G start) line ln s = .err (.parseErr m p)) :
    p ≤ line.length := by
  have ha : ∀ a s', PosErrIn line s' → (action env a s').All (PosErrIn line) := by
    intro a s' h'
    have h1 := PosErr.action env a h'.1
    have h2 := action_frame env a s'
    cases hr : action env a s' <;> rw [hr] at h1 h2
    · exact ⟨h1, h2.2.1.trans h'.2⟩
    · exact ⟨h1, h2.2.1.trans h'.2⟩
    · trivial
  have hb : ∀ a s', PosErrIn line s' → ErrPosIn line (action env a s') := by
    intro a s' h' m p he
    rw [← h'.2]; exact action_err_pos env a h'.1.1 m p he
  have main : ∀ (n : Nat) (s : PS), PosErrIn line s →
      lineLoop (parseStart (action env) G start) expandGet n s = .err (.parseErr m p) → p ≤ line.length := by
    intro n
    induction n with
    | zero => intro s _ h; cases h
    | succ n ih =>
      intro s hs h
      unfold lineLoop at h
      have h1 := parseTable_posErr ha G (maxLevel + 2) start s hs
      have h2 := parseTable_errPos ha hb G (maxLevel + 2) start s hs
      split at h
      · cases h
      · split at h
        · next e heq =>
          cases h; exact h2 m p heq
        · next s1 heq =>
          have h3 : PosErrIn line s1 := by
            have := h1; unfold parseStart at heq; rw [heq] at this; exact this
          simp only [syntaxError, CRes.err.injEq, Err.parseErr.injEq] at h
          rw [← h.2, ← h3.2]; exact h3.1.2.inLine
        · next s1 heq =>
          have h3 : PosErrIn line s1 := by
            have := h1; unfold parseStart at heq; rw [heq] at this; exact this
          split at h
          · simp only [syntaxError, CRes.err.injEq, Err.parseErr.injEq] at h
            rw [← h.2, ← h3.2]; exact h3.1.2.inLine
          · refine ih _ ⟨PosErr.expect (s := { s1 with expand := expandGet s1.expand }) (h3.1.same rfl rfl rfl rfl rfl) _, ?_⟩ h
            simpa using h3.2
  exact main _ _ ⟨PosErr.newLine s line ln, rfl⟩ h

/-! ## Concrete cases -/

/-- At the start of a line the hypotheses of `C40_report` hold. -/
example (s : PS) (l : Str) (ln : Nat) : ErrSpec (s.newLine l ln) := (PosErr.newLine s l ln).2

/-- `PRINT (1+` is rejected: the parser went as far as position 9, where 31 items were expected; in total
388 expectations were recorded, most of them at earlier positions. -/
example : (match parseStart (action noEnv) AtariFp.grammar AtariFp.n_PARSE_START
      { str := ofS "PRINT (1+", procs := [([], [])] } with
    | .fail s => (s.maxPos, s.pos, s.trail.length, s.errs.length)
    | _ => (0, 0, 0, 0)) = (9, 0, 388, 31) := by decide +kernel

example : compileLine (parseStart (action noEnv) AtariFp.grammar AtariFp.n_PARSE_START)
    (ofS "PRINT (1+") 1 initPS = .err (.parseErr (ofS "parse error") 9) := by decide +kernel

end FB.Parse
