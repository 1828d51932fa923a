import Verif.Parse.Lift
import Verif.Parse.Compile
import Verif.Props.C17

/-!
# A successful parse does not move backwards

Lemmas used to show that the loop over the statements of a line ends.
-/

namespace FB.Parse

open Frame

/-- A predicate on the state after success. Auxiliary, models nothing. -/
def Res.Ok (P : PS → Prop) : Res → Prop
  | .ok s => P s
  | _ => True

theorem Res.All.toOk {P : PS → Prop} {r : Res} (h : r.All P) : r.Ok P := by
  cases r <;> first | exact h | trivial

theorem Res.Ok.andThen {P Q : PS → Prop} {r : Res} {f : PS → Res} (h : r.Ok P)
    (hf : ∀ s, P s → (f s).Ok Q) : (r.andThen f).Ok Q := by
  cases r with
  | ok s => exact hf s h
  | fail s => trivial
  | err e => trivial

theorem expect_mono (s : PS) (c : Nat) : s.pos ≤ (s.expect c).2.pos := by
  unfold PS.expect
  split
  · exact Nat.le_succ _
  · split
    · simp
    · split
      · simp
      · exact Nat.le_refl _

theorem skipws_mono (s : PS) : s.pos ≤ s.skipws.pos := Nat.le_add_right _ _

theorem getIdent_mono (s : PS) : s.pos ≤ s.getIdent.2.pos := by
  have h := skipws_mono s
  simp only [PS.getIdent]
  split
  · split
    · refine Nat.le_trans ?_ (skipws_mono _)
      simp only; omega
    · simp only; omega
  · exact h

theorem eol_mono (s : PS) : s.pos ≤ s.eol.2.pos := by
  unfold PS.eol
  split
  · split
    · exact Nat.le_succ _
    · split
      · exact Nat.le_add_right _ _
      · exact Nat.le_refl _
  · exact Nat.le_refl _

theorem getDigits_mono (v : Nat → Option Nat) (b : Nat) (s : PS) : s.pos ≤ (getDigits v b s).2.pos :=
  Nat.le_add_right _ _

theorem getNumber_mono (s : PS) : s.pos ≤ (getNumber s).2.pos := by
  have h1 := expect_mono s 36
  have h2 := expect_mono (s.expect 36).2 45
  have h3 : (s.expect 36).2.pos ≤ (getHex (s.expect 36).2).2.pos := getDigits_mono _ _ _
  have h4 : ((s.expect 36).2.expect 45).2.pos ≤ (getDec ((s.expect 36).2.expect 45).2).2.pos := getDigits_mono _ _ _
  have h5 := expect_mono (getDec ((s.expect 36).2.expect 45).2).2 46
  simp only [getNumber]
  (repeat' split) <;> simp <;> omega

theorem getAsmWord_mono (s : PS) : s.pos ≤ (getAsmWord s).2.pos := by
  have h1 := expect_mono s 64
  have h2 := getIdent_mono (s.expect 64).2
  simp only [getAsmWord]
  split
  · split
    · refine Nat.le_trans ?_ (skipws_mono _)
      simp; omega
    · simp
  · simp

theorem getAsmByte_mono (s : PS) : s.pos ≤ (getAsmByte s).2.pos := by
  have h1 := expect_mono s 64
  have h2 := expect_mono (s.expect 64).2 64
  have h3 := getIdent_mono ((s.expect 64).2.expect 64).2
  simp only [getAsmByte]
  split
  · split
    · split
      · refine Nat.le_trans ?_ (skipws_mono _)
        simp; omega
      · simp
    · simp
  · simp

theorem hexLoop_mono (n : Nat) (s : PS) (t : Str) : s.pos ≤ (hexLoop n s t).2.pos := by
  induction n generalizing s t with
  | zero => exact Nat.le_refl _
  | succ n ih =>
    have h1 : s.pos ≤ (getHex s).2.pos := getDigits_mono _ _ _
    have h2 := expect_mono (getHex s).2 36
    simp only [hexLoop]
    split
    · exact h1
    · split
      · exact Nat.le_trans (Nat.le_trans h1 h2) (ih _ _)
      · exact Nat.le_trans h1 h2

theorem constLoop_mono (n : Nat) (s : PS) (t : Str) : s.pos ≤ (constLoop n s t).2.pos := by
  induction n generalizing s t with
  | zero => exact Nat.le_refl _
  | succ n ih =>
    simp only [constLoop]
    split
    · exact Nat.le_refl _
    · have h1 := expect_mono s 34
      have h2 := expect_mono (s.expect 34).2 34
      have h3 := expect_mono ((s.expect 34).2.expect 34).2 36
      split
      · split
        · exact Nat.le_trans (by omega) (ih _ _)
        · split
          · have h4 := hexLoop_mono (s.str.length + 1) (((s.expect 34).2.expect 34).2.expect 36).2 t
            split
            · exact Nat.le_trans (by omega) h4
            · have h5 := expect_mono (hexLoop (s.str.length + 1) (((s.expect 34).2.expect 34).2.expect 36).2 t).2 34
              split
              · exact Nat.le_trans (by omega) (ih _ _)
              · exact Nat.le_trans (by omega) h5
          · exact Nat.le_trans (by omega) h3
      · refine Nat.le_trans ?_ (ih _ _)
        show _ ≤ (s.expect 34).2.pos + 1
        omega

theorem getConstString_mono (s : PS) : s.pos ≤ (getConstString s).2.pos := by
  have h := constLoop_mono (s.str.length + 1) s []
  simp only [getConstString]
  split
  · simpa using h
  · exact h

theorem parseFpExp_mono (s : PS) : s.pos ≤ (parseFpExp s).2.pos := by
  have h1 := expect_mono s 69
  have h2 := expect_mono (s.expect 69).2 45
  have h3 := expect_mono ((s.expect 69).2.expect 45).2 43
  simp only [parseFpExp]
  split
  · split
    · exact Nat.le_refl _
    · have h4 : s.pos ≤ (if ((s.expect 69).2.expect 45).1 then ((s.expect 69).2.expect 45).2 else
        (((s.expect 69).2.expect 45).2.expect 43).2).pos := by split <;> omega
      split
      · exact Nat.le_trans h4 (Nat.le_succ _)
      · exact Nat.le_trans h4 (Nat.le_add_right _ 2)
  · exact Nat.le_refl _

theorem eRem_mono (s : PS) : (eRem s).Ok fun s' => s.pos ≤ s'.pos := by
  show s.pos ≤ s.pos + _ + _
  omega

theorem varCheck_mono (t : VT) (s : PS) : (varCheck t s).Ok fun s' => s.pos ≤ s'.pos := by
  have := getIdent_mono s
  simp only [varCheck]
  (repeat' split) <;> first | trivial | (show _ ≤ _; simpa using this)

/-- A successful action does not move backwards. -/
theorem action_mono (env : Env) (a : Act) (s : PS) : (action env a s).Ok fun s' => s.pos ≤ s'.pos := by
  have sm : ∀ {s' : PS}, s'.pos = s.pos → (Res.ok s').Ok fun s' => s.pos ≤ s'.pos := fun h => by
    show _ ≤ _; omega
  cases a <;> simp only [action]
  case CONST_STRING =>
    have := getConstString_mono s
    simp only [eConstString]; split
    · show _ ≤ _; simpa using this
    · trivial
  case COUNT_PARAM => trivial
  case DATA_FILE =>
    have := getConstString_mono s.skipws
    have := skipws_mono s
    simp only [eDataFile]; (repeat' split) <;> first | trivial | (show _ ≤ _; simp; omega)
  case DO_EXEC => simp only [eDoExec]; split <;> first | trivial | exact sm (by simp)
  case ELSEIF =>
    simp only [eElseIf]; split
    · trivial
    · split
      · trivial
      · obtain ⟨c, cs, n, -, rfl, -⟩ := removeLT_code ‹_›
        exact sm (by simp)
  case EOL =>
    have h1 := expect_mono s.skipws 39
    have h2 := skipws_mono s
    have h3 := eol_mono (s.skipws.expect 39).2
    simp only [eEol]
    split
    · have h4 := eRem_mono ((s.skipws.expect 39).2.addText [39])
      revert h4
      cases eRem ((s.skipws.expect 39).2.addText [39]) with
      | ok s' => intro h4; show _ ≤ _; simp only [Res.Ok, addText_pos] at h4; omega
      | fail _ => exact id
      | err _ => exact id
    · (repeat' split) <;> first | trivial | (show _ ≤ _; omega)
  case EXIT_LOOP => simp only [eExitLoop]; split <;> first | trivial | exact sm (by simp)
  case LABEL =>
    simp only [eLabel]; split
    · trivial
    · obtain ⟨c, cs, -, rfl, -⟩ := removeStr_code ‹_›
      have := getIdent_mono (s.setCode cs)
      (repeat' split) <;> first | trivial | (show _ ≤ _; simpa using this)
  case LABEL_CREATE =>
    have := getIdent_mono s
    simp only [eLabelCreate]; (repeat' split) <;> first | trivial | (show _ ≤ _; simpa using this)
  case LABEL_DEF =>
    simp only [eLabelDef]; split
    · trivial
    · obtain ⟨cs, -, rfl⟩ := removeLast_code ‹_›
      split <;> first | trivial | exact sm (by simp)
  case LABEL_SET_TYPE =>
    simp only [eLabelSetType]; split
    · trivial
    · obtain ⟨c, cs, -, rfl, -⟩ := removeStr_code ‹_›
      split
      · trivial
      · show _ ≤ _; simpa using skipws_mono s
  case DATA_SET_ROM_SEG => simp only [eDataSetRomSeg]; show _ ≤ _; simpa using skipws_mono s
  case DATA_SET_SEGMENT =>
    have := getIdent_mono s.skipws
    have := skipws_mono s
    simp only [eDataSetSegment]; split <;> first | trivial | (show _ ≤ _; simp; omega)
  case NUMBER_BYTE =>
    have h1 := getAsmByte_mono s.skipws
    have h2 := getNumber_mono (getAsmByte s.skipws).2
    have h3 := skipws_mono s
    simp only [eNumberByte]; split
    · show _ ≤ _; omega
    · split
      · trivial
      · refine Nat.le_trans ?_ (skipws_mono _); simp; omega
  case NUMBER_WORD =>
    have h1 := getAsmWord_mono s.skipws
    have h2 := getNumber_mono (getAsmWord s.skipws).2
    have h3 := skipws_mono s
    simp only [eNumberWord]; split
    · show _ ≤ _; omega
    · split
      · trivial
      · refine Nat.le_trans ?_ (skipws_mono _); simp; omega
  case NUMBER_FP =>
    have h1 := expect_mono s.skipws 45
    have h3 := skipws_mono s
    simp only [eNumberFp]; split
    · trivial
    · generalize he : parseFpExp _ = e
      have h2 : s.pos ≤ e.2.pos := by
        rw [← he]; refine Nat.le_trans ?_ (parseFpExp_mono _); simp only; omega
      split
      · trivial
      · refine Nat.le_trans ?_ (skipws_mono _); simpa using h2
  case POP_FOR =>
    simp only [ePopFor]; split
    · split
      · trivial
      · obtain ⟨cs, -, rfl⟩ := removeLast_code ‹_›
        exact sm (by simp)
    · trivial
  case POP_IF => simp only [ePopIf]; split <;> first | trivial | exact sm (by simp)
  case POP_LOOP => simp only [ePopLoop]; split <;> first | trivial | exact sm (by simp)
  case POP_PROC_2 => simp only [ePopProc2]; split <;> first | trivial | exact sm (by simp)
  case POP_PROC_DATA =>
    simp only [ePopProcData]; split
    · trivial
    · split
      · trivial
      · next s' hs =>
        unfold PS.popProc at hs
        split at hs
        · cases hs
        · split at hs
          · cases hs; exact sm (by simp)
          · cases hs
  case POP_REPEAT => simp only [ePopRepeat]; split <;> first | trivial | exact sm (by simp)
  case POP_VAR => simp only [ePopVar]; split <;> first | trivial | exact sm (by simp)
  case POP_WHILE => simp only [ePopWhile]; split <;> first | trivial | exact sm (by simp)
  case PROC_CHECK => simp only [eProcCheck]; split <;> first | trivial | exact sm (by simp)
  case PUSH_LT =>
    simp only [ePushLT]; split
    · trivial
    · obtain ⟨c, cs, n, -, rfl, -⟩ := removeLT_code ‹_›
      split
      all_goals first
        | exact sm (by simp)
        | (split
           · trivial
           · obtain ⟨cs, -, rfl⟩ := removeLast_code ‹_›
             exact sm (by simp))
  case PUSH_VAR =>
    simp only [ePushVar]; split
    · trivial
    · obtain ⟨cs, -, rfl⟩ := removeLast_code ‹_›
      exact sm (by simp)
  case REM => exact eRem_mono s
  case VAR_CREATE =>
    have := getIdent_mono s
    simp only [eVarCreate]; (repeat' split) <;> first | trivial | (show _ ≤ _; simpa using this)
  case VAR_SEARCH =>
    simp only [eVarSearch]; split
    · trivial
    · obtain ⟨c, cs, -, rfl, -⟩ := removeStr_code ‹_›
      exact varCheck_mono _ _
  case VAR_SET_TYPE =>
    simp only [eVarSetType]; split
    · trivial
    · obtain ⟨c, cs, -, rfl, -⟩ := removeStr_code ‹_›
      split
      · show _ ≤ _; simpa using skipws_mono s
      · trivial
  case VAR_WORD => exact varCheck_mono _ _

theorem matchLit_mono (l : Str) (s : PS) : s.pos ≤ (matchLit l s).2.pos := by
  induction l generalizing s with
  | nil => exact Nat.le_refl _
  | cons c cs ih =>
    simp only [matchLit]
    split
    · split
      · exact Nat.le_trans (expect_mono s _) (ih _)
      · exact Nat.le_trans (expect_mono s _) (expect_mono _ _)
    · split
      · exact Nat.le_trans (expect_mono s _) (ih _)
      · exact expect_mono s _

section
variable {act : Act → PS → Res} (ha : ∀ a s, (act a s).Ok fun s' => s.pos ≤ s'.pos)
include ha

theorem parseLine_mono {tab : Nat → PS → Res} (htab : ∀ t s, (tab t s).Ok fun s' => s.pos ≤ s'.pos)
    (l : List PCode) (s : PS) : (parseLine act tab l s).Ok fun s' => s.pos ≤ s'.pos := by
  induction l generalizing s with
  | nil => exact Nat.le_refl _
  | cons c cs ih =>
    have step : ∀ {r : Res}, r.Ok (fun s' => s.pos ≤ s'.pos) →
        (r.andThen (parseLine act tab cs)).Ok fun s' => s.pos ≤ s'.pos := by
      intro r h
      cases r with
      | ok s1 =>
        have := ih s1
        show (parseLine act tab cs s1).Ok _
        revert this
        cases parseLine act tab cs s1 with
        | ok s2 => exact fun h2 => Nat.le_trans h h2
        | _ => exact id
      | _ => trivial
    cases c with
    | lit l =>
      refine step ?_
      have := matchLit_mono l (s.error ([39] ++ ucase l ++ [39]))
      unfold parseLiteral
      dsimp only
      split
      · show _ ≤ _; simpa using this
      · trivial
    | emit d => have := ih (emitBytes d s); rw [emitBytes_pos] at this; exact this
    | emitRet d => show _ ≤ _; simp
    | call t => exact step (htab t s)
    | ext a => exact step (ha a s)
    | ret => exact Nat.le_refl _

theorem parseLines_mono {tab : Nat → PS → Res} (htab : ∀ t s, (tab t s).Ok fun s' => s.pos ≤ s'.pos)
    (sp : PS.Saved) (ls : List (List PCode)) (s : PS) (hs : sp.pos ≤ s.pos) :
    (parseLines act tab sp ls s).Ok fun s' => sp.pos ≤ s'.pos := by
  induction ls generalizing s with
  | nil => trivial
  | cons l ls ih =>
    have h := parseLine_mono ha htab l s
    unfold parseLines
    split
    · next s1 heq => rw [heq] at h; exact Nat.le_trans hs h
    · exact ih _ (Nat.le_refl _)
    · trivial

/-- A table that is accepted does not move backwards. -/
theorem parseTable_mono (G : Grammar) (n t : Nat) (s : PS) :
    (parseTable act G n t s).Ok fun s' => s.pos ≤ s'.pos := by
  induction n generalizing t s with
  | zero => trivial
  | succ n ih =>
    unfold parseTable
    split
    · trivial
    · next T _ =>
      split
      · trivial
      · have := parseLines_mono ha (fun t s => ih t s) (enterTable T s).save T.lines (enterTable T s) (Nat.le_refl _)
        have h1 : s.pos ≤ (enterTable T s).pos := by
          unfold enterTable
          rw [error_pos]
          exact skipws_mono { s with lvl := s.lvl + 1 }
        revert this
        cases parseLines act (parseTable act G n) (enterTable T s).save T.lines (enterTable T s) with
        | ok s1 => exact fun h => Nat.le_trans h1 h
        | _ => exact id

end

end FB.Parse
