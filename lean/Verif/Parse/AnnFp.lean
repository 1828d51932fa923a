import Verif.Parse.Discipline
import Verif.Parse.GrammarFp

/-!
# Effect of the tables of the shipped grammar

The description of the effect on the code of every table of `atari-fp.tgt`, inferred by a program and
checked here by the kernel (`fpDisciplined`). The checker is in `Verif/Parse/Discipline.lean`. Nothing is
modelled here.
-/

namespace FB.Parse.AtariFp

/-- The effects, in the order of the tables. -/
def anns : List TEff := [
  ⟨[], ⟨[], false, true⟩⟩,
  ⟨[], ⟨[], false, true⟩⟩,
  ⟨[], ⟨[], false, true⟩⟩,
  ⟨[], ⟨[], false, true⟩⟩,
  ⟨[], ⟨[], false, true⟩⟩,
  ⟨[], ⟨[], false, true⟩⟩,
  ⟨[], ⟨[], false, true⟩⟩,
  ⟨[], ⟨[], false, true⟩⟩,
  ⟨[], ⟨[], false, true⟩⟩,
  ⟨[], ⟨[.any, .any, .any], false, true⟩⟩,
  ⟨[], ⟨[], false, true⟩⟩,
  ⟨[], ⟨[], false, true⟩⟩,
  ⟨[], ⟨[], false, true⟩⟩,
  ⟨[], ⟨[], false, true⟩⟩,
  ⟨[], ⟨[], false, true⟩⟩,
  ⟨[], ⟨[], false, true⟩⟩,
  ⟨[], ⟨[], false, true⟩⟩,
  ⟨[], ⟨[], false, true⟩⟩,
  ⟨[], ⟨[], false, true⟩⟩,
  ⟨[], ⟨[], false, true⟩⟩,
  ⟨[], ⟨[], false, true⟩⟩,
  ⟨[], ⟨[.any], false, true⟩⟩,
  ⟨[], ⟨[.any], false, true⟩⟩,
  ⟨[], ⟨[.any, .any], false, true⟩⟩,
  ⟨[], ⟨[], false, true⟩⟩,
  ⟨[], ⟨[], false, true⟩⟩,
  ⟨[], ⟨[], false, true⟩⟩,
  ⟨[], ⟨[], false, true⟩⟩,
  ⟨[], ⟨[], false, true⟩⟩,
  ⟨[], ⟨[], false, true⟩⟩,
  ⟨[], ⟨[], false, true⟩⟩,
  ⟨[], ⟨[], false, true⟩⟩,
  ⟨[], ⟨[], false, false⟩⟩,
  ⟨[], ⟨[.sym [y_VT_STRING, y_VT_FLOAT, y_VT_WORD]], true, true⟩⟩,
  ⟨[], ⟨[.any], false, true⟩⟩,
  ⟨[], ⟨[.any, .any], false, true⟩⟩,
  ⟨[], ⟨[], false, true⟩⟩,
  ⟨[], ⟨[], true, true⟩⟩,
  ⟨[], ⟨[], false, true⟩⟩,
  ⟨[], ⟨[.any], true, true⟩⟩,
  ⟨[], ⟨[.any], false, true⟩⟩,
  ⟨[], ⟨[.any, .any], false, true⟩⟩,
  ⟨[], ⟨[.any, .any], false, true⟩⟩,
  ⟨[], ⟨[.any], false, true⟩⟩,
  ⟨[], ⟨[], false, true⟩⟩,
  ⟨[], ⟨[], false, true⟩⟩,
  ⟨[], ⟨[], false, true⟩⟩,
  ⟨[], ⟨[], false, true⟩⟩,
  ⟨[], ⟨[.any, .any, .any, .any], false, true⟩⟩,
  ⟨[], ⟨[.sym [y_VT_ARRAY_WORD]], true, true⟩⟩,
  ⟨[], ⟨[.sym [y_VT_ARRAY_BYTE]], true, true⟩⟩,
  ⟨[], ⟨[.sym [y_VT_ARRAY_FLOAT, y_VT_ARRAY_STRING, y_VT_ARRAY_BYTE, y_VT_ARRAY_WORD, y_VT_STRING, y_VT_FLOAT, y_VT_WORD]], false, true⟩⟩,
  ⟨[], ⟨[], false, true⟩⟩,
  ⟨[], ⟨[], false, true⟩⟩,
  ⟨[], ⟨[], false, true⟩⟩,
  ⟨[], ⟨[.any, .any], true, true⟩⟩,
  ⟨[], ⟨[.any, .any, .any], false, true⟩⟩,
  ⟨[], ⟨[], false, true⟩⟩,
  ⟨[], ⟨[.any], false, true⟩⟩,
  ⟨[], ⟨[], false, true⟩⟩,
  ⟨[], ⟨[.any], true, true⟩⟩,
  ⟨[], ⟨[.any], false, true⟩⟩,
  ⟨[], ⟨[], true, true⟩⟩,
  ⟨[], ⟨[], false, true⟩⟩,
  ⟨[], ⟨[], false, false⟩⟩,
  ⟨[], ⟨[], false, false⟩⟩,
  ⟨[], ⟨[], false, true⟩⟩,
  ⟨[], ⟨[], false, true⟩⟩,
  ⟨[], ⟨[], false, true⟩⟩,
  ⟨[], ⟨[], true, true⟩⟩,
  ⟨[], ⟨[], false, true⟩⟩,
  ⟨[], ⟨[], false, false⟩⟩,
  ⟨[], ⟨[], false, true⟩⟩,
  ⟨[], ⟨[], false, false⟩⟩,
  ⟨[], ⟨[], false, false⟩⟩,
  ⟨[], ⟨[], false, false⟩⟩,
  ⟨[], ⟨[.any, .any], true, true⟩⟩,
  ⟨[], ⟨[.any, .any], false, true⟩⟩,
  ⟨[], ⟨[], false, true⟩⟩,
  ⟨[], ⟨[.any, .any], false, true⟩⟩,
  ⟨[], ⟨[.any, .any], false, true⟩⟩,
  ⟨[], ⟨[.any], false, true⟩⟩,
  ⟨[], ⟨[.any, .any, .any, .any], false, true⟩⟩,
  ⟨[], ⟨[.any, .any, .any, .any, .any], false, true⟩⟩,
  ⟨[.sym [y_VT_ARRAY_BYTE, y_VT_ARRAY_WORD]], ⟨[], false, true⟩⟩,
  ⟨[], ⟨[], false, true⟩⟩,
  ⟨[], ⟨[], false, true⟩⟩,
  ⟨[], ⟨[], false, true⟩⟩,
  ⟨[], ⟨[], false, true⟩⟩,
  ⟨[], ⟨[], false, true⟩⟩,
  ⟨[], ⟨[.any], false, true⟩⟩,
  ⟨[], ⟨[.any, .any], false, true⟩⟩,
  ⟨[], ⟨[.any, .any], false, true⟩⟩,
  ⟨[], ⟨[.any, .any], false, true⟩⟩
]

/-- The effects by number of table. -/
def ann (t : Nat) : Option TEff := anns[t]?

theorem anns_ok : checkTables ann anns tables = true := by decide +kernel

theorem checkTables_get {f : Nat → Option TEff} {bs : List TEff} {ts : List Table} (h : checkTables f bs ts = true)
    {i : Nat} {b : TEff} (hb : bs[i]? = some b) : ∃ T, ts[i]? = some T ∧ checkTable f T b = true := by
  induction bs generalizing ts i with
  | nil => simp at hb
  | cons b' bs ih =>
    cases ts with
    | nil => cases h
    | cons T ts =>
      simp only [checkTables, Bool.and_eq_true] at h
      cases i with
      | zero => simp only [List.getElem?_cons_zero, Option.some.injEq] at hb; exact ⟨T, rfl, hb ▸ h.1⟩
      | succ i => exact ih h.2 (by simpa using hb)

/-- The shipped grammar follows the discipline. -/
theorem fpDisciplined : Disciplined ann grammar := fun _ _ h => checkTables_get anns_ok h

end FB.Parse.AtariFp
