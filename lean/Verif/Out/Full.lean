import Verif.Parse.Compile
import Verif.Out.Asm

/-!
# Assembly of the final code

Model of `full_code` and `used_tokens` (`/repo/src/compiler/parser.h:601-638`) and of the parts of `compile_file` that write the
tokens and the lines (`/repo/src/compiler/compile.cc:303-305,331-356`).
-/

namespace FB.Parse

/-- The code of the main program, first item first: `procs[""]`, `parser.h:603`. -/
def mainOf (s : PS) : List CW := ((lookup [] s.procs).getD []).reverse

/-- `parser.h:608-609`: an `END` is added to the main program unless it is its last item. -/
def terminated (p : List CW) : List CW :=
  match p.getLast? with
  | some c => if c.k = .tok .END then p else p ++ [⟨.tok .END, 0⟩]
  | none => p ++ [⟨.tok .END, 0⟩]

/-- `parser.h:611-614`: the code of the procedures, where it is not empty. (The order here is that of their creation and not the
one of the names, but the list is sorted next.) -/
def sprocs (s : PS) : List (List CW) :=
  (s.procs.filter fun p => p.1 ≠ [] ∧ p.2 ≠ []).map fun p => p.2.reverse

/-- `(*a)[0].linenum()`, `parser.h:618`. -/
def firstLine (b : List CW) : Nat := (b.head?.map CW.lnum).getD 0

/-- `full_code`, `parser.h:601-624`. `std::sort` does not say in which order it leaves procedures that start in the same
line, so this is a relation: any sorted permutation will do. -/
inductive FullCode (s : PS) : List CW → Prop
  | mk (bs : List (List CW)) : bs.Perm (sprocs s) → bs.Pairwise (fun a b => firstLine a ≤ firstLine b) →
      FullCode s (terminated (mainOf s) ++ bs.flatten)

end FB.Parse

namespace FB.Out

open FB.Parse

/-- Insertion in a `std::set<std::string>`, as the list of its elements in order (`parser.h:628-633`). -/
def setInsert (x : Str) : List Str → List Str
  | [] => [x]
  | y :: ys => if x = y then y :: ys else if x < y then x :: y :: ys else y :: setInsert x ys

/-- The loop of `used_tokens`, `parser.h:629-633`. -/
def collect : List Str → List CK → List Str
  | set, [] => set
  | set, .tok t :: cs => collect (setInsert (tokName t) set) cs
  | set, _ :: cs => collect set cs

/-- `used_tokens`, `parser.h:625-638`, of the code after the optimizer. -/
def usedTokens (code : List CK) : List Str := collect [] code

/-- The lines `.importzp`, `compile.cc:303-305`. -/
def importLines (code : List CK) : List Str := (usedTokens code).map fun t => 9 :: ofS ".importzp" ++ 9 :: t

/-- `"@FastBasic_LINE_" + std::to_string(ln)`, `compile.cc:343`. -/
def lineLabel (n : Nat) : Str := ofS "@FastBasic_LINE_" ++ PS.decDigits n

/-- The loop that writes the code, `compile.cc:338-356`, where it writes labels for lines: `.inl` is a label and `.inr` the place
of an item. The first argument is the variable `ln` (`none` is -1), the second the map `line_labels`. -/
def writeLines : Option Nat → List (Nat × Nat) → List CW → List (Str ⊕ CW)
  | _, _, [] => []
  | ln, m, c :: cs =>
    if some c.lnum ≠ ln then
      match m.lookup c.lnum with
      | some k => .inl (lineLabel c.lnum ++ 95 :: PS.decDigits (k + 1)) :: .inr c ::
          writeLines (some c.lnum) ((c.lnum, k + 1) :: m) cs
      | none => .inl (lineLabel c.lnum) :: .inr c :: writeLines (some c.lnum) ((c.lnum, 0) :: m) cs
    else .inr c :: writeLines ln m cs

/-- The labels of the lines. -/
def lineLabels (code : List CW) : List Str := (writeLines none [] code).filterMap Sum.getLeft?

end FB.Out
