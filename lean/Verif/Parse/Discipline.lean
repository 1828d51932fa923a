import Verif.Parse.Lift

/-!
# Static discipline of the parsing tables

Some actions take the last element of the code (a variable type, a loop type, a variable) that an earlier
item of the same line has to put there; nothing in the program checks it. This file has a checker of that
discipline, that works on the tables alone: for each position in a line it knows a description of the last
elements of the code that the line itself has emitted. It models nothing of the program.
-/

namespace FB.Parse

open Frame

/-- What is known of one element of the code. -/
inductive Abs
  | any
  | sym (l : List Str)   -- one of these symbols, as a byte
deriving DecidableEq, Repr

/-- Does a code element have that description? -/
def Abs.Holds : Abs → CW → Prop
  | .any, _ => True
  | .sym l, c => ∃ x ∈ l, c.k = .byteStr x

/-- What is known of the code at a point of a line.
`known`: the last elements (last first); `exact`: the line has emitted only these elements;
`clean`: the line has not switched to other code (no procedure or data block started or ended). -/
structure ASt where
  known : List Abs
  exact : Bool
  clean : Bool
deriving DecidableEq, Repr

/-- At the start of a line. -/
def ASt.init : ASt := ⟨[], true, true⟩

/-- One more element. -/
def ASt.push (a : ASt) (x : Abs) : ASt := { a with known := x :: a.known }

/-- An unknown number of elements more. -/
def ASt.forget (a : ASt) : ASt := { a with known := [], exact := false }

/-- Remove the last element, that must satisfy a condition. -/
def ASt.pop (a : ASt) (p : Abs → Bool) : Option ASt :=
  match a.known with
  | [] => none
  | x :: l => if p x then some { a with known := l } else none

/-- Any element. -/
def Abs.isAny : Abs → Bool := fun _ => true

/-- A symbol. -/
def Abs.isSym : Abs → Bool
  | .sym _ => true
  | .any => false

/-- A loop type other than `LT_PROC_DATA`. -/
def Abs.isLoop : Abs → Bool
  | .sym l => l.all fun x => (getLoopType x).isSome && getLoopType x != some .PROC_DATA
  | .any => false

/-- A type of a DATA label. -/
def Abs.isLabelT : Abs → Bool
  | .sym l => l.all fun x => (labelTypeOf x).isSome
  | .any => false

/-- Effect of an action; `none` if the last element is not what the action needs. -/
def actTy : Act → ASt → Option ASt
  | .CONST_STRING, a | .DO_EXEC, a | .EXIT_LOOP, a | .NUMBER_BYTE, a | .NUMBER_FP, a | .NUMBER_WORD, a
  | .POP_PROC_2, a | .POP_VAR, a | .VAR_CREATE, a | .VAR_WORD, a => some (a.push .any)
  | .COUNT_PARAM, a | .EOL, a | .LABEL_CREATE, a | .DATA_SET_ROM_SEG, a | .DATA_SET_SEGMENT, a
  | .PROC_CHECK, a | .REM, a => some a
  | .DATA_FILE, a => some a.forget
  | .ELSEIF, a => (a.pop Abs.isLoop).map fun a => (a.push .any).push .any
  | .LABEL, a => (a.pop Abs.isLabelT).map fun a => a.push .any
  | .LABEL_DEF, a => (a.pop Abs.isAny).map fun _ => ⟨[.any], false, false⟩
  | .LABEL_SET_TYPE, a => a.pop Abs.isLabelT
  | .POP_FOR, a => (a.pop Abs.isAny).map fun a => ((a.push .any).push .any).push .any
  | .POP_IF, a => some (a.forget.push .any)
  | .POP_LOOP, a | .POP_REPEAT, a => some ((a.push .any).push .any)
  | .POP_WHILE, a => some (((a.push .any).push .any).push .any)
  | .POP_PROC_DATA, _ => some ⟨[], false, false⟩
  | .PUSH_LT, a => (a.pop Abs.isLoop).map ASt.forget
  | .PUSH_VAR, a => a.pop Abs.isAny
  | .VAR_SEARCH, a => (a.pop Abs.isSym).map fun a => a.push .any
  | .VAR_SET_TYPE, a => a.pop Abs.isSym

/-- Description of an element emitted by a table. -/
def DCode.abs : DCode → Abs
  | .byteSym s => .sym [s]
  | _ => .any

/-- Effect of `emit`. -/
def ASt.emits (a : ASt) : List DCode → ASt
  | [] => a
  | d :: ds => (a.push d.abs).emits ds

/-- Effect of a table: `need` describes the last elements of the code that it takes from the caller. -/
structure TEff where
  need : List Abs
  out : ASt
deriving DecidableEq, Repr

/-- `x` describes less elements than `y`. -/
def Abs.sub : Abs → Abs → Bool
  | _, .any => true
  | .sym l, .sym m => l.all (· ∈ m)
  | .any, .sym _ => false

/-- Element by element, on the length of the second list. -/
def subList : List Abs → List Abs → Bool
  | _, [] => true
  | [], _ :: _ => false
  | x :: xs, y :: ys => x.sub y && subList xs ys

/-- Effect of a call to a table. -/
def ASt.seq (a : ASt) (b : TEff) : Option ASt :=
  if subList a.known b.need then
    let rest := a.known.drop b.need.length
    some (if b.out.clean then
        if b.out.exact then { a with known := b.out.known ++ rest }
        else { a with known := b.out.known, exact := false }
      else ⟨b.out.known, false, false⟩)
  else none

/-- Effect of a line, given the effects of the tables; `none` if the discipline is broken or a table does
not exist. -/
def checkLine (ann : Nat → Option TEff) : List PCode → ASt → Option ASt
  | [], a => some a
  | .lit _ :: cs, a => checkLine ann cs a
  | .emit d :: cs, a => checkLine ann cs (a.emits d)
  | .emitRet d :: _, a => some (a.emits d)
  | .ext x :: cs, a => (actTy x a).bind (checkLine ann cs)
  | .call t :: cs, a => ((ann t).bind a.seq).bind (checkLine ann cs)
  | .ret :: _, a => some a

/-- `a` says at least as much as `b`. -/
def ASt.sub (a b : ASt) : Bool :=
  subList a.known b.known && (!b.clean || a.clean) &&
    (!(b.clean && b.exact) || (a.exact && a.known.length == b.known.length))

/-- All lines of a table follow the discipline and have an effect covered by that of the table. A table
that takes elements from its caller must have only one line. -/
def checkTable (ann : Nat → Option TEff) (t : Table) (b : TEff) : Bool :=
  (b.need.isEmpty || decide (t.lines.length ≤ 1)) &&
  t.lines.all fun l => match checkLine ann l ⟨b.need, true, true⟩ with
    | none => false
    | some a => a.sub b.out

/-- All the tables with an effect exist and follow the discipline. -/
def Disciplined (ann : Nat → Option TEff) (G : Grammar) : Prop :=
  ∀ t b, ann t = some b → ∃ T, G t = some T ∧ checkTable ann T b = true

/-- The tables of a list and their effects, one by one. -/
def checkTables (ann : Nat → Option TEff) : List TEff → List Table → Bool
  | [], [] => true
  | b :: bs, t :: ts => checkTable ann t b && checkTables ann bs ts
  | _, _ => false

end FB.Parse
