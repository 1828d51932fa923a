import Verif.Parse.State

/-!
# The table driven parser

Model of `/repo/src/compiler/parser.cc` and of the tables it interprets (`synt-sm.h`).

The actions (`E_…`, called through `call_parsing_action`) are a parameter here; the real ones are in
`Verif/Parse/Actions.lean`.
-/

namespace FB.Parse

/-- The parsing actions, `/repo/src/compiler/parser-actions.cc:743-775`. -/
inductive Act
  | CONST_STRING | COUNT_PARAM | DATA_FILE | DO_EXEC | ELSEIF | EOL | EXIT_LOOP | LABEL | LABEL_CREATE
  | LABEL_DEF | LABEL_SET_TYPE | DATA_SET_ROM_SEG | DATA_SET_SEGMENT | NUMBER_BYTE | NUMBER_FP
  | NUMBER_WORD | POP_FOR | POP_IF | POP_LOOP | POP_PROC_2 | POP_PROC_DATA | POP_REPEAT | POP_VAR
  | POP_WHILE | PROC_CHECK | PUSH_LT | PUSH_VAR | REM | VAR_CREATE | VAR_SEARCH | VAR_SET_TYPE | VAR_WORD
deriving DecidableEq, Repr

/-- `dcode`, `/repo/src/compiler/synt-sm.h:34-52`. -/
inductive DCode
  | token (t : Tok)
  | byteSym (s : Str)
  | wordSym (s : Str)
  | byteVal (n : Nat)
  | wordVal (n : Nat)
deriving DecidableEq, Repr

/-- `pcode`, `/repo/src/compiler/synt-sm.h:54-85`. Tables are referred to by number instead of name
(only equality of names matters). -/
inductive PCode
  | lit (s : Str)
  | emit (d : List DCode)
  | emitRet (d : List DCode)
  | call (t : Nat)
  | ext (a : Act)
  | ret
deriving DecidableEq, Repr

/-- A `statemachine`: description (`error_text`) and lines, `/repo/src/compiler/synt-sm.h:86-103`. -/
structure Table where
  desc : Str
  lines : List (List PCode)
deriving DecidableEq, Repr

/-- `sm_list::sms`, `/repo/src/compiler/synt-sm-list.h:31-40`: the tables by name. -/
abbrev Grammar := Nat → Option Table

/-- `MAX_RECURSE_LEVEL`, `/repo/src/compiler/parser.h:46`. -/
def maxLevel : Nat := 200

/-- One element of `emit_bytes`, `/repo/src/compiler/parser.cc:37-60`. -/
def DCode.ck : DCode → CK
  | .token t => .tok t
  | .byteSym s => .byteStr s
  | .wordSym s => .wordStr s
  | .byteVal n => .byte n
  | .wordVal n => .word n

/-- `emit_bytes`, `/repo/src/compiler/parser.cc:37-60`. -/
def emitBytes : List DCode → PS → PS
  | [], s => s
  | d :: ds, s => emitBytes ds (s.emit d.ck)

/-- `ucase`, `/repo/src/compiler/parser.cc:62-70`. -/
def ucase (l : Str) : Str := l.map PS.up

/-- The matching loop of `parse_literal`, `/repo/src/compiler/parser.cc:75-90`. -/
def matchLit : Str → PS → Bool × PS
  | [], s => (true, s)
  | ch :: cs, s =>
    if 97 ≤ ch ∧ ch ≤ 122 then
      let r := s.expect (PS.up ch)
      if r.1 then matchLit cs r.2 else r.2.expect 46
    else
      let r := s.expect ch
      if r.1 then matchLit cs r.2 else (false, r.2)

/-- The loop that adds a literal to the short listing, `/repo/src/compiler/parser.cc:104-112`. -/
def addSLits : Str → PS → PS
  | [], s => s
  | c :: cs, s => if 97 ≤ c ∧ c ≤ 122 then s.addSLit 46 else addSLits cs (s.addSLit c)

/-- The end of `parse_literal`: adds the literal to the listings,
`/repo/src/compiler/parser.cc:91-113`. -/
def listLit (lit : Str) (s : PS) : PS :=
  let s := s.addText (ucase lit)
  if lit = [69, 88, 69, 99] then addSLits [64] s               -- "EXEc" -> "@"
  else if lit = [80, 82, 73, 110, 116] then addSLits [63] s     -- "PRInt" -> "?"
  else if lit = [65, 68, 82, 40] then                           -- "ADR(" -> "&"
    addSLits [38] { s with expand := { s.expand with removeParens := s.expand.removeParens + 1 } }
  else addSLits lit s

/-- `parse_literal`, `/repo/src/compiler/parser.cc:72-114`. -/
def parseLiteral (lit : Str) (s : PS) : Res :=
  let r := matchLit lit (s.error ([39] ++ ucase lit ++ [39]))
  if r.1 then .ok (listLit lit r.2) else .fail r.2

section
variable (act : Act → PS → Res)

/-- `parse_line`, `/repo/src/compiler/parser.cc:116-146`; `tab` is `parse_table`. -/
def parseLine (tab : Nat → PS → Res) : List PCode → PS → Res
  | [], s => .ok s
  | .lit l :: cs, s => (parseLiteral l s).andThen (parseLine tab cs)
  | .emit d :: cs, s => parseLine tab cs (emitBytes d s)
  | .emitRet d :: _, s => .ok (emitBytes d s)
  | .ext a :: cs, s => (act a s).andThen (parseLine tab cs)
  | .call t :: cs, s => (tab t s).andThen (parseLine tab cs)
  | .ret :: _, s => .ok s

/-- The loop over the lines of a table in `parse_table`, `/repo/src/compiler/parser.cc:158-171`. -/
def parseLines (tab : Nat → PS → Res) (sp : PS.Saved) : List (List PCode) → PS → Res
  | [], s => .fail { s with lvl := s.lvl - 1 }
  | l :: ls, s =>
    match parseLine act tab l s with
    | .ok s => .ok { s with lvl := s.lvl - 1 }
    | .fail s => parseLines tab sp ls (s.restore sp)
    | .err e => .err e

/-- `check_level`, `skipws`, `error(desc)` at the start of `parse_table`,
`/repo/src/compiler/parser.cc:152-155`, `parser.h:258-263`. -/
def enterTable (t : Table) (s : PS) : PS :=
  (PS.skipws { s with lvl := s.lvl + 1 }).error t.desc

/-- The message of `check_level`, `parser.h:261`. -/
def tooComplex : Str := ofS "expression too complex for the compiler"

/-- `parse_table`, `/repo/src/compiler/parser.cc:148-172`. The first argument is the number of nested
calls of `parse_table` that the model can follow; see `Err.fuel`. -/
def parseTable (G : Grammar) : Nat → Nat → PS → Res
  | 0, _, _ => .err .fuel
  | n + 1, name, s =>
    match G name with
    | none => .err .internal
    | some t =>
      if s.lvl > maxLevel then .err (.parseErr tooComplex s.pos)
      else
        let s := enterTable t s
        parseLines act (parseTable G n) s.save t.lines s

/-- `syntax::parse_start`, `/repo/src/compiler/parser.cc:174-178`, with the number of the table
`PARSE_START`. `maxLevel + 2` nested calls are always enough (`C17_never_out_of_fuel`). -/
def parseStart (G : Grammar) (start : Nat) (s : PS) : Res := parseTable act G (maxLevel + 2) start s

end

end FB.Parse
