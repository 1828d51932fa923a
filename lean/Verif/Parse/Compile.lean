import Verif.Parse.Actions

/-!
# Compilation of a source file

Model of the front half of `/repo/src/compiler/compile.cc`: splitting the file in lines, parsing each
line, and the checks at the end of the file.
-/

namespace FB.Parse

/-- State of the scanner in `readLine`, `/repo/src/compiler/compile.cc:36-39`. -/
structure RL where
  inString : Bool := false
  inComment : Bool := false
  inStart : Bool := true
  numLines : Nat := 0
deriving DecidableEq, Repr

/-- The part of the loop of `readLine` after the end-of-line checks, `/repo/src/compiler/compile.cc:66-82`:
detect the start of strings and comments. -/
def RL.track (q : RL) (c : Nat) : RL :=
  let q := if q.inStart then
      { q with inComment := q.inComment || (c == 46 || c == 39), inStart := c == 32 }
    else q
  if q.inComment then q
  else if c = 39 then { q with inComment := true }
  else if c = 58 then { q with inStart := true }
  else if c = 34 then { q with inString := true }
  else q

/-- `readLine`, `/repo/src/compiler/compile.cc:31-85`: the line read (with its end of line, where CR LF
has been replaced by LF), the number of lines to advance (0 at the end of the file) and the rest of the
file. -/
def readLine : RL → Str → Str × Nat × Str
  | _, [] => ([], 0, [])
  | q, c :: cs =>
    if q.inString then
      let r := readLine { q with numLines := if c = 10 then q.numLines + 1 else q.numLines,
                                 inString := c != 34 } cs
      (c :: r.1, r.2)
    else
      match c, cs with
      | 13, 10 :: cs' => ([10], q.numLines + 1, cs')
      | c, cs =>
        if c = 10 ∨ c = 155 then ([c], q.numLines + 1, cs)
        else
          let r := readLine (q.track c) cs
          (c :: r.1, r.2)

/-- The result of a compilation: an error, or the final state of the parser. -/
inductive CRes
  | ok (s : PS)
  | err (e : Err)
deriving DecidableEq, Repr

/-- The exception raised when a line is not accepted, `/repo/src/compiler/compile.cc:97-117` (without
the list of expected items). -/
def syntaxError (s : PS) : Err := .parseErr (ofS "parse error") s.maxPos

/-- The loop of `parse_line`, `/repo/src/compiler/compile.cc:93-144`, without the listings (but
`expand.get()`/`get_short()` are called after each statement, here `nextExpand`). The first argument
bounds the number of statements; each one consumes a character. -/
def lineLoop (start : PS → Res) (nextExpand : Expand → Expand) : Nat → PS → CRes
  | 0, _ => .err .fuel
  | n + 1, s =>
    if s.pos = s.str.length then .ok s
    else
      match start s with
      | .err e => .err e
      | .fail s => .err (syntaxError s)
      | .ok s =>
        if s.pos ≠ s.str.length ∧ ¬ s.peek 58 then .err (syntaxError s)
        else lineLoop start nextExpand n (PS.expect { s with expand := nextExpand s.expand } 58).2

/-- `expand_line::get`, `/repo/src/compiler/parser.h:77-84`, and `get_short`, `parser.h:86-92`: the
change to the state when the expanded listing (`short_text = 0`, `show_text`) is written. -/
def expandGet (e : Expand) : Expand := { e with indent := e.nextIndent, text := [] }

/-- `parse_line`, `/repo/src/compiler/compile.cc:88-146`. -/
def compileLine (start : PS → Res) (line : Str) (ln : Nat) (s : PS) : CRes :=
  lineLoop start expandGet (line.length + 1) (s.newLine line ln)

/-- The loop over the lines of the source in `compile_file`, `/repo/src/compiler/compile.cc:205-219`.
The first argument bounds the number of lines. -/
def compileLines (start : PS → Res) : Nat → Str → Nat → PS → CRes
  | 0, _, _, _ => .err .fuel
  | n + 1, src, ln, s =>
    match readLine {} src with
    | (line, lines, rest) =>
      if lines = 0 ∧ line = [] then .ok s
      else
        match compileLine start line ln s with
        | .err e => .err e
        | .ok s => compileLines start n rest (ln + lines) s

/-- `parse(bool)`, `/repo/src/compiler/parser.h:169-173`. -/
def initPS : PS := { procs := [([], [])] }

/-- `check_loops`, `/repo/src/compiler/parser.h:226-241`: is the stack of jumps empty? (It returns an
error text in all other cases.) -/
def loopsOk (s : PS) : Bool := s.jumps.isEmpty

/-- `compile_file` until the code is handed to the optimizer, `/repo/src/compiler/compile.cc:199-276`. -/
def compile (start : PS → Res) (src : Str) : CRes :=
  match compileLines start (src.length + 1) src 1 initPS with
  | .err e => .err e
  | .ok s => if loopsOk s then .ok (s.emit (.tok .END)) else .err (.parseErr (ofS "unclosed loop") 0)

end FB.Parse
