import Verif.Code

/-!
# State of the cross compiler's parser

Model of class `parse` (`/repo/src/compiler/parser.h`), of `looptype.{h,cc}` and `vartype.{h,cc}`.

Conventions used in all of `Verif/Parse`:

* A C++ `std::string` is a list of character codes (`Str`), each `0…255`. C++ `char` is signed on the
  supported hosts; every range comparison in the modelled code gives the same answer on the unsigned
  code, except where a comment says otherwise.
* Vectors used as stacks (`jumps`, `var_stk`, `proc_stack`, and the code of a procedure) are lists
  with the *last* element of the vector first.
* `debug(...)` output is dropped.
-/

namespace FB.Parse

/-- A `std::string`, as character codes. -/
abbrev Str := List Nat

/-- Character codes of a Lean string literal, to write constants readably (only ASCII is used). -/
def ofS (s : String) : Str := s.toList.map Char.toNat

/-- `enum LoopType`, `/repo/src/compiler/looptype.h:25-43`. -/
inductive LT
  | PROC_DATA | EXIT | LAST_JUMP | PROC_2 | DO_LOOP | REPEAT | WHILE_1 | FOR_1
  | WHILE_2 | FOR_2 | IF | ELSE | ELIF
deriving DecidableEq, Repr

/-- Numeric values of `enum LoopType`, `/repo/src/compiler/looptype.h:25-43`. -/
def LT.val : LT → Nat
  | .PROC_DATA => 0 | .EXIT => 1 | .LAST_JUMP => 32 | .PROC_2 => 33 | .DO_LOOP => 34
  | .REPEAT => 35 | .WHILE_1 => 36 | .FOR_1 => 37 | .WHILE_2 => 128 | .FOR_2 => 129
  | .IF => 130 | .ELSE => 131 | .ELIF => 132

/-- `loop_add_indent`, `/repo/src/compiler/looptype.cc:84-105`. -/
def LT.addIndent : LT → Bool
  | .PROC_2 | .DO_LOOP | .REPEAT | .WHILE_1 | .FOR_1 | .IF | .ELSE => true
  | _ => false

/-- `enum VarType`, `/repo/src/compiler/vartype.h:25-35`. -/
inductive VT
  | UNDEF | WORD | ARRAY_WORD | ARRAY_BYTE | ARRAY_STRING | ARRAY_FLOAT | STRING | FLOAT
deriving DecidableEq, Repr

/-- Numeric values of `enum VarType`, `/repo/src/compiler/vartype.h:25-35`. -/
def VT.val : VT → Nat
  | .UNDEF => 0 | .WORD => 1 | .ARRAY_WORD => 2 | .ARRAY_BYTE => 3 | .ARRAY_STRING => 4
  | .ARRAY_FLOAT => 5 | .STRING => 6 | .FLOAT => 7

/-- `var_type_is_array`, `/repo/src/compiler/vartype.cc:89-105`. -/
def VT.isArray : VT → Bool
  | .ARRAY_WORD | .ARRAY_BYTE | .ARRAY_STRING | .ARRAY_FLOAT => true
  | _ => false

/-- `get_vt_size`, `/repo/src/compiler/vartype.cc:69-86`. -/
def VT.size : VT → Nat
  | .FLOAT => 6
  | .UNDEF => 0
  | _ => 2

/-- What a `codew` holds, `/repo/src/compiler/codew.h:28-39`. Tokens are the constructors of `FB.Tok`;
`byte` and `word` hold the `int` given to `cbyte`/`cword`; a floating point constant is the value that
`atari_fp` holds, kept abstractly as the six bytes of its encoding. -/
inductive CK
  | tok (t : Tok)
  | byte (v : Nat)
  | byteStr (s : Str)
  | word (v : Nat)
  | wordStr (s : Str)
  | varn (name : Str) (n : Nat)
  | label (s : Str)
  | fp (b : List Nat)
  | str (s : Str)
deriving DecidableEq, Repr

/-- `class codew`, `/repo/src/compiler/codew.h:25-44`: content and source line number. -/
structure CW where
  k : CK
  lnum : Nat
deriving DecidableEq, Repr

/-- `codew::get_str`, `/repo/src/compiler/codew.h:167-173`; `none` is the exception. -/
def CK.getStr : CK → Option Str
  | .byteStr s | .wordStr s | .label s | .str s => some s
  | _ => none

/-- `parse::expand_line`, `/repo/src/compiler/parser.h:62-70`. -/
structure Expand where
  text : Str := []
  stext : Str := []
  indent : Int := 0
  nextIndent : Int := 0
  removeParens : Nat := 0
deriving DecidableEq, Repr

/-- `parse::jump`, `/repo/src/compiler/parser.h:141-146`. -/
structure Jump where
  type : LT
  label : Str
  linenum : Nat
deriving DecidableEq, Repr

/-- `class labelType`, `/repo/src/compiler/vartype.h:47-66`. -/
structure LabelT where
  type : Nat := 0
  segment : Str := []
deriving DecidableEq, Repr

/-- `class parse`, `/repo/src/compiler/parser.h:147-173`. `code` is not a field: it always points to
`procs[proc_stack.back()]`, or `procs[""]` if the stack is empty (`parser.h:171,584-600`).
`finalized`, `do_debug`, `maxlvl` and `in_fname` are dropped.
`std::map`s are association lists; entries are never removed.
`lastVar` is the static variable `last_var_name` of `parser-actions.cc:440`.
`trail` is a ghost field that no function reads: every call to `error` with a non-empty text, as
(position, level, text), most recent first; it is emptied by `loop_error`. -/
structure PS where
  str : Str := []
  pos : Nat := 0
  maxPos : Nat := 0
  errs : List (Nat × Str) := []
  trail : List (Nat × Nat × Str) := []
  lvl : Nat := 0
  linenum : Nat := 0
  expand : Expand := {}
  varStk : List CW := []
  procs : List (Str × List CW) := []
  procStack : List Str := []
  vars : List (Str × Nat) := []
  labels : List (Str × LabelT) := []
  jumps : List Jump := []
  labelNum : Nat := 0
  lastLabel : Str := []
  curParams : Nat := 0
  lastVar : Str := []
deriving DecidableEq, Repr

/-- Exceptions: `parse_error` with its position (`parser.h:36-42`), `std::runtime_error`
("internal error", a missing table), and undefined behaviour (`back()` of an empty vector).
`fuel` is not a behaviour of the program: it is the answer of the model when the recursion depth given
to it is exhausted, and theorem `C17_never_out_of_fuel` says that it never happens. -/
inductive Err
  | parseErr (msg : Str) (pos : Nat)
  | internal
  | ub
  | fuel
deriving DecidableEq, Repr

/-- The result of a parsing function: `true`, `false`, or an exception. -/
inductive Res
  | ok (s : PS)
  | fail (s : PS)
  | err (e : Err)
deriving DecidableEq, Repr

/-- Sequencing: `if(!f(s)) return false; …`. -/
def Res.andThen : Res → (PS → Res) → Res
  | .ok s, f => f s
  | .fail s, _ => .fail s
  | .err e, _ => .err e

/-- Lookup in an association list (`std::map::find`). -/
def lookup {α : Type} (k : Str) : List (Str × α) → Option α
  | [] => none
  | (k', v) :: l => if k = k' then some v else lookup k l

/-- Assignment in an association list (`map[k] = v`). -/
def assign {α : Type} (k : Str) (v : α) : List (Str × α) → List (Str × α)
  | [] => [(k, v)]
  | (k', v') :: l => if k = k' then (k', v) :: l else (k', v') :: assign k v l

namespace PS

/-- Key in `procs` of the procedure that `code` points to, `parser.h:171,584-600`. -/
def curProc (s : PS) : Str := s.procStack.head?.getD []

/-- `*code`, last element first. -/
def code (s : PS) : List CW := (lookup s.curProc s.procs).getD []

/-- Replace `*code`. -/
def setCode (s : PS) (c : List CW) : PS := { s with procs := assign s.curProc c s.procs }

/-- `code->push_back(codew(…, linenum))`, all the `emit_*` of `parser.h:536-583`. -/
def emit (s : PS) (k : CK) : PS := s.setCode ({ k := k, lnum := s.linenum } :: s.code)

/-- `bool error(std::string str)`, `parser.h:264-284`; always returns `false`. `saved_errors` is a set:
an element that is present is not added again. -/
def error (s : PS) (msg : Str) : PS :=
  if msg = [] then s
  else
    let s := { s with trail := (s.pos, s.lvl, msg) :: s.trail }
    if s.pos ≥ s.maxPos then
      let es := if s.pos > s.maxPos then [] else s.errs
      { s with errs := if (s.lvl, msg) ∈ es then es else (s.lvl, msg) :: es, maxPos := s.pos }
    else s

/-- `bool loop_error(std::string str)`, `parser.h:286-294`; always returns `false`. -/
def loopError (s : PS) (msg : Str) : PS :=
  { s with errs := [(s.lvl, msg)], maxPos := s.pos, trail := [(s.pos, s.lvl, msg)] }

/-- `saved_pos`, `parser.h:134-140,255`. -/
structure Saved where
  pos : Nat
  opos : Nat
  expand : Expand
deriving DecidableEq, Repr

/-- `save`, `parser.h:255`. -/
def save (s : PS) : Saved := { pos := s.pos, opos := s.code.length, expand := s.expand }

/-- `code->resize(n, TOK_END)`, with the last element first. -/
def resize (c : List CW) (n : Nat) : List CW :=
  if n ≤ c.length then c.drop (c.length - n)
  else List.replicate (n - c.length) { k := .tok .END, lnum := 0 } ++ c

/-- `restore`, `parser.h:296-305`. Note that the code that is resized is the one of the procedure that
is current at the time of `restore`, that can be another than at the time of `save`. -/
def restore (s : PS) (v : Saved) : PS :=
  { (s.setCode (resize s.code v.opos)) with pos := v.pos, expand := v.expand }

/-- `remove_last`, `parser.h:307-312`; `none` is the undefined behaviour on an empty vector. -/
def removeLast (s : PS) : Option (CW × PS) :=
  match s.code with
  | [] => none
  | c :: cs => some (c, s.setCode cs)

/-- `str[pos]` if `pos < str.length()`. -/
def cur (s : PS) : Option Nat := s.str[s.pos]?

/-- `eos`, `parser.h:326`. -/
def eos (s : PS) : Bool := s.str.length ≤ s.pos

/-- Conversion to upper case used in `expect` and `get_ident`: `c - ('a' - 'A')` for `a…z`. -/
def up (c : Nat) : Nat := if 97 ≤ c ∧ c ≤ 122 then c - 32 else c

/-- Advance the position by one. -/
def adv (s : PS) : PS := { s with pos := s.pos + 1 }

/-- `expect`, `parser.h:394-415`. -/
def expect (s : PS) (c : Nat) : Bool × PS :=
  if (s.cur.map up) = some (up c) then (true, s.adv)
  else if up c = 41 then (false, s.error (ofS "right parenthesis"))
  else if up c = 93 then (false, s.error (ofS "right bracket"))
  else (false, s)

/-- `peek`, `parser.h:372-387`. The condition `p >= 'a' && p >= 'z'` is as written in the source; a
signed `char` makes it false from 128. -/
def peek (s : PS) (c : Nat) : Bool :=
  match s.cur with
  | none => false
  | some p => (if 97 ≤ p ∧ 122 ≤ p ∧ p < 128 then p - 32 else p) == up c

/-- Number of leading blanks and tabs. -/
def wsLen : Str → Nat
  | [] => 0
  | c :: cs => if c = 32 ∨ c = 9 then wsLen cs + 1 else 0

/-- `skipws`, `parser.h:388-393`. -/
def skipws (s : PS) : PS := { s with pos := s.pos + wsLen (s.str.drop s.pos) }

/-- `eol`, `parser.h:416-435`. -/
def eol (s : PS) : Bool × PS :=
  match s.cur with
  | some c =>
    if c = 155 ∨ c = 10 then (true, s.adv)
    else if c = 13 ∧ s.pos < s.str.length - 1 ∧ s.str[s.pos + 1]? = some 10 then
      (true, { s with pos := s.pos + 2 })
    else (false, s)
  | none => (false, s)

/-- First character of an identifier, `parser.h:340-345`. -/
def identStartC (c : Nat) : Bool := (97 ≤ c && c ≤ 122) || (65 ≤ c && c ≤ 90) || c == 95

/-- Other characters of an identifier, after conversion to upper case, `parser.h:354-360`. -/
def identC (c : Nat) : Bool := (65 ≤ c && c ≤ 90) || (48 ≤ c && c ≤ 57) || c == 95

/-- The loop of `get_ident`, `parser.h:351-367`, on the rest of the line: the characters accepted (in
upper case), and `false` if it stopped at a dot. -/
def identLoop : Str → Str × Bool
  | [] => ([], true)
  | c :: cs =>
    if identC (up c) then let r := identLoop cs; (up c :: r.1, r.2)
    else if up c = 46 then ([], false)
    else ([], true)

/-- `get_ident`, `parser.h:346-371`. Returns the name if successful; the position has changed also in
the case of failure, as in the source. -/
def getIdent (s : PS) : Option Str × PS :=
  let s := s.skipws
  if s.cur.any identStartC then
    let r := identLoop (s.str.drop s.pos)
    let s := { s with pos := s.pos + r.1.length }
    if r.2 then (some r.1, s.skipws) else (none, s)
  else (none, s)

/-- `hexd`, `parser.h:436`. -/
def hexd (n : Nat) : Nat := if n % 16 < 10 then 48 + n % 16 else 55 + n % 16

/-- The decision of `expand_line::add_space`, `parser.h:93-132`: is a space added after text ending in
`l` (0 if empty) and before a text of `num` characters starting with `c`? -/
def needSpace (l c num : Nat) : Bool :=
  if l = 0 ∨ l = 32 ∨ l = 40 ∨ l = 91 ∨ l = 35 then false
  else if (c = 36 ∧ ¬ num > 1) ∨ c = 91 ∨ c = 40 ∨ c = 37 then
    !((48 ≤ l && l ≤ 57) || (65 ≤ l && l ≤ 90) || (97 ≤ l && l ≤ 122) || l == 95 || l == 36)
  else if c = 44 ∨ c = 41 ∨ c = 93 then false
  else true

/-- `add_text`, `parser.h:437-442` and `expand_line::add_space`, `parser.h:93-132`. -/
def addText (s : PS) (t : Str) : PS :=
  match t with
  | [] => s
  | c :: _ =>
    let l := s.expand.text.getLast?.getD 0
    let pre := if needSpace l c t.length then s.expand.text ++ [32] else s.expand.text
    { s with expand := { s.expand with text := pre ++ t } }

/-- Decimal digits of a number (`std::to_string`), as character codes. -/
def decDigits (n : Nat) : Str := (Nat.toDigits 10 n).map Char.toNat

/-- `add_s_int`, `parser.h:443-450`: the argument is the 16-bit value `x & 0xFFFF`. -/
def addSInt (s : PS) (x : Nat) : PS :=
  let t := if x > 65536 - 9999 then 45 :: decDigits (65536 - x) else decDigits x
  { s with expand := { s.expand with stext := s.expand.stext ++ t } }

/-- `add_s_fp`, `parser.h:451-454`. -/
def addSFp (s : PS) (n : Str) : PS :=
  { s with expand := { s.expand with stext := s.expand.stext ++ n } }

/-- `add_s_var`, `parser.h:455-459`. -/
def addSVar (s : PS) (n : Str) : PS :=
  { s with expand := { s.expand with stext := s.expand.stext ++ n ++ [32] } }

/-- `add_s_lit`, `parser.h:460-471`. -/
def addSLit (s : PS) (c : Nat) : PS :=
  if c = 41 ∧ s.expand.removeParens ≠ 0 then
    { s with expand := { s.expand with removeParens := s.expand.removeParens - 1 } }
  else
    let t := s.expand.stext
    let t := if !identC c && t.getLast? == some 32 then t.dropLast else t
    { s with expand := { s.expand with stext := t ++ [c] } }

/-- The loop of `add_s_str`, `parser.h:472-503`. The test `(unsigned) c == 155` converts a signed
`char`, so it is false for every character; what is left is the branch `in == true`. -/
def sStr : Str → Str
  | [] => [34]
  | c :: cs => (if c = 34 then [34, 34] else [c]) ++ sStr cs

/-- `add_s_str`, `parser.h:472-503`. -/
def addSStr (s : PS) (t : Str) : PS :=
  { s with expand := { s.expand with stext := s.expand.stext ++ sStr t } }

/-- The loop of `add_text_str`, `parser.h:504-535`; the boolean is the variable `in`. The conditions
`c < 32 || c > 126` on a signed `char` hold for 128…255 too. -/
def tStr : Bool → Str → Str
  | true, [] => [34]
  | false, [] => []
  | true, c :: cs =>
    if c = 34 then 34 :: 34 :: tStr true cs
    else if c < 32 ∨ c > 126 then 34 :: 36 :: hexd (c / 16) :: hexd c :: tStr false cs
    else c :: tStr true cs
  | false, c :: cs =>
    if c < 32 ∨ c > 126 ∨ c = 34 then 36 :: hexd (c / 16) :: hexd c :: tStr false cs
    else 34 :: c :: tStr true cs

/-- `add_text_str`, `parser.h:504-535`. -/
def addTextStr (s : PS) (t : Str) : PS :=
  { s with expand := { s.expand with text := s.expand.text ++ tStr true t } }

/-- `new_label`, `parser.h:175-179`: `"jump_lbl_" + std::to_string(n)`. -/
def jumpLabel (n : Nat) : Str := [106, 117, 109, 112, 95, 108, 98, 108, 95] ++ decDigits n

/-- `push_loop`, `parser.h:180-189`. -/
def pushLoop (s : PS) (t : LT) : Str × PS :=
  let n := s.labelNum + 1
  let l := jumpLabel n
  let s := { s with labelNum := n, jumps := { type := t, label := l, linenum := s.linenum } :: s.jumps }
  (l, if t.addIndent then
        { s with expand := { s.expand with nextIndent := s.expand.nextIndent + 2 } }
      else s)

/-- `peek_loop`, `parser.h:190-196`. -/
def peekLoop (s : PS) (t : LT) : Bool :=
  match s.jumps with
  | [] => false
  | j :: _ => !(j.type != t && (t != .ELSE || j.type != .IF))

/-- `get_loop_name`, `/repo/src/compiler/looptype.cc:24-53`. -/
def loopName : LT → Str
  | .PROC_2 => ofS "PROC"
  | .PROC_DATA => ofS "PROC/DATA"
  | .EXIT => ofS "EXIT"
  | .DO_LOOP => ofS "DO loop"
  | .REPEAT => ofS "REPEAT loop"
  | .WHILE_1 | .WHILE_2 => ofS "WHILE loop"
  | .FOR_1 | .FOR_2 => ofS "FOR loop"
  | .IF => ofS "IF"
  | .ELSE => ofS "ELSE"
  | .ELIF => ofS "ELIF"
  | .LAST_JUMP => ofS "unknown loop"

/-- The error branch of `pop_loop`, `parser.h:199-216`. -/
def popLoopErr (s : PS) (t : LT) : PS :=
  s.loopError (ofS "missing " ++ loopName (if t = .ELSE ∨ t = .ELIF then .IF else t))

/-- `pop_loop`, `parser.h:197-225`; `none` is the empty string. -/
def popLoop (s : PS) (t : LT) : Option Str × PS :=
  match s.jumps with
  | [] => (none, s.popLoopErr t)
  | j :: js =>
    if j.type ≠ t ∧ (t ≠ .ELSE ∨ j.type ≠ .IF) then (none, s.popLoopErr t)
    else
      let s := { s with jumps := js }
      (some j.label,
        if t.addIndent then
          { s with expand := { s.expand with nextIndent := s.expand.nextIndent - 2,
                                             indent := s.expand.nextIndent - 2 } }
        else s)

/-- `push_proc`, `parser.h:584-588`. -/
def pushProc (s : PS) (l : Str) : PS :=
  { s with procStack := l :: s.procStack,
           procs := if (lookup l s.procs).isSome then s.procs else assign l [] s.procs }

/-- `pop_proc`, `parser.h:589-600`; `none` is the exception. -/
def popProc (s : PS) (l : Str) : Option PS :=
  match s.procStack with
  | [] => none
  | p :: ps => if p = l then some { s with procStack := ps } else none

/-- `new_line`, `parser.h:245-253`. -/
def newLine (s : PS) (l : Str) (ln : Nat) : PS :=
  { s with pos := 0, maxPos := 0, varStk := [], str := l, errs := [], trail := [],
           expand := { s.expand with text := [], stext := [] }, linenum := ln }

end PS

end FB.Parse
