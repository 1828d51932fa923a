import Verif.Parse.Engine

/-!
# The parsing actions

Model of `/repo/src/compiler/parser-actions.cc`, function by function.
-/

namespace FB.Parse

open PS

/-- What the actions use from outside of the parser.
`file` opens and reads a file (`open_include_file`, `/repo/src/compiler/ifile.cc:35-60`).
`fp sign digits exp` is the conversion of a floating point literal (`parser-actions.cc:560-577`,
`atarifp.{h,cc}`): arguments are the sign, the digits and dots read and the exponent; the result is
`none` if the number is not `valid()`, else its six bytes and its text. -/
structure Env where
  file : Str → Option (List Nat)
  fp : Bool → Str → Int → Option (List Nat × Str)

/-- Value of a hexadecimal digit, the conditions of `get_hex`, `parser-actions.cc:36-43`. -/
def hexVal (c : Nat) : Option Nat :=
  if 48 ≤ c ∧ c ≤ 57 then some (c - 48)
  else if 97 ≤ c ∧ c ≤ 102 then some (10 + (c - 97))
  else if 65 ≤ c ∧ c ≤ 70 then some (10 + (c - 65))
  else none

/-- Value of a decimal digit, `parser-actions.cc:60-61`. -/
def decVal (c : Nat) : Option Nat := if 48 ≤ c ∧ c ≤ 57 then some (c - 48) else none

/-- The loop of `get_hex` and `get_dec` (`parser-actions.cc:33-48,57-68`), on the rest of the line:
the number so far and the count of characters consumed so far, to the final number and count. The
loop stops as soon as the number exceeds 65535, so `unsigned` never overflows. -/
def digLoop (val : Nat → Option Nat) (base : Nat) : Str → Nat → Nat → Nat × Nat
  | [], num, cnt => (num, cnt)
  | c :: cs, num, cnt =>
    match val c with
    | none => (num, cnt)
    | some d =>
      let num := num * base + d
      if num > 0xFFFF then (num, cnt + 1) else digLoop val base cs num (cnt + 1)

/-- `get_hex` and `get_dec`, `parser-actions.cc:29-71`. -/
def getDigits (val : Nat → Option Nat) (base : Nat) (s : PS) : Nat × PS :=
  let r := digLoop val base (s.str.drop s.pos) 0 0
  (if r.2 = 0 then 65536 else r.1, { s with pos := s.pos + r.2 })

/-- `get_hex`, `parser-actions.cc:29-51`. -/
def getHex (s : PS) : Nat × PS := getDigits hexVal 16 s

/-- `get_dec`, `parser-actions.cc:53-71`. -/
def getDec (s : PS) : Nat × PS := getDigits decVal 10 s

/-- Text of an hexadecimal number, `parser-actions.cc:84-92`. -/
def hexText (h : Nat) : Str :=
  [36] ++ (if h > 255 then [hexd (h / 4096), hexd (h / 256)] else []) ++ [hexd (h / 16), hexd h]

/-- `get_number`, `parser-actions.cc:73-119`. -/
def getNumber (s : PS) : Nat × PS :=
  let r := s.expect 36
  if r.1 then
    let h := getHex r.2
    if h.1 > 65535 then (65536, h.2)
    else (h.1, (h.2.addText (hexText h.1)).addSInt h.1)
  else
    let sg := r.2.expect 45
    let num := getDec sg.2
    if num.1 > 65535 then (65536, num.2)
    else
      let dot := num.2.expect 46
      if dot.1 then (65536, { dot.2 with pos := s.pos })
      else
        -- `std::to_string(sign ? -num : num)`: there is no `-0`
        let sn := if sg.1 ∧ num.1 ≠ 0 then 45 :: decDigits num.1 else decDigits num.1
        let v := if sg.1 then 65536 - num.1 else num.1
        (v, (dot.2.addText sn).addSInt (v % 65536))

/-- `get_asm_word_constant`, `parser-actions.cc:121-139`. -/
def getAsmWord (s : PS) : Bool × PS :=
  let r := s.expect 64
  if r.1 then
    let i := r.2.getIdent
    match i.1 with
    | some name =>
      (true, ((((i.2.addText (64 :: name)).addSVar (64 :: name)).emit (.wordStr name))).skipws)
    | none => (false, { i.2 with pos := s.pos })
  else (false, { r.2 with pos := s.pos })

/-- `get_asm_byte_constant`, `parser-actions.cc:141-159`. -/
def getAsmByte (s : PS) : Bool × PS :=
  let r := s.expect 64
  if r.1 then
    let r2 := r.2.expect 64
    if r2.1 then
      let i := r2.2.getIdent
      match i.1 with
      | some name =>
        (true, ((((i.2.addText (64 :: 64 :: name)).addSVar (64 :: 64 :: name)).emit
          (.byteStr name))).skipws)
      | none => (false, { i.2 with pos := s.pos })
    else (false, { r2.2 with pos := s.pos })
  else (false, { r.2 with pos := s.pos })

/-- `SMB_E_NUMBER_WORD`, `parser-actions.cc:161-173`. -/
def eNumberWord (s : PS) : Res :=
  let r := getAsmWord s.skipws
  if r.1 then .ok r.2
  else
    let num := getNumber r.2
    if num.1 > 65535 then .fail num.2 else .ok (num.2.emit (.word num.1)).skipws

/-- `SMB_E_NUMBER_BYTE`, `parser-actions.cc:175-187`. -/
def eNumberByte (s : PS) : Res :=
  let r := getAsmByte s.skipws
  if r.1 then .ok r.2
  else
    let num := getNumber r.2
    if num.1 > 255 then .fail num.2 else .ok (num.2.emit (.byte num.1)).skipws

/-- The `do … while(s.expect('$'))` loop of `get_const_string`, `parser-actions.cc:199-205`, after a
`$`. The first argument bounds the number of iterations; each one consumes at least one character, so
the length of the line is enough. `none`: `return false`. -/
def hexLoop : Nat → PS → Str → Option Str × PS
  | 0, s, _ => (none, s)
  | n + 1, s, str =>
    let c := getHex s
    if c.1 > 255 then (none, c.2)
    else
      let r := c.2.expect 36
      if r.1 then hexLoop n r.2 (str ++ [c.1]) else (some (str ++ [c.1]), r.2)

/-- The loop of `get_const_string`, `parser-actions.cc:191-227`. The first argument bounds the number of
iterations; each one consumes a character. `none`: `return false`. -/
def constLoop : Nat → PS → Str → Option Str × PS
  | 0, s, _ => (none, s)
  | n + 1, s, str =>
    match s.cur with
    | none => (none, s)
    | some c =>
      let q := s.expect 34
      if q.1 then
        let q2 := q.2.expect 34
        if q2.1 then constLoop n q2.2 (str ++ [34])
        else
          let d := q2.2.expect 36
          if d.1 then
            let h := hexLoop (s.str.length + 1) d.2 str
            match h.1 with
            | none => (none, h.2)
            | some str =>
              let q3 := h.2.expect 34
              if q3.1 then constLoop n q3.2 str else (some str, q3.2)
          else (some str, d.2)
      else constLoop n q.2.adv (str ++ [c])

/-- `get_const_string`, `parser-actions.cc:189-227`. -/
def getConstString (s : PS) : Option Str × PS :=
  let r := constLoop (s.str.length + 1) s []
  match r.1 with
  | some str => (some str, (r.2.addTextStr str).addSStr str)
  | none => (none, r.2)

/-- `SMB_E_CONST_STRING`, `parser-actions.cc:229-236`. -/
def eConstString (s : PS) : Res :=
  let r := getConstString s
  match r.1 with
  | some str => .ok (r.2.emit (.str str))
  | none => .fail r.2

/-- The part of the rest of the line that `E_REM` copies: up to an end of line. -/
def remText : Str → Str
  | [] => []
  | c :: cs => if c = 10 ∨ c = 155 then [] else c :: remText cs

/-- `SMB_E_REM`, `parser-actions.cc:238-250`. -/
def eRem (s : PS) : Res :=
  let rest := s.str.drop s.pos
  let t := remText rest
  let st := if s.expand.stext = [46] then [] else s.expand.stext
  .ok { s with pos := s.pos + t.length + (if t.length < rest.length then 1 else 0),
               expand := { s.expand with stext := st, text := s.expand.text ++ t } }

/-- `SMB_E_EOL`, `parser-actions.cc:252-262`. -/
def eEol (s : PS) : Res :=
  let r := s.skipws.expect 39
  if r.1 then eRem (r.2.addText [39])
  else if r.2.eos then .ok r.2
  else if r.2.peek 58 then .ok r.2
  else if r.2.eol.1 then .ok r.2.eol.2
  else .fail r.2.eol.2

/-- `SMB_E_PUSH_VAR`, `parser-actions.cc:264-270`. -/
def ePushVar (s : PS) : Res :=
  match s.removeLast with
  | none => .err .ub
  | some (c, s) => .ok { s with varStk := c :: s.varStk }

/-- `SMB_E_POP_VAR`, `parser-actions.cc:272-280`. -/
def ePopVar (s : PS) : Res :=
  match s.varStk with
  | [] => .err (.parseErr (ofS "variable stack empty") s.pos)
  | c :: cs => .ok { (s.setCode (c :: s.code)) with varStk := cs }

/-- Names of the loop types in the grammar. -/
def LT.name : LT → Str
  | .PROC_DATA => ofS "LT_PROC_DATA"
  | .EXIT => ofS "LT_EXIT"
  | .LAST_JUMP => []
  | .PROC_2 => ofS "LT_PROC_2"
  | .DO_LOOP => ofS "LT_DO_LOOP"
  | .REPEAT => ofS "LT_REPEAT"
  | .WHILE_1 => ofS "LT_WHILE_1"
  | .FOR_1 => ofS "LT_FOR_1"
  | .WHILE_2 => ofS "LT_WHILE_2"
  | .FOR_2 => ofS "LT_FOR_2"
  | .IF => ofS "LT_IF"
  | .ELSE => ofS "LT_ELSE"
  | .ELIF => ofS "LT_ELIF"

/-- `get_looptype`, `/repo/src/compiler/looptype.cc:55-82`; `none` is the exception. -/
def getLoopType (t : Str) : Option LT :=
  [LT.PROC_DATA, .PROC_2, .DO_LOOP, .REPEAT, .WHILE_1, .WHILE_2, .FOR_1, .FOR_2, .EXIT, .IF, .ELSE,
    .ELIF].find? (fun l => l.name = t)

/-- `remove_last().get_str()`, with `none` for its exceptions. -/
def removeStr (s : PS) : Except Err (Str × PS) :=
  match s.removeLast with
  | none => .error .ub
  | some (c, s) => match c.k.getStr with
    | none => .error .internal
    | some n => .ok (n, s)

/-- `get_looptype(s.remove_last().get_str())`, with its exceptions. -/
def removeLT (s : PS) : Except Err (LT × PS) :=
  match removeStr s with
  | .error e => .error e
  | .ok (n, s) => match getLoopType n with
    | none => .error .internal
    | some t => .ok (t, s)

/-- `l + "_x"`. -/
def lblX (l : Str) : Str := l ++ [95, 120]

/-- `SMB_E_PUSH_LT`, `parser-actions.cc:282-314`. -/
def ePushLT (s : PS) : Res :=
  match removeLT s with
  | .error e => .err e
  | .ok (t, s) =>
    let r := s.pushLoop t
    match t with
    | .DO_LOOP | .REPEAT | .WHILE_1 | .FOR_1 => .ok (r.2.emit (.label r.1))
    | .WHILE_2 | .FOR_2 | .IF => .ok (r.2.emit (.wordStr r.1))
    | .EXIT | .ELSE | .ELIF | .PROC_2 | .LAST_JUMP => .ok r.2
    | .PROC_DATA =>
      match r.2.removeLast with
      | none => .err .ub
      | some (_, s) => .ok (s.pushProc r.1)

/-- `SMB_E_POP_LOOP`, `parser-actions.cc:316-326`. -/
def ePopLoop (s : PS) : Res :=
  let r := s.popLoop .DO_LOOP
  match r.1 with
  | none => .fail (r.2.loopError (ofS "loop start missing"))
  | some l => .ok ((r.2.emit (.wordStr l)).emit (.label (lblX l)))

/-- `SMB_E_POP_WHILE`, `parser-actions.cc:328-340`. -/
def ePopWhile (s : PS) : Res :=
  let r1 := s.popLoop .WHILE_2
  let r2 := r1.2.popLoop .WHILE_1
  match r1.1, r2.1 with
  | some l1, some l2 =>
    .ok (((r2.2.emit (.wordStr l2)).emit (.label l1)).emit (.label (lblX l2)))
  | _, _ => .fail r2.2

/-- The loop `while(s.peek_loop(LT_ELIF))` of `SMB_E_POP_IF`, `parser-actions.cc:350-351`; the first
argument is a bound on the number of iterations (each one pops a jump). -/
def popElifs : Nat → PS → PS
  | 0, s => s
  | n + 1, s =>
    if s.peekLoop .ELIF then
      let r := s.popLoop .ELIF
      popElifs n (r.2.emit (.label (r.1.getD [])))
    else s

/-- `SMB_E_POP_IF`, `parser-actions.cc:342-353`. -/
def ePopIf (s : PS) : Res :=
  let r := s.popLoop .ELSE
  match r.1 with
  | none => .fail r.2
  | some l => .ok (popElifs r.2.jumps.length (r.2.emit (.label l)))

/-- `SMB_E_ELSEIF`, `parser-actions.cc:355-367`. -/
def eElseIf (s : PS) : Res :=
  let r := s.popLoop .IF
  match r.1 with
  | none => .fail r.2
  | some l1 =>
    match removeLT r.2 with
    | .error e => .err e
    | .ok (t, s) =>
      let r2 := s.pushLoop t
      .ok ((r2.2.emit (.wordStr r2.1)).emit (.label l1))

/-- The loop of `SMB_E_EXIT_LOOP`, `parser-actions.cc:373-387`, over the stack of jumps:
`none`: no loop found; `some none`: a type that does not allow EXIT. -/
def exitSearch : List Jump → Option (Option Jump)
  | [] => none
  | j :: js =>
    if j.type = .ELIF ∨ j.type = .IF ∨ j.type = .ELSE ∨ j.type = .FOR_2 ∨ j.type = .WHILE_2 then exitSearch js
    else if j.type.val ≤ LT.EXIT.val then some none
    else some (some j)

/-- `SMB_E_EXIT_LOOP`, `parser-actions.cc:369-389`. -/
def eExitLoop (s : PS) : Res :=
  match exitSearch s.jumps with
  | none => .fail (s.loopError (ofS "EXIT without loop"))
  | some none => .fail (s.loopError (ofS "invalid EXIT"))
  | some (some j) => .ok (s.emit (.wordStr (lblX j.label)))

/-- `SMB_E_POP_PROC_DATA`, `parser-actions.cc:391-400`. -/
def ePopProcData (s : PS) : Res :=
  let r := s.popLoop .PROC_DATA
  match r.1 with
  | none => .fail r.2
  | some l =>
    match r.2.popProc l with
    | none => .err .internal
    | some s => .ok s

/-- `SMB_E_POP_PROC_2`, `parser-actions.cc:402-411`. -/
def ePopProc2 (s : PS) : Res :=
  let r := s.popLoop .PROC_2
  match r.1 with
  | none => .fail r.2
  | some l => .ok (r.2.emit (.label (lblX l)))

/-- `SMB_E_POP_FOR`, `parser-actions.cc:413-426`. -/
def ePopFor (s : PS) : Res :=
  let r2 := s.popLoop .FOR_1
  let r1 := r2.2.popLoop .FOR_2
  match r1.1, r2.1 with
  | some l1, some l2 =>
    match r1.2.removeLast with
    | none => .err .ub
    | some (_, s) => .ok (((s.emit (.wordStr l2)).emit (.label l1)).emit (.label (lblX l2)))
  | _, _ => .fail r1.2

/-- `SMB_E_POP_REPEAT`, `parser-actions.cc:428-438`. -/
def ePopRepeat (s : PS) : Res :=
  let r := s.popLoop .REPEAT
  match r.1 with
  | none => .fail r.2
  | some l => .ok ((r.2.emit (.wordStr l)).emit (.label (lblX l)))

/-- `emit_varn`, `parser.h:571-578`: the number of the variable is the value in the map divided by 256.
(The exception for a name not in the map cannot happen: the callers have just looked it up.) -/
def emitVarn (s : PS) (name : Str) : PS := s.emit (.varn name ((lookup name s.vars).getD 0 / 256))

/-- `SMB_E_VAR_CREATE`, `parser-actions.cc:441-457`. -/
def eVarCreate (s : PS) : Res :=
  let i := s.getIdent
  match i.1 with
  | none => .fail i.2
  | some name =>
    match lookup name i.2.vars with
    | some _ => .fail i.2
    | none =>
      let s := { i.2 with vars := assign name (256 * i.2.vars.length) i.2.vars }
      let s := { (emitVarn s name) with lastVar := name }
      .ok ((s.addText name).addSVar name)

/-- Names of the variable types in the grammar. -/
def VT.name : VT → Str
  | .UNDEF => ofS "VT_UNDEF"
  | .WORD => ofS "VT_WORD"
  | .ARRAY_WORD => ofS "VT_ARRAY_WORD"
  | .ARRAY_BYTE => ofS "VT_ARRAY_BYTE"
  | .ARRAY_STRING => ofS "VT_ARRAY_STRING"
  | .ARRAY_FLOAT => ofS "VT_ARRAY_FLOAT"
  | .STRING => ofS "VT_STRING"
  | .FLOAT => ofS "VT_FLOAT"

/-- `get_vartype`, `/repo/src/compiler/vartype.cc:24-43`. -/
def getVarType (t : Str) : VT :=
  ([VT.UNDEF, .WORD, .ARRAY_WORD, .ARRAY_BYTE, .ARRAY_STRING, .ARRAY_FLOAT, .STRING, .FLOAT].find?
    (fun v => v.name = t)).getD .UNDEF

/-- `get_vt_name`, `/repo/src/compiler/vartype.cc:45-67`. -/
def VT.desc : VT → Str
  | .ARRAY_WORD => ofS "word array"
  | .ARRAY_BYTE => ofS "byte array"
  | .ARRAY_STRING => ofS "string array"
  | .ARRAY_FLOAT => ofS "float array"
  | .WORD => ofS "word"
  | .STRING => ofS "string"
  | .FLOAT => ofS "float"
  | .UNDEF => ofS "UNDEFINED"

/-- `v["-fake-" + std::to_string(v.size())] = 0`, `parser-actions.cc:473-474`. -/
def addFake (v : List (Str × Nat)) : List (Str × Nat) :=
  assign ([45, 102, 97, 107, 101, 45] ++ decDigits v.length) 0 v

/-- The change that `SMB_E_VAR_SET_TYPE` makes to the map of variables, `parser-actions.cc:469-475`. -/
def setType (name : Str) (t : VT) (v : List (Str × Nat)) : List (Str × Nat) :=
  let v := assign name ((lookup name v).getD 0 / 256 * 256 + t.val) v
  if t = .FLOAT then addFake (addFake v) else v

/-- `SMB_E_VAR_SET_TYPE`, `parser-actions.cc:459-480`. -/
def eVarSetType (s : PS) : Res :=
  match removeStr s.skipws with
  | .error e => .err e
  | .ok (n, s) =>
    let t := getVarType n
    let s := { s with vars := setType s.lastVar t s.vars }
    if t.isArray then .ok s else .fail s

/-- `var_check`, `parser-actions.cc:482-496`. -/
def varCheck (t : VT) (s : PS) : Res :=
  let i := s.getIdent
  match i.1 with
  | none => .fail i.2
  | some name =>
    match lookup name i.2.vars with
    | none => .fail (i.2.error (ofS "variable name but got '" ++ name ++ [39]))
    | some v =>
      if v % 256 ≠ t.val then .fail (i.2.error (t.desc ++ ofS " and got '" ++ name ++ [39]))
      else .ok (emitVarn ((i.2.addText name).addSVar name) name)

/-- `SMB_E_VAR_WORD`, `parser-actions.cc:498-502`. -/
def eVarWord (s : PS) : Res := varCheck .WORD s

/-- `SMB_E_VAR_SEARCH`, `parser-actions.cc:504-509`. -/
def eVarSearch (s : PS) : Res :=
  match removeStr s with
  | .error e => .err e
  | .ok (n, s) => varCheck (getVarType n) s

/-- The loop over digits and dots of `get_fp_number`, `parser-actions.cc:541-559`: what is consumed. -/
def fpDigits : Str → Str
  | [] => []
  | c :: cs => if (48 ≤ c ∧ c ≤ 57) ∨ c = 46 then c :: fpDigits cs else []

/-- A digit at the current position, `range('0','9')`, `parser.h:328-339`. -/
def digitAt (s : PS) : Option Nat := s.cur.bind decVal

/-- `parse_fp_exp`, `parser-actions.cc:512-530`. -/
def parseFpExp (s : PS) : Int × PS :=
  let r := s.expect 69
  if r.1 then
    let sg := r.2.expect 45
    let s1 := if sg.1 then sg.2 else (sg.2.expect 43).2
    match digitAt s1 with
    | none => (0, s1.restore s.save)
    | some d =>
      match digitAt s1.adv with
      | none => (if sg.1 then -(d : Int) else d, s1.adv)
      | some e =>
        (if sg.1 then -((d * 10 + e : Nat) : Int) else ((d * 10 + e : Nat) : Int), s1.adv.adv)
  else (0, r.2.restore s.save)

/-- `SMB_E_NUMBER_FP` with `get_fp_number`, `parser-actions.cc:532-589`. -/
def eNumberFp (env : Env) (s : PS) : Res :=
  let sg := s.skipws.expect 45
  let ds := fpDigits (sg.2.str.drop sg.2.pos)
  let s := { sg.2 with pos := sg.2.pos + ds.length }
  if ds.all (· == 46) then .fail s
  else
    let e := parseFpExp s
    match env.fp sg.1 ds e.1 with
    | none => .fail e.2
    | some bt => .ok (((e.2.addText bt.2).addSFp bt.2).emit (.fp bt.1)).skipws

/-- `label_prefix`, `parser.h:49`. -/
def labelPrefix : Str := ofS "fb_lbl_"

/-- `labelType::is_defined`, `vartype.cc:134-137`. -/
def LabelT.isDefined (l : LabelT) : Bool := l.type ≥ 64

/-- `labelType::is_proc`, `vartype.cc:139-142`. -/
def LabelT.isProc (l : LabelT) : Bool := l.type < 128

/-- `labelType::add_proc_params`, `vartype.cc:144-155`, with the number of parameters plus one (the
`num_params` of the source is `(type & 63) - 1`). -/
def LabelT.addParams (l : LabelT) (p1 : Nat) : Bool × LabelT :=
  let l := if l.type = 0 then { l with type := p1 } else l
  (l.type % 64 == p1, l)

/-- `labelType::define`, `vartype.cc:157-160`. -/
def LabelT.define (l : LabelT) : LabelT := { l with type := l.type ||| 64 }

/-- `labelType::set_type`, `vartype.cc:114-122`; `none` is the exception. -/
def labelTypeOf (t : Str) : Option Nat :=
  if t = VT.ARRAY_WORD.name then some 128
  else if t = VT.ARRAY_BYTE.name then some 129
  else none

/-- `s.labels[name]`. -/
def getLabel (s : PS) (name : Str) : LabelT := (lookup name s.labels).getD {}

/-- `s.labels[name] = l`. -/
def setLabel (s : PS) (name : Str) (l : LabelT) : PS := { s with labels := assign name l s.labels }

/-- `SMB_E_LABEL_DEF`, `parser-actions.cc:591-605`. -/
def eLabelDef (s : PS) : Res :=
  let r := s.pushLoop .PROC_DATA
  match r.2.removeLast with
  | none => .err .ub
  | some (_, s) =>
    let s := s.pushProc r.1
    let lt := getLabel s s.lastLabel
    let s := setLabel s s.lastLabel lt
    if lt.isDefined then
      .fail (s.loopError (ofS "new label, got label already defined '" ++ s.lastLabel ++ [39]))
    else
      .ok (PS.emit { s with curParams := 0 } (.label (labelPrefix ++ s.lastLabel)))

/-- `SMB_E_LABEL`, `parser-actions.cc:607-626`. -/
def eLabel (s : PS) : Res :=
  match removeStr s with
  | .error e => .err e
  | .ok (n, s) =>
    match labelTypeOf n with
    | none => .err .internal
    | some lt =>
      let i := s.getIdent
      match i.1 with
      | none => .fail i.2
      | some name =>
        match lookup name i.2.labels with
        | none => .fail i.2
        | some l =>
          if l.type ≠ lt then .fail i.2
          else .ok (((i.2.addText name).addSVar name).emit (.wordStr (labelPrefix ++ name)))

/-- `SMB_E_COUNT_PARAM`, `parser-actions.cc:628-633`. -/
def eCountParam (s : PS) : Res := .fail { s with curParams := s.curParams + 1 }

/-- `SMB_E_LABEL_CREATE`, `parser-actions.cc:637-654`. -/
def eLabelCreate (s : PS) : Res :=
  let i := s.getIdent
  match i.1 with
  | none => .fail i.2
  | some name =>
    let l := getLabel i.2 name
    let s := setLabel i.2 name l
    if !l.isProc then .fail (s.loopError (ofS "new label, got label already defined '" ++ name ++ [39]))
    else .ok { ((s.addText name).addSVar name) with lastLabel := name, curParams := 0 }

/-- `SMB_E_DO_EXEC`, `parser-actions.cc:656-668` (the text of the exception is shortened). -/
def eDoExec (s : PS) : Res :=
  let r := (getLabel s s.lastLabel).addParams (s.curParams + 1)
  if r.1 then .ok ((setLabel s s.lastLabel r.2).emit (.wordStr (labelPrefix ++ s.lastLabel)))
  else .err (.parseErr (ofS "invalid number of parameters in EXEC") s.pos)

/-- `SMB_E_PROC_CHECK`, `parser-actions.cc:670-682` (the text of the exception is shortened). -/
def eProcCheck (s : PS) : Res :=
  let r := (getLabel s s.lastLabel).addParams s.curParams
  if r.1 then .ok (setLabel s s.lastLabel r.2.define)
  else .err (.parseErr (ofS "invalid number of parameters in PROC") s.pos)

/-- `SMB_E_LABEL_SET_TYPE`, `parser-actions.cc:684-691`. -/
def eLabelSetType (s : PS) : Res :=
  match removeStr s.skipws with
  | .error e => .err e
  | .ok (n, s) =>
    match labelTypeOf n with
    | none => .err .internal
    | some t => .ok (setLabel s s.lastLabel { getLabel s s.lastLabel with type := t })

/-- `SMB_E_DATA_SET_ROM_SEG`, `parser-actions.cc:693-699`. -/
def eDataSetRomSeg (s : PS) : Res :=
  let s := s.skipws
  .ok (setLabel s s.lastLabel { getLabel s s.lastLabel with segment := ofS "CODE" })

/-- `SMB_E_DATA_SET_SEGMENT`, `parser-actions.cc:701-714`. -/
def eDataSetSegment (s : PS) : Res :=
  let i := s.skipws.getIdent
  match i.1 with
  | some seg => .ok (setLabel i.2 i.2.lastLabel { getLabel i.2 i.2.lastLabel with segment := seg })
  | none => .fail (i.2.error (ofS "segment name"))

/-- The loop of `SMB_E_DATA_FILE`, `parser-actions.cc:732-738`. -/
def emitData : List Nat → PS → PS
  | [], s => s
  | c :: cs, s => emitData cs (s.emit (.byte c))

/-- `SMB_E_DATA_FILE`, `parser-actions.cc:717-740` (the text of the exception is shortened). -/
def eDataFile (env : Env) (s : PS) : Res :=
  let r := getConstString s.skipws
  match r.1 with
  | none => .fail r.2
  | some fname =>
    match env.file fname with
    | none => .err (.parseErr (ofS "can't open data file") s.skipws.pos)
    | some data => .ok (emitData (data.take 65536) r.2)

/-- `call_parsing_action`, `parser-actions.cc:743-784`. -/
def action (env : Env) : Act → PS → Res
  | .CONST_STRING => eConstString
  | .COUNT_PARAM => eCountParam
  | .DATA_FILE => eDataFile env
  | .DO_EXEC => eDoExec
  | .ELSEIF => eElseIf
  | .EOL => eEol
  | .EXIT_LOOP => eExitLoop
  | .LABEL => eLabel
  | .LABEL_CREATE => eLabelCreate
  | .LABEL_DEF => eLabelDef
  | .LABEL_SET_TYPE => eLabelSetType
  | .DATA_SET_ROM_SEG => eDataSetRomSeg
  | .DATA_SET_SEGMENT => eDataSetSegment
  | .NUMBER_BYTE => eNumberByte
  | .NUMBER_FP => eNumberFp env
  | .NUMBER_WORD => eNumberWord
  | .POP_FOR => ePopFor
  | .POP_IF => ePopIf
  | .POP_LOOP => ePopLoop
  | .POP_PROC_2 => ePopProc2
  | .POP_PROC_DATA => ePopProcData
  | .POP_REPEAT => ePopRepeat
  | .POP_VAR => ePopVar
  | .POP_WHILE => ePopWhile
  | .PROC_CHECK => eProcCheck
  | .PUSH_LT => ePushLT
  | .PUSH_VAR => ePushVar
  | .REM => eRem
  | .VAR_CREATE => eVarCreate
  | .VAR_SEARCH => eVarSearch
  | .VAR_SET_TYPE => eVarSetType
  | .VAR_WORD => eVarWord

end FB.Parse
