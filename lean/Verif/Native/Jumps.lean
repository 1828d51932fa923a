import Verif.Parse.Unique

/-!
# Jumps in the native compiler

Model of the part of `/repo/src/actions.asm` that resolves jumps: the stack of loops, the patching of
addresses already written, and the list of addresses of labels. And the two compilers run side by side
on the same sequence of emitted codes and actions.

Addresses are natural numbers (the areas of memory keep them below 65536, see C39); the words written
in the code are reduced to 16 bits.
-/

namespace FB.Native

open FB.Parse

/-- Values of the loop types, `/repo/src/actions.asm:74-103`. They differ from the ones of the cross
compiler (`LT.val`). -/
def ltNum : LT → Nat
  | .EXIT => 0 | .PROC_DATA => 1 | .FOR_2 => 2 | .LAST_JUMP => 63 | .PROC_2 => 64 | .DO_LOOP => 65
  | .REPEAT => 66 | .WHILE_1 => 67 | .WHILE_2 => 128 | .IF => 129 | .ELSE => 130 | .ELIF => 131
  | .FOR_1 => 192

/-- An entry of the stack of loops, `actions.asm:652-660`: type and address. -/
structure Ent where
  type : Nat
  pos : Nat
deriving DecidableEq, Repr

/-- An entry of the list of addresses of labels, `actions.asm:474-500`: number of the label, status
(0: reference not resolved, 1: reference resolved, 128: definition) and address. -/
structure LAd where
  num : Nat
  st : Nat
  pos : Nat
deriving DecidableEq, Repr

/-- State of the native compiler that the actions on jumps use: the memory, the address where the next
byte of code goes (`prog_ptr + opos`, `get_codep`, `actions.asm:130-139`), the stack of loops (last
entry first), the names of the labels in order of creation (the table of names is the subject of C38),
the list of addresses, and `last_label_num`. -/
structure NS where
  mem : Nat → Nat
  cp : Nat
  loops : List Ent := []
  names : List Str := []
  lab : List LAd := []
  last : Nat := 0

/-- Memory after storing bytes from an address. -/
def put (m : Nat → Nat) (a : Nat) (bs : List Nat) : Nat → Nat :=
  fun x => if a ≤ x ∧ x < a + bs.length then bs.getD (x - a) 0 else m x

/-- The two bytes of a word, low byte first. -/
def wbytes (w : Nat) : List Nat := [w % 256, w / 256 % 256]

/-- The word at an address. -/
def word (m : Nat → Nat) (a : Nat) : Nat := m a + 256 * m (a + 1)

namespace NS

/-- `parser_emit_byte` for each byte, `/repo/src/parse.asm:165-171` (the limit of 256 bytes in a line is left
out). -/
def emitB (n : NS) (bs : List Nat) : NS := { n with mem := put n.mem n.cp bs, cp := n.cp + bs.length }

/-- `get_last_tok`, `actions.asm:122-127`: the last byte written, that is removed from the code. -/
def getLastTok (n : NS) : Nat × NS := (n.mem (n.cp - 1), { n with cp := n.cp - 1 })

variable (reloc : Nat)

/-- `emit_addr` and `emit_AX`, `actions.asm:604-620`. -/
def emitAddr (n : NS) (p : Nat) : NS := n.emitB (wbytes ((p + reloc) % 65536))

/-- `patch_codep`, `actions.asm:832-848`. -/
def patch (n : NS) (p : Nat) : NS := { n with mem := put n.mem p (wbytes ((n.cp + reloc) % 65536)) }

/-- `push_codep`, `actions.asm:645-669`; `none` is the error of a full stack (`bmi loop_error`). Two
bytes are reserved if bit 6 of the type is clear; `inc_opos_2` does not write them. -/
def push (n : NS) (a : Nat) : Option NS :=
  if 3 * (n.loops.length + 1) ≥ 128 then none
  else some { n with loops := ⟨a, n.cp⟩ :: n.loops, cp := if a / 64 % 2 = 1 then n.cp else n.cp + 2 }

/-- `pop_codep`, `actions.asm:676-696`; `none` is `loop_error`. -/
def pop (n : NS) (a : Nat) : Option (Nat × NS) :=
  match n.loops with
  | [] => none
  | e :: es =>
    if a = e.type ∨ (a = ltNum .ELSE ∧ ltNum .IF = e.type) then some (e.pos, { n with loops := es })
    else none

/-- `check_loop_exit`, `actions.asm:703-715`, over the entries of the stack. -/
def checkExitL : List Ent → NS → NS
  | [], n => { n with loops := [] }
  | e :: es, n =>
    if e.type = ltNum .EXIT then checkExitL es (n.patch reloc e.pos) else { n with loops := e :: es }

/-- `check_loop_exit`, `actions.asm:703-715`. -/
def checkExit (n : NS) : NS := checkExitL reloc n.loops n

/-- `E_PUSH_LT`, `actions.asm:641-644`. -/
def ePushLT (n : NS) : Option NS := n.getLastTok.2.push n.getLastTok.1

/-- `E_POP_PROC_2`, `actions.asm:698-702`. -/
def ePopProc2 (n : NS) : Option NS :=
  match n.pop (ltNum .PROC_2) with
  | none => none
  | some (_, n) => some (n.checkExit reloc)

/-- The search and the insertion of `E_EXIT_LOOP`, `actions.asm:717-745`: the entries up to the loop, and
the ones below it. -/
def exitAt : List Ent → Option (List Ent × List Ent)
  | [] => none
  | e :: es =>
    if e.type ≥ 128 then
      match exitAt es with
      | none => none
      | some (a, b) => some (e :: a, b)
    else if e.type < ltNum .PROC_DATA + 1 then none
    else some ([e], es)

/-- `E_EXIT_LOOP`, `actions.asm:717-757`. -/
def eExitLoop (n : NS) : Option NS :=
  match exitAt n.loops with
  | none => none
  | some (a, b) =>
    if 3 * (n.loops.length + 1) ≥ 128 then none
    else some { n with loops := a ++ ⟨ltNum .EXIT, n.cp⟩ :: b, cp := n.cp + 2 }

/-- `E_POP_WHILE`, `actions.asm:759-773`. -/
def ePopWhile (n : NS) : Option NS :=
  match { n with cp := n.cp + 2 }.pop (ltNum .WHILE_2) with
  | none => none
  | some (p, n) =>
    let n := n.patch reloc p
    match { n with cp := n.cp - 2 }.pop (ltNum .WHILE_1) with
    | none => none
    | some (p, n) => some ((n.emitAddr reloc p).checkExit reloc)

/-- `E_POP_LOOP` and `E_POP_REPEAT`, `actions.asm:775-786`. -/
def ePopLoop (n : NS) (t : LT) : Option NS :=
  match n.pop (ltNum t) with
  | none => none
  | some (p, n) => some ((n.emitAddr reloc p).checkExit reloc)

/-- `E_POP_FOR`, `actions.asm:788-801`. -/
def ePopFor (n : NS) : Option NS :=
  match { n with cp := n.cp - 1 }.pop (ltNum .FOR_1) with
  | none => none
  | some (p, n) =>
    match (n.emitAddr reloc p).pop (ltNum .FOR_2) with
    | none => none
    | some (p, n) => some ((n.patch reloc p).checkExit reloc)

/-- The repetition of `E_POP_IF`, `actions.asm:806-814`, over the entries of the stack. -/
def popElifs : List Ent → NS → NS
  | [], n => { n with loops := [] }
  | e :: es, n =>
    if ltNum .ELIF = e.type then popElifs es (n.patch reloc e.pos) else { n with loops := e :: es }

/-- `E_POP_IF`, `actions.asm:803-818`. -/
def ePopIf (n : NS) : Option NS :=
  match n.pop (ltNum .ELSE) with
  | none => none
  | some (p, n) => some (popElifs reloc n.loops (n.patch reloc p))

/-- `E_POP_PROC_DATA`, `actions.asm:820-831`. -/
def ePopProcData (n : NS) : Option NS :=
  match n.pop (ltNum .PROC_DATA) with
  | none => none
  | some (p, n) => some (n.patch reloc p)

/-- `E_ELSEIF`, `actions.asm:850-861`. -/
def eElseIf (n : NS) : Option NS :=
  match n.pop (ltNum .IF) with
  | none => none
  | some (p, n) =>
    match n.ePushLT with
    | none => none
    | some n => some (n.patch reloc p)

/-- The loop of `E_LABEL_DEF`, `actions.asm:508-525`, over the list of addresses: every reference to the
label is patched and marked as resolved; `none` if there is a definition. -/
def defLoop (num : Nat) : List LAd → NS → Option (List LAd × NS)
  | [], n => some ([], n)
  | e :: es, n =>
    if e.num = num then
      if e.st ≥ 128 then none
      else match defLoop num es (n.patch reloc e.pos) with
        | none => none
        | some (l, n) => some ({ e with st := 1 } :: l, n)
    else match defLoop num es n with
      | none => none
      | some (l, n) => some (e :: l, n)

/-- `E_LABEL_DEF`, `actions.asm:502-530`. -/
def eLabelDef (n : NS) : Option NS :=
  match n.push (ltNum .PROC_DATA) with
  | none => none
  | some n =>
    match defLoop reloc n.last n.lab n with
    | none => none
    | some (l, n) => some { n with lab := l ++ [⟨n.last, 128, n.cp⟩] }

/-- `start_searching` in `E_LABEL`, `actions.asm:556-575`: the address of the definition is emitted, or
the reference is added to the list (`add_laddr_list`, `actions.asm:474-500`, leaves the high byte of its address in both
registers; that word is emitted, and `E_LABEL_DEF` will replace it). -/
def useLabel (n : NS) (num : Nat) : NS :=
  match n.lab.find? (fun e => e.num = num && e.st ≥ 128) with
  | some e => n.emitAddr reloc e.pos
  | none => NS.emitAddr reloc { n with lab := n.lab ++ [⟨num, 0, n.cp⟩] } (257 * (n.cp / 256))

/-- `E_DO_EXEC`, `actions.asm:549-575`. -/
def eDoExec (n : NS) : Option NS := some (n.useLabel reloc n.last)

/-- `E_LABEL`, `actions.asm:532-575`, with the name read by `label_search`; `none` if there is no such
label. The comparison of the type of the label is left out. -/
def eLabel (n : NS) (name : Str) : Option NS :=
  if name ∈ n.names then some (n.getLastTok.2.useLabel reloc (n.names.idxOf name % 256)) else none

/-- `E_LABEL_CREATE`, `actions.asm:577-592`, with the name read by `label_search`. The number of a label
is a byte. -/
def eLabelCreate (n : NS) (name : Str) : NS :=
  { n with last := n.names.idxOf name % 256
           names := if name ∈ n.names then n.names else n.names ++ [name] }

/-- The actions on jumps of the native compiler, with the name that the next text gives. -/
def action (n : NS) (name : Option Str) : Act → Option NS
  | .PUSH_LT => n.ePushLT
  | .POP_LOOP => n.ePopLoop reloc .DO_LOOP
  | .POP_REPEAT => n.ePopLoop reloc .REPEAT
  | .POP_WHILE => n.ePopWhile reloc
  | .POP_IF => n.ePopIf reloc
  | .POP_FOR => n.ePopFor reloc
  | .POP_PROC_2 => n.ePopProc2 reloc
  | .POP_PROC_DATA => n.ePopProcData reloc
  | .ELSEIF => n.eElseIf reloc
  | .EXIT_LOOP => n.eExitLoop
  | .LABEL_DEF => n.eLabelDef reloc
  | .DO_EXEC => n.eDoExec reloc
  | .LABEL => name.bind (n.eLabel reloc)
  | .LABEL_CREATE => name.map n.eLabelCreate
  | _ => none

/-- `parse_eof` accepts the program if no loop is open and no reference is left,
`/repo/src/parse.asm:121-151`. -/
def accepts (n : NS) : Prop := n.loops = [] ∧ ∀ e ∈ n.lab, e.st ≠ 0

end NS

/-- The names that the cross compiler makes for the targets of jumps: `jump_lbl_N`, `jump_lbl_N_x` and
`fb_lbl_NAME`, `parser.h:49,175-179`, `parser-actions.cc:325-437`. -/
def IsJump (l : Str) : Prop := (∃ n, IsLbl n l) ∨ ∃ m, l = labelPrefix ++ m

/-- Codes that are neither a label nor a reference to one. -/
def plain : CK → Prop
  | .label _ => False
  | .wordStr l => ¬ IsJump l
  | _ => True

/-- How the native compiler writes the codes that are not labels: any function that writes the types of
loops as `actions.asm` numbers them. -/
structure Enc where
  enc : CK → List Nat
  lt : ∀ t : LT, enc (.byteStr t.name) = [ltNum t]
  tok : ∀ t : Tok, (enc (.tok t)).length = 1
  str : ∀ l : Str, (enc (.byteStr l)).length = 1

/-- Both compilers at the same place of a program; `fresh` is the number of codes emitted since the last
action. -/
structure J where
  ps : PS
  ns : NS
  fresh : Nat

/-- The actions that `J.Step` runs, with what they need: in the grammar, the actions that take the last
code find one just emitted. Loops `FOR` have their own step. -/
def guard (E : Enc) (s : PS) (f : Nat) : Act → Prop
  | .PUSH_LT => ∃ t ∈ [LT.DO_LOOP, .REPEAT, .WHILE_1, .WHILE_2, .IF, .PROC_2], ∃ ln cs,
      s.code = ⟨.byteStr t.name, ln⟩ :: cs ∧ 1 ≤ f
  | .ELSEIF => ∃ t ∈ [LT.ELSE, .ELIF], ∃ ln cs, s.code = ⟨.byteStr t.name, ln⟩ :: cs ∧ 1 ≤ f
  | .LABEL_DEF => ∃ ln cs, s.code = ⟨.tok .JUMP, ln⟩ :: cs ∧ 1 ≤ f ∧ s.lastLabel ≠ []
  | .POP_FOR => ∃ c cs, s.code = c :: cs ∧ 1 ≤ f ∧ (E.enc c.k).length = 1
  | .LABEL => ∃ t ln cs, s.code = ⟨.byteStr t, ln⟩ :: cs ∧ 1 ≤ f
  | .DO_EXEC => s.lastLabel ≠ []
  | _ => True

/-- One step of both compilers.

* `emit`: a code that is neither label nor reference is emitted.
* `back`: the parser abandons codes emitted after the last action (`restore`, `parser.h:296-305`;
  natively `opos` is restored).
* `other`: any change of the cross compiler that does not touch code, loops and names of labels.
* `forLoop`: the end of `FOR`, `/repo/src/syntax/basic.syn:516`.
* `act`: an action accepted by both. -/
inductive J.Step (E : Enc) (reloc : Nat) (env : Env) : J → J → Prop
  | emit {s n f} (k : CK) : plain k → Step E reloc env ⟨s, n, f⟩ ⟨s.emit k, n.emitB (E.enc k), f + 1⟩
  | back {s n f} (v : PS.Saved) : s.code.length ≤ v.opos + f → v.opos ≤ s.code.length →
      Step E reloc env ⟨s, n, f⟩
        ⟨s.restore v,
          { n with cp := n.cp - ((s.code.take (s.code.length - v.opos)).map fun c => (E.enc c.k).length).sum },
          f - (s.code.length - v.opos)⟩
  | other {s s' n f} : s'.procs = s.procs → s'.procStack = s.procStack → s'.jumps = s.jumps →
      s'.labelNum = s.labelNum → s'.lastLabel = s.lastLabel → Step E reloc env ⟨s, n, f⟩ ⟨s', n, f⟩
  | forLoop {s n f s1 n1 s2 n2} :
      ePushLT (s.emit (.byteStr LT.FOR_2.name)) = .ok s1 →
      (n.emitB (E.enc (.byteStr LT.FOR_2.name))).ePushLT = some n1 →
      ePushLT (s1.emit (.byteStr LT.FOR_1.name)) = .ok s2 →
      (n1.emitB (E.enc (.byteStr LT.FOR_1.name))).ePushLT = some n2 →
      Step E reloc env ⟨s, n, f⟩ ⟨s2, n2, 0⟩
  | act {s n f s' n'} (a : Act) : guard E s f a → action env a s = .ok s' →
      n.action reloc s.getIdent.1 a = some n' → Step E reloc env ⟨s, n, f⟩ ⟨s', n', 0⟩

/-- Any number of steps. -/
inductive J.Steps (E : Enc) (reloc : Nat) (env : Env) : J → J → Prop
  | refl {j} : Steps E reloc env j j
  | tail {j k l} : Steps E reloc env j k → J.Step E reloc env k l → Steps E reloc env j l

/-- The start of both compilers, with the code of the native one from address `base`. -/
def J.init (m : Nat → Nat) (base : Nat) : J := ⟨initPS, { mem := m, cp := base }, 0⟩

end FB.Native
