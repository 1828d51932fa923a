import Verif.Code
/-!
# The peephole optimizer

Model of `/repo/src/compiler/peephole.cc`, function by function and rule by rule, with the edits of each
rule in the order of the source.

* The vector `code` with the index `current` is a pair: the items before `current` (kept by `loop`) and
  the list from `current` on, which is what the matching functions and the edits see (all their
  indices are relative to `current`).
* `Ed` is the state of the edits: the code from `current` on, the flag `changed`, and a flag `ub` that
  records what would be undefined behaviour in C++ (index out of range) or a loop that would not
  advance.
* Tokens are compared as values of `Tok` instead of strings.  `get_val`, `get_str`, `get_varn` throw on
  a wrong kind of item (`codew.h:168-188`); here they yield a default value, and `Verif.Good` shows that
  it is never used.
* `Fix` holds the two places where the code is wrong (found while proving): `Fix.actual` is the code as
  it is, `Fix.fixed` the repaired one.
-/

namespace FB.Peep
open FB

/-- The two constants that the code gets wrong: the largest integer in the rule of
`peephole.cc:1230` (the source has 32637 for 32767), and the result of `x MOD 0` (`peephole.cc:943`). -/
structure Fix where
  gtMax : Int
  modZero : Int → Int

/-- The code as it is, `peephole.cc:1230` and `peephole.cc:943`. -/
def Fix.actual : Fix := { gtMax := 32637, modZero := fun x => x }

/-- The repaired code: the right limit, and the remainder that `div.asm` computes for divisor 0. -/
def Fix.fixed : Fix :=
  { gtMax := 32767
    modZero := fun x => if x < 0 then -((x.natAbs % 256 : Nat) : Int) else ((x.natAbs % 256 : Nat) : Int) }

/-- State while editing: code from `current` on, `changed` (`peephole.cc:29`), undefined behaviour. -/
structure Ed where
  code : List Codew
  changed : Bool
  ub : Bool
deriving DecidableEq, Repr

/-! ## Matching functions, `peephole.cc:32-116` -/

/-- `mtok`, `peephole.cc:33-37` -/
def mtok (n : Nat) (t : Tok) (c : List Codew) : Bool := decide (c[n]? = some (.tok t))

/-- `mcbyte`, `peephole.cc:38-42` -/
def mcbyte (n : Nat) (s : String) (c : List Codew) : Bool := decide (c[n]? = some (.byteStr s))

/-- `mlabel`, `peephole.cc:48-52` -/
def mlabel (n : Nat) (c : List Codew) : Bool := match c[n]? with
  | some (.label _) => true
  | _ => false

/-- Does the text contain `lbl`?  `std::string::find` in `peephole.cc:57`. -/
def hasLbl : List Char → Bool
  | [] => false
  | c :: r => (['l', 'b', 'l'].isPrefixOf (c :: r)) || hasLbl r

/-- `mlblw`, `peephole.cc:53-58` -/
def mlblw (n : Nat) (c : List Codew) : Bool := match c[n]? with
  | some (.wordStr s) => hasLbl s.toList
  | _ => false

/-- `mword`, `peephole.cc:59-63` -/
def mword (n : Nat) (c : List Codew) : Bool := match c[n]? with
  | some (.word _) => true
  | _ => false

/-- `mbyte`, `peephole.cc:64-68` -/
def mbyte (n : Nat) (c : List Codew) : Bool := match c[n]? with
  | some (.byte _) => true
  | _ => false

/-- `mstring`, `peephole.cc:69-77`: the length, 256 if not a string. -/
def mstring (n : Nat) (c : List Codew) : Nat := match c[n]? with
  | some (.str s) => s.length
  | _ => 256

/-- `lbl`, `peephole.cc:78-85` -/
def lbl (n : Nat) (c : List Codew) : String := match c[n]? with
  | some (.label s) => s
  | _ => ""

/-- `wlbl`, `peephole.cc:86-92` -/
def wlbl (n : Nat) (c : List Codew) : String := match c[n]? with
  | some (.wordStr s) => if hasLbl s.toList then s else ""
  | _ => ""

/-- `val`, `peephole.cc:93-100`: the number as a signed 16-bit integer. -/
def val (n : Nat) (c : List Codew) : Int := match c[n]? with
  | some (.word v) => v.toInt
  | some (.byte v) => v.toNat
  | _ => -32768

/-- `varn(a) == varn(b)`, `peephole.cc:101-108`. -/
def varnEq (a b : Nat) (c : List Codew) : Bool := match c[a]?, c[b]? with
  | some (.varn x _), some (.varn y _) => x == y
  | _, _ => false

/-- `str`, `peephole.cc:109-116` (used on strings only). -/
def str (n : Nat) (c : List Codew) : List B := match c[n]? with
  | some (.str s) => s
  | _ => []

/-! ## Edits, `peephole.cc:117-192` -/

/-- `del`, `peephole.cc:117-124` -/
def Ed.del (e : Ed) (n : Nat) : Ed :=
  if n < e.code.length then { e with code := e.code.eraseIdx n, changed := true } else e

/-- Common part of `ins_w`, `ins_b`, `ins_tok`, `peephole.cc:125-148`: insertion past the end is
undefined. -/
def Ed.ins (e : Ed) (n : Nat) (x : Codew) : Ed :=
  if n ≤ e.code.length then { e with code := e.code.insertIdx n x, changed := true }
  else { e with changed := true, ub := true }

/-- `ins_w`, `peephole.cc:125-132` -/
def Ed.insW (e : Ed) (n : Nat) (x : Int) : Ed := e.ins n (.word (BitVec.ofInt 16 x))
/-- `ins_b`, `peephole.cc:133-140` -/
def Ed.insB (e : Ed) (n : Nat) (x : Int) : Ed := e.ins n (.byte (BitVec.ofInt 8 x))
/-- `ins_tok`, `peephole.cc:141-148` -/
def Ed.insTok (e : Ed) (n : Nat) (t : Tok) : Ed := e.ins n (.tok t)

/-- One iteration of `copy`, `peephole.cc:158-161`: insert a copy of item `src` at `idx`. -/
def Ed.copy1 (e : Ed) (idx src : Nat) : Ed := match e.code[src]? with
  | some x => e.ins idx x
  | none => { e with changed := true, ub := true }

/-- `copy`, `peephole.cc:155-167` -/
def Ed.copy (e : Ed) (idx src : Nat) : Nat → Ed
  | 0 => { e with changed := true }
  | num + 1 =>
      Ed.copy (e.copy1 idx src) (idx + 1) (if src + 1 ≥ idx + 1 then src + 2 else src + 1) num

/-- Common part of `set_ws`, `set_w`, `set_b`, `set_tok`, `set_string`, `peephole.cc:168-192`. -/
def Ed.set (e : Ed) (n : Nat) (x : Codew) : Ed :=
  if n < e.code.length then { e with code := e.code.set n x, changed := true }
  else { e with changed := true, ub := true }

/-- `set_ws`, `peephole.cc:168-172` -/
def Ed.setWs (e : Ed) (n : Nat) (s : String) : Ed := e.set n (.wordStr s)
/-- `set_w`, `peephole.cc:173-177` -/
def Ed.setW (e : Ed) (n : Nat) (x : Int) : Ed := e.set n (.word (BitVec.ofInt 16 x))
/-- `set_b`, `peephole.cc:178-182` -/
def Ed.setB (e : Ed) (n : Nat) (x : Int) : Ed := e.set n (.byte (BitVec.ofInt 8 x))
/-- `set_tok`, `peephole.cc:183-187` -/
def Ed.setTok (e : Ed) (n : Nat) (t : Tok) : Ed := e.set n (.tok t)
/-- `set_string`, `peephole.cc:188-192` -/
def Ed.setString (e : Ed) (n : Nat) (s : List B) : Ed := e.set n (.str s)

/-- `val` in the current state of the edits. -/
def Ed.val (e : Ed) (n : Nat) : Int := Peep.val n e.code

/-! ## Loops over the code -/

/-- Weight of an item, to show that the loops end: the tokens that `expand_push` splits count twice, and
so do the strings that `print_chars` splits.  Not in the source: the loops there have no measure. -/
def weight1 : Codew → Nat
  | .tok .PUSH_BYTE | .tok .PUSH_NUM | .tok .PUSH_0 | .tok .PUSH_1 | .tok .PUSH_VAR_LOAD | .tok .VAR_SADDR => 2
  | .str _ => 2
  | _ => 1

def weight (c : List Codew) : Nat := (c.map weight1).sum

/-- `for(i = 0; i < code.size(); i++) { current = i; … }`.  `body` gets the code from `current` on
and returns the edited code and by how much the index advances (0 stands for `i--; continue`).  An
iteration that leaves as much to do as before might not terminate: it is flagged with `ub`. -/
def loop {σ : Type} (body : σ → Ed → σ × Ed × Nat) (s : σ) (acc : List Codew) (e : Ed) : Ed :=
  if e.code = [] then { e with code := acc }
  else
    let r := body s e
    if _h : weight (r.2.1.code.drop r.2.2) < weight e.code then
      loop body r.1 (acc ++ r.2.1.code.take r.2.2) { r.2.1 with code := r.2.1.code.drop r.2.2 }
    else { r.2.1 with code := acc ++ r.2.1.code, ub := true }
termination_by weight e.code
decreasing_by exact _h

/-! ## Simple passes -/

/-- Body of `expand_numbers`, `peephole.cc:195-223`. -/
def expandNumbersBody (_ : Unit) (e : Ed) : Unit × Ed × Nat :=
  let c := e.code
  if mtok 0 .BYTE c && mbyte 1 c then
    let e := e.setTok 0 .NUM
    let e := e.setW 1 (e.val 1)
    ((), e, 2)
  else if mtok 0 .ONE c then
    let e := e.setTok 0 .NUM
    let e := e.insW 1 1
    ((), e, 2)
  else if mtok 0 .ZERO c then
    let e := e.setTok 0 .NUM
    let e := e.insW 1 0
    ((), e, 2)
  else ((), e, 1)

/-- Body of `shorten_numbers`, `peephole.cc:225-256`.  `0 == (val(1) & ~0xFF)` is `0 ≤ val(1) < 256`. -/
def shortenNumbersBody (_ : Unit) (e : Ed) : Unit × Ed × Nat :=
  let c := e.code
  if mtok 0 .NUM c && mword 1 c && val 1 c == 0 then
    ((), (e.del 1).setTok 0 .ZERO, 1)
  else if mtok 0 .NUM c && mword 1 c && val 1 c == 1 then
    ((), (e.del 1).setTok 0 .ONE, 1)
  else if mtok 0 .NUM c && mword 1 c && val 1 c == -1 then
    ((), (e.setTok 0 .ONE).setTok 1 .NEG, 1)
  else if mtok 0 .NUM c && mword 1 c && decide (0 ≤ val 1 c) && decide (val 1 c < 256) then
    let e := e.setTok 0 .BYTE
    ((), e.setB 1 (e.val 1), 1)
  else ((), e, 1)

/-- Body of `expand_push`, `peephole.cc:258-294`. -/
def expandPushBody (_ : Unit) (e : Ed) : Unit × Ed × Nat :=
  let c := e.code
  if mtok 0 .PUSH_BYTE c then ((), (e.setTok 0 .BYTE).insTok 0 .PUSH, 1)
  else if mtok 0 .PUSH_NUM c then ((), (e.setTok 0 .NUM).insTok 0 .PUSH, 1)
  else if mtok 0 .PUSH_0 c then ((), (e.setTok 0 .ZERO).insTok 0 .PUSH, 1)
  else if mtok 0 .PUSH_1 c then ((), (e.setTok 0 .ONE).insTok 0 .PUSH, 1)
  else if mtok 0 .PUSH_VAR_LOAD c then ((), (e.setTok 0 .VAR_LOAD).insTok 0 .PUSH, 1)
  else if mtok 0 .VAR_SADDR c then ((), (e.setTok 0 .VAR_ADDR).insTok 2 .SADDR, 1)
  else ((), e, 1)

/-- Tracking of the print colour, `peephole.cc:302-309` and `peephole.cc:535-542`. -/
def trackColor (pc : Int) (c : List Codew) : Int :=
  if mtok 2 .BYTE_POKE c && mcbyte 3 "PRINT_COLOR" c then
    if mtok 0 .NUM c && mword 1 c then val 1 c else -1
  else pc

/-- The characters inserted by the inner loop of `print_chars`, `peephole.cc:317-322`: at `current`,
`current+2`, … -/
def insChars (pc : Int) : List B → Nat → Ed → Ed
  | [], _, e => e
  | ch :: s, n, e =>
      let e := e.insTok n .BYTE_PUT
      let e := e.ins (n + 1) (.byte (ch ^^^ BitVec.ofInt 8 pc))
      insChars pc s (n + 2) e

/-- Body of `print_chars`, `peephole.cc:296-325`. -/
def printCharsBody (pc : Int) (e : Ed) : Int × Ed × Nat :=
  let c := e.code
  let pc := trackColor pc c
  if decide (pc ≥ 0) && mtok 0 .CSTRING c && decide (mstring 1 c < 3) && mtok 2 .PRINT_STR c then
    let s := str 1 c
    let e := ((e.del 2).del 1).del 0
    (pc, insChars pc s 0 e, 1)
  else (pc, e, 1)

/-- Body of `fold_push`, `peephole.cc:327-366`; the last test has no `else`. -/
def foldPushBody (_ : Unit) (e : Ed) : Unit × Ed × Nat :=
  let c := e.code
  if mtok 0 .PUSH c then
    let e :=
      if mtok 1 .BYTE c then (e.setTok 1 .PUSH_BYTE).del 0
      else if mtok 1 .NUM c then (e.setTok 1 .PUSH_NUM).del 0
      else if mtok 1 .ONE c then (e.setTok 1 .PUSH_1).del 0
      else if mtok 1 .ZERO c then (e.setTok 1 .PUSH_0).del 0
      else e
    let e := if mtok 1 .VAR_LOAD e.code then (e.setTok 1 .PUSH_VAR_LOAD).del 0 else e
    ((), e, 1)
  else ((), e, 1)

/-- Body of `fold_saddr`, `peephole.cc:368-379`. -/
def foldSaddrBody (_ : Unit) (e : Ed) : Unit × Ed × Nat :=
  let c := e.code
  if mtok 0 .VAR_ADDR c && mtok 2 .SADDR c then ((), (e.setTok 0 .VAR_SADDR).del 2, 1)
  else ((), e, 1)

/-- The set of names used as words, `peephole.cc:384-389`. -/
def usedLabels (c : List Codew) : List String :=
  c.filterMap fun | .wordStr s => some s | _ => none

/-- Body of `remove_unused_labels`, `peephole.cc:391-399`. -/
def removeLabelsBody (used : List String) (_ : Unit) (e : Ed) : Unit × Ed × Nat :=
  if mlabel 0 e.code && !(used.contains (lbl 0 e.code)) then ((), e.del 0, 0) else ((), e, 1)

/-- Body of `trace_iochn`, `peephole.cc:402-440`; the state is `ioch`.  The last branch of the source
is never reached, because its condition implies the one of the second branch; it is kept. -/
def traceIochnBody (ioch : Int) (e : Ed) : Int × Ed × Nat :=
  let c := e.code
  if mlabel 0 c || mtok 0 .CALL c then (0, e, 1)
  else if mtok 0 .NUM c && mword 1 c && mtok 2 .IOCHN c then
    if ioch == val 1 c then (ioch, ((e.del 2).del 1).del 0, 0)
    else (val 1 c, e, 3)
  else if mtok 0 .IOCHN c then (-1, e, 1)
  else if mtok 0 .NUM c && mword 1 c && mtok 2 .IOCHN c && mtok 3 .NUM c && mword 4 c && mtok 5 .IOCHN c then
    (ioch, ((e.del 2).del 1).del 0, 0)
  else (ioch, e, 1)

/-! ## Jump threading, `peephole.cc:444-500` -/

/-- The inner search of `peephole.cc:454-463`, on the code after a label: the last entry written to
`tgt` for that label (`acc` is the entry so far). -/
def targetOf (acc : Option String) : List Codew → Option String
  | .label l :: r => targetOf (some l) r
  | c => if mtok 0 .RET c then some "__TOK_RET__"
         else if mtok 0 .JUMP c && mlblw 1 c then some (wlbl 1 c)
         else acc

/-- The map `tgt`, `peephole.cc:447-465`, as a list of pairs; later entries replace earlier ones. -/
def targets : List Codew → List (String × String)
  | [] => []
  | .label l :: r => match targetOf none r with
      | some t => targets r ++ [(l, t)]
      | none => targets r
  | _ :: r => targets r

/-- `tgt.find`, `peephole.cc:473-475`.  (`targets` keeps the last entry of a label first.) -/
def lookup (tgt : List (String × String)) (l : String) : Option String :=
  (tgt.find? fun p => p.1 == l).map (·.2)

/-- Body of the second loop of `replace_label_targets`, `peephole.cc:469-498`. -/
def replaceBody (tgt : List (String × String)) (_ : Unit) (e : Ed) : Unit × Ed × Nat :=
  let c := e.code
  if (mtok 0 .CJUMP c || mtok 0 .CNJUMP c || mtok 0 .JUMP c) && mlblw 1 c then
    match lookup tgt (wlbl 1 c) with
    | none => ((), e, 1)
    | some t =>
      if t = "__TOK_RET__" then
        if mtok 0 .JUMP c then ((), (e.setTok 0 .RET).del 1, 1)
        else if mtok 0 .CJUMP c then ((), (e.setTok 0 .CRET).del 1, 1)
        else if mtok 0 .CNJUMP c then ((), (e.setTok 0 .CNRET).del 1, 1)
        else ((), e, 1)
      else if wlbl 1 c ≠ t then ((), e.setWs 1 t, 1)
      else ((), e, 1)
  else ((), e, 1)

/-! ## The rules of the main loop, `peephole.cc:519-1530` -/

/-- What follows a rule: `i--; continue`, `continue`, or the next rules in the same iteration. -/
inductive After
  | again | next | fall
deriving DecidableEq, Repr

/-- A rule: the condition of its `if`, the edits, and how it continues. -/
structure Rule where
  guard : List Codew → Bool
  edit : Ed → Ed
  after : After

/-- Remove extra PRINT COLOR, `peephole.cc:520-533` -/
def rColor (pc : Int) : Rule where
  guard c := mtok 0 .NUM c && mword 1 c && mtok 2 .BYTE_POKE c && mcbyte 3 "PRINT_COLOR" c && (val 1 c == pc)
  edit e := (((e.del 3).del 2).del 1).del 0
  after := .again

/-- `peephole.cc:546-552` -/
def rNeg : Rule where
  guard c := mtok 0 .NUM c && mword 1 c && mtok 2 .NEG c
  edit e := let e := e.del 2; e.setW 1 (-(e.val 1))
  after := .again

/-- `peephole.cc:554-560` -/
def rUshl : Rule where
  guard c := mtok 0 .NUM c && mword 1 c && mtok 2 .USHL c
  edit e := let e := e.del 2; e.setW 1 (2 * e.val 1)
  after := .again

/-- `peephole.cc:562-569` -/
def rShl8 : Rule where
  guard c := mtok 0 .NUM c && mword 1 c && mtok 2 .SHL8 c
  edit e := let e := e.del 2; e.setW 1 (256 * e.val 1)
  after := .again

/-- `peephole.cc:571-580` -/
def rMul256 : Rule where
  guard c := mtok 0 .PUSH c && mtok 1 .NUM c && mword 2 c && (val 2 c == 256) && mtok 3 .MUL c
  edit e := (((e.del 3).del 2).del 1).setTok 0 .SHL8
  after := .again

/-- `peephole.cc:582-591` -/
def rMul4 : Rule where
  guard c := mtok 0 .PUSH c && mtok 1 .NUM c && mword 2 c && (val 2 c == 4) && mtok 3 .MUL c
  edit e := (((e.del 3).del 2).setTok 1 .USHL).setTok 0 .USHL
  after := .again

/-- `peephole.cc:593-602` -/
def rMul2 : Rule where
  guard c := mtok 0 .PUSH c && mtok 1 .NUM c && mword 2 c && (val 2 c == 2) && mtok 3 .MUL c
  edit e := (((e.del 3).del 2).del 1).setTok 0 .USHL
  after := .again

/-- `peephole.cc:604-613` -/
def rMul1 : Rule where
  guard c := mtok 0 .PUSH c && mtok 1 .NUM c && mword 2 c && (val 2 c == 1) && mtok 3 .MUL c
  edit e := (((e.del 3).del 2).del 1).del 0
  after := .again

/-- `peephole.cc:615-624` -/
def rDiv1 : Rule where
  guard c := mtok 0 .PUSH c && mtok 1 .NUM c && mword 2 c && (val 2 c == 1) && mtok 3 .DIV c
  edit e := (((e.del 3).del 2).del 1).del 0
  after := .again

/-- `peephole.cc:626-635` -/
def rAdd0 : Rule where
  guard c := mtok 0 .PUSH c && mtok 1 .NUM c && mword 2 c && (val 2 c == 0) && mtok 3 .ADD c
  edit e := (((e.del 3).del 2).del 1).del 0
  after := .again

/-- `peephole.cc:637-645` -/
def rNum0AddVar : Rule where
  guard c := mtok 0 .NUM c && mword 1 c && (val 1 c == 0) && mtok 2 .ADD_VAR c
  edit e := ((e.del 1).del 0).setTok 0 .VAR_LOAD
  after := .again

/-- `peephole.cc:647-656` -/
def rSub0 : Rule where
  guard c := mtok 0 .PUSH c && mtok 1 .NUM c && mword 2 c && (val 2 c == 0) && mtok 3 .SUB c
  edit e := (((e.del 3).del 2).del 1).del 0
  after := .again

/-- `peephole.cc:658-667` -/
def rNeq0 : Rule where
  guard c := mtok 0 .PUSH c && mtok 1 .NUM c && mword 2 c && (val 2 c == 0) && mtok 3 .NEQ c
  edit e := (((e.del 3).del 2).del 1).setTok 0 .COMP_0
  after := .again

/-- `peephole.cc:669-678` -/
def rEq0 : Rule where
  guard c := mtok 0 .PUSH c && mtok 1 .NUM c && mword 2 c && (val 2 c == 0) && mtok 3 .EQ c
  edit e := (((e.del 3).del 2).setTok 0 .COMP_0).setTok 1 .L_NOT
  after := .again

/-- `const_op`, `peephole.cc:150-154` -/
def constOp (t : Tok) (c : List Codew) : Bool :=
  mtok 0 .NUM c && mword 1 c && mtok 2 .PUSH c && mtok 3 .NUM c && mword 4 c && mtok 5 t c

/-- The edits that all the constant folding rules share, with the function of the two values:
`peephole.cc:682-687` and so on. -/
def foldConst (f : Int → Int → Int) (e : Ed) : Ed :=
  let e := e.setTok 0 .NUM
  let e := e.setW 1 (f (e.val 1) (e.val 4))
  (((e.del 5).del 4).del 3).del 2

/-- `peephole.cc:680-690` -/
def rCAdd : Rule where
  guard := constOp .ADD
  edit := foldConst (· + ·)
  after := .again

/-- `peephole.cc:692-702` -/
def rCSub : Rule where
  guard := constOp .SUB
  edit := foldConst (· - ·)
  after := .again

/-- `peephole.cc:704-712` -/
def rStore0 : Rule where
  guard c := mtok 0 .NUM c && mword 1 c && (val 1 c == 0) && mtok 2 .VAR_STORE c
  edit e := ((e.setTok 2 .VAR_STORE_0).del 1).del 0
  after := .again

/-- `peephole.cc:715-725` -/
def rGet : Rule where
  guard c := mtok 0 .VAR_ADDR c && mtok 2 .SADDR c && mtok 3 .GET c && mtok 4 .DPOKE c
  edit e := ((((e.insTok 0 .GET).setTok 1 .VAR_STORE).del 5).del 4).del 3
  after := .again

/-- `peephole.cc:728-738` -/
def rGetKey : Rule where
  guard c := mtok 0 .VAR_ADDR c && mtok 2 .SADDR c && mtok 3 .GETKEY c && mtok 4 .DPOKE c
  edit e := ((((e.insTok 0 .GETKEY).setTok 1 .VAR_STORE).del 5).del 4).del 3
  after := .again

/-- `peephole.cc:741-748` -/
def rNumPut : Rule where
  guard c := mtok 0 .NUM c && mword 1 c && mtok 2 .PUT c
  edit e := let e := e.setTok 0 .BYTE_PUT; (e.setB 1 (e.val 1)).del 2
  after := .again

/-- `peephole.cc:751-757` -/
def rBytePut : Rule where
  guard c := mtok 0 .BYTE c && mtok 2 .PUT c
  edit e := (e.setTok 0 .BYTE_PUT).del 2
  after := .again

/-- `peephole.cc:760-768` -/
def rNumPeek : Rule where
  guard c := mtok 0 .NUM c && mword 1 c && decide (val 1 c < 256) && decide (val 1 c ≥ 0) && mtok 2 .PEEK c
  edit e := let e := e.setTok 0 .BYTE_PEEK; (e.setB 1 (e.val 1)).del 2
  after := .again

/-- `peephole.cc:771-777` -/
def rBytePeek : Rule where
  guard c := mtok 0 .BYTE c && mtok 2 .PEEK c
  edit e := (e.setTok 0 .BYTE_PEEK).del 2
  after := .again

/-- `val & 255`, `peephole.cc:786` and so on. -/
def and255 (x : Int) : Int := x % 256

/-- `peephole.cc:781-793` -/
def rPokeBN : Rule where
  guard c := mtok 0 .NUM c && mword 1 c && mtok 2 .SADDR c && mtok 3 .NUM c && mword 4 c && mtok 5 .POKE c &&
    decide (val 1 c ≥ 0) && decide (val 1 c ≤ 255)
  edit e :=
    let x := e.val 1
    let e := e.setW 1 (and255 (e.val 4))
    (((e.setB 4 x).setTok 3 .BYTE_POKE).del 5).del 2
  after := .again

/-- `peephole.cc:796-810` -/
def rPokeBV : Rule where
  guard c := mtok 0 .NUM c && mword 1 c && mtok 2 .SADDR c && mtok 3 .VAR_LOAD c && mtok 5 .POKE c &&
    decide (val 1 c ≥ 0) && decide (val 1 c ≤ 255)
  edit e :=
    let x := e.val 1
    (((((((e.setTok 0 .VAR_LOAD).copy 1 4 1).del 2).setB 4 x).setTok 3 .BYTE_POKE).del 5).del 2)
  after := .again

/-- `peephole.cc:814-826` -/
def rPokeByteNum : Rule where
  guard c := mtok 0 .BYTE c && mtok 2 .SADDR c && mtok 3 .NUM c && mword 4 c && mtok 5 .POKE c
  edit e :=
    let e := e.copy 4 1 1
    let e := e.setW 1 (and255 (e.val 5))
    ((((e.setTok 0 .NUM).setTok 3 .BYTE_POKE).del 6).del 5).del 2
  after := .again

/-- `peephole.cc:829-840` -/
def rPokeByteVar : Rule where
  guard c := mtok 0 .BYTE c && mtok 2 .SADDR c && mtok 3 .VAR_LOAD c && mtok 5 .POKE c
  edit e := ((((((e.copy 0 3 2).setTok 2 .BYTE_POKE).del 7).del 6).del 5).del 4)
  after := .again

/-- `peephole.cc:843-854` -/
def rPokeNN : Rule where
  guard c := mtok 0 .NUM c && mtok 2 .SADDR c && mtok 3 .NUM c && mword 4 c && mtok 5 .POKE c
  edit e :=
    let e := e.copy 4 1 1
    let e := e.setW 1 (and255 (e.val 5))
    (((e.setTok 3 .NUM_POKE).del 6).del 5).del 2
  after := .again

/-- `peephole.cc:857-870` -/
def rPokeNV : Rule where
  guard c := mtok 0 .NUM c && mword 1 c && mtok 2 .SADDR c && mtok 3 .VAR_LOAD c && mtok 5 .POKE c
  edit e :=
    let x := e.val 1
    (((((((e.setTok 0 .VAR_LOAD).copy 1 4 1).del 2).setW 4 x).setTok 3 .NUM_POKE).del 5).del 2)
  after := .again

/-- `peephole.cc:905-915` -/
def rCMul : Rule where
  guard := constOp .MUL
  edit := foldConst (· * ·)
  after := .again

/-- The value of `peephole.cc:919-926`. -/
def cDiv (x y : Int) : Int := if y ≠ 0 then x.tdiv y else if x < 0 then 1 else -1

/-- `peephole.cc:917-935` -/
def rCDiv : Rule where
  guard := constOp .DIV
  edit := foldConst cDiv
  after := .again

/-- The value of `peephole.cc:939-944`. -/
def cMod (fx : Fix) (x y : Int) : Int := if y ≠ 0 then x.tmod y else fx.modZero x

/-- `peephole.cc:937-953` -/
def rCMod (fx : Fix) : Rule where
  guard := constOp .MOD
  edit := foldConst (cMod fx)
  after := .again

/-- A bitwise operator of C on (sign-extended) integers; the result is only used modulo `2^16`. -/
def bitInt (f : W → W → W) (x y : Int) : Int := (f (BitVec.ofInt 16 x) (BitVec.ofInt 16 y)).toInt

/-- `peephole.cc:955-965` -/
def rCAnd : Rule where
  guard := constOp .BIT_AND
  edit := foldConst (bitInt (· &&& ·))
  after := .again

/-- `peephole.cc:967-977` -/
def rCOr : Rule where
  guard := constOp .BIT_OR
  edit := foldConst (bitInt (· ||| ·))
  after := .again

/-- `peephole.cc:980-990` -/
def rCExor : Rule where
  guard := constOp .BIT_EXOR
  edit := foldConst (bitInt (· ^^^ ·))
  after := .again

/-- `peephole.cc:995-1002` -/
def rSubSub : Rule where
  guard c := mtok 0 .PUSH c && (mtok 1 .VAR_LOAD c || mtok 1 .NUM c) && mtok 3 .SUB c && mtok 4 .PUSH c &&
    (mtok 5 .VAR_LOAD c || mtok 5 .NUM c) && mtok 7 .SUB c
  edit e := (e.insTok 7 .ADD).del 3
  after := .fall

/-- `peephole.cc:1004-1011` -/
def rAddVar : Rule where
  guard c := mtok 0 .PUSH c && mtok 1 .VAR_LOAD c && mtok 3 .ADD c
  edit e := ((e.setTok 1 .ADD_VAR).del 3).del 0
  after := .again

/-- `peephole.cc:1014-1026` -/
def rVarAddNum : Rule where
  guard c := mtok 0 .VAR_LOAD c && mtok 2 .PUSH c && mtok 3 .NUM c && mword 4 c && mtok 5 .ADD c
  edit e :=
    let e := (((e.setTok 0 .NUM).setTok 2 .ADD_VAR).copy 3 1 1).del 4
    ((e.setW 1 (e.val 4)).del 5).del 4
  after := .again

/-- `peephole.cc:1029-1042` -/
def rVarAddUshl : Rule where
  guard c := mtok 0 .VAR_LOAD c && mtok 2 .PUSH c && mtok 3 .VAR_LOAD c && mtok 5 .USHL c && mtok 6 .ADD c
  edit e :=
    (((((((e.copy 1 4 1).copy 5 2 1).del 6).del 2).setTok 2 .USHL).setTok 3 .ADD_VAR).del 6).del 5
  after := .again

/-- `peephole.cc:1051-1064` -/
def rArrIdx : Rule where
  guard c := mtok 0 .VAR_LOAD c && mtok 2 .PUSH c && mtok 3 .NUM c && mword 4 c && mtok 5 .ADD_VAR c &&
    mtok 7 .USHL c && mtok 8 .ADD c
  edit e := ((((((e.insW 9 1).copy 9 1 1).del 10).setTok 8 .ADD_VAR).del 2).del 1).del 0
  after := .again

/-- `peephole.cc:1068-1077` -/
def rVarVar : Rule where
  guard c := mtok 0 .VAR_LOAD c && mtok 2 .PUSH c && mtok 3 .VAR_LOAD c && mtok 5 .ADD c && varnEq 1 4 c
  edit e := (((e.setTok 2 .USHL).del 5).del 4).del 3
  after := .again

/-- `peephole.cc:1081-1094` -/
def rInc1 : Rule where
  guard c := mtok 0 .VAR_LOAD c && mtok 2 .PUSH c && mtok 3 .NUM c && mword 4 c && (val 4 c == 1) &&
    mtok 5 .ADD c && mtok 6 .VAR_STORE c && varnEq 1 7 c
  edit e := ((((((e.setTok 0 .INCVAR).del 7).del 6).del 5).del 4).del 3).del 2
  after := .again

/-- `peephole.cc:1099-1115` -/
def rInc2 : Rule where
  guard c := mtok 0 .VAR_ADDR c && mtok 2 .SADDR c && mtok 3 .VAR_LOAD c && mtok 5 .PUSH c && mtok 6 .NUM c &&
    mword 7 c && (val 7 c == 1) && mtok 8 .ADD c && mtok 9 .DPOKE c && varnEq 1 4 c
  edit e := ((((((((e.setTok 0 .INCVAR).del 9).del 8).del 7).del 6).del 5).del 4).del 3).del 2
  after := .again

/-- `peephole.cc:1118-1124` -/
def rInc3 : Rule where
  guard c := mtok 0 .VAR_ADDR c && mtok 2 .INC c
  edit e := (e.setTok 0 .INCVAR).del 2
  after := .again

/-- `peephole.cc:1127-1132` -/
def rInc4 : Rule where
  guard c := mtok 0 .SADDR c && mtok 1 .INC c
  edit e := e.del 0
  after := .again

/-- `peephole.cc:1136-1149` -/
def rDec1 : Rule where
  guard c := mtok 0 .VAR_LOAD c && mtok 2 .PUSH c && mtok 3 .NUM c && mword 4 c && (val 4 c == 1) &&
    mtok 5 .SUB c && mtok 6 .VAR_STORE c && varnEq 1 7 c
  edit e := ((((((e.setTok 0 .DECVAR).del 7).del 6).del 5).del 4).del 3).del 2
  after := .again

/-- `peephole.cc:1154-1170` -/
def rDec2 : Rule where
  guard c := mtok 0 .VAR_ADDR c && mtok 2 .SADDR c && mtok 3 .VAR_LOAD c && mtok 5 .PUSH c && mtok 6 .NUM c &&
    mword 7 c && (val 7 c == 1) && mtok 8 .SUB c && mtok 9 .DPOKE c && varnEq 1 4 c
  edit e := ((((((((e.setTok 0 .DECVAR).del 9).del 8).del 7).del 6).del 5).del 4).del 3).del 2
  after := .again

/-- `peephole.cc:1173-1179` -/
def rDec3 : Rule where
  guard c := mtok 0 .VAR_ADDR c && mtok 2 .DEC c
  edit e := (e.setTok 0 .DECVAR).del 2
  after := .again

/-- `peephole.cc:1182-1187` -/
def rDec4 : Rule where
  guard c := mtok 0 .SADDR c && mtok 1 .DEC c
  edit e := e.del 0
  after := .again

/-- `peephole.cc:1190-1195` -/
def rNotNot : Rule where
  guard c := mtok 0 .L_NOT c && mtok 1 .L_NOT c
  edit e := (e.setTok 0 .COMP_0).del 1
  after := .next

/-- `peephole.cc:1198-1203` -/
def rEqNot : Rule where
  guard c := mtok 0 .EQ c && mtok 1 .L_NOT c
  edit e := (e.setTok 0 .NEQ).del 1
  after := .next

/-- `peephole.cc:1206-1211` -/
def rNeqNot : Rule where
  guard c := mtok 0 .NEQ c && mtok 1 .L_NOT c
  edit e := (e.setTok 0 .EQ).del 1
  after := .next

/-- `peephole.cc:1217-1224` -/
def rBoolComp : Rule where
  guard c := (mtok 0 .NEQ c || mtok 0 .L_AND c || mtok 0 .L_OR c || mtok 0 .L_NOT c || mtok 0 .COMP_0 c ||
    mtok 0 .EQ c || mtok 0 .LT c || mtok 0 .GT c) && mtok 1 .COMP_0 c
  edit e := e.del 1
  after := .next

/-- The edits that the two rules for `<=` and `>=` use when the comparison is always true,
`peephole.cc:1235-1238` and `peephole.cc:1327-1330`. -/
def alwaysTrue (e : Ed) : Ed :=
  (((e.setTok 0 .NUM).setW 1 1).setTok 2 .BIT_OR).setTok 3 .COMP_0

/-- `peephole.cc:1227-1247`; the limit in the source is 32637. -/
def rGtNot (fx : Fix) : Rule where
  guard c := mtok 0 .NUM c && mword 1 c && mtok 2 .GT c && mtok 3 .L_NOT c
  edit e :=
    if e.val 1 = fx.gtMax then alwaysTrue e
    else
      let e := e.setTok 0 .NUM
      ((e.setW 1 (e.val 1 + 1)).setTok 2 .LT).del 3
  after := .fall

/-- `peephole.cc:1251-1256` -/
def rStrIdx : Rule where
  guard c := mtok 0 .NUM c && mword 1 c && mtok 2 .STR_IDX c && decide (val 1 c > 255)
  edit e := e.setW 1 255
  after := .next

/-- `peephole.cc:1319-1339` -/
def rLtNot : Rule where
  guard c := mtok 0 .NUM c && mword 1 c && mtok 2 .LT c && mtok 3 .L_NOT c
  edit e :=
    if e.val 1 = -32768 then alwaysTrue e
    else
      let e := e.setTok 0 .NUM
      ((e.setW 1 (e.val 1 - 1)).setTok 2 .GT).del 3
  after := .fall

/-- `peephole.cc:1341-1346` -/
def rNumComp : Rule where
  guard c := mtok 0 .NUM c && mword 1 c && mtok 2 .COMP_0 c
  edit e := (e.setW 1 (if e.val 1 ≠ 0 then 1 else 0)).del 2
  after := .next

/-- `peephole.cc:1348-1364` -/
def rNumCnjump : Rule where
  guard c := mtok 0 .NUM c && mword 1 c && mtok 2 .CNJUMP c
  edit e := if e.val 1 = 0 then (((e.del 3).del 2).del 1).del 0 else ((e.setTok 2 .JUMP).del 1).del 0
  after := .next

/-- `peephole.cc:1366-1382` -/
def rNumCjump : Rule where
  guard c := mtok 0 .NUM c && mword 1 c && mtok 2 .CJUMP c
  edit e := if e.val 1 ≠ 0 then (((e.del 3).del 2).del 1).del 0 else ((e.setTok 2 .JUMP).del 1).del 0
  after := .next

/-- `peephole.cc:1385-1390` -/
def rCallRet : Rule where
  guard c := mtok 0 .CALL c && mtok 2 .RET c
  edit e := (e.setTok 0 .JUMP).del 2
  after := .next

/-- `peephole.cc:1393-1398` -/
def rNotCjump : Rule where
  guard c := mtok 0 .L_NOT c && mtok 1 .CJUMP c
  edit e := (e.setTok 1 .CNJUMP).del 0
  after := .next

/-- `peephole.cc:1401-1406` -/
def rNotCnjump : Rule where
  guard c := mtok 0 .L_NOT c && mtok 1 .CNJUMP c
  edit e := (e.setTok 1 .CJUMP).del 0
  after := .next

/-- `peephole.cc:1410-1417` -/
def rCjumpJump : Rule where
  guard c := mtok 0 .CJUMP c && mtok 2 .JUMP c && mlabel 4 c && decide (lbl 4 c = wlbl 1 c)
  edit e := ((e.setTok 2 .CNJUMP).del 1).del 0
  after := .next

/-- `peephole.cc:1421-1428` -/
def rCjumpRet : Rule where
  guard c := mtok 0 .CJUMP c && mtok 2 .RET c && mlabel 3 c && decide (lbl 3 c = wlbl 1 c)
  edit e := ((e.setTok 2 .CNRET).del 1).del 0
  after := .next

/-- `peephole.cc:1432-1439` -/
def rCnjumpJump : Rule where
  guard c := mtok 0 .CNJUMP c && mtok 2 .JUMP c && mlabel 4 c && decide (lbl 4 c = wlbl 1 c)
  edit e := ((e.setTok 2 .CJUMP).del 1).del 0
  after := .next

/-- `peephole.cc:1443-1450` -/
def rCnjumpRet : Rule where
  guard c := mtok 0 .CNJUMP c && mtok 2 .RET c && mlabel 3 c && decide (lbl 3 c = wlbl 1 c)
  edit e := ((e.setTok 2 .CRET).del 1).del 0
  after := .next

/-- `peephole.cc:1452-1457` -/
def rNotCret : Rule where
  guard c := mtok 0 .L_NOT c && mtok 1 .CRET c
  edit e := (e.setTok 1 .CNRET).del 0
  after := .next

/-- `peephole.cc:1459-1464` -/
def rNotCnret : Rule where
  guard c := mtok 0 .L_NOT c && mtok 1 .CNRET c
  edit e := (e.setTok 1 .CRET).del 0
  after := .next

/-- `peephole.cc:1468-1473` -/
def rJumpNext : Rule where
  guard c := mtok 0 .JUMP c && mlabel 2 c && decide (lbl 2 c = wlbl 1 c)
  edit e := (e.del 1).del 0
  after := .next

/-- `peephole.cc:1475-1479` -/
def rDeadJump : Rule where
  guard c := mtok 0 .JUMP c && !mlabel 2 c
  edit e := e.del 2
  after := .next

/-- `peephole.cc:1481-1485` -/
def rDeadRet : Rule where
  guard c := (mtok 0 .RET c || mtok 0 .END c) && !mlabel 1 c
  edit e := e.del 1
  after := .next

/-- `peephole.cc:1488-1493` -/
def rChrPrint : Rule where
  guard c := mtok 0 .CHR c && mtok 1 .PRINT_STR c
  edit e := (e.setTok 0 .PUT).del 1
  after := .next

/-- `char(val(4) ^ print_color)`, `peephole.cc:1502,1515`. -/
def xorColor (v pc : Int) : B := BitVec.ofInt 8 v ^^^ BitVec.ofInt 8 pc

/-- `peephole.cc:1498-1506` -/
def rJoinPut (pc : Int) : Rule where
  guard c := mtok 0 .CSTRING c && decide (mstring 1 c < 255) && mtok 2 .PRINT_STR c && mtok 3 .NUM c &&
    mword 4 c && mtok 5 .PUT c && decide (pc ≥ 0)
  edit e := (((e.setString 1 (str 1 e.code ++ [xorColor (e.val 4) pc])).del 5).del 4).del 3
  after := .fall

/-- `peephole.cc:1511-1518` -/
def rJoinBytePut (pc : Int) : Rule where
  guard c := mtok 0 .CSTRING c && decide (mstring 1 c < 255) && mtok 2 .PRINT_STR c && mtok 3 .BYTE_PUT c &&
    (mbyte 4 c || mword 4 c) && decide (pc ≥ 0)
  edit e := ((e.setString 1 (str 1 e.code ++ [xorColor (e.val 4) pc])).del 4).del 3
  after := .fall

/-- `peephole.cc:1522-1530` -/
def rJoinStr : Rule where
  guard c := mtok 0 .CSTRING c && mtok 2 .PRINT_STR c && mtok 3 .CSTRING c && mtok 5 .PRINT_STR c &&
    decide (mstring 1 c + mstring 4 c < 256)
  edit e := (((e.setString 1 (str 1 e.code ++ str 4 e.code)).del 5).del 4).del 3
  after := .fall

/-- The rules after the tracking of the colour, in the order of the source. -/
def mainRules (fx : Fix) (pc : Int) : List Rule :=
  [rNeg, rUshl, rShl8, rMul256, rMul4, rMul2, rMul1, rDiv1, rAdd0, rNum0AddVar, rSub0, rNeq0, rEq0,
   rCAdd, rCSub, rStore0, rGet, rGetKey, rNumPut, rBytePut, rNumPeek, rBytePeek, rPokeBN, rPokeBV,
   rPokeByteNum, rPokeByteVar, rPokeNN, rPokeNV, rCMul, rCDiv, rCMod fx, rCAnd, rCOr, rCExor, rSubSub,
   rAddVar, rVarAddNum, rVarAddUshl, rArrIdx, rVarVar, rInc1, rInc2, rInc3, rInc4, rDec1, rDec2, rDec3,
   rDec4, rNotNot, rEqNot, rNeqNot, rBoolComp, rGtNot fx, rStrIdx, rLtNot, rNumComp, rNumCnjump,
   rNumCjump, rCallRet, rNotCjump, rNotCnjump, rCjumpJump, rCjumpRet, rCnjumpJump, rCnjumpRet, rNotCret,
   rNotCnret, rJumpNext, rDeadJump, rDeadRet, rChrPrint, rJoinPut pc, rJoinBytePut pc, rJoinStr]

/-- Try the rules in order. -/
def runRules : List Rule → Ed → Ed × Nat
  | [], e => (e, 1)
  | r :: rs, e =>
      if r.guard e.code then
        match r.after with
        | .again => (r.edit e, 0)
        | .next => (r.edit e, 1)
        | .fall => runRules rs (r.edit e)
      else runRules rs e

/-- Body of the main loop, `peephole.cc:515-1531`; the state is `print_color`. -/
def mainBody (fx : Fix) (pc : Int) (e : Ed) : Int × Ed × Nat :=
  if (rColor pc).guard e.code then (pc, (rColor pc).edit e, 0)
  else
    let pc := trackColor pc e.code
    let r := runRules (mainRules fx pc) e
    (pc, r.1, r.2)

/-! ## The whole optimizer -/

/-- `remove_unused_labels`, `peephole.cc:381-400` -/
def removeUnusedLabels (e : Ed) : Ed := loop (removeLabelsBody (usedLabels e.code)) () [] e

/-- `replace_label_targets`, `peephole.cc:444-500` -/
def replaceLabelTargets (e : Ed) : Ed := loop (replaceBody (targets e.code)) () [] e

/-- `trace_iochn`, `peephole.cc:402-440` -/
def traceIochn (e : Ed) : Ed := loop traceIochnBody 0 [] e

/-- One iteration of the `do … while(changed)` loop, `peephole.cc:507-1532`. -/
def round (fx : Fix) (e : Ed) : Ed :=
  let e := { e with changed := false }
  let e := removeUnusedLabels e
  let e := replaceLabelTargets e
  let e := traceIochn e
  loop (mainBody fx) 0 [] e

/-- The `do … while(changed)` loop with at most `fuel` iterations; `none` if more are needed. -/
def rounds (fx : Fix) : Nat → Ed → Option Ed
  | 0, _ => none
  | fuel + 1, e =>
      let e' := round fx e
      if e'.changed then rounds fx fuel e' else some e'

/-- The passes before the loop, `peephole.cc:505-506`. -/
def prepare (e : Ed) : Ed := loop expandNumbersBody () [] (loop expandPushBody () [] e)

/-- The passes after the loop, `peephole.cc:1533-1536`. -/
def finish (e : Ed) : Ed :=
  let e := loop printCharsBody 0 [] e
  let e := loop shortenNumbersBody () [] e
  let e := loop foldPushBody () [] e
  loop foldSaddrBody () [] e

/-- `do_peephole`, `peephole.cc:503-1537,1540-1543`, with at most `fuel` iterations of the loop. -/
def optimizeEd (fx : Fix) (fuel : Nat) (P : List Codew) : Option Ed :=
  (rounds fx fuel (prepare ⟨P, false, false⟩)).map finish

/-- The optimized program. -/
def optimize (fx : Fix) (fuel : Nat) (P : List Codew) : Option (List Codew) :=
  (optimizeEd fx fuel P).map (·.code)

end FB.Peep
