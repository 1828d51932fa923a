import Verif.Code
/-!
# The virtual machine

Step semantics of the bytecode interpreter, `/repo/src/interpreter.asm` and `/repo/src/interp/*.asm`,
for every token that the optimizer knows.  Tokens the optimizer does not know are a parameter
(`Env.ext`).  Undefined behaviour is the distinct outcome `Res.wrong`.

Simplifications (see DESIGN.md §2): the evaluation stack and the return stack are unbounded; the
control state is the remaining code; addresses of data labels and of symbols are parameters; a string
literal and the result of `CHR$` are symbolic pointers (`Val.ptr`); `PRINT_COLOR` and `IOCHN` are
registers, written only by `TOK_BYTE_POKE PRINT_COLOR` and `TOK_IOCHN`; input/output never fails.
-/

namespace FB

/-- An externally visible action, or an interaction with a device. -/
inductive Event
  /-- a character sent to an I/O channel (`putc`, `/repo/src/interp/a800/putchar.asm`) -/
  | put (chan : W) (c : B)
  /-- a character read from an I/O channel (`TOK_GET`) -/
  | get (chan : W)
  /-- a key read (`TOK_GETKEY`) -/
  | key
  /-- read of a hardware register -/
  | ioRead (a : W)
  /-- write of a hardware register -/
  | ioWrite (a : W) (v : B)
  /-- anything done by another instruction -/
  | ext (name : String) (data : List Nat)
deriving DecidableEq, Repr

/-- Contents of the accumulator `AX` or of a stack slot: a number, or a pointer into a constant string
(a literal, or the one-character string made by `CHR$`) as the string and an offset from its length
byte.  Numbers can be added to and subtracted from pointers; other arithmetic on the address of a
literal is outside the model, because that address depends on the layout of the code. -/
inductive Val
  | num (w : W)
  | ptr (s : List B) (off : W)
deriving DecidableEq, Repr

/-- Data state of the machine: `A`/`X` registers, `saddr` (`saddr.asm:32`), integer stack
(`interpreter.asm:72-87`), memory, `PRINT_COLOR`, `IOCHN` (`interpreter.asm:64-67`), and the history of
events.  `none` in `ax`/`saddr` means that the value is unspecified. -/
structure D where
  ax : Option Val
  saddr : Option W
  stk : List Val
  mem : W → B
  color : B
  iochn : W
  out : List Event

/-- What the machine is run with: placement of things in memory, behaviour of devices as a function
of the history, and behaviour of the instructions that the optimizer does not know. -/
structure Env where
  /-- address of variable 0 (`varaddr.asm:42-52`) -/
  heap : W
  /-- value of assembler symbols used as bytes / words -/
  byteSym : String → B
  wordSym : String → W
  /-- hardware registers -/
  isIO : W → Bool
  ioVal : List Event → W → B
  /-- characters and keys read -/
  getVal : List Event → W → B
  keyVal : List Event → B
  /-- string slicing `strindex.asm`: memory, string, position, clamped count -/
  strIdx : (W → B) → Val → W → B → (W → B) × W
  /-- number of operands of the other instructions, and their effect -/
  arity : String → Nat
  ext : String → List Codew → D → Option D

/-- The number in the accumulator. -/
def Val.toW : Val → Option W
  | .num w => some w
  | .ptr _ _ => none

/-- Addition, `addsub.asm`. -/
def valAdd : Val → Val → Option Val
  | .num a, .num b => some (.num (a + b))
  | .ptr s o, .num b => some (.ptr s (o + b))
  | .num a, .ptr s o => some (.ptr s (a + o))
  | _, _ => none

/-- Subtraction, `addsub.asm`. -/
def valSub : Val → Val → Option Val
  | .num a, .num b => some (.num (a - b))
  | .ptr s o, .num b => some (.ptr s (o - b))
  | _, _ => none

/-- An operator on numbers only. -/
def lift2 (f : W → W → W) (a b : Val) : Option Val :=
  a.toW.bind fun x => b.toW.map fun y => .num (f x y)

/-- Low byte (register `A`). -/
def lo (w : W) : B := w.setWidth 8
/-- High byte (register `X`). -/
def hi (w : W) : B := (w >>> 8).setWidth 8
/-- The word made of two bytes. -/
def mkW (l h : B) : W := h.setWidth 16 <<< 8 ||| l.setWidth 16

/-- Truth values: `comp0.asm:56-59`, `for.asm` (`set0`, `set1`). -/
def b2w (b : Bool) : W := if b then 1 else 0

/-- Address of variable `n`, `varaddr.asm:42-52`.  At most 256 variables. -/
def Env.varAddr (env : Env) (n : Nat) : W := env.heap + BitVec.ofNat 16 (2 * n)

/-- Memory with one byte changed. -/
def updMem (m : W → B) (a : W) (v : B) : W → B := fun x => if x = a then v else m x

/-- Store a word, low byte first (`dpoke.asm:33-40`, `varstore.asm:47-70`). -/
def updMem2 (m : W → B) (a : W) (v : W) : W → B := updMem (updMem m a (lo v)) (a + 1) (hi v)

/-- A store to memory or to a hardware register. -/
def D.write (env : Env) (d : D) (a : W) (v : B) : D :=
  if env.isIO a then { d with out := d.out ++ [.ioWrite a v] } else { d with mem := updMem d.mem a v }

/-- A load from memory or from a hardware register. -/
def D.read (env : Env) (d : D) (a : W) : B × D :=
  if env.isIO a then (env.ioVal d.out a, { d with out := d.out ++ [.ioRead a] }) else (d.mem a, d)

/-- Value of a variable, `dpeek.asm:36-60`. -/
def D.var (env : Env) (d : D) (n : Nat) : W :=
  mkW (d.mem (env.varAddr n)) (d.mem (env.varAddr n + 1))

/-- The characters of the string that `v` points to: length byte, then characters
(`print_str.asm:38-49`). -/
def strBytes (m : W → B) : Val → Option (List B)
  | .ptr s o => if o = 0 then some s else none
  | .num a => some ((List.range (m a).toNat).map fun i => m (a + BitVec.ofNat 16 (i + 1)))

/-- A constant string in memory: length byte, then characters (`codew.h:216`). -/
def strMem (s : List B) : List B := BitVec.ofNat 8 s.length :: s

/-- Operand of a token as a byte / word / variable number. -/
def opByte (env : Env) : Codew → Option B
  | .byte v => some v
  | .byteStr s => some (env.byteSym s)
  | _ => none

/-- `const.asm:40-53`: two bytes, low first. -/
def opWord (env : Env) : Codew → Option W
  | .word v => some v
  | .wordStr s => some (env.wordSym s)
  | _ => none

/-- `varaddr.asm:47-60`: the number of the variable is one byte. -/
def opVar : Codew → Option Nat
  | .varn n _ => if n < 256 then some n else none
  | _ => none

/-- `strindex.asm:40-44`: negative counts become 0, counts over 255 become 255. -/
def clampCount (w : W) : B := if w.toInt < 0 then 0 else if 255 < w.toInt then 255 else lo w

/-- Division, `div.asm`; the division by zero result is what the routine computes.
(Proved from the assembly text in `Verif.Rt.Div`.) -/
def vmDiv (x y : W) : W :=
  if y = 0 then (if x.toInt < 0 then 1 else -1) else BitVec.ofInt 16 (x.toInt.tdiv y.toInt)

/-- Remainder, `div.asm`; with divisor 0 the 8-bit loop leaves the low byte of `|x|`. -/
def vmMod (x y : W) : W :=
  if y = 0 then
    (if x.toInt < 0 then BitVec.ofInt 16 (-(x.toInt.natAbs % 256 : Nat))
     else BitVec.ofInt 16 (x.toInt.natAbs % 256 : Nat))
  else BitVec.ofInt 16 (x.toInt.tmod y.toInt)

/-- Binary operators on (stack, accumulator). -/
def binop : Tok → Option (Val → Val → Option Val)
  | .ADD => some valAdd                      -- addsub.asm
  | .SUB => some valSub
  | .MUL => some (lift2 (· * ·))             -- mul.asm
  | .DIV => some (lift2 vmDiv)               -- div.asm
  | .MOD => some (lift2 vmMod)
  | .BIT_AND => some (lift2 (· &&& ·))       -- bitand.asm, bitor.asm, bitexor.asm
  | .BIT_OR => some (lift2 (· ||| ·))
  | .BIT_EXOR => some (lift2 (· ^^^ ·))
  | .LT => some (lift2 fun s a => b2w (decide (s.toInt < a.toInt)))   -- for.asm
  | .GT => some (lift2 fun s a => b2w (decide (a.toInt < s.toInt)))
  | .EQ => some (lift2 fun s a => b2w (decide (s = a)))
  | .NEQ => some (lift2 fun s a => b2w (decide (s ≠ a)))
  | _ => none

/-- Unary operators on the accumulator: `absneg.asm`, `ushl.asm`, `shl8.asm`, `comp0.asm`. -/
def unop : Tok → Option (W → W)
  | .NEG => some (- ·)
  | .USHL => some fun a => a + a
  | .SHL8 => some fun a => a <<< 8
  | .COMP_0 => some fun a => b2w (decide (a ≠ 0))
  | _ => none

/-- The accumulator as a truth value; only 0 and 1 are truth values. -/
def valBool : Val → Option Bool
  | .num w => if w = 0 then some false else if w = 1 then some true else none
  | _ => none

/-- The accumulator as a truth value / as a number. -/
def D.axBool (d : D) : Option Bool := d.ax.bind valBool
def D.axW (d : D) : Option W := d.ax.bind Val.toW

/-- Accumulator and store address become unspecified. -/
def D.kill (d : D) : D := { d with ax := none, saddr := none }
def D.killAx (d : D) : D := { d with ax := none }
def D.setVal (d : D) (v : Val) : D := { d with ax := some v }
def D.setAx (d : D) (w : W) : D := d.setVal (.num w)
/-- Push the accumulator (`pushAX`, `interpreter.asm:212-218`). -/
def D.push (d : D) : Option D := d.ax.map fun v => { d with stk := v :: d.stk }

/-- Take the top of the stack (`next_ins_incsp`, `interpreter.asm:109-110`). -/
def D.pop (d : D) : Option (Val × D) :=
  match d.stk with
  | v :: st => some (v, { d with stk := st })
  | [] => none

def D.put (d : D) (cs : List B) : D := { d with out := d.out ++ cs.map (.put d.iochn) }

/-- Tokens with one operand. -/
def takesOp : Tok → Bool
  | .NUM | .BYTE | .CSTRING | .VAR_ADDR | .VAR_SADDR | .VAR_LOAD | .PUSH_VAR_LOAD | .PUSH_NUM
  | .PUSH_BYTE | .ADD_VAR | .BYTE_PEEK | .VAR_STORE | .INCVAR | .DECVAR | .BYTE_POKE | .NUM_POKE
  | .VAR_STORE_0 | .BYTE_PUT | .JUMP | .CJUMP | .CNJUMP | .CALL => true
  | _ => false

/-- Number of operands of a token: how many items after it belong to it. -/
def arity (env : Env) : Tok → Nat
  | .other n => env.arity n
  | t => if takesOp t then 1 else 0

/-- Instructions that transfer control. -/
def isCtl : Tok → Bool
  | .JUMP | .CJUMP | .CNJUMP | .CALL | .RET | .CRET | .CNRET | .END => true
  | _ => false

/-- Effect of an instruction (token and operands) on the data state; `none` is undefined behaviour.
Each line cites the routine. -/
def sem (env : Env) (t : Tok) (ops : List Codew) (d : D) : Option D :=
  match t, ops with
  | .NUM, [o] => (opWord env o).map d.setAx                                  -- const.asm
  | .BYTE, [o] => (opByte env o).map fun b => d.setAx (b.setWidth 16)
  | .CSTRING, [.str s] => some (d.setVal (.ptr s 0))
  | .VAR_ADDR, [o] => (opVar o).map fun n => d.setAx (env.varAddr n)         -- varaddr.asm
  | .VAR_SADDR, [o] => (opVar o).map fun n =>                                -- saddr.asm
      { d with ax := some (.num (env.varAddr n)), saddr := some (env.varAddr n) }
  | .VAR_LOAD, [o] => (opVar o).map fun n => d.setAx (d.var env n)           -- dpeek.asm
  | .ZERO, [] => some (d.setAx 0)                                            -- comp0.asm
  | .ONE, [] => some (d.setAx 1)
  | .PUSH, [] => d.push.map D.killAx                       -- push.asm; `pushAX` leaves the high byte in `A`
  | .PUSH_VAR_LOAD, [o] => d.push.bind fun d => (opVar o).map fun n => d.setAx (d.var env n)
  | .PUSH_NUM, [o] => d.push.bind fun d => (opWord env o).map d.setAx
  | .PUSH_BYTE, [o] => d.push.bind fun d => (opByte env o).map fun b => d.setAx (b.setWidth 16)
  | .PUSH_0, [] => d.push.map (·.setAx 0)
  | .PUSH_1, [] => d.push.map (·.setAx 1)
  | .ADD_VAR, [o] => (opVar o).bind fun n => d.ax.bind fun a =>              -- varadd.asm
      (valAdd a (.num (d.var env n))).map d.setVal
  | .PEEK, [] => d.ax.bind fun v => match v with                             -- peek.asm
      | .num a => let r := d.read env a; some (r.2.setAx (r.1.setWidth 16))
      | .ptr s o => (strMem s)[o.toNat]?.map fun b => d.setAx (b.setWidth 16)
  | .BYTE_PEEK, [o] => (opByte env o).map fun b =>                           -- peekb.asm
      let r := d.read env (b.setWidth 16); r.2.setAx (r.1.setWidth 16)
  | .L_NOT, [] => d.axBool.map fun b => d.setAx (b2w (!b))                   -- lnot.asm
  | .L_OR, [] => d.pop.bind fun p => (valBool p.1).bind fun x =>              -- lor.asm
      p.2.axBool.map fun y => p.2.setAx (b2w (x || y))
  | .L_AND, [] => d.pop.bind fun p => (valBool p.1).bind fun x =>            -- land.asm
      p.2.axBool.map fun y => p.2.setAx (b2w (x && y))
  | .POKE, [] => d.saddr.bind fun s => d.axW.map fun a => (d.write env s (lo a)).kill  -- poke.asm
  | .DPOKE, [] => d.saddr.bind fun s => d.axW.map fun a =>             -- dpoke.asm
      ((d.write env s (lo a)).write env (s + 1) (hi a)).kill
  | .INC, [] => d.axW.map fun a =>                                     -- inc.asm
      { d with mem := updMem2 d.mem a (mkW (d.mem a) (d.mem (a + 1)) + 1) }.kill
  | .DEC, [] => d.axW.map fun a =>                                     -- dec.asm
      { d with mem := updMem2 d.mem a (mkW (d.mem a) (d.mem (a + 1)) - 1) }.kill
  | .VAR_STORE, [o] => (opVar o).bind fun n => d.axW.map fun a =>      -- varstore.asm
      { d with mem := updMem2 d.mem (env.varAddr n) a }.kill
  | .VAR_STORE_0, [o] => (opVar o).map fun n =>
      { d with mem := updMem2 d.mem (env.varAddr n) 0 }.kill
  | .INCVAR, [o] => (opVar o).map fun n =>
      { d with mem := updMem2 d.mem (env.varAddr n) (d.var env n + 1) }.kill
  | .DECVAR, [o] => (opVar o).map fun n =>
      { d with mem := updMem2 d.mem (env.varAddr n) (d.var env n - 1) }.kill
  | .SADDR, [] => d.axW.map fun a => { d with saddr := some a }        -- saddr.asm
  | .BYTE_POKE, [.byteStr s] => d.axW.map fun a =>                     -- const_poke.asm
      if s = "PRINT_COLOR" then { d with color := lo a }.killAx
      else (d.write env ((env.byteSym s).setWidth 16) (lo a)).killAx
  | .BYTE_POKE, [.byte b] => d.axW.map fun a => (d.write env (b.setWidth 16) (lo a)).killAx
  | .NUM_POKE, [o] => (opWord env o).bind fun s => d.axW.map fun a =>
      (d.write env s (lo a)).kill
  | .PRINT_STR, [] => d.ax.bind fun v => (strBytes d.mem v).map fun s =>     -- print_str.asm
      (d.put (s.map (· ^^^ d.color))).killAx
  | .PUT, [] => d.axW.map fun a => (d.put [lo a]).killAx               -- put.asm
  | .BYTE_PUT, [o] => (opByte env o).map fun b => (d.put [b]).killAx         -- putbyte.asm
  | .GET, [] => some { d with out := d.out ++ [.get d.iochn],
                              ax := some (.num ((env.getVal d.out d.iochn).setWidth 16)) }
  | .GETKEY, [] => some { d with out := d.out ++ [.key],
                                 ax := some (.num ((env.keyVal d.out).setWidth 16)) }
  | .STR_IDX, [] => d.pop.bind fun p => p.1.toW.bind fun pos => p.2.pop.bind fun q =>  -- strindex.asm
      q.2.axW.map fun n =>
        let r := env.strIdx d.mem q.1 pos (clampCount n)
        { q.2.setAx r.2 with mem := r.1 }
  | .CHR, [] => d.axW.map fun a => d.setVal (.ptr [lo a] 0)               -- chr.asm
  | .IOCHN, [] => d.axW.bind fun a =>                                  -- iochn.asm
      if a.toNat < 8 then some { d with iochn := a }.killAx else none
  | .other n, ops => env.ext n ops d
  | t, [] => match binop t with
      | some f => d.pop.bind fun p => p.2.ax.bind fun a => (f p.1 a).map p.2.setVal
      | none => (unop t).bind fun f => d.axW.map fun a => d.setAx (f a)
  | _, _ => none

/-- Machine configuration: remaining code, return stack of code positions, data. -/
structure Cfg where
  code : List Codew
  rets : List (List Codew)
  d : D

/-- Result of running: still running, ended by `TOK_END`, or undefined behaviour. -/
inductive Res
  | run (c : Cfg)
  | done (d : D)
  | wrong

/-- Take the `n` operands of an instruction. -/
def splitOps : Nat → List Codew → Option (List Codew × List Codew)
  | 0, r => some ([], r)
  | n + 1, o :: r => if o.isData then (splitOps n r).map fun p => (o :: p.1, p.2) else none
  | _ + 1, [] => none

/-- Position of a label in the program: what the assembler resolves a label to. -/
def findLabel (l : String) : List Codew → Option (List Codew)
  | [] => none
  | c :: r => if c = .label l then some (c :: r) else findLabel l r

/-- Continue at a label. -/
def goto (P : List Codew) (c : Cfg) (l : String) : Res :=
  match findLabel l P with
  | some k => .run { c with code := k, d := c.d.killAx }
  | none => .wrong

/-- Return from a subroutine (`return.asm:40-47`).  Programs keep the I/O channel 0 between
statements; returning with another channel selected is outside the model. -/
def doRet (c : Cfg) : Res :=
  if c.d.iochn = 0 then
    match c.rets with
    | k :: rs => .run { code := k, rets := rs, d := c.d.killAx }
    | [] => .wrong
  else .wrong

/-- Control instructions: `jump.asm`, `return.asm`.  `r` is the code after the instruction.
`CJUMP`/`CRET` act when the condition is false, `CNJUMP`/`CNRET` when it is true. -/
def ctl (P : List Codew) (t : Tok) (ops : List Codew) (r : List Codew) (c : Cfg) : Res :=
  match t, ops with
  | .JUMP, [.wordStr l] => goto P c l
  | .CJUMP, [.wordStr l] => match c.d.axBool with
      | some b => if b then .run { c with code := r, d := c.d.killAx } else goto P c l
      | none => .wrong
  | .CNJUMP, [.wordStr l] => match c.d.axBool with
      | some b => if b then goto P c l else .run { c with code := r, d := c.d.killAx }
      | none => .wrong
  | .CALL, [.wordStr l] => goto P { c with rets := r :: c.rets } l
  | .RET, [] => doRet c
  | .CRET, [] => match c.d.axBool with
      | some b => if b then .run { c with code := r, d := c.d.killAx } else doRet c
      | none => .wrong
  | .CNRET, [] => match c.d.axBool with
      | some b => if b then doRet c else .run { c with code := r, d := c.d.killAx }
      | none => .wrong
  | .END, [] => .done c.d
  | _, _ => .wrong

/-- One step of program `P`.  A label is a no-op; labels are only passed with I/O channel 0 (the
parser resets the channel at the end of each statement, `fileio.syn:41-42`, and places labels only
between statements). -/
def step (env : Env) (P : List Codew) (c : Cfg) : Res :=
  match c.code with
  | [] => .wrong
  | .label _ :: r => if c.d.iochn = 0 then .run { c with code := r } else .wrong
  | .tok t :: r =>
      match splitOps (arity env t) r with
      | none => .wrong
      | some (ops, r') =>
          if isCtl t then ctl P t ops r' c
          else match sem env t ops c.d with
            | some d' => .run { c with code := r', d := d' }
            | none => .wrong
  | _ :: _ => .wrong

/-- `n` steps. -/
def runN (env : Env) (P : List Codew) : Nat → Cfg → Res
  | 0, c => .run c
  | n + 1, c => match step env P c with
      | .run c' => runN env P n c'
      | r => r

end FB
