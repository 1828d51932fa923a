import Verif.VM
/-!
# A model of the 6502 for the runtime routines

The runtime of FastBasic (`/repo/src/interp/*.asm`, `/repo/src/interpreter.asm`) is 6502 assembly.  This file
gives the meaning of the instructions that those routines use, as documented by the manufacturer of the processor
(MCS6500 programming manual); the routines themselves are transcribed line by line in the other files of
`Verif.Rt`.

Simplifications.
* The cells in page zero that the runtime names (`tmp1`, `sptr`, …) are fields of a record (`Zp`) and are
  disjoint from each other, from the integer stack and from the memory that pointers reach (`ram`).
* The two halves of the integer stack (`stack_l`, `stack_h`) are arrays indexed by a byte.
* Operands modified by the program itself (`move_loop`, `inc.asm`, `dec.asm`) are cells too.
* The stack of the processor is a list whose entries remember what was pushed; pulling the wrong kind of entry
  is stuck.  Decimal mode is off.  Interrupts are not modelled.
* Cycle counts are not modelled.
-/
namespace FB.Rt

/-- Cells of page zero used by the modelled routines (`interpreter.asm:46-68,89-112`, `saddr.asm:32`,
`alloc.asm`), `INBUFF` and `CIX` of the OS, bytes of the code that the code modifies, and cells of the native compiler (`name`, `var`, `len` and
`search_count` of `vars.asm:41-47`, `buf_ptr` of `parse.asm`).  `cptr` is the operand of `cload` (`interpreter.asm:103,118`), `joff` the low byte of
the operand of `jump` (`interpreter.asm:107-109`), `vpage` the operand `var_page` (`varaddr.asm:53-54`), `chn` is `IOCHN`.
`bmax`, `pptr` and `opos` are of `parse.asm:51-57`, `prgp` is `prog_ptr` (`memptr.asm`). -/
inductive Cell
  | tmp1 | tmp1h | tmp2 | tmp2h | tmp3 | tmp3h | dsign | sptr | saddr | saddrh
  | msrc | msrch | mdst | mdsth | mins | arr | arrh | op1 | op2 | op3
  | tmp4 | ioerr | inb | inbh | cix
  | nam | namh | vr | vrh | vlen | scnt | bufp | bufph
  | cptr | cptrh | joff | vpage | chn
  | bmax | pptr | pptrh | opos | prgp | prgph
deriving DecidableEq, Repr

/-- Contents of the cells. -/
structure Zp where
  tmp1 : B
  tmp1h : B
  tmp2 : B
  tmp2h : B
  tmp3 : B
  tmp3h : B
  dsign : B
  sptr : B
  saddr : B
  saddrh : B
  msrc : B
  msrch : B
  mdst : B
  mdsth : B
  mins : B
  arr : B
  arrh : B
  op1 : B
  op2 : B
  op3 : B
  tmp4 : B
  ioerr : B
  inb : B
  inbh : B
  cix : B
  nam : B := 0
  namh : B := 0
  vr : B := 0
  vrh : B := 0
  vlen : B := 0
  scnt : B := 0
  bufp : B := 0
  bufph : B := 0
  cptr : B := 0
  cptrh : B := 0
  joff : B := 0
  vpage : B := 0
  chn : B := 0
  bmax : B := 0
  pptr : B := 0
  pptrh : B := 0
  opos : B := 0
  prgp : B := 0
  prgph : B := 0

/-- Read a cell. -/
def Zp.get (z : Zp) : Cell → B
  | .tmp1 => z.tmp1 | .tmp1h => z.tmp1h | .tmp2 => z.tmp2 | .tmp2h => z.tmp2h | .tmp3 => z.tmp3 | .tmp3h => z.tmp3h
  | .dsign => z.dsign | .sptr => z.sptr | .saddr => z.saddr | .saddrh => z.saddrh
  | .msrc => z.msrc | .msrch => z.msrch | .mdst => z.mdst | .mdsth => z.mdsth | .mins => z.mins
  | .arr => z.arr | .arrh => z.arrh | .op1 => z.op1 | .op2 => z.op2 | .op3 => z.op3
  | .tmp4 => z.tmp4 | .ioerr => z.ioerr | .inb => z.inb | .inbh => z.inbh | .cix => z.cix
  | .nam => z.nam | .namh => z.namh | .vr => z.vr | .vrh => z.vrh | .vlen => z.vlen | .scnt => z.scnt
  | .bufp => z.bufp | .bufph => z.bufph
  | .cptr => z.cptr | .cptrh => z.cptrh | .joff => z.joff | .vpage => z.vpage | .chn => z.chn
  | .bmax => z.bmax | .pptr => z.pptr | .pptrh => z.pptrh | .opos => z.opos | .prgp => z.prgp | .prgph => z.prgph

/-- Write a cell. -/
def Zp.set (z : Zp) (c : Cell) (v : B) : Zp :=
  match c with
  | .tmp1 => { z with tmp1 := v } | .tmp1h => { z with tmp1h := v }
  | .tmp2 => { z with tmp2 := v } | .tmp2h => { z with tmp2h := v }
  | .tmp3 => { z with tmp3 := v } | .tmp3h => { z with tmp3h := v }
  | .dsign => { z with dsign := v } | .sptr => { z with sptr := v }
  | .saddr => { z with saddr := v } | .saddrh => { z with saddrh := v }
  | .msrc => { z with msrc := v } | .msrch => { z with msrch := v }
  | .mdst => { z with mdst := v } | .mdsth => { z with mdsth := v }
  | .mins => { z with mins := v } | .arr => { z with arr := v } | .arrh => { z with arrh := v }
  | .op1 => { z with op1 := v } | .op2 => { z with op2 := v } | .op3 => { z with op3 := v }
  | .tmp4 => { z with tmp4 := v } | .ioerr => { z with ioerr := v }
  | .inb => { z with inb := v } | .inbh => { z with inbh := v } | .cix => { z with cix := v }
  | .nam => { z with nam := v } | .namh => { z with namh := v } | .vr => { z with vr := v } | .vrh => { z with vrh := v }
  | .vlen => { z with vlen := v } | .scnt => { z with scnt := v } | .bufp => { z with bufp := v } | .bufph => { z with bufph := v }
  | .cptr => { z with cptr := v } | .cptrh => { z with cptrh := v } | .joff => { z with joff := v }
  | .vpage => { z with vpage := v } | .chn => { z with chn := v }
  | .bmax => { z with bmax := v } | .pptr => { z with pptr := v } | .pptrh => { z with pptrh := v }
  | .opos => { z with opos := v } | .prgp => { z with prgp := v } | .prgph => { z with prgph := v }

/-- Operands (addressing modes). -/
inductive Opd
  /-- the accumulator (shifts) -/
  | acc
  /-- `#b` -/
  | imm (b : B)
  /-- a cell of page zero -/
  | zp (c : Cell)
  /-- `stack_l+k, y` and `stack_h+k, y` -/
  | stkL (k : B)
  | stkH (k : B)
  /-- `(cell),y`, and `$FF00,y` where the address is the pair of modified cells -/
  | indY (l h : Cell)
  /-- `(cell-1, x)` with `x = $FF` (`strindex.asm:67`): the pointer without index -/
  | indXFF (l h : Cell)
  /-- `base,x` / `base,y` / `base` -/
  | absX (w : W)
  | absY (w : W)
  | abs (w : W)
  /-- `$FFnn,x` and `$FFnn,y` where the high byte of the address is a modified cell -/
  | pageX (lo : B) (h : Cell)
  | pageY (lo : B) (h : Cell)
  /-- `(w),y` with the pointer in page zero, in the bytes `w` and `w + 1` of the memory (the pointers of `memptr.asm`) -/
  | indRY (w : W)
  /-- `(w,x)` with the pointer in page zero; `w + x` is not more than 254 in the code that uses it -/
  | indRX (w : W)

/-- Instructions. -/
inductive Ins
  | lda (o : Opd) | ldx (o : Opd) | ldy (o : Opd) | sta (o : Opd) | stx (o : Opd) | sty (o : Opd)
  | adc (o : Opd) | sbc (o : Opd) | and (o : Opd) | ora (o : Opd) | eor (o : Opd)
  | cmp (o : Opd) | cpx (o : Opd) | cpy (o : Opd) | bit (o : Opd)
  | inc (o : Opd) | dec (o : Opd) | asl (o : Opd) | lsr (o : Opd) | rol (o : Opd) | ror (o : Opd)
  | inx | dex | iny | dey | tax | tay | txa | tya
  | pha | pla | php | plp | clc | sec | clv
  | bcc (l : String) | bcs (l : String) | beq (l : String) | bne (l : String)
  | bmi (l : String) | bpl (l : String) | bvc (l : String) | bvs (l : String)
  | jmp (l : String) | jsr (l : String) | rts
  /-- the instruction whose opcode is in a cell: `DEY` ($88) or `INY` ($C8) (`move_ins`) -/
  | mod (c : Cell)
  /-- `jmp next_instruction` (`interpreter.asm:96-112`): back to the interpreter -/
  | next
  /-- `jmp next_ins_incsp`: drop the top of the integer stack, then the same -/
  | nextIncsp
  /-- `lda/ldx #memory_error_code; jmp interpreter_jump_ax` (`clearmem.asm:145-148`): the program ends with an error -/
  | fail
  /-- `pla; pla` over a return address (`vars.asm:198-199`): the routine will return to the caller of its caller.  The value that it leaves in `A`
  and the flags `Z` and `N`, which depend on where the code is placed, are not modelled: they keep their values here. -/
  | dropRet
  /-- `jsr putc` (`a800/putchar.asm:37-56`): the character in `A` goes to the device of channel `IOCHN`, through a routine of the OS that
  leaves `A`, `X`, the flags and `IOERROR` as it wants (`M.dev`), keeps `Y`, and changes no memory that the program looks at. -/
  | putc
  /-- `tsx`: the stack is all the page `$0100`, one byte in each place but two for return addresses. -/
  | tsx
  /-- `jsr call_ax1` (`parse.asm:317,400-404`): a routine that is not in this code; what it does is given apart. -/
  | ext

/-- A line of assembly. -/
inductive Line
  | lb (l : String)
  | ins (i : Ins)

instance : Coe Ins Line := ⟨Line.ins⟩
instance : Coe String Line := ⟨Line.lb⟩

abbrev Code := List Line

/-- Notation for assembly text: strings are labels. -/
syntax "asm![" term,* "]" : term
macro_rules
  | `(asm![$xs,*]) => do
    let mut r : Lean.TSyntax `term ← `(([] : Code))
    for x in xs.getElems.reverse do
      r ← `(List.cons ($x : Line) $r)
    return r

/-- An entry of the stack of the processor. -/
inductive Slot
  | byte (b : B)
  | flags (c z n v : Bool)
  | ret (k : Code)

/-- What the OS leaves in the registers, flags and `IOERROR` after writing a character. -/
structure Regs where
  a : B
  x : B
  c : Bool
  z : Bool
  n : Bool
  v : Bool
  e : B

/-- Registers, flags and memory; the characters written so far, each with the value of `IOCHN`, and the answers of the OS, as a
function of the characters written before. -/
structure M where
  a : B
  x : B
  y : B
  c : Bool
  z : Bool
  n : Bool
  v : Bool
  stk : List Slot
  zp : Zp
  sl : B → B
  sh : B → B
  ram : W → B
  out : List (B × B) := []
  dev : List (B × B) → Regs := fun _ => ⟨0, 0, false, false, false, false, 0⟩

/-- The word in a pair of bytes, low byte first. -/
def word (l h : B) : W := BitVec.ofNat 16 (l.toNat + 256 * h.toNat)

/-- Address `w + i`, wrapping at 64K. -/
def idx (w : W) (i : B) : W := w + BitVec.ofNat 16 i.toNat

/-- Value of an operand. -/
def M.get (m : M) : Opd → B
  | .acc => m.a
  | .imm b => b
  | .zp c => m.zp.get c
  | .stkL k => m.sl (m.y + k)
  | .stkH k => m.sh (m.y + k)
  | .indY l h => m.ram (idx (word (m.zp.get l) (m.zp.get h)) m.y)
  | .indXFF l h => m.ram (word (m.zp.get l) (m.zp.get h))
  | .absX w => m.ram (idx w m.x)
  | .absY w => m.ram (idx w m.y)
  | .abs w => m.ram w
  | .pageX lo h => m.ram (idx (word lo (m.zp.get h)) m.x)
  | .pageY lo h => m.ram (idx (word lo (m.zp.get h)) m.y)
  | .indRY w => m.ram (idx (word (m.ram w) (m.ram (w + 1))) m.y)
  | .indRX w => m.ram (word (m.ram (idx w m.x)) (m.ram (idx w m.x + 1)))

/-- Bytes of the stack of the processor that are used. -/
def stkSize : List Slot → Nat
  | [] => 0
  | .ret _ :: s => stkSize s + 2
  | _ :: s => stkSize s + 1

/-- Function with one value changed. -/
def upd {α : Type} [DecidableEq α] (f : α → B) (i : α) (v : B) : α → B := fun j => if j = i then v else f j

/-- Store to an operand. -/
def M.put (m : M) (o : Opd) (v : B) : M :=
  match o with
  | .acc => { m with a := v }
  | .imm _ => m
  | .zp c => { m with zp := m.zp.set c v }
  | .stkL k => { m with sl := upd m.sl (m.y + k) v }
  | .stkH k => { m with sh := upd m.sh (m.y + k) v }
  | .indY l h => { m with ram := upd m.ram (idx (word (m.zp.get l) (m.zp.get h)) m.y) v }
  | .indXFF l h => { m with ram := upd m.ram (word (m.zp.get l) (m.zp.get h)) v }
  | .absX w => { m with ram := upd m.ram (idx w m.x) v }
  | .absY w => { m with ram := upd m.ram (idx w m.y) v }
  | .abs w => { m with ram := upd m.ram w v }
  | .pageX lo h => { m with ram := upd m.ram (idx (word lo (m.zp.get h)) m.x) v }
  | .pageY lo h => { m with ram := upd m.ram (idx (word lo (m.zp.get h)) m.y) v }
  | .indRY w => { m with ram := upd m.ram (idx (word (m.ram w) (m.ram (w + 1))) m.y) v }
  | .indRX w => { m with ram := upd m.ram (word (m.ram (idx w m.x)) (m.ram (idx w m.x + 1))) v }

/-- The top and the bottom bit. -/
def topBit (w : B) : Bool := decide (128 ≤ w.toNat)
def lowBit (w : B) : Bool := decide (w.toNat % 2 = 1)

/-- Flags `Z` and `N` from a result. -/
def M.nz (m : M) (v : B) : M := { m with z := decide (v = 0), n := topBit v }

/-- Sum of two bytes and the carry: result, carry out, signed overflow. -/
def add8 (a b : B) (c : Bool) : B := BitVec.ofNat 8 (a.toNat + b.toNat + c.toNat)
def addC (a b : B) (c : Bool) : Bool := decide (256 ≤ a.toNat + b.toNat + c.toNat)
def addV (a b : B) (c : Bool) : Bool := decide (a.toInt + b.toInt + c.toNat < -128 ∨ 127 < a.toInt + b.toInt + c.toNat)

/-- `ADC` -/
def M.adc (m : M) (b : B) : M :=
  { m.nz (add8 m.a b m.c) with a := add8 m.a b m.c, c := addC m.a b m.c, v := addV m.a b m.c }

/-- Shifts through a carry: left and right. -/
def rol8 (w : B) (c : Bool) : B := BitVec.ofNat 8 (2 * w.toNat + c.toNat)
def ror8 (w : B) (c : Bool) : B := BitVec.ofNat 8 (w.toNat / 2 + 128 * c.toNat)

/-- `CMP`, `CPX`, `CPY` -/
def M.cmp (m : M) (r b : B) : M := { m.nz (r - b) with c := addC r (~~~ b) true }

/-- Instructions other than transfers of control. -/
def exec (i : Ins) (m : M) : Option M :=
  match i with
  | .lda o => let v := m.get o; some { m.nz v with a := v }
  | .ldx o => let v := m.get o; some { m.nz v with x := v }
  | .ldy o => let v := m.get o; some { m.nz v with y := v }
  | .sta o => some (m.put o m.a)
  | .stx o => some (m.put o m.x)
  | .sty o => some (m.put o m.y)
  | .adc o => some (m.adc (m.get o))
  | .sbc o => some (m.adc (~~~ (m.get o)))
  | .and o => let v := m.a &&& m.get o; some { m.nz v with a := v }
  | .ora o => let v := m.a ||| m.get o; some { m.nz v with a := v }
  | .eor o => let v := m.a ^^^ m.get o; some { m.nz v with a := v }
  | .cmp o => some (m.cmp m.a (m.get o))
  | .cpx o => some (m.cmp m.x (m.get o))
  | .cpy o => some (m.cmp m.y (m.get o))
  | .bit o => let v := m.get o; some { m with z := decide (m.a &&& v = 0), n := topBit v, v := topBit (rol8 v false) }
  | .inc o => let v := m.get o + 1; some ((m.put o v).nz v)
  | .dec o => let v := m.get o - 1; some ((m.put o v).nz v)
  | .asl o => let w := m.get o; let v := rol8 w false; some { (m.put o v).nz v with c := topBit w }
  | .lsr o => let w := m.get o; let v := ror8 w false; some { (m.put o v).nz v with c := lowBit w }
  | .rol o => let w := m.get o; let v := rol8 w m.c; some { (m.put o v).nz v with c := topBit w }
  | .ror o => let w := m.get o; let v := ror8 w m.c; some { (m.put o v).nz v with c := lowBit w }
  | .inx => some { m.nz (m.x + 1) with x := m.x + 1 }
  | .dex => some { m.nz (m.x - 1) with x := m.x - 1 }
  | .iny => some { m.nz (m.y + 1) with y := m.y + 1 }
  | .dey => some { m.nz (m.y - 1) with y := m.y - 1 }
  | .tax => some { m.nz m.a with x := m.a }
  | .tay => some { m.nz m.a with y := m.a }
  | .txa => some { m.nz m.x with a := m.x }
  | .tya => some { m.nz m.y with a := m.y }
  | .clc => some { m with c := false }
  | .sec => some { m with c := true }
  | .clv => some { m with v := false }
  | .pha => some { m with stk := .byte m.a :: m.stk }
  | .php => some { m with stk := .flags m.c m.z m.n m.v :: m.stk }
  | .pla => match m.stk with
      | .byte b :: s => some { m.nz b with a := b, stk := s }
      | _ => none
  | .plp => match m.stk with
      | .flags c z n v :: s => some { m with c := c, z := z, n := n, v := v, stk := s }
      | _ => none
  | .dropRet => match m.stk with
      | .ret _ :: s => some { m with stk := s }
      | _ => none
  | .putc => let r := m.dev m.out
      some { m with out := m.out ++ [(m.zp.chn, m.a)], a := r.a, x := r.x, c := r.c, z := r.z, n := r.n, v := r.v,
                    zp := { m.zp with ioerr := r.e } }
  | .tsx => let v := 255#8 - BitVec.ofNat 8 (stkSize m.stk); some { m.nz v with x := v }
  | .mod c => if m.zp.get c = 0x88 then some { m.nz (m.y - 1) with y := m.y - 1 }
      else if m.zp.get c = 0xC8 then some { m.nz (m.y + 1) with y := m.y + 1 }
      else none
  | _ => none

/-- Result of a step: running, back in the interpreter, ended with an error message, or stuck. -/
inductive Out
  | go (k : Code) (m : M)
  | halt (m : M)
  | err
  | stuck

/-- The code from a label on. -/
def find (l : String) : Code → Option Code
  | [] => none
  | .lb l' :: r => if l' = l then some r else find l r
  | _ :: r => find l r

theorem find_lb (l l' : String) (r : Code) : find l (.lb l' :: r) = if l' = l then some r else find l r := rfl
theorem find_ins (l : String) (i : Ins) (r : Code) : find l (.ins i :: r) = find l r := rfl

def jump (P : Code) (l : String) (m : M) : Out :=
  match find l P with
  | some k => .go k m
  | none => .stuck

/-- Conditional branch. -/
def branch (P : Code) (b : Bool) (l : String) (r : Code) (m : M) : Out :=
  match find l P with
  | some k => .go (if b then k else r) m
  | none => .stuck

/-- One step: `P` is all the code, `k` the code from the program counter on. -/
def step (P : Code) (k : Code) (m : M) : Out :=
  match k with
  | [] => .stuck
  | .lb _ :: r => .go r m
  | .ins i :: r =>
    match i with
    | .bcc l => branch P (!m.c) l r m
    | .bcs l => branch P m.c l r m
    | .beq l => branch P m.z l r m
    | .bne l => branch P (!m.z) l r m
    | .bmi l => branch P m.n l r m
    | .bpl l => branch P (!m.n) l r m
    | .bvc l => branch P (!m.v) l r m
    | .bvs l => branch P m.v l r m
    | .jmp l => jump P l m
    | .jsr l => jump P l { m with stk := .ret r :: m.stk }
    | .rts => match m.stk with
        | .ret k :: s => .go k { m with stk := s }
        | _ => .stuck
    | .next => .halt m
    | .nextIncsp => .halt { m with zp := { m.zp with sptr := m.zp.sptr + 1 } }
    | .fail => .err
    | i => match exec i m with
        | some m' => .go r m'
        | none => .stuck

/-- `n` steps. -/
def run (P : Code) : Nat → Code → M → Out
  | 0, k, m => .go k m
  | n + 1, k, m => match step P k m with
      | .go k' m' => run P n k' m'
      | o => o

/-- Control gets from one place to another. -/
def Reach (P : Code) (k : Code) (m : M) (k' : Code) (m' : M) : Prop := ∃ n, run P n k m = .go k' m'

/-- The routine ends and the interpreter goes on with the next instruction. -/
def Halts (P : Code) (k : Code) (m m' : M) : Prop := ∃ n, run P n k m = .halt m'

/-- The routine ends the program with the memory error. -/
def Fails (P : Code) (k : Code) (m : M) : Prop := ∃ n, run P n k m = .err

theorem run_add (P : Code) (a b : Nat) (k : Code) (m : M) :
    run P (a + b) k m = match run P a k m with
      | .go k' m' => run P b k' m'
      | o => o := by
  induction a generalizing k m with
  | zero => simp [run]
  | succ a ih => rw [Nat.succ_add]; simp only [run]; cases step P k m <;> simp [ih]

theorem Reach.refl (P : Code) (k : Code) (m : M) : Reach P k m k m := ⟨0, rfl⟩

theorem Reach.trans {P k k' k'' : Code} {m m' m'' : M} (h : Reach P k m k' m') (h' : Reach P k' m' k'' m'') :
    Reach P k m k'' m'' := by
  obtain ⟨n, hn⟩ := h; obtain ⟨n', hn'⟩ := h'
  exact ⟨n + n', by rw [run_add, hn]; exact hn'⟩

theorem Reach.halts {P k k' : Code} {m m' m'' : M} (h : Reach P k m k' m') (h' : Halts P k' m' m'') : Halts P k m m'' := by
  obtain ⟨n, hn⟩ := h; obtain ⟨n', hn'⟩ := h'
  exact ⟨n + n', by rw [run_add, hn]; exact hn'⟩

theorem Reach.fails {P k k' : Code} {m m' : M} (h : Reach P k m k' m') (h' : Fails P k' m') : Fails P k m := by
  obtain ⟨n, hn⟩ := h; obtain ⟨n', hn'⟩ := h'
  exact ⟨n + n', by rw [run_add, hn]; exact hn'⟩

theorem Reach.step {P k k1 k' : Code} {m m1 m' : M} (h : step P k m = .go k1 m1) (h' : Reach P k1 m1 k' m') :
    Reach P k m k' m' := by
  obtain ⟨n, hn⟩ := h'; exact ⟨n + 1, by simp [run, h, hn]⟩

theorem Halts.step {P k k1 : Code} {m m1 m' : M} (h : FB.Rt.step P k m = .go k1 m1) (h' : Halts P k1 m1 m') :
    Halts P k m m' := by
  obtain ⟨n, hn⟩ := h'; exact ⟨n + 1, by simp [run, h, hn]⟩

theorem Halts.now {P k : Code} {m m' : M} (h : FB.Rt.step P k m = .halt m') : Halts P k m m' :=
  ⟨1, by simp [run, h]⟩

/-- Halting states are unique. -/
theorem Halts.unique {P k : Code} {m m1 m2 : M} (h1 : Halts P k m m1) (h2 : Halts P k m m2) : m1 = m2 := by
  obtain ⟨a, ha⟩ := h1; obtain ⟨b, hb⟩ := h2
  have e1 : run P (a + b) k m = .halt m1 := by rw [run_add, ha]
  have e2 : run P (a + b) k m = .halt m2 := by rw [Nat.add_comm, run_add, hb]
  rw [e1] at e2; exact Out.halt.inj e2

@[simp] theorem add8_toNat (a b : B) (c : Bool) : (add8 a b c).toNat = (a.toNat + b.toNat + c.toNat) % 256 := by simp [add8]
@[simp] theorem rol8_toNat (a : B) (c : Bool) : (rol8 a c).toNat = (2 * a.toNat + c.toNat) % 256 := by simp [rol8]
@[simp] theorem ror8_toNat (a : B) (c : Bool) : (ror8 a c).toNat = a.toNat / 2 + 128 * c.toNat := by
  have := a.isLt; have := c.toNat_le; simp [ror8]; omega
@[simp] theorem word_toNat (l h : B) : (word l h).toNat = l.toNat + 256 * h.toNat := by
  have := l.isLt; have := h.isLt; simp [word]; omega

@[simp] theorem addC_toNat (a b : B) (c : Bool) : (addC a b c).toNat = (a.toNat + b.toNat + c.toNat) / 256 := by
  have := a.isLt; have := b.isLt; have := c.toNat_le
  unfold addC; by_cases h : 256 ≤ a.toNat + b.toNat + c.toNat <;> simp [h] <;> omega
@[simp] theorem topBit_toNat (a : B) : (topBit a).toNat = a.toNat / 128 := by
  have := a.isLt
  unfold topBit; by_cases h : 128 ≤ a.toNat <;> simp [h] <;> omega
@[simp] theorem lowBit_toNat (a : B) : (lowBit a).toNat = a.toNat % 2 := by
  unfold lowBit; by_cases h : a.toNat % 2 = 1 <;> simp [h] <;> omega

theorem toInt8 (b : B) : b.toInt = if b.toNat < 128 then (b.toNat : Int) else b.toNat - 256 := by
  have := b.isLt; rw [BitVec.toInt_eq_toNat_cond]; split <;> split <;> omega
theorem toInt16 (b : W) : b.toInt = if b.toNat < 32768 then (b.toNat : Int) else b.toNat - 65536 := by
  have := b.isLt; rw [BitVec.toInt_eq_toNat_cond]; split <;> split <;> omega

@[simp] theorem topBit_0 : topBit 0#8 = false := rfl
@[simp] theorem topBit_1 : topBit 1#8 = false := rfl
@[simp] theorem topBit_255 : topBit 255#8 = true := rfl
@[simp] theorem topBit_128 : topBit 128#8 = true := rfl

/-- Execute the code at the head. -/
syntax "rt_exec" ("[" Lean.Parser.Tactic.simpLemma,* "]")? : tactic
macro_rules
  | `(tactic| rt_exec) => `(tactic| rt_exec [])
  | `(tactic| rt_exec [$ls,*]) => `(tactic| simp [run, step, exec, M.get, M.put, M.nz, M.adc, M.cmp, Zp.get, Zp.set, branch, jump, find_lb, find_ins, $ls,*])

/-! ## What a routine does, seen from the interpreter -/

/-- The accumulator of the virtual machine is in `A` (low) and `X` (high). -/
def M.ax (m : M) : W := word m.a m.x

/-- Entry `i` of the integer stack (0 is the top): `stack_l`, `stack_h` from `sptr` up. -/
def M.stkAt (m : M) (i : B) : W := word (m.sl (m.zp.sptr + i)) (m.sh (m.zp.sptr + i))

/-- Everything that the program can observe, except `AX`, is as before, and the integer stack pointer is `sp`:
memory, both stacks, the store address, the free memory pointer, and the copy loop is ready to be used. -/
structure Kept (m m' : M) (sp : B) : Prop where
  stk : m'.stk = m.stk
  sl : m'.sl = m.sl
  sh : m'.sh = m.sh
  ram : m'.ram = m.ram
  sptr : m'.zp.sptr = sp
  saddr : m'.zp.saddr = m.zp.saddr
  saddrh : m'.zp.saddrh = m.zp.saddrh
  arr : m'.zp.arr = m.zp.arr
  arrh : m'.zp.arrh = m.zp.arrh
  mins : m'.zp.mins = m.zp.mins

/-- State in which the interpreter enters a routine (`interpreter.asm:110-111`): `Y` is the stack pointer. -/
def Entry (m : M) : Prop := m.y = m.zp.sptr

theorem stkAt0 {m : M} (h : Entry m) : m.stkAt 0 = word (m.sl m.y) (m.sh m.y) := by
  have : m.zp.sptr = m.y := h.symm
  simp [M.stkAt, this]

theorem Kept.trans {m m' m'' : M} {s s' : B} (h : Kept m m' s) (h' : Kept m' m'' s') : Kept m m'' s' :=
  ⟨h'.stk.trans h.stk, h'.sl.trans h.sl, h'.sh.trans h.sh, h'.ram.trans h.ram, h'.sptr, h'.saddr.trans h.saddr,
   h'.saddrh.trans h.saddrh, h'.arr.trans h.arr, h'.arrh.trans h.arrh, h'.mins.trans h.mins⟩

/-- The routine `k` computes the binary operator `f` of the top of the stack and `AX` and drops the top. -/
def Binary (P k : Code) (f : W → W → W) : Prop :=
  ∀ m, Entry m → ∃ m', Halts P k m m' ∧ m'.ax = f (m.stkAt 0) m.ax ∧ Kept m m' (m.zp.sptr + 1)

/-- The routine `k` computes the unary operator `f` of `AX`. -/
def Unary (P k : Code) (f : W → W) : Prop :=
  ∀ m, Entry m → ∃ m', Halts P k m m' ∧ m'.ax = f m.ax ∧ Kept m m' m.zp.sptr

end FB.Rt
