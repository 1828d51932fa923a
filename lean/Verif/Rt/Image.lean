import Verif.Rt.Print
import Verif.Rt.ExtSpec
import Verif.Rt.Mul
import Verif.Rt.Div
/-!
# A program in the memory of the machine

How the assembler and the linker place a program, its data and the runtime, and what it means that a state of the 6502 represents
a state of the virtual machine of `Verif.VM`.
-/
namespace FB.Rt
open Ins Opd

/-- `EXE_CHR`, `chr.asm:34-39`; `b` is the address of `chr_string`, `chr.asm:42-45`. -/
def chrCode (b : W) : Code := asm!["EXE_CHR", sta (abs (b + 1)), lda (imm (lo b)), ldx (imm (hi b)), next]

/-- `EXE_POP`, `pop.asm:35-39`. -/
def popCode : Code := asm!["EXE_POP", lda (stkL 0), ldx (stkH 0), nextIncsp]

/-- Where the linker put things: the code of the program (`bytecode_start`), the page of the table of jumps (`__JUMPTAB_RUN__`), the
value of each token and the address of its routine (`deftok.inc:31-43`), and the buffer of `CHR$` (`chr.asm:42-45`). -/
structure Image where
  base : W
  num : Tok → B
  page : B
  exe : Tok → W
  chr : W

/-- Bytes that the assembler writes for an item, `codew.h:194-222`: token, byte, word (low byte first), number of variable,
floating point constant, string with its length.  (The text that is assembled is the subject of C21.) -/
def bytesOf (env : Env) (img : Image) : Codew → List B
  | .tok t => [img.num t]
  | .byte v => [v]
  | .byteStr s => [env.byteSym s]
  | .word v => [lo v, hi v]
  | .wordStr s => [lo (env.wordSym s), hi (env.wordSym s)]
  | .varn n _ => [BitVec.ofNat 8 n]
  | .label _ => []
  | .fp b => b
  | .str s => strMem s

/-- Bytes of a piece of code. -/
def bytesAll (env : Env) (img : Image) (k : List Codew) : List B := k.flatMap (bytesOf env img)

/-- Address of the suffix `k` of the program `P`. -/
def addr (env : Env) (img : Image) (P k : List Codew) : W :=
  img.base + BitVec.ofNat 16 ((bytesAll env img P).length - (bytesAll env img k).length)

/-- `PRINT_COLOR`, `interpreter.asm:66-67`: a cell of page zero. -/
def pcol (env : Env) : W := (env.byteSym "PRINT_COLOR").setWidth 16

/-- Cells that belong to the runtime: the colour, the buffer of `CHR$` and the pointer to free memory. -/
def Reserved (env : Env) (img : Image) (a : W) : Prop :=
  a = pcol env ∨ a = img.chr ∨ a = img.chr + 1 ∨ a = aptr env ∨ a = aptr env + 1

/-- Cells that hold the program and the part of the table of jumps that it uses. -/
def Fixed (env : Env) (img : Image) (P : List Codew) (a : W) : Prop :=
  (∃ i, i < (bytesAll env img P).length ∧ a = img.base + BitVec.ofNat 16 i) ∨
  ∃ t, Codew.tok t ∈ P ∧ (a = word (img.num t) img.page ∨ a = word (img.num t + 1) img.page)

/-- The program and the table are in memory. -/
structure Loaded (env : Env) (img : Image) (P : List Codew) (ram : W → B) : Prop where
  code : ∀ i b, (bytesAll env img P)[i]? = some b → ram (img.base + BitVec.ofNat 16 i) = b
  low : ∀ t, Codew.tok t ∈ P → ram (word (img.num t) img.page) = lo (img.exe t)
  high : ∀ t, Codew.tok t ∈ P → ram (word (img.num t + 1) img.page) = hi (img.exe t)

/-- What the assembler and the linker guarantee: labels are the addresses of their places, the length of a string fits in its byte,
and the cells of the runtime are apart from each other and from the program. -/
structure Placed (env : Env) (img : Image) (P : List Codew) : Prop where
  labels : ∀ l k, findLabel l P = some k → env.wordSym l = addr env img P k
  strs : ∀ s, Codew.str s ∈ P → s.length ≤ 255
  apart : ∀ a, Reserved env img a → ¬ Fixed env img P a
  color : pcol env ≠ img.chr ∧ pcol env ≠ img.chr + 1

/-- A word represents a value: a number is itself; a pointer is the address of a literal of the program, or of the buffer of
`CHR$`, and an offset. -/
def VRep (env : Env) (img : Image) (P : List Codew) (ram : W → B) : Val → W → Prop
  | .num a, w => w = a
  | .ptr s o, w => (∃ k, (Codew.str s :: k) <:+ P ∧ w = addr env img P (.str s :: k) + o) ∨
      ∃ b, s = [b] ∧ ram (img.chr + 1) = b ∧ w = img.chr + o

/-- The 40 places of the integer stack (`interpreter.asm:70-87`), from the top. -/
structure StkRep (V : Val → W → Prop) (stk : List Val) (sp : B) (sl sh : B → B) : Prop where
  depth : sp.toNat + stk.length = 40
  val : ∀ i x, stk[i]? = some x → V x (word (sl (sp + BitVec.ofNat 8 i)) (sh (sp + BitVec.ofNat 8 i)))

/-- The event of a character written by the machine: `IOCHN` is 16 times the channel. -/
def evOf (p : B × B) : Event := .put (BitVec.ofNat 16 (p.1.toNat / 16)) p.2

/-- The machine represents the data of the virtual machine. -/
structure DRep (env : Env) (img : Image) (P : List Codew) (d : D) (v : View) : Prop where
  ax : ∀ x, d.ax = some x → VRep env img P v.ram x v.ax
  saddr : ∀ s, d.saddr = some s → v.saddr = s
  stk : StkRep (VRep env img P v.ram) d.stk v.sp v.sl v.sh
  mem : ∀ a, ¬ Reserved env img a → v.ram a = d.mem a
  color : v.ram (pcol env) = d.color
  one : v.ram img.chr = 1
  loaded : Loaded env img P v.ram
  vpage : env.heap = word 0 v.vpage
  chn : d.iochn.toNat < 8 ∧ v.chn = BitVec.ofNat 8 (16 * d.iochn.toNat)
  out : d.out = v.out.map evOf
  arr : v.arr = mkW (d.mem (aptr env)) (d.mem (aptr env + 1))
  mins : v.mins = 0x88

/-- Return addresses on the stack of the processor, `jump.asm:35-43`. -/
def retSlots (env : Env) (img : Image) (P : List Codew) (rets : List (List Codew)) : List Slot :=
  rets.flatMap fun k => [.byte (hi (addr env img P k)), .byte (lo (addr env img P k))]

/-- The machine represents a configuration of the virtual machine. -/
structure Rep (env : Env) (img : Image) (P : List Codew) (c : Cfg) (v : View) : Prop where
  code : c.code <:+ P
  cp : v.cp = addr env img P c.code
  rets : ∀ k ∈ c.rets, k <:+ P
  stk : v.stk = retSlots env img P c.rets
  d : DRep env img P c.d v

/-- The routines of the tokens that the optimizer does not know. -/
def extRoutine : String → Option (Code × Code)
  | "ABS" => some (absnegCode, entry absnegCode "EXE_ABS")
  | "SGN" => some (sgnCode, sgnCode)
  | "DPEEK" => some (coreCode, coreCode.EXE_DPEEK)
  | "POP" => some (popCode, popCode)
  | "FOR" => some (cmpCode, cmpCode.EXE_FOR)
  | "FOR_NEXT" => some (cmpCode, cmpCode.EXE_FOR_NEXT)
  | "FOR_EXIT" => some (forExitCode, forExitCode)
  | "MOVE" => some (memCode, memCode.EXE_MOVE)
  | "NMOVE" => some (memCode, memCode.EXE_NMOVE)
  | "MSET" => some (memCode, memCode.EXE_MSET)
  | "CMP_STR" => some (cmpStrCode, cmpStrCode.EXE_CMP_STR)
  | "COPY_STR" => some (memCode, memCode.EXE_COPY_STR)
  | "CAT_STR" => some (memCode, memCode.EXE_CAT_STR)
  | _ => none

/-- The routine of a token. -/
def routine (env : Env) (img : Image) : Tok → Option (Code × Code)
  | .NUM => some (coreCode, coreCode.EXE_NUM)
  | .BYTE => some (coreCode, coreCode.EXE_BYTE)
  | .CSTRING => some (coreCode, coreCode.EXE_CSTRING)
  | .VAR_ADDR => some (coreCode, coreCode.EXE_VAR_ADDR)
  | .VAR_SADDR => some (coreCode, coreCode.EXE_VAR_SADDR)
  | .VAR_LOAD => some (coreCode, coreCode.EXE_VAR_LOAD)
  | .SHL8 => some (shl8Code, shl8Code)
  | .ZERO => some (coreCode, coreCode.EXE_0)
  | .ONE => some (coreCode, coreCode.EXE_1)
  | .PUSH => some (coreCode, coreCode.EXE_PUSH)
  | .PUSH_VAR_LOAD => some (coreCode, coreCode.EXE_PUSH_VAR_LOAD)
  | .PUSH_NUM => some (coreCode, coreCode.EXE_PUSH_NUM)
  | .PUSH_BYTE => some (coreCode, coreCode.EXE_PUSH_BYTE)
  | .PUSH_0 => some (coreCode, coreCode.EXE_PUSH_0)
  | .PUSH_1 => some (coreCode, coreCode.EXE_PUSH_1)
  | .NEG => some (absnegCode, entry absnegCode "EXE_NEG")
  | .ADD => some (addsubCode, entry addsubCode "EXE_ADD")
  | .SUB => some (addsubCode, entry addsubCode "EXE_SUB")
  | .MUL => some (mulCode, mulCode)
  | .DIV => some (divCode, entry divCode "EXE_DIV")
  | .MOD => some (divCode, entry divCode "EXE_MOD")
  | .ADD_VAR => some (coreCode, coreCode.EXE_ADD_VAR)
  | .BIT_AND => some (bitCode .and, bitCode .and)
  | .BIT_OR => some (bitCode .ora, bitCode .ora)
  | .BIT_EXOR => some (bitCode .eor, bitCode .eor)
  | .PEEK => some (coreCode, coreCode.EXE_PEEK)
  | .BYTE_PEEK => some (coreCode, coreCode.EXE_BYTE_PEEK)
  | .L_NOT => some (lnotCode, lnotCode)
  | .L_OR => some (lorCode, lorCode)
  | .L_AND => some (landCode, landCode)
  | .LT => some (cmpCode, cmpCode.EXE_LT)
  | .GT => some (cmpCode, cmpCode.EXE_GT)
  | .NEQ => some (cmpCode, cmpCode.EXE_NEQ)
  | .EQ => some (cmpCode, cmpCode.EXE_EQ)
  | .COMP_0 => some (comp0Code, entry comp0Code "EXE_COMP_0")
  | .POKE => some (coreCode, coreCode.EXE_POKE)
  | .DPOKE => some (coreCode, coreCode.EXE_DPOKE)
  | .INC => some (coreCode, coreCode.EXE_INC)
  | .DEC => some (coreCode, coreCode.EXE_DEC)
  | .VAR_STORE => some (coreCode, coreCode.EXE_VAR_STORE)
  | .SADDR => some (coreCode, coreCode.EXE_SADDR)
  | .INCVAR => some (coreCode, coreCode.EXE_INCVAR)
  | .DECVAR => some (coreCode, coreCode.EXE_DECVAR)
  | .BYTE_POKE => some (coreCode, coreCode.EXE_BYTE_POKE)
  | .NUM_POKE => some (coreCode, coreCode.EXE_NUM_POKE)
  | .VAR_STORE_0 => some (coreCode, coreCode.EXE_VAR_STORE_0)
  | .PRINT_STR => some (printCode (pcol env), printCode (pcol env))
  | .PUT => some (coreCode, coreCode.EXE_PUT)
  | .BYTE_PUT => some (coreCode, coreCode.EXE_BYTE_PUT)
  | .JUMP => some (coreCode, coreCode.EXE_JUMP)
  | .CJUMP => some (coreCode, coreCode.EXE_CJUMP)
  | .CNJUMP => some (coreCode, coreCode.EXE_CNJUMP)
  | .CALL => some (coreCode, coreCode.EXE_CALL)
  | .RET => some (coreCode, coreCode.EXE_RET)
  | .CRET => some (coreCode, coreCode.EXE_CRET)
  | .CNRET => some (coreCode, coreCode.EXE_CNRET)
  | .USHL => some (ushlCode, ushlCode)
  | .CHR => some (chrCode img.chr, chrCode img.chr)
  | .IOCHN => some (coreCode, coreCode.EXE_IOCHN)
  | .STR_IDX => some (idxCode, idxCode.EXE_STR_IDX)
  | .other n => extRoutine n
  | .GET | .GETKEY | .END => none

/-- The code at the address of each routine. -/
def Routines (env : Env) (img : Image) (P : List Codew) (rt : W → Option (Code × Code)) : Prop :=
  ∀ t, Codew.tok t ∈ P → ∀ r, routine env img t = some r → rt (img.exe t) = some r

/-- One instruction of the interpreter: the loop (`interpreter.asm:103-115`) reads a token and jumps through the table, and the
routine that is there runs until it jumps back. -/
def MStep (rt : W → Option (Code × Code)) (page : B) (m m' : M) : Prop :=
  ∃ m1 Q k, Reach dispatchCode dispatchCode.nxtins m dispatchCode.jump m1 ∧ rt (jumpTarget m1 page) = some (Q, k) ∧ Halts Q k m1 m'

/-- Any number of instructions. -/
inductive MSteps (rt : W → Option (Code × Code)) (page : B) : M → M → Prop
  | refl (m : M) : MSteps rt page m m
  | step {m m1 m' : M} : MStep rt page m m1 → MSteps rt page m1 m' → MSteps rt page m m'

theorem MSteps.trans {rt : W → Option (Code × Code)} {page : B} {m m1 m' : M} (h : MSteps rt page m m1) (h' : MSteps rt page m1 m') :
    MSteps rt page m m' := by
  induction h with
  | refl => exact h'
  | step s _ ih => exact .step s (ih h')

/-- The interpreter is about to run `EXE_END` (`jump.asm:58-64`), that leaves it. -/
def MEnds (img : Image) (m : M) : Prop :=
  ∃ m1, Reach dispatchCode dispatchCode.nxtins m dispatchCode.jump m1 ∧ jumpTarget m1 img.page = img.exe .END

/-! ## Addresses -/

section
variable {env : Env} {img : Image} {P : List Codew}

theorem bytesAll_cons (x : Codew) (k : List Codew) : bytesAll env img (x :: k) = bytesOf env img x ++ bytesAll env img k := rfl

theorem suffix_tail {x : Codew} {k : List Codew} (h : (x :: k) <:+ P) : k <:+ P := (List.suffix_cons x k).trans h

theorem suffix_mem {x : Codew} {k : List Codew} (h : (x :: k) <:+ P) : x ∈ P := h.subset (List.mem_cons_self ..)

theorem bytes_suffix {k : List Codew} (h : k <:+ P) : ∃ b, bytesAll env img P = b ++ bytesAll env img k := by
  obtain ⟨t, rfl⟩ := h
  exact ⟨bytesAll env img t, by simp [bytesAll]⟩

theorem addr_tail {x : Codew} {k : List Codew} (h : (x :: k) <:+ P) :
    addr env img P k = addr env img P (x :: k) + BitVec.ofNat 16 (bytesOf env img x).length := by
  obtain ⟨b, hb⟩ := bytes_suffix (env := env) (img := img) h
  unfold addr
  rw [BitVec.add_assoc, ← BitVec.ofNat_add]
  congr 2
  rw [hb, bytesAll_cons]
  simp; omega

theorem ram_at {ram : W → B} (hl : Loaded env img P ram) {x : Codew} {k : List Codew} (h : (x :: k) <:+ P) {i : Nat} {b : B}
    (hb : (bytesOf env img x)[i]? = some b) : ram (addr env img P (x :: k) + BitVec.ofNat 16 i) = b := by
  obtain ⟨t, ht⟩ := bytes_suffix (env := env) (img := img) h
  unfold addr
  rw [BitVec.add_assoc, ← BitVec.ofNat_add]
  apply hl.code
  rw [ht, bytesAll_cons]
  have hi : i < (bytesOf env img x).length := (List.getElem?_eq_some_iff.1 hb).1
  rw [List.getElem?_append_right (by simp)]
  simp only [List.length_append]
  rw [show t.length + ((bytesOf env img x).length + (bytesAll env img k).length) - ((bytesOf env img x).length + (bytesAll env img k).length) + i - t.length = i by omega]
  rw [List.getElem?_append_left hi, hb]

/-- The byte of a suffix is in the part of memory that holds the program. -/
theorem fixed_at {x : Codew} {k : List Codew} (h : (x :: k) <:+ P) {i : Nat} (hi : i < (bytesOf env img x).length) :
    Fixed env img P (addr env img P (x :: k) + BitVec.ofNat 16 i) := by
  obtain ⟨t, ht⟩ := bytes_suffix (env := env) (img := img) h
  refine .inl ⟨(bytesAll env img P).length - (bytesAll env img (x :: k)).length + i, ?_, ?_⟩
  · rw [ht, bytesAll_cons]; simp; omega
  · unfold addr; rw [BitVec.add_assoc, ← BitVec.ofNat_add]

theorem loaded_of {ram ram' : W → B} (hl : Loaded env img P ram) (h : ∀ a, Fixed env img P a → ram' a = ram a) :
    Loaded env img P ram' :=
  ⟨fun i b hb => by
      rw [h _ (.inl ⟨i, (List.getElem?_eq_some_iff.1 hb).1, rfl⟩)]; exact hl.code i b hb,
   fun t ht => by rw [h _ (.inr ⟨t, ht, .inl rfl⟩)]; exact hl.low t ht,
   fun t ht => by rw [h _ (.inr ⟨t, ht, .inr rfl⟩)]; exact hl.high t ht⟩

theorem findLabel_suffix {l : String} {k : List Codew} : ∀ {P : List Codew}, findLabel l P = some k → k <:+ P := by
  intro P
  induction P with
  | nil => intro h; cases h
  | cons x P ih =>
    intro h
    unfold findLabel at h
    split at h
    · cases h; exact List.suffix_refl _
    · exact (ih h).trans (List.suffix_cons x P)

/-! ## The stack -/

theorem StkRep.push {V : Val → W → Prop} {stk : List Val} {sp : B} {sl sh : B → B} (h : StkRep V stk sp sl sh) {x : Val} {w : W}
    (hx : V x w) (hl : (x :: stk).length ≤ 40) :
    StkRep V (x :: stk) (sp - 1) (upd sl (sp - 1) (lo w)) (upd sh (sp - 1) (hi w)) := by
  have hd := h.depth
  simp only [List.length_cons] at hl
  have hs : (sp - 1).toNat = sp.toNat - 1 := by
    have := sp.isLt
    simp [BitVec.toNat_sub]; omega
  refine ⟨by rw [hs]; simp only [List.length_cons]; omega, ?_⟩
  intro i y hy
  cases i with
  | zero =>
    cases hy
    have : word (lo w) (hi w) = w := by
      apply BitVec.eq_of_toNat_eq
      have := w.isLt
      simp [lo, hi, Nat.shiftRight_eq_div_pow]; omega
    simpa [upd, this] using hx
  | succ i =>
    have hy : stk[i]? = some y := hy
    have hi := (List.getElem?_eq_some_iff.1 hy).1
    have e : sp - 1 + BitVec.ofNat 8 (i + 1) = sp + BitVec.ofNat 8 i := by
      apply BitVec.eq_of_toNat_eq
      rw [BitVec.toNat_add, hs, BitVec.toNat_add]
      simp only [BitVec.toNat_ofNat]; omega
    have n : sp + BitVec.ofNat 8 i ≠ sp - 1 := by
      intro h
      have := congrArg BitVec.toNat h
      rw [hs, BitVec.toNat_add] at this
      simp only [BitVec.toNat_ofNat] at this; omega
    rw [e]
    simp only [upd, if_neg n]
    exact h.val i y hy

theorem StkRep.pop {V : Val → W → Prop} {x : Val} {stk : List Val} {sp : B} {sl sh : B → B} (h : StkRep V (x :: stk) sp sl sh) :
    V x (word (sl sp) (sh sp)) ∧ StkRep V stk (sp + 1) sl sh := by
  have hd := h.depth
  simp only [List.length_cons] at hd
  have hs : (sp + 1).toNat = sp.toNat + 1 := by simp [BitVec.toNat_add]; omega
  refine ⟨?_, by rw [hs]; omega, ?_⟩
  · have := h.val 0 x rfl
    simpa using this
  · intro i y hy
    have := h.val (i + 1) y hy
    have e : sp + 1 + BitVec.ofNat 8 i = sp + BitVec.ofNat 8 (i + 1) := by
      rw [BitVec.add_assoc, BitVec.ofNat_add, BitVec.add_comm 1]; rfl
    rw [e]; exact this

theorem StkRep.mono {V V' : Val → W → Prop} {stk : List Val} {sp : B} {sl sh : B → B} (h : StkRep V stk sp sl sh)
    (hv : ∀ x ∈ stk, ∀ w, V x w → V' x w) : StkRep V' stk sp sl sh :=
  ⟨h.depth, fun i x hx => hv x (List.mem_of_getElem? hx) _ (h.val i x hx)⟩

end

end FB.Rt
