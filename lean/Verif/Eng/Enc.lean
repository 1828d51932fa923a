import Verif.Eng.Steps
import Verif.Syn.Tables
/-!
# The tables of the native compiler in memory

`/repo/src/compiler/synt-emit-asm.cc` writes the tables as bytes. Here is what it writes, the memory of the machine when the parser runs, and the runs of the
parser with the routines that the tables call.
-/
namespace FB.Eng
open FB.Rt FB.Syn
open FB.Parse (Str Act DCode PCode)

/-- The values that the assembler and the linker give to tokens and symbols (`synt-emit-asm.cc:38-62` writes their names). -/
structure Syms where
  tok : Tok → B
  byte : Str → B
  word : Str → W

/-- `transform_bytes`, `synt-emit-asm.cc:38-62`, on one element. -/
def encD (v : Syms) : DCode → List B
  | .wordSym s => [lo (v.word s), hi (v.word s)]
  | .wordVal n => [BitVec.ofNat 8 (n % 256), BitVec.ofNat 8 (n / 256)]
  | .byteVal n => [BitVec.ofNat 8 (n % 256)]
  | .byteSym s => [v.byte s]
  | .token t => [v.tok t]

/-- `print_bytes_n`, `synt-emit-asm.cc:63-80`: at most `max_emit_bytes` (28, `synt-emit-asm.h:25`) in each code. The codes are those of `parse.asm:81-113`. -/
def encEmit (bs : List B) : List B :=
  if bs.length ≤ 28 then (if bs = [] then [] else BitVec.ofNat 8 (bs.length + 2) :: bs)
  else 30#8 :: (bs.take 28 ++ encEmit (bs.drop 28))
termination_by bs.length
decreasing_by simp; omega

/-- `print_bytes_ret`, `synt-emit-asm.cc:81-91`. -/
def encRet (bs : List B) : List B :=
  match bs.getLast? with
  | none => [1#8]
  | some b => encEmit bs.dropLast ++ [2#8, b]

/-- The number of a routine and of a table, `synt-emit-asm.cc:177-189`. -/
def extNum (exts : List Act) (a : Act) : Nat := exts.idxOf a
def tabNum (exts : List Act) (sl : SMs) (t : Nat) : Nat := exts.length + (sl.map SM.name).idxOf t

/-- One code of a line: `print_literal`, `print_call`, `print_line`, `synt-emit-asm.cc:97-133`. -/
def encCode (v : Syms) (exts : List Act) (sl : SMs) : PCode → List B
  | .lit s => s.map fun c => BitVec.ofNat 8 c
  | .emit d => encEmit (d.flatMap (encD v))
  | .emitRet d => encRet (d.flatMap (encD v))
  | .ext a => [BitVec.ofNat 8 (128 + extNum exts a)]
  | .call t => [BitVec.ofNat 8 (128 + tabNum exts sl t)]
  | .ret => [1#8]

/-- `print_line`, `synt-emit-asm.cc:109-133`. -/
def encLine (v : Syms) (exts : List Act) (sl : SMs) (l : List PCode) : List B := l.flatMap (encCode v exts sl)

/-- `print`, `synt-emit-asm.cc:137-147`. -/
def encTable (v : Syms) (exts : List Act) (sl : SMs) (T : SM) : List B :=
  T.lines.flatMap (encLine v exts sl) ++ if T.complete then [] else [0#8]

/-- A code that can be in a line before its end: the characters of literals are not confused with other codes, something is emitted, the routines and tables exist. -/
def bodyOk (v : Syms) (exts : List Act) (sl : SMs) : PCode → Bool
  | .lit s => s.all fun c => decide (31 ≤ c) && decide (c < 128)
  | .emit d => decide (d.flatMap (encD v) ≠ [])
  | .ext a => exts.contains a
  | .call t => (sl.map SM.name).contains t
  | _ => false

/-- A line ends with a return, and only there. -/
def lineOk (v : Syms) (exts : List Act) (sl : SMs) : List PCode → Bool
  | [] => false
  | [.ret] => true
  | [.emitRet _] => true
  | c :: cs => bodyOk v exts sl c && lineOk v exts sl cs

/-- A code that cannot fail: `canFail` in `synt-sm.cc:181-252`. -/
def noFail : PCode → Bool
  | .emit _ | .emitRet _ | .ret => true
  | _ => false

/-- What the parser needs from a table: its lines are well formed and have at most 256 bytes; the last line of a complete table cannot fail. -/
def tableOk (v : Syms) (exts : List Act) (sl : SMs) (T : SM) : Bool :=
  (T.lines.all fun l => lineOk v exts sl l && decide ((encLine v exts sl l).length ≤ 256)) &&
  (!T.complete || match T.lines.getLast? with | none => false | some l => l.all noFail)

/-! ## Memory -/

/-- The bytes after address `p`. They are in the memory that does not change, outside page zero. -/
def At (F : W → Prop) (mem : W → B) : W → List B → Prop
  | _, [] => True
  | p, b :: bs => F (p + 1) ∧ 256 ≤ (p + 1).toNat ∧ mem (p + 1) = b ∧ At F mem (p + 1) bs

/-- The tables, the routines and the places where they are: what `synt-emit-asm.cc:137-211` writes (`SM_TABLE_ADDR`, the tables), after the linker. -/
structure Lay where
  v : Syms
  exts : List Act
  sl : SMs
  first : Nat
  tab : W
  addr : Nat → W
  act : Act → W
  err : B

/-- The code of the parser with these tables. -/
def Lay.code (L : Lay) : Code := engCode L.tab (L.addr L.first) (BitVec.ofNat 8 (2 * L.exts.length)) L.err

/-- A place in the code. -/
abbrev Lay.at (L : Lay) (f : W → W → B → B → Code) : Code := f L.tab (L.addr L.first) (BitVec.ofNat 8 (2 * L.exts.length)) L.err

/-- The runs of the parser. `X w m r` is what the routine at address `w` does from state `m`: it returns in state `m'` (`some m'`) or it ends the compilation (`none`).
`call_ax1`, `parse.asm:370-373,386-390`, jumps to the word in `A`, `X` plus one. -/
inductive PRun (L : Lay) (X : W → M → Option M → Prop) : Code → M → Code → M → Prop
  | refl (k : Code) (m : M) : PRun L X k m k m
  | step {k k1 k2 : Code} {m m1 m2 : M} (h : FB.Rt.step L.code k m = .go k1 m1) (r : PRun L X k1 m1 k2 m2) : PRun L X k m k2 m2
  | call {k2 : Code} {m m1 m2 : M} (h : X (word m.x m.a + 1) m (some m1)) (r : PRun L X (L.at engCode.pcall_back) m1 k2 m2) : PRun L X (L.at engCode.pcall_ml) m k2 m2

theorem PRun.trans {L : Lay} {X : W → M → Option M → Prop} {k k1 k2 : Code} {m m1 m2 : M} (h : PRun L X k m k1 m1) (h' : PRun L X k1 m1 k2 m2) : PRun L X k m k2 m2 := by
  induction h with
  | refl => exact h'
  | step h _ ih => exact .step h (ih h')
  | call h _ ih => exact .call h (ih h')

theorem PRun.cpu {L : Lay} {X : W → M → Option M → Prop} {k k1 k2 : Code} {m m1 m2 : M} (h : Reach L.code k m k1 m1) (h' : PRun L X k1 m1 k2 m2) : PRun L X k m k2 m2 := by
  obtain ⟨n, h⟩ := h
  induction n generalizing k m with
  | zero => injection h with e e'; subst e; subst e'; exact h'
  | succ n ih =>
    rw [run] at h
    split at h
    · next ka ma hs => exact .step hs (ih h)
    · next hs => exact absurd h (hs _ _)

theorem PRun.of {L : Lay} {X : W → M → Option M → Prop} {k k1 : Code} {m m1 : M} (h : Reach L.code k m k1 m1) : PRun L X k m k1 m1 := .cpu h (.refl _ _)

/-- The compilation ends with an error: the code of the statement is too long, or an error in a routine. -/
def Stops (L : Lay) (X : W → M → Option M → Prop) (k : Code) (m : M) : Prop :=
  (∃ m', PRun L X k m (L.at engCode.too_long) m') ∨ ∃ m', PRun L X k m (L.at engCode.pcall_ml) m' ∧ X (word m'.x m'.a + 1) m' none

/-- The stack of the processor has more than 239 bytes, at most `b`. -/
def Deep (L : Lay) (X : W → M → Option M → Prop) (b : Nat) (k : Code) (m : M) : Prop :=
  ∃ m', PRun L X k m (L.at engCode.too_long) m' ∧ 239 < stkSize m'.stk ∧ stkSize m'.stk ≤ b

theorem Stops.pre {L : Lay} {X : W → M → Option M → Prop} {k k1 : Code} {m m1 : M} (h : PRun L X k m k1 m1) (h' : Stops L X k1 m1) : Stops L X k m := by
  rcases h' with ⟨m', h'⟩ | ⟨m', h', x⟩
  · exact .inl ⟨m', h.trans h'⟩
  · exact .inr ⟨m', h.trans h', x⟩

theorem Deep.pre {L : Lay} {X : W → M → Option M → Prop} {b : Nat} {k k1 : Code} {m m1 : M} (h : PRun L X k m k1 m1) (h' : Deep L X b k1 m1) : Deep L X b k m := by
  obtain ⟨m', h', x⟩ := h'
  exact ⟨m', h.trans h', x⟩

/-- The parser of the native compiler as a parser of tables: one blank, statements of less than 256 bytes, abbreviations. `parse.asm:261-455`; the
abbreviations are those of `parse.asm:313-326,377-386`. The maximal position `bmax` (`parse.asm:409-411`), used for messages, is left out. -/
def natConf {ρ : Type} (v : Syms) (txt : Str) (act : Act → St B ρ → Syn.Out B ρ) : Conf B ρ where
  txt := txt
  blank := fun c => c == 32
  lim := 256
  enc := encD v
  lit := litMatch txt
  act := act

/-- The memory that does not change: `F` are the addresses and `mem` the contents; it has the tables, the line that is parsed at `ib`, with its end at `ib + e`. The code
is written at `prog`. `Rest` is the meaning in memory of the rest of the state of the parser. -/
structure Mem (ρ : Type) where
  F : W → Prop
  mem : W → B
  prog : W
  ib : W
  e : Nat
  Rest : ρ → PV → Prop

/-- The state of the machine `v` is the state `s` of the parser of tables. -/
structure Rel {ρ : Type} (E : Mem ρ) (s : St B ρ) (v : PV) : Prop where
  pos : v.ci.toNat = s.pos
  ple : s.pos ≤ E.e
  op : v.op.toNat = s.opos
  buf : ∀ i, i < 256 → v.ram (E.prog + BitVec.ofNat 16 i) = s.buf i
  fix : ∀ w, E.F w → v.ram w = E.mem w
  prog : word v.z.prgp v.z.prgph = E.prog
  inb : word v.z.inb v.z.inbh = E.ib
  rest : E.Rest s.rest v

/-- The memory when the parser runs. -/
structure Good {ρ : Type} (L : Lay) (E : Mem ρ) (txt : Str) : Prop where
  /-- the line -/
  text : ∀ i, i ≤ E.e → E.F (E.ib + BitVec.ofNat 16 i) ∧ txt[i]? = some (E.mem (E.ib + BitVec.ofNat 16 i)).toNat
  elt : E.e ≤ 255
  eol : E.mem (E.ib + BitVec.ofNat 16 E.e) = 155#8
  /-- the tables -/
  wf : ∀ T ∈ L.sl, tableOk L.v L.exts L.sl T = true
  tables : ∀ T ∈ L.sl, At E.F E.mem (L.addr T.name - 1) (encTable L.v L.exts L.sl T)
  /-- `SM_TABLE_ADDR`, `synt-emit-asm.cc:193-201` -/
  extAddr : ∀ a ∈ L.exts, E.F (L.tab + BitVec.ofNat 16 (2 * extNum L.exts a)) ∧ E.F (L.tab + 1 + BitVec.ofNat 16 (2 * extNum L.exts a)) ∧
    E.mem (L.tab + BitVec.ofNat 16 (2 * extNum L.exts a)) = lo (L.act a - 1) ∧ E.mem (L.tab + 1 + BitVec.ofNat 16 (2 * extNum L.exts a)) = hi (L.act a - 1)
  tabAddr : ∀ T ∈ L.sl, E.F (L.tab + BitVec.ofNat 16 (2 * tabNum L.exts L.sl T.name)) ∧ E.F (L.tab + 1 + BitVec.ofNat 16 (2 * tabNum L.exts L.sl T.name)) ∧
    E.mem (L.tab + BitVec.ofNat 16 (2 * tabNum L.exts L.sl T.name)) = lo (L.addr T.name - 1) ∧
    E.mem (L.tab + 1 + BitVec.ofNat 16 (2 * tabNum L.exts L.sl T.name)) = hi (L.addr T.name - 1)
  count : L.exts.length + L.sl.length ≤ 128
  start : L.first ∈ L.sl.map SM.name
  /-- the code is written somewhere else -/
  off : ∀ w, E.F w → ∀ i, i < 256 → w ≠ E.prog + BitVec.ofNat 16 i
  /-- the rest of the state is not in the code, nor in the variables of the parser -/
  free : ∀ r v v', v'.z = v.z → v'.sl = v.sl → v'.sh = v.sh → v'.out = v.out → v'.dev = v.dev →
    (∀ w, (∀ i, i < 256 → w ≠ E.prog + BitVec.ofNat 16 i) → v'.ram w = v.ram w) → E.Rest r v → E.Rest r v'

/-- What the routines called by the tables do: they are called with `C` clear, and they do what `act` says. They return with `C` clear if they succeed and with `C` set if they fail; the
stack, the pointer to the tables and the fixed memory are as before. -/
def Acts {ρ : Type} (L : Lay) (E : Mem ρ) (X : W → M → Option M → Prop) (act : Act → St B ρ → Syn.Out B ρ) : Prop :=
  ∀ a ∈ L.exts, ∀ s m, Rel E s m.pv → m.c = false → match act a s with
    | .ok s' => ∃ m', X (L.act a) m (some m') ∧ m'.c = false ∧ Rel E s' m'.pv ∧ m'.pv.pp = m.pv.pp ∧ m'.stk = m.stk
    | .fail s' => ∃ m', X (L.act a) m (some m') ∧ m'.c = true ∧ Rel E s' m'.pv ∧ m'.pv.pp = m.pv.pp ∧ m'.stk = m.stk
    | .stop => X (L.act a) m none

end FB.Eng
