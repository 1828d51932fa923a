import Verif.Eng.VCode
/-!
# Variables in the native compiler: what the actions must do
-/
namespace FB.Eng
open FB.Rt

/-- What there is in the line, after blanks: a name, a name followed by a dot (the abbreviation of a word), or something else. -/
inductive Word
  | name (N : List B)
  | dotted (N : List B)
  | none

/-- The next word in the line is `w`, and it ends `n` characters from here. `Dot` is also true of a small N, for which `cmp #'.'` of `vars.asm:188` has the same result; lines have no
small letters outside strings (C38). -/
inductive NextIs (m : M) : Word → Nat → Prop
  | name (b : Nat) (N : List B) : NameIn m b N → NextIs m (.name N) (b + N.length)
  | dotted (b : Nat) (N : List B) (c : B) : IsName N → Dot c → NameAt m b N c → NextIs m (.dotted N) (b + N.length)
  | none (b : Nat) : NoName m b → NextIs m .none b

/-- The state of the compiler: the program, the buffer for the code of a statement, of which the first `op` bytes are used, the variables, the labels, the bytes of the list of
addresses, and the stack of variables (`actions.asm:105-109`), the top first. -/
structure VS where
  prog : List B
  buf : List B
  op : Nat
  vs : List Rt.Ent
  ls : List Rt.Ent
  lad : List B
  stk : List B

/-- The five memory areas (`memptr.asm:38-48`). -/
def VS.areas (s : VS) : List (List B) := [s.prog, s.buf, table s.vs, table s.ls, s.lad]

/-- The state is in the memory of the machine, from address `base`. -/
structure VRep (base : Nat) (s : VS) (v : JV) : Prop where
  tabs : Tables v.ram base s.areas s.vs s.ls
  low : 0x600 ≤ base
  room : 256 ≤ s.buf.length
  pptr : v.prog = ptr v.ram 0
  mins : v.z.mins = 0x88
  top : TopOk v.ram
  fits : base + s.areas.flatten.length ≤ (memTop v.ram).toNat
  op : v.op.toNat = s.op
  sp : (v.ram varSp).toNat = s.stk.length
  spl : s.stk.length ≤ 128
  vst : ∀ (i : Nat) (hi : i < s.stk.length), v.ram (BitVec.ofNat 16 (0x480 + i)) = s.stk.reverse[i]'(by simpa using hi)

/-- What is not changed: the position of the tables of the parser, the line, and the memory that is not of the areas, their pointers, the count of variables or the stack of variables. -/
structure VFr (base : Nat) (v v' : JV) : Prop where
  out : v'.out = v.out
  dev : v'.dev = v.dev
  cells : v'.z.inb = v.z.inb ∧ v'.z.inbh = v.z.inbh ∧ v'.z.pptr = v.z.pptr ∧ v'.z.pptrh = v.z.pptrh
  ram : ∀ a : W, a.toNat < base ∨ (memTop v.ram).toNat ≤ a.toNat → ¬ (0xA2 ≤ a.toNat ∧ a.toNat ≤ 0xAC) → a.toNat ≠ 0xAE → a.toNat ≠ 0xB5 →
    ¬ (0x480 ≤ a.toNat ∧ a.toNat < 0x500) → v'.ram a = v.ram a

/-- The result of an action: success or failure with a new state, the code of the statement is too long, or there is no memory. -/
inductive VOut
  | ok (s : VS)
  | fail (s : VS)
  | long
  | full

/-- A byte of code: a statement has up to 255 bytes. -/
def VS.emit (s : VS) (b : B) : VOut := if s.op < 255 then .ok { s with buf := s.buf.set s.op b, op := s.op + 1 } else .long

/-- The last byte of the code, and the code without it. -/
def VS.last (s : VS) : B := s.buf.getD (s.op - 1) 0
def VS.back (s : VS) : VS := { s with op := s.op - 1 }

/-- The use of a variable of a type: its number is the byte of code. -/
def VS.use (s : VS) (w : Word) (ty : B) : VOut :=
  match w with
  | .name N =>
    match lookup N s.vs with
    | some (i, t) => if t = ty then s.emit (BitVec.ofNat 8 i) else .fail s
    | none => .fail s
  | _ => .fail s

/-- A new variable, without type; its number is the byte of code. -/
def VS.add (s : VS) (base top : Nat) (N : List B) : VOut :=
  if base + s.areas.flatten.length + N.length + 1 < top then VS.emit { s with vs := s.vs ++ [⟨N, 0⟩] } (BitVec.ofNat 8 (slotsOf s.vs)) else .full

/-- The last entry of a table gets a type. -/
def retype (l : List Rt.Ent) (t : B) : List Rt.Ent :=
  match l.getLast? with
  | some e => l.dropLast ++ [{ e with ty := t }]
  | none => []

/-- The actions. -/
inductive VAct
  | search | word | create | setType | labelType | push | pop

/-- What they do (`actions.asm:312-375`, `414-422`, `623-639`). -/
def VAct.run (base top : Nat) (s : VS) (w : Word) : VAct → VOut
  | .search => s.back.use w s.last
  | .word => s.use w 1
  | .create =>
    match w with
    | .name N => if ∃ e ∈ s.vs, e.name = N then .fail s else s.add base top N
    | .dotted N => s.add base top N
    | .none => .fail s
  | .setType => let s' := { s.back with vs := retype s.vs s.last }
    if s.last.toNat % 2 = 1 then .fail s' else .ok s'
  | .labelType => .ok { s.back with ls := retype s.ls s.last }
  | .push => .ok { s.back with stk := s.last :: s.stk }
  | .pop => VS.emit { s with stk := s.stk.tail } (s.stk.headD 0)

end FB.Eng
