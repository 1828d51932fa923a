import Verif.Rt.Rand
/-!
# The floating point registers and the routines of the OS

Numbers are six bytes in the memory: `FR0` at `$D4`, `FR1` at `$E0`, `PLYARG` at `$05E0` and `FPSCR` at `$05E6`, as the OS has them.  The arithmetic of the OS is any functions on the six bytes.
-/
namespace FB.Rt
open Ins Opd

/-- Six bytes: the sign and the exponent, and ten digits. -/
structure Num where
  e : B
  d1 : B
  d2 : B
  d3 : B
  d4 : B
  d5 : B
deriving DecidableEq

/-- One of the bytes. -/
def Num.get (n : Num) (i : Nat) : B :=
  match i with
  | 0 => n.e | 1 => n.d1 | 2 => n.d2 | 3 => n.d3 | 4 => n.d4 | _ => n.d5

/-- The number at an address. -/
def numAt (ram : W → B) (w : W) : Num := ⟨ram w, ram (w + 1), ram (w + 2), ram (w + 3), ram (w + 4), ram (w + 5)⟩

/-- A number is stored. -/
def putNum (ram : W → B) (w : W) (n : Num) : W → B := fun a => if (a - w).toNat < 6 then n.get (a - w).toNat else ram a

/-- The registers of floating point have new values, and the rest of the cells of the OS for floating point, `$DA` to `$FF`, anything. -/
def setFp (ram j : W → B) (f0 f1 : Num) : W → B := fun a =>
  if a.toNat < 0xD4 ∨ 0x100 ≤ a.toNat then ram a else if a.toNat ≤ 0xD9 then f0.get (a.toNat - 0xD4)
  else if 0xE0 ≤ a.toNat ∧ a.toNat ≤ 0xE5 then f1.get (a.toNat - 0xE0) else j a

/-- The registers of floating point. -/
abbrev M.fr0 (m : M) : Num := numAt m.ram 0xD4#16
abbrev M.fr1 (m : M) : Num := numAt m.ram 0xE0#16

/-- The arithmetic of the OS: `none` is an error. -/
structure NOps where
  add : Num → Num → Option Num
  sub : Num → Num → Option Num
  mul : Num → Num → Option Num
  div : Num → Num → Option Num
  /-- `FPI`: a number that is not negative, to an integer without sign -/
  fpi : Num → Option W
  /-- `IFP`: an integer without sign, to a number -/
  ifp : W → Num

/-- What a routine of the OS leaves in the registers of the processor, in its cells, and as results after an error. -/
structure QJ where
  a : B
  x : B
  y : B
  c : Bool
  z : Bool
  n : Bool
  v : Bool
  mem : W → B
  r0 : Num
  r1 : Num

/-- The machine, and what the next calls of the OS leave. -/
structure QS where
  m : M
  junk : Nat → QJ

/-- After a call. -/
def QS.ret (s : QS) (c : Bool) (ram : W → B) (f0 f1 : Num) : QS :=
  { m := { s.m with a := (s.junk 0).a, x := (s.junk 0).x, y := (s.junk 0).y, c := c, z := (s.junk 0).z, n := (s.junk 0).n, v := (s.junk 0).v, ram := setFp ram (s.junk 0).mem f0 f1 },
    junk := fun i => s.junk (i + 1) }

/-- A routine with a result, or an error with the carry set. -/
def QS.op (s : QS) (r : Option Num) : QS :=
  match r with
  | some v => s.ret false s.m.ram v (s.junk 0).r1
  | none => s.ret true s.m.ram (s.junk 0).r0 (s.junk 0).r1

/-- The address in `X` and `Y`. -/
def QS.xy (s : QS) : W := word s.m.x s.m.y

/-- The routines of the OS, from the documentation.  `FADD`, `FSUB`, `FMUL` and `FDIV` leave the result in `FR0`, or the carry set, and destroy `FR1`.  `FMOVE` copies `FR0` to `FR1`; `FST0R`, `FLD0R` and
`FLD1R` store `FR0` to, and load `FR0` and `FR1` from, the address in `X` and `Y`; `FLD0P` loads `FR0` from the address in `FLPTR` (`$FC`).  `FPI` changes `FR0` to an integer in its first two bytes;
`IFP` changes such an integer to a number.  All of them change the registers of the processor and the cells `$DA` to `$FF`.  A store to page zero is not modelled. -/
def qext (O : NOps) (l : String) (s : QS) : Option QS :=
  if l = "FADD_r" then some (s.op (O.add s.m.fr0 s.m.fr1))
  else if l = "FSUB_r" then some (s.op (O.sub s.m.fr0 s.m.fr1))
  else if l = "FMUL_r" then some (s.op (O.mul s.m.fr0 s.m.fr1))
  else if l = "FDIV_r" then some (s.op (O.div s.m.fr0 s.m.fr1))
  else if l = "FMOVE_r" then some (s.ret (s.junk 0).c s.m.ram s.m.fr0 s.m.fr0)
  else if l = "FLD0R_r" then some (s.ret (s.junk 0).c s.m.ram (numAt s.m.ram s.xy) s.m.fr1)
  else if l = "FLD1R_r" then some (s.ret (s.junk 0).c s.m.ram s.m.fr0 (numAt s.m.ram s.xy))
  else if l = "FLD0P_r" then some (s.ret (s.junk 0).c s.m.ram (numAt s.m.ram (word (s.m.ram 0xFC#16) (s.m.ram 0xFD#16))) s.m.fr1)
  else if l = "FST0R_r" then if 0x100 ≤ s.xy.toNat ∧ s.xy.toNat < 0xFFFA then some (s.ret (s.junk 0).c (putNum s.m.ram s.xy s.m.fr0) s.m.fr0 s.m.fr1) else none
  else if l = "FPI_r" then match O.fpi s.m.fr0 with
    | some w => some (s.ret false s.m.ram { (s.junk 0).r0 with e := w.setWidth 8, d1 := (w >>> 8).setWidth 8 } (s.junk 0).r1)
    | none => some (s.ret true s.m.ram (s.junk 0).r0 (s.junk 0).r1)
  else if l = "IFP_r" then some (s.ret (s.junk 0).c s.m.ram (O.ifp (word s.m.fr0.e s.m.fr0.d1)) (s.junk 0).r1)
  else none

/-- Result of a step. -/
inductive QOut
  | go (k : Code) (s : QS)
  | halt (s : QS)
  | stuck

/-- One step of a program. -/
def qstep (P : Code) (O : NOps) (k : Code) (s : QS) : QOut :=
  match step P k s.m with
  | .go k' m' => .go k' { s with m := m' }
  | .halt m' => .halt { s with m := m' }
  | _ => match k with
    | .ins .ext :: .lb l :: r => match qext O l s with
      | some s' => .go r s'
      | none => .stuck
    | _ => .stuck

/-- `n` steps. -/
def qrun (P : Code) (O : NOps) : Nat → Code → QS → QOut
  | 0, k, s => .go k s
  | n + 1, k, s => match qstep P O k s with
    | .go k' s' => qrun P O n k' s'
    | o => o

def QReach (P : Code) (O : NOps) (k : Code) (s : QS) (k' : Code) (s' : QS) : Prop := ∃ n, qrun P O n k s = .go k' s'
def QHalts (P : Code) (O : NOps) (k : Code) (s s' : QS) : Prop := ∃ n, qrun P O n k s = .halt s'

section
variable {P : Code} {O : NOps}

theorem qrun_add (a b : Nat) (k : Code) (s : QS) : qrun P O (a + b) k s = match qrun P O a k s with
    | .go k' s' => qrun P O b k' s'
    | o => o := by
  induction a generalizing k s with
  | zero => simp [qrun]
  | succ a ih => rw [Nat.succ_add]; simp only [qrun]; cases qstep P O k s <;> simp [ih]

theorem QReach.refl (k : Code) (s : QS) : QReach P O k s k s := ⟨0, rfl⟩

theorem QReach.trans {k k' k'' : Code} {s s' s'' : QS} (h : QReach P O k s k' s') (h' : QReach P O k' s' k'' s'') : QReach P O k s k'' s'' := by
  obtain ⟨n, hn⟩ := h; obtain ⟨n', hn'⟩ := h'
  exact ⟨n + n', by rw [qrun_add, hn]; exact hn'⟩

theorem QReach.halts {k k' : Code} {s s' s'' : QS} (h : QReach P O k s k' s') (h' : QHalts P O k' s' s'') : QHalts P O k s s'' := by
  obtain ⟨n, hn⟩ := h; obtain ⟨n', hn'⟩ := h'
  exact ⟨n + n', by rw [qrun_add, hn]; exact hn'⟩

theorem QHalts.unique {k : Code} {s s1 s2 : QS} (h1 : QHalts P O k s s1) (h2 : QHalts P O k s s2) : s1 = s2 := by
  obtain ⟨a, ha⟩ := h1; obtain ⟨b, hb⟩ := h2
  have e1 : qrun P O (a + b) k s = .halt s1 := by rw [qrun_add, ha]
  have e2 : qrun P O (a + b) k s = .halt s2 := by rw [Nat.add_comm, qrun_add, hb]
  rw [e1] at e2
  injection e2

/-- Code without calls of the OS. -/
theorem QReach.cpu {k k' : Code} {s : QS} {m' : M} (h : Reach P k s.m k' m') : QReach P O k s k' { s with m := m' } := by
  obtain ⟨n, h⟩ := h
  induction n generalizing k s with
  | zero => injection h with e e'; subst e e'; exact ⟨0, rfl⟩
  | succ n ih =>
    rw [run] at h
    split at h
    · next k1 m1 hs =>
      obtain ⟨n', h'⟩ := ih (s := { s with m := m1 }) h
      refine ⟨n' + 1, ?_⟩
      have e : qstep P O k s = .go k1 { s with m := m1 } := by unfold qstep; simp only [hs]
      rw [qrun, e]
      exact h'
    · next hs => exact absurd h (hs _ _)

/-- A call of a routine of the OS. -/
theorem qcall {l : String} {r k k' : Code} {st : List Slot} {s s' : QS} (hk : k' = .ins .ext :: .lb l :: .ins .rts :: r) (hs : s.m.stk = .ret k :: st) (h : qext O l s = some s')
    (hc : s'.m.stk = s.m.stk) : QReach P O k' s k { s' with m := { s'.m with stk := st } } := by
  subst hk
  refine ⟨2, ?_⟩
  have e : qstep P O (.ins .ext :: .lb l :: .ins .rts :: r) s = .go (.ins .rts :: r) s' := by
    rw [qstep]
    simp only [step, exec]
    rw [h]
  rw [qrun, e]
  simp only [qrun, qstep, step]
  rw [hc, hs]

end

/-! ### Numbers in the memory -/

theorem numAt_congr {r r' : W → B} {w : W} (h0 : r w = r' w) (h1 : r (w + 1) = r' (w + 1)) (h2 : r (w + 2) = r' (w + 2)) (h3 : r (w + 3) = r' (w + 3)) (h4 : r (w + 4) = r' (w + 4))
    (h5 : r (w + 5) = r' (w + 5)) : numAt r w = numAt r' w := by simp only [numAt, h0, h1, h2, h3, h4, h5]

theorem numAt_setFp0 (ram j : W → B) (f0 f1 : Num) : numAt (setFp ram j f0 f1) 0xD4#16 = f0 := by
  simp [numAt, setFp, Num.get]

theorem numAt_setFp1 (ram j : W → B) (f0 f1 : Num) : numAt (setFp ram j f0 f1) 0xE0#16 = f1 := by
  simp [numAt, setFp, Num.get]

theorem setFp_out (ram j : W → B) (f0 f1 : Num) {a : W} (h : a.toNat < 0xD4 ∨ 0x100 ≤ a.toNat) : setFp ram j f0 f1 a = ram a := by
  rw [setFp, if_pos h]

theorem numAt_setFp (ram j : W → B) (f0 f1 : Num) {w : W} (h : 0x100 ≤ w.toNat) (h' : w.toNat < 0xFFFA) : numAt (setFp ram j f0 f1) w = numAt ram w := by
  have e : ∀ i : W, i.toNat ≤ 5 → 0x100 ≤ (w + i).toNat := fun i hi => by rw [BitVec.toNat_add, Nat.mod_eq_of_lt (by omega)]; omega
  exact numAt_congr (setFp_out _ _ _ _ (.inr h)) (setFp_out _ _ _ _ (.inr (e 1 (by decide)))) (setFp_out _ _ _ _ (.inr (e 2 (by decide)))) (setFp_out _ _ _ _ (.inr (e 3 (by decide))))
    (setFp_out _ _ _ _ (.inr (e 4 (by decide)))) (setFp_out _ _ _ _ (.inr (e 5 (by decide))))

theorem numAt_putNum (ram : W → B) (w : W) (n : Num) : numAt (putNum ram w n) w = n := by
  have e : ∀ i : W, w + i - w = i := fun i => by rw [BitVec.add_comm, BitVec.add_sub_cancel]
  simp only [numAt, putNum, e, BitVec.sub_self]
  rfl

theorem putNum_ne (ram : W → B) {w a : W} (n : Num) (h : 6 ≤ (a - w).toNat) : putNum ram w n a = ram a := by
  rw [putNum, if_neg (by omega)]

/-- Numbers at six bytes or more from each other. -/
theorem numAt_putNum_ne (ram : W → B) {w w' : W} (n : Num) (h : 6 ≤ (w' - w).toNat) (h' : (w' - w).toNat + 5 < 65536) : numAt (putNum ram w n) w' = numAt ram w' := by
  have e : ∀ i : W, i.toNat ≤ 5 → 6 ≤ (w' + i - w).toNat := fun i hi => by
    have : w' + i - w = (w' - w) + i := by rw [BitVec.sub_eq_add_neg, BitVec.sub_eq_add_neg, BitVec.add_assoc, BitVec.add_assoc, BitVec.add_comm i]
    rw [this, BitVec.toNat_add, Nat.mod_eq_of_lt (by omega)]
    omega
  exact numAt_congr (putNum_ne _ _ h) (putNum_ne _ _ (e 1 (by decide))) (putNum_ne _ _ (e 2 (by decide))) (putNum_ne _ _ (e 3 (by decide))) (putNum_ne _ _ (e 4 (by decide))) (putNum_ne _ _ (e 5 (by decide)))

end FB.Rt
