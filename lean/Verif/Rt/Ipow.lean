import Verif.Rt.Rand
/-!
# Integer powers of floating point numbers

Transcription of `/repo/src/interp/atarifp/fp_ipow.asm:38-100`, with the routines of floating point of the OS as operations on values of any type.
-/
namespace FB.Rt
open Ins Opd

/-- `EXE_FP_IPOW`, `fp_ipow.asm:38-100`, and `neg_AX`.  Each of the routines `FMOVE`, `FMUL`, `FDIV`, `FST0R`, `FLD1R` of the OS, and `FP_SET_1` (`fp_set1.asm:37-45`), is an `ext` before a label with its
name and an `rts`; `fext` gives what they do.  `PLYARG` is `$05E0`. -/
def ipCode : Code :=
  asm!["EXE_FP_IPOW", sta (zp .tmp1), stx (zp .tmp1h), cpx (imm 0x80), bcc "ax_pos", jsr "neg_AX",
   "ip_n", sta (zp .tmp1), stx (zp .tmp1h), jsr "FMOVE",
   "ip_n1", jsr "FP_SET_1",
   "ip_n2", jsr "FDIV",
   "ax_pos", ldy (imm 17),
   "ip_skip", dey, beq "xit_1", asl (zp .tmp1), rol (zp .tmp1h), bcc "ip_skip", sty (zp .tmp2), ldx (imm 0xE0), ldy (imm 0x05), jsr "FST0R",
   "ip_loop", dec (zp .tmp2), beq "ip_xit", jsr "FMOVE",
   "ip_1", jsr "FMUL",
   "ip_2", bcs "ip_err", asl (zp .tmp1), rol (zp .tmp1h), bcc "ip_loop", ldx (imm 0xE0), ldy (imm 0x05), jsr "FLD1R",
   "ip_3", jsr "FMUL",
   "ip_4", bcc "ip_loop",
   "ip_err", lda (imm 3), sta (zp .ioerr),
   "xit_1", jsr "FP_SET_1",
   "ip_xit", next,
   "FMOVE", ext, "FMOVE_r", rts,
   "FMUL", ext, "FMUL_r", rts,
   "FDIV", ext, "FDIV_r", rts,
   "FST0R", ext, "FST0R_r", rts,
   "FLD1R", ext, "FLD1R_r", rts,
   "FP_SET_1", ext, "FP_SET_1_r", rts] ++ negax

code_labels ipCode

/-- The operations on numbers; `none` is an error, that is an overflow or a division by zero. -/
structure FOps (α : Type) where
  one : α
  mul : α → α → Option α
  div : α → α → Option α

/-- What a routine of the OS leaves in the registers, and in the floating point registers when they have no value of interest. -/
structure FJunk (α : Type) where
  a : B
  x : B
  y : B
  c : Bool
  z : Bool
  n : Bool
  v : Bool
  r0 : α
  r1 : α

/-- The machine with the registers `FR0` and `FR1` and the number at `PLYARG`, and what the next calls of the OS leave. -/
structure FS (α : Type) where
  m : M
  fr0 : α
  fr1 : α
  arg : α
  junk : Nat → FJunk α

/-- The registers after a call. -/
def FS.ret {α : Type} (s : FS α) (c : Bool) : FS α :=
  { s with m := { s.m with a := (s.junk 0).a, x := (s.junk 0).x, y := (s.junk 0).y, c := c, z := (s.junk 0).z, n := (s.junk 0).n, v := (s.junk 0).v }, junk := fun i => s.junk (i + 1) }

/-- The routines of the OS, from the documentation: `FMOVE` copies `FR0` to `FR1`; `FMUL` and `FDIV` leave the result in `FR0`, or the carry set, and destroy `FR1`; `FST0R` and `FLD1R` store `FR0` to,
and load `FR1` from, the address in `X` and `Y`.  `FP_SET_1` is `fp_set1.asm:37-45`.  All of them change the registers. -/
def fext {α : Type} (O : FOps α) (l : String) (s : FS α) : Option (FS α) :=
  if l = "FMOVE_r" then some { s.ret (s.junk 0).c with fr1 := s.fr0 }
  else if l = "FP_SET_1_r" then some { s.ret (s.junk 0).c with fr0 := O.one }
  else if l = "FMUL_r" then match O.mul s.fr0 s.fr1 with
    | some v => some { s.ret false with fr0 := v, fr1 := (s.junk 0).r1 }
    | none => some { s.ret true with fr0 := (s.junk 0).r0, fr1 := (s.junk 0).r1 }
  else if l = "FDIV_r" then match O.div s.fr0 s.fr1 with
    | some v => some { s.ret false with fr0 := v, fr1 := (s.junk 0).r1 }
    | none => some { s.ret true with fr0 := (s.junk 0).r0, fr1 := (s.junk 0).r1 }
  else if s.m.x = 0xE0#8 ∧ s.m.y = 0x05#8 then
    if l = "FST0R_r" then some { s.ret (s.junk 0).c with arg := s.fr0 }
    else if l = "FLD1R_r" then some { s.ret (s.junk 0).c with fr1 := s.arg }
    else none
  else none

/-- Result of a step. -/
inductive FOut (α : Type)
  | go (k : Code) (s : FS α)
  | halt (s : FS α)
  | stuck

/-- One step. -/
def fstep {α : Type} (O : FOps α) (k : Code) (s : FS α) : FOut α :=
  match step ipCode k s.m with
  | .go k' m' => .go k' { s with m := m' }
  | .halt m' => .halt { s with m := m' }
  | _ => match k with
    | .ins .ext :: .lb l :: r => match fext O l s with
      | some s' => .go r s'
      | none => .stuck
    | _ => .stuck

/-- `n` steps. -/
def frun {α : Type} (O : FOps α) : Nat → Code → FS α → FOut α
  | 0, k, s => .go k s
  | n + 1, k, s => match fstep O k s with
    | .go k' s' => frun O n k' s'
    | o => o

def FReach {α : Type} (O : FOps α) (k : Code) (s : FS α) (k' : Code) (s' : FS α) : Prop := ∃ n, frun O n k s = .go k' s'
def FHalts {α : Type} (O : FOps α) (k : Code) (s s' : FS α) : Prop := ∃ n, frun O n k s = .halt s'

section
variable {α : Type} {O : FOps α}

theorem frun_add (a b : Nat) (k : Code) (s : FS α) : frun O (a + b) k s = match frun O a k s with
    | .go k' s' => frun O b k' s'
    | o => o := by
  induction a generalizing k s with
  | zero => simp [frun]
  | succ a ih => rw [Nat.succ_add]; simp only [frun]; cases fstep O k s <;> simp [ih]

theorem FReach.trans {k k' k'' : Code} {s s' s'' : FS α} (h : FReach O k s k' s') (h' : FReach O k' s' k'' s'') : FReach O k s k'' s'' := by
  obtain ⟨n, hn⟩ := h; obtain ⟨n', hn'⟩ := h'
  exact ⟨n + n', by rw [frun_add, hn]; exact hn'⟩

theorem FReach.halts {k k' : Code} {s s' s'' : FS α} (h : FReach O k s k' s') (h' : FHalts O k' s' s'') : FHalts O k s s'' := by
  obtain ⟨n, hn⟩ := h; obtain ⟨n', hn'⟩ := h'
  exact ⟨n + n', by rw [frun_add, hn]; exact hn'⟩

theorem FHalts.unique {k : Code} {s s1 s2 : FS α} (h1 : FHalts O k s s1) (h2 : FHalts O k s s2) : s1 = s2 := by
  obtain ⟨a, ha⟩ := h1; obtain ⟨b, hb⟩ := h2
  have e1 : frun O (a + b) k s = .halt s1 := by rw [frun_add, ha]
  have e2 : frun O (a + b) k s = .halt s2 := by rw [Nat.add_comm, frun_add, hb]
  rw [e1] at e2
  injection e2

/-- Code without calls of the OS. -/
theorem FReach.cpu {k k' : Code} {s : FS α} {m' : M} (h : Reach ipCode k s.m k' m') : FReach O k s k' { s with m := m' } := by
  obtain ⟨n, h⟩ := h
  induction n generalizing k s with
  | zero => injection h with e e'; subst e e'; exact ⟨0, rfl⟩
  | succ n ih =>
    rw [run] at h
    split at h
    · next k1 m1 hs =>
      obtain ⟨n', h'⟩ := ih (s := { s with m := m1 }) h
      refine ⟨n' + 1, ?_⟩
      have e : fstep O k s = .go k1 { s with m := m1 } := by unfold fstep; simp only [hs]
      rw [frun, e]
      exact h'
    · next hs => exact absurd h (hs _ _)

/-- What a call leaves as it was. -/
structure FC (s s' : FS α) (st : List Slot) : Prop where
  zp : s'.m.zp = s.m.zp
  sl : s'.m.sl = s.m.sl
  sh : s'.m.sh = s.m.sh
  ram : s'.m.ram = s.m.ram
  stk : s'.m.stk = st

theorem fcall {l : String} {r k k' : Code} {st : List Slot} {s s' : FS α} (hk : k' = .ins .ext :: .lb l :: .ins .rts :: r) (hs : s.m.stk = .ret k :: st) (h : fext O l s = some s')
    (hc : s'.m.stk = s.m.stk) : FReach O k' s k { s' with m := { s'.m with stk := st } } := by
  subst hk
  refine ⟨2, ?_⟩
  have e : fstep O (.ins .ext :: .lb l :: .ins .rts :: r) s = .go (.ins .rts :: r) s' := by
    rw [fstep]
    simp only [step, exec]
    rw [h]
  rw [frun, e]
  simp only [frun, fstep, step]
  rw [hc, hs]

variable {s : FS α} {k : Code} {st : List Slot}

theorem c_fmove (hs : s.m.stk = .ret k :: st) : ∃ s', FReach O ipCode.FMOVE s k s' ∧ s'.fr0 = s.fr0 ∧ s'.fr1 = s.fr0 ∧ s'.arg = s.arg ∧ FC s s' st :=
  ⟨_, fcall (s' := { s.ret (s.junk 0).c with fr1 := s.fr0 }) ipCode.FMOVE.eq hs (by simp [fext]) rfl, rfl, rfl, rfl, ⟨rfl, rfl, rfl, rfl, rfl⟩⟩

theorem c_set1 (hs : s.m.stk = .ret k :: st) : ∃ s', FReach O ipCode.FP_SET_1 s k s' ∧ s'.fr0 = O.one ∧ s'.fr1 = s.fr1 ∧ s'.arg = s.arg ∧ FC s s' st :=
  ⟨_, fcall (s' := { s.ret (s.junk 0).c with fr0 := O.one }) ipCode.FP_SET_1.eq hs (by simp [fext]) rfl, rfl, rfl, rfl, ⟨rfl, rfl, rfl, rfl, rfl⟩⟩

theorem c_fmove' (hs : s.m.stk = .ret k :: st) : ∃ s', FReach O ipCode.FMOVE s k s' ∧ s'.fr1 = s.fr0 ∧ (∀ i, s'.junk i = s.junk (i + 1)) ∧ FC s s' st :=
  ⟨_, fcall (s' := { s.ret (s.junk 0).c with fr1 := s.fr0 }) ipCode.FMOVE.eq hs (by simp [fext]) rfl, rfl, fun _ => rfl, ⟨rfl, rfl, rfl, rfl, rfl⟩⟩

theorem c_set1' (hs : s.m.stk = .ret k :: st) : ∃ s', FReach O ipCode.FP_SET_1 s k s' ∧ s'.fr0 = O.one ∧ s'.fr1 = s.fr1 ∧ (∀ i, s'.junk i = s.junk (i + 1)) ∧ FC s s' st :=
  ⟨_, fcall (s' := { s.ret (s.junk 0).c with fr0 := O.one }) ipCode.FP_SET_1.eq hs (by simp [fext]) rfl, rfl, rfl, fun _ => rfl, ⟨rfl, rfl, rfl, rfl, rfl⟩⟩

theorem c_fmul (hs : s.m.stk = .ret k :: st) {v : α} (h : O.mul s.fr0 s.fr1 = some v) : ∃ s', FReach O ipCode.FMUL s k s' ∧ s'.fr0 = v ∧ s'.arg = s.arg ∧ s'.m.c = false ∧ FC s s' st :=
  ⟨_, fcall (s' := { s.ret false with fr0 := v, fr1 := (s.junk 0).r1 }) ipCode.FMUL.eq hs (by simp [fext, h]) rfl, rfl, rfl, rfl, ⟨rfl, rfl, rfl, rfl, rfl⟩⟩

theorem c_fmul_err (hs : s.m.stk = .ret k :: st) (h : O.mul s.fr0 s.fr1 = none) : ∃ s', FReach O ipCode.FMUL s k s' ∧ s'.m.c = true ∧ FC s s' st :=
  ⟨_, fcall (s' := { s.ret true with fr0 := (s.junk 0).r0, fr1 := (s.junk 0).r1 }) ipCode.FMUL.eq hs (by simp [fext, h]) rfl, rfl, ⟨rfl, rfl, rfl, rfl, rfl⟩⟩

theorem c_fdiv (hs : s.m.stk = .ret k :: st) : ∃ s', FReach O ipCode.FDIV s k s' ∧ (∀ v, O.div s.fr0 s.fr1 = some v → s'.fr0 = v) ∧ (O.div s.fr0 s.fr1 = none → s'.fr0 = (s.junk 0).r0) ∧ FC s s' st := by
  cases h : O.div s.fr0 s.fr1 with
  | some v => exact ⟨_, fcall (s' := { s.ret false with fr0 := v, fr1 := (s.junk 0).r1 }) ipCode.FDIV.eq hs (by simp [fext, h]) rfl, by simp, by simp, ⟨rfl, rfl, rfl, rfl, rfl⟩⟩
  | none => exact ⟨_, fcall (s' := { s.ret true with fr0 := (s.junk 0).r0, fr1 := (s.junk 0).r1 }) ipCode.FDIV.eq hs (by simp [fext, h]) rfl, by simp, by simp, ⟨rfl, rfl, rfl, rfl, rfl⟩⟩

theorem c_fst0r (hs : s.m.stk = .ret k :: st) (hx : s.m.x = 0xE0#8) (hy : s.m.y = 0x05#8) : ∃ s', FReach O ipCode.FST0R s k s' ∧ s'.fr0 = s.fr0 ∧ s'.arg = s.fr0 ∧ FC s s' st :=
  ⟨_, fcall (s' := { s.ret (s.junk 0).c with arg := s.fr0 }) ipCode.FST0R.eq hs (by simp [fext, hx, hy]) rfl, rfl, rfl, ⟨rfl, rfl, rfl, rfl, rfl⟩⟩

theorem c_fld1r (hs : s.m.stk = .ret k :: st) (hx : s.m.x = 0xE0#8) (hy : s.m.y = 0x05#8) : ∃ s', FReach O ipCode.FLD1R s k s' ∧ s'.fr0 = s.fr0 ∧ s'.fr1 = s.arg ∧ s'.arg = s.arg ∧ FC s s' st :=
  ⟨_, fcall (s' := { s.ret (s.junk 0).c with fr1 := s.arg }) ipCode.FLD1R.eq hs (by simp [fext, hx, hy]) rfl, rfl, rfl, rfl, ⟨rfl, rfl, rfl, rfl, rfl⟩⟩

/-- What the routine leaves as it was. -/
structure FK (s s' : FS α) : Prop where
  sl : s'.m.sl = s.m.sl
  sh : s'.m.sh = s.m.sh
  ram : s'.m.ram = s.m.ram
  stk : s'.m.stk = s.m.stk
  sptr : s'.m.zp.sptr = s.m.zp.sptr

theorem FK.trans {s s1 s2 : FS α} (h : FK s s1) (h' : FK s1 s2) : FK s s2 :=
  ⟨h'.sl.trans h.sl, h'.sh.trans h.sh, h'.ram.trans h.ram, h'.stk.trans h.stk, h'.sptr.trans h.sptr⟩

/-- The bits of the exponent that are left. -/
def ipT (m : M) : Nat := m.zp.tmp1.toNat + 256 * m.zp.tmp1h.toNat

theorem ipT_shift (m : M) : (rol8 m.zp.tmp1 false).toNat + 256 * (rol8 m.zp.tmp1h (topBit m.zp.tmp1)).toNat = 2 * ipT m % 65536 ∧ (topBit m.zp.tmp1h).toNat = ipT m / 32768 := by
  have := m.zp.tmp1.isLt
  have := m.zp.tmp1h.isLt
  simp [ipT]
  omega

/-- The end, with an error. -/
theorem ip_err (s : FS α) : ∃ s', FHalts O ipCode.ip_err s s' ∧ s'.fr0 = O.one ∧ s'.m.zp.ioerr = 3#8 ∧ FK s s' := by
  obtain ⟨m1, r1, s1, z1, k1⟩ : ∃ m1, Reach ipCode ipCode.ip_err s.m ipCode.FP_SET_1 m1 ∧ m1.stk = .ret (.lb "ip_xit" :: ipCode.ip_xit) :: s.m.stk ∧ m1.zp = { s.m.zp with ioerr := 3#8 } ∧ m1.sl = s.m.sl ∧ m1.sh = s.m.sh ∧ m1.ram = s.m.ram := by
    refine ⟨?_, ⟨4, ?_⟩, ?_⟩
    rotate_left
    · rt_exec [ipCode.ip_err.eq, ipCode.xit_1.eq]
      rfl
    · exact ⟨rfl, rfl, rfl, rfl, rfl⟩
  obtain ⟨s2, r2, e2, -, -, c2⟩ := c_set1 (O := O) (s := { s with m := m1 }) s1
  refine ⟨s2, ((FReach.cpu r1).trans r2).halts ⟨2, ?_⟩, e2, by rw [c2.zp, z1], c2.sl.trans k1.1, c2.sh.trans k1.2.1, c2.ram.trans k1.2.2, c2.stk, by rw [c2.zp, z1]⟩
  rfl

/-- The end, for a zero exponent. -/
theorem ip_one (s : FS α) : ∃ s', FHalts O ipCode.xit_1 s s' ∧ s'.fr0 = O.one ∧ s'.m.zp = s.m.zp ∧ FK s s' := by
  obtain ⟨m1, r1, s1, z1, k1⟩ : ∃ m1, Reach ipCode ipCode.xit_1 s.m ipCode.FP_SET_1 m1 ∧ m1.stk = .ret (.lb "ip_xit" :: ipCode.ip_xit) :: s.m.stk ∧ m1.zp = s.m.zp ∧ m1.sl = s.m.sl ∧ m1.sh = s.m.sh ∧ m1.ram = s.m.ram := by
    refine ⟨?_, ⟨1, ?_⟩, ?_⟩
    rotate_left
    · rt_exec [ipCode.xit_1.eq]
      rfl
    · exact ⟨rfl, rfl, rfl, rfl, rfl⟩
  obtain ⟨s2, r2, e2, -, -, c2⟩ := c_set1 (O := O) (s := { s with m := m1 }) s1
  refine ⟨s2, ((FReach.cpu r1).trans r2).halts ⟨2, ?_⟩, e2, by rw [c2.zp, z1], c2.sl.trans k1.1, c2.sh.trans k1.2.1, c2.ram.trans k1.2.2, c2.stk, by rw [c2.zp, z1]⟩
  rfl

/-- Skipping the zeros before the first bit of the exponent. -/
theorem ip_skip (d : Nat) : ∀ s : FS α, 65536 ≤ ipT s.m * 2 ^ (d + 1) → ipT s.m * 2 ^ d < 65536 → d + 2 ≤ s.m.y.toNat →
    ∃ s', FReach O ipCode.ip_skip s (.lb "ip_loop" :: ipCode.ip_loop) s' ∧ s'.m.zp.tmp2.toNat + d + 1 = s.m.y.toNat ∧ ipT s'.m + 65536 = ipT s.m * 2 ^ (d + 1) ∧ s'.fr0 = s.fr0 ∧ s'.arg = s.fr0 ∧
      s'.m.zp.ioerr = s.m.zp.ioerr ∧ FK s s' := by
  induction d with
  | zero =>
    intro s h1 h2 hy
    rw [Nat.zero_add, Nat.pow_one] at h1
    rw [Nat.pow_zero] at h2
    obtain ⟨t1, t2⟩ := ipT_shift s.m
    have hyl := s.m.y.isLt
    have hy1 : (s.m.y - 1#8).toNat = s.m.y.toNat - 1 := by simp [BitVec.toNat_sub]; omega
    have hz : ¬ s.m.y - 1#8 = 0#8 := fun e => by rw [e] at hy1; simp at hy1; omega
    have hc : topBit s.m.zp.tmp1h = true := bool1 (by rw [t2]; omega)
    obtain ⟨m1, r1, s1, x1, y1, z1, k1⟩ : ∃ m1, Reach ipCode ipCode.ip_skip s.m ipCode.FST0R m1 ∧ m1.stk = .ret (.lb "ip_loop" :: ipCode.ip_loop) :: s.m.stk ∧ m1.x = 0xE0#8 ∧ m1.y = 0x05#8 ∧
        m1.zp = { s.m.zp with tmp1 := rol8 s.m.zp.tmp1 false, tmp1h := rol8 s.m.zp.tmp1h (topBit s.m.zp.tmp1), tmp2 := s.m.y - 1#8 } ∧ m1.sl = s.m.sl ∧ m1.sh = s.m.sh ∧ m1.ram = s.m.ram := by
      refine ⟨?_, ⟨9, ?_⟩, ?_⟩
      rotate_left
      · rt_exec [ipCode.ip_skip.eq, hz, hc]
        rfl
      · exact ⟨rfl, rfl, rfl, rfl, rfl, rfl, rfl⟩
    obtain ⟨s2, r2, e2, a2, c2⟩ := c_fst0r (O := O) (s := { s with m := m1 }) s1 x1 y1
    refine ⟨s2, (FReach.cpu r1).trans r2, ?_, ?_, e2, a2, by rw [c2.zp, z1], c2.sl.trans k1.1, c2.sh.trans k1.2.1, c2.ram.trans k1.2.2, c2.stk, by rw [c2.zp, z1]⟩
    · rw [c2.zp, z1]; dsimp only; omega
    · rw [ipT, c2.zp, z1]; dsimp only; rw [t1]; omega
  | succ d ih =>
    intro s h1 h2 hy
    obtain ⟨t1, t2⟩ := ipT_shift s.m
    have hp : 1 ≤ 2 ^ d := Nat.one_le_two_pow
    have hT : 2 * ipT s.m < 65536 := by
      rw [Nat.pow_succ] at h2
      have := Nat.mul_le_mul_left (2 * ipT s.m) hp
      have e : ipT s.m * (2 ^ d * 2) = 2 * ipT s.m * 2 ^ d := by rw [Nat.mul_comm (2 ^ d) 2, ← Nat.mul_assoc, Nat.mul_comm (ipT s.m) 2]
      omega
    have hyl := s.m.y.isLt
    have hy1 : (s.m.y - 1#8).toNat = s.m.y.toNat - 1 := by simp [BitVec.toNat_sub]; omega
    have hz : ¬ s.m.y - 1#8 = 0#8 := fun e => by rw [e] at hy1; simp at hy1; omega
    have hc : topBit s.m.zp.tmp1h = false := bool0 (by rw [t2]; omega)
    obtain ⟨m1, r1, y1, z1, k1⟩ : ∃ m1, Reach ipCode ipCode.ip_skip s.m ipCode.ip_skip m1 ∧ m1.y = s.m.y - 1#8 ∧
        m1.zp = { s.m.zp with tmp1 := rol8 s.m.zp.tmp1 false, tmp1h := rol8 s.m.zp.tmp1h (topBit s.m.zp.tmp1) } ∧ m1.sl = s.m.sl ∧ m1.sh = s.m.sh ∧ m1.ram = s.m.ram ∧ m1.stk = s.m.stk := by
      refine ⟨?_, ⟨5, ?_⟩, ?_⟩
      rotate_left
      · rt_exec [ipCode.ip_skip.eq, hz, hc]
        rfl
      · exact ⟨rfl, rfl, rfl, rfl, rfl, rfl⟩
    have hT1 : ipT m1 = 2 * ipT s.m := by rw [ipT, z1]; dsimp only; rw [t1, Nat.mod_eq_of_lt hT]
    have e1 : ∀ k, ipT m1 * 2 ^ k = ipT s.m * 2 ^ (k + 1) := fun k => by rw [hT1, Nat.pow_succ, Nat.mul_comm (2 ^ k) 2, ← Nat.mul_assoc, Nat.mul_comm 2]
    obtain ⟨s2, r2, y2, t2, f2, a2, i2, k2⟩ := ih { s with m := m1 } (by rw [e1]; exact h1) (by rw [e1]; exact h2) (by rw [y1]; omega)
    refine ⟨s2, (FReach.cpu r1).trans r2, ?_, ?_, f2, a2, ?_, ?_⟩
    · dsimp only at y2; rw [y1] at y2; omega
    · dsimp only at t2; rw [t2, e1]
    · rw [i2]; dsimp only; rw [z1]
    · exact ⟨k2.sl.trans k1.1, k2.sh.trans k1.2.1, k2.ram.trans k1.2.2.1, k2.stk.trans k1.2.2.2, k2.sptr.trans (by dsimp only; rw [z1])⟩

/-- A zero exponent. -/
theorem ip_skip0 (n : Nat) : ∀ s : FS α, ipT s.m = 0 → s.m.y.toNat = n + 1 →
    ∃ s', FReach O ipCode.ip_skip s ipCode.xit_1 s' ∧ s'.m.zp.ioerr = s.m.zp.ioerr ∧ FK s s' := by
  induction n with
  | zero =>
    intro s _ hy
    have hy1 : s.m.y = 1#8 := BitVec.eq_of_toNat_eq hy
    obtain ⟨m1, r1, z1, k1⟩ : ∃ m1, Reach ipCode ipCode.ip_skip s.m ipCode.xit_1 m1 ∧ m1.zp = s.m.zp ∧ m1.sl = s.m.sl ∧ m1.sh = s.m.sh ∧ m1.ram = s.m.ram ∧ m1.stk = s.m.stk := by
      refine ⟨?_, ⟨2, ?_⟩, ?_⟩
      rotate_left
      · rt_exec [ipCode.ip_skip.eq, hy1]
        rfl
      · exact ⟨rfl, rfl, rfl, rfl, rfl⟩
    exact ⟨_, FReach.cpu r1, by rw [z1], k1.1, k1.2.1, k1.2.2.1, k1.2.2.2, by rw [z1]⟩
  | succ n ih =>
    intro s hT hy
    obtain ⟨t1, t2⟩ := ipT_shift s.m
    have hyl := s.m.y.isLt
    have hy1 : (s.m.y - 1#8).toNat = s.m.y.toNat - 1 := by simp [BitVec.toNat_sub]; omega
    have hz : ¬ s.m.y - 1#8 = 0#8 := fun e => by rw [e] at hy1; simp at hy1; omega
    have hc : topBit s.m.zp.tmp1h = false := bool0 (by rw [t2]; omega)
    obtain ⟨m1, r1, y1, z1, k1⟩ : ∃ m1, Reach ipCode ipCode.ip_skip s.m ipCode.ip_skip m1 ∧ m1.y = s.m.y - 1#8 ∧
        m1.zp = { s.m.zp with tmp1 := rol8 s.m.zp.tmp1 false, tmp1h := rol8 s.m.zp.tmp1h (topBit s.m.zp.tmp1) } ∧ m1.sl = s.m.sl ∧ m1.sh = s.m.sh ∧ m1.ram = s.m.ram ∧ m1.stk = s.m.stk := by
      refine ⟨?_, ⟨5, ?_⟩, ?_⟩
      rotate_left
      · rt_exec [ipCode.ip_skip.eq, hz, hc]
        rfl
      · exact ⟨rfl, rfl, rfl, rfl, rfl, rfl⟩
    obtain ⟨s2, r2, i2, k2⟩ := ih { s with m := m1 } (by rw [ipT]; dsimp only; rw [z1]; dsimp only; rw [t1, hT]) (by dsimp only; rw [y1]; omega)
    refine ⟨s2, (FReach.cpu r1).trans r2, ?_, ?_⟩
    · rw [i2]; dsimp only; rw [z1]
    · exact ⟨k2.sl.trans k1.1, k2.sh.trans k1.2.1, k2.ram.trans k1.2.2.1, k2.stk.trans k1.2.2.2, k2.sptr.trans (by dsimp only; rw [z1])⟩

end

end FB.Rt
