import Verif.Rt.Graph
/-!
# The clock

Transcription of `/repo/src/interp/atari/time.asm`, `/repo/src/interp/atari/pause.asm`, of the loop of `/repo/src/interp/atarifp/fp_time.asm` and of the stores of `TIMER`, and execution with interruptions of the clock between the instructions.
-/
namespace FB.Rt
open Ins Opd

/-- The interruption of the clock of the Atari 8-bit computers, once for each scan of the screen: the operating system increments the three bytes at 18 to 20, the last one is the lowest (`a800.syn:37-38`). The rest of what the
interruption does is not modelled: it keeps the registers, and changes no memory that these routines look at. -/
def tickRam (r : W → B) : W → B :=
  let l := r 20#16 + 1#8
  let h := r 19#16 + (if l = 0#8 then 1#8 else 0#8)
  fun a => if a = 20#16 then l else if a = 19#16 then h else if a = 18#16 then r 18#16 + (if l = 0#8 ∧ h = 0#8 then 1#8 else 0#8) else r a

/-- See `tickRam`. -/
def M.tick (m : M) : M := { m with ram := tickRam m.ram }

/-- Execution of `n` steps of the code from the time `s` (the time counts steps), with an interruption of the clock before each step whose time is in `tk`. -/
def trun (P : Code) (tk : Nat → Bool) : Nat → Nat → Code → M → Out
  | 0, _, k, m => .go k m
  | n + 1, s, k, m => match step P k (if tk s then m.tick else m) with
      | .go k' m' => trun P tk n (s + 1) k' m'
      | o => o

/-- `EXE_TIME`, `time.asm:36-42`; the loop of `EXE_FP_TIME`, `fp_time.asm:40-44` (what follows is not modelled); `EXE_PAUSE`, `pause.asm:36-48`; the four tokens of `TIMER` (`basic.syn:532`), of which only the loads and the stores are here: between them the interpreter
executes more instructions, so there is more time for an interruption. -/
def tmCode : Code :=
  asm!["EXE_TIME", ldx (abs 19), lda (abs 20), cpx (abs 19), Ins.bne "EXE_TIME", next,
   "FP_TIME", lda (abs 20), ldy (abs 19), ldx (abs 18), cmp (abs 20), Ins.bne "FP_TIME", next,
   "EXE_PAUSE", tay, iny, inx,
   "pa_wait", lda (abs 20),
   "pa_same", cmp (abs 20), beq "pa_same",
   "pa_seen", dey, Ins.bne "pa_wait", dex, Ins.bne "pa_wait", next,
   "TIMER", lda (imm 0), sta (abs 19), lda (imm 0), sta (abs 20), next]

code_labels tmCode

theorem trun_add (P : Code) (tk : Nat → Bool) (a b s : Nat) (k : Code) (m : M) :
    trun P tk (a + b) s k m = match trun P tk a s k m with
      | .go k' m' => trun P tk b (s + a) k' m'
      | o => o := by
  induction a generalizing k m s with
  | zero => simp [trun]
  | succ a ih =>
    rw [Nat.succ_add]; simp only [trun]
    cases step P k (if tk s then m.tick else m) with
    | go k' m' => simp only [ih, Nat.add_assoc, Nat.add_comm 1 a]
    | _ => rfl

theorem tickRam20 (r : W → B) : tickRam r 20#16 = r 20#16 + 1#8 := by simp [tickRam]
theorem tickRam19 (r : W → B) : tickRam r 19#16 = r 19#16 + (if r 20#16 + 1#8 = 0#8 then 1#8 else 0#8) := by simp [tickRam]
theorem tickRam18 (r : W → B) : tickRam r 18#16 = r 18#16 + (if r 20#16 + 1#8 = 0#8 ∧ r 19#16 + (if r 20#16 + 1#8 = 0#8 then 1#8 else 0#8) = 0#8 then 1#8 else 0#8) := by simp [tickRam]

end FB.Rt
