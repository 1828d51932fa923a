import Verif.Rt.FpTok
/-!
# C58: expressions of floating point

The tokens of an expression, run one after the other, leave the value of the expression at the top of the stack of numbers.
-/
namespace FB.Rt

/-- Specification: expressions.  The operators and their order are those of `float.syn:43-70`. -/
inductive FExp
  | const (n : Num)
  | load (w : W)
  | ofInt (w : W)
  | add (a b : FExp)
  | sub (a b : FExp)
  | mul (a b : FExp)
  | div (a b : FExp)
  | neg (a : FExp)
  | abs (a : FExp)
  | sgn (a : FExp)

/-- Specification: an operation with two values, with an error if one of the values or the operation has it. -/
def bin2 (f : Num → Num → Option Num) (a b : Option Num) : Option Num := a.bind fun x => b.bind fun y => f x y

/-- Specification: the value of an integer, a number with the digits of the absolute value and its sign. -/
def NOps.int (O : NOps) (w : W) : Num :=
  let n := O.ifp (if w.toInt < 0 then - w else w)
  { n with e := (n.e &&& 0x7F#8) ||| (if w.toInt < 0 then 0x80#8 else 0#8) }

/-- Specification: the value of an expression, with the arithmetic `O` and the variables in `ram`. -/
def FExp.eval (O : NOps) (ram : W → B) : FExp → Option Num
  | .const n => some n
  | .load w => some (numAt ram w)
  | .ofInt w => some (O.int w)
  | .add a b => bin2 O.add (a.eval O ram) (b.eval O ram)
  | .sub a b => bin2 O.sub (a.eval O ram) (b.eval O ram)
  | .mul a b => bin2 O.mul (a.eval O ram) (b.eval O ram)
  | .div a b => bin2 O.div (a.eval O ram) (b.eval O ram)
  | .neg a => (a.eval O ram).map fun n => { n with e := n.e ^^^ 0x80#8 }
  | .abs a => (a.eval O ram).map fun n => { n with e := n.e &&& 0x7F#8 }
  | .sgn a => (a.eval O ram).map fun n => if n.e &&& 0x7F#8 = 0#8 then { n with e := 0#8 } else ⟨(n.e &&& 0x80#8) ||| 0x40#8, 1#8, 0#8, 0#8, 0#8, 0#8⟩

/-- Specification: the places of the stack that an expression uses. -/
def FExp.need : FExp → Nat
  | .const _ | .load _ | .ofInt _ => 1
  | .add a b | .sub a b | .mul a b | .div a b => max a.need (1 + b.need)
  | .neg a | .abs a | .sgn a => a.need

/-- The tokens; those that need a value have it. -/
inductive FTok
  | float (n : Num) | load (w : W) | intfp (w : W) | add | sub | mul | div | neg | abs | sgn

/-- The tokens of an expression: `emit` after the operands, `float.syn:43-91`. -/
def FExp.toks : FExp → List FTok
  | .const n => [.float n]
  | .load w => [.load w]
  | .ofInt w => [.intfp w]
  | .add a b => a.toks ++ b.toks ++ [.add]
  | .sub a b => a.toks ++ b.toks ++ [.sub]
  | .mul a b => a.toks ++ b.toks ++ [.mul]
  | .div a b => a.toks ++ b.toks ++ [.div]
  | .neg a => a.toks ++ [.neg]
  | .abs a => a.toks ++ [.abs]
  | .sgn a => a.toks ++ [.sgn]

/-- The routine of a token. -/
def FTok.code : FTok → Code
  | .float _ => fpCode.EXE_FLOAT
  | .load _ => fpCode.EXE_FP_LOAD
  | .intfp _ => fpCode.EXE_INT_FP
  | .add => fpCode.EXE_FP_ADD
  | .sub => fpCode.EXE_FP_SUB
  | .mul => fpCode.EXE_FP_MUL
  | .div => fpCode.EXE_FP_DIV
  | .neg => fpCode.EXE_FP_NEG
  | .abs => fpCode.EXE_FP_ABS
  | .sgn => fpCode.EXE_FP_SGN

/-- What the token has: the constant after it in the program, or the address or the integer in `AX`. -/
def FTok.Has (m : M) : FTok → Prop
  | .float n => NumOut (word m.zp.cptr m.zp.cptrh) ∧ numAt m.ram (word m.zp.cptr m.zp.cptrh) = n
  | .load w => NumOut w ∧ word m.a m.x = w
  | .intfp w => word m.a m.x = w
  | _ => True

/-- A run of tokens.  Before each one, other tokens (of integers) may run: they do not change the memory nor the code of error, and leave what the token needs. -/
inductive TokRun (O : NOps) : List FTok → QS → QS → Prop
  | nil (s : QS) : TokRun O [] s s
  | cons {t : FTok} {ts : List FTok} {s s1 s2 s' : QS} (hr : s1.m.ram = s.m.ram) (he : s1.m.zp.ioerr = s.m.zp.ioerr) (ht : t.Has s1.m) (h : QHalts fpCode O t.code s1 s2) (hs : TokRun O ts s2 s') : TokRun O (t :: ts) s s'

section
variable {O : NOps}

theorem TokRun.split {ts us : List FTok} : ∀ {s s' : QS}, TokRun O (ts ++ us) s s' → ∃ s1, TokRun O ts s s1 ∧ TokRun O us s1 s' := by
  induction ts with
  | nil => exact fun h => ⟨_, .nil _, h⟩
  | cons t ts ih =>
    intro s s' h
    cases h with
    | cons hr he ht h hs =>
      obtain ⟨s1, h1, h2⟩ := ih hs
      exact ⟨s1, .cons hr he ht h h1, h2⟩

theorem TokRun.append {ts us : List FTok} {s s1 s' : QS} (h : TokRun O ts s s1) (h' : TokRun O us s1 s') : TokRun O (ts ++ us) s s' := by
  induction h with
  | nil => exact h'
  | cons hr he ht h _ ih => exact .cons hr he ht h (ih h')

theorem TokRun.one {t : FTok} {s s' : QS} (h : TokRun O [t] s s') : ∃ s1 : QS, s1.m.ram = s.m.ram ∧ s1.m.zp.ioerr = s.m.zp.ioerr ∧ t.Has s1.m ∧ QHalts fpCode O t.code s1 s' := by
  cases h with
  | cons hr he ht h hs => cases hs; exact ⟨_, hr, he, ht, h⟩

/-- Specification: the state after an expression. -/
structure Res (s s' : QS) (r : Option Num) (l : List Num) : Prop where
  st : ∃ v, FpSt s'.m.ram v l ∧ ∀ x, r = some x → v = x
  err : s'.m.zp.ioerr = if r.isSome then s.m.zp.ioerr else 3#8
  keep : FpKeep s.m.ram s'.m.ram

theorem FExp.eval_congr (e : FExp) {r r' : W → B} (h : FpKeep r r') (hl : ∀ w, FTok.load w ∈ e.toks → NumOut w) : e.eval O r' = e.eval O r := by
  induction e with
  | const n => rfl
  | load w => exact congrArg some ((hl w (by simp [FExp.toks])).congr fun a h1 h2 => h a h1 (.inr h2))
  | ofInt w => rfl
  | add a b iha ihb | sub a b iha ihb | mul a b iha ihb | div a b iha ihb =>
    rw [FExp.eval, FExp.eval, iha fun w hw => hl w (by simp [FExp.toks, hw]), ihb fun w hw => hl w (by simp [FExp.toks, hw])]
  | neg a ih | abs a ih | sgn a ih => rw [FExp.eval, FExp.eval, ih fun w hw => hl w (by simp [FExp.toks, hw])]

theorem TokRun.loads {ts : List FTok} {s s' : QS} (h : TokRun O ts s s') : ∀ w, FTok.load w ∈ ts → NumOut w := by
  induction h with
  | nil => intro w hw; simp at hw
  | cons hr he ht h _ ih =>
    intro w hw
    rcases List.mem_cons.1 hw with rfl | hw
    · exact ht.1
    · exact ih w hw

theorem ofInt_int (w : W) : O.ofInt w = O.int w := by
  have : (if w.toInt < 0 then - w else w) = BitVec.ofNat 16 w.toInt.natAbs := by
    apply BitVec.eq_of_toNat_eq
    have hw := w.isLt
    have hi := int16 w
    split
    · next h =>
      rw [BitVec.toNat_neg, BitVec.toNat_ofNat]
      split at hi <;> omega
    · next h =>
      rw [BitVec.toNat_ofNat]
      split at hi <;> omega
  rw [NOps.int, this, NOps.ofInt]

/-- The end of an operation with two values. -/
theorem bin_res {s s1 s2 s3 s' : QS} {f : Num → Num → Option Num} {ra rb : Option Num} {top va : Num} {l : List Num} (hva : ∀ x, ra = some x → va = x) (h1 : FpKeep s.m.ram s1.m.ram)
    (e1 : s1.m.zp.ioerr = if ra.isSome then s.m.zp.ioerr else 3#8) (h2 : Res s1 s2 rb (va :: top :: l)) (hr : s3.m.ram = s2.m.ram) (he : s3.m.zp.ioerr = s2.m.zp.ioerr)
    (h : ∀ vb, FpSt s3.m.ram vb (va :: top :: l) → FpBin s3 s' (f va vb) (top :: l)) : Res s s' (bin2 f ra rb) (top :: l) := by
  obtain ⟨⟨vb, f2, hvb⟩, e2, k2⟩ := h2
  have hb := h vb (by rw [hr]; exact f2)
  have kk : FpKeep s.m.ram s3.m.ram := by rw [hr]; exact h1.trans k2
  have e3 : s3.m.zp.ioerr = if ra.isSome && rb.isSome then s.m.zp.ioerr else 3#8 := by
    rw [he, e2, e1]
    cases ra <;> cases rb <;> rfl
  cases hf : f va vb with
  | some v =>
    rw [hf] at hb
    refine ⟨⟨v, hb.st, fun x hx => ?_⟩, ?_, kk.trans hb.keep⟩
    · cases ra with
      | none => simp [bin2] at hx
      | some xa => cases rb with
        | none => simp [bin2] at hx
        | some xb =>
          rw [hva xa rfl, hvb xb rfl] at hf
          simp [bin2, hf] at hx
          exact hx
    · rw [hb.zp, e3]
      cases ra with
      | none => rfl
      | some xa => cases rb with
        | none => rfl
        | some xb =>
          rw [hva xa rfl, hvb xb rfl] at hf
          simp [bin2, hf]
  | none =>
    rw [hf] at hb
    obtain ⟨v, hb⟩ := hb
    have hn : bin2 f ra rb = none := by
      cases ra with
      | none => rfl
      | some xa => cases rb with
        | none => rfl
        | some xb =>
          rw [hva xa rfl, hvb xb rfl] at hf
          simp [bin2, hf]
    refine ⟨⟨v, hb.st, fun x hx => ?_⟩, ?_, kk.trans hb.keep⟩
    · rw [hn] at hx; simp at hx
    · rw [hb.zp, hn]; rfl

/-- The end of an operation with one value. -/
theorem un_res {s s1 s3 s' : QS} {f : Num → Num} {ra : Option Num} {top va : Num} {l : List Num} (hva : ∀ x, ra = some x → va = x) (h1 : FpKeep s.m.ram s1.m.ram)
    (e1 : s1.m.zp.ioerr = if ra.isSome then s.m.zp.ioerr else 3#8) (hr : s3.m.ram = s1.m.ram) (he : s3.m.zp.ioerr = s1.m.zp.ioerr) (h : FpR s3 s' (f va) (top :: l) s3.m.zp) : Res s s' (ra.map f) (top :: l) := by
  refine ⟨⟨f va, h.st, fun x hx => ?_⟩, ?_, ?_⟩
  · cases ra with
    | none => simp at hx
    | some y => rw [hva y rfl]; simpa using hx
  · rw [h.zp, he, e1]; cases ra <;> rfl
  · have : FpKeep s.m.ram s3.m.ram := by rw [hr]; exact h1
    exact this.trans h.keep

/-- An expression leaves its value in `FR0` and the number that was there in the stack, below; the rest of the memory is as before.  There is error 3 if an operation had an error, and if not the code of error is not changed.
There must be enough places in the stack. -/
theorem C58_value (e : FExp) : ∀ {s s' : QS} {top : Num} {l : List Num}, FpSt s.m.ram top l → l.length + e.need ≤ 8 → TokRun O e.toks s s' → Res s s' (e.eval O s.m.ram) (top :: l) := by
  have bin : ∀ (f : Num → Num → Option Num) (t : FTok) (a b : FExp) (_ : ∀ {s s' : QS} {top : Num} {l : List Num}, FpSt s.m.ram top l → l.length + a.need ≤ 8 → TokRun O a.toks s s' → Res s s' (a.eval O s.m.ram) (top :: l))
      (_ : ∀ {s s' : QS} {top : Num} {l : List Num}, FpSt s.m.ram top l → l.length + b.need ≤ 8 → TokRun O b.toks s s' → Res s s' (b.eval O s.m.ram) (top :: l))
      (_ : ∀ (s : QS) {top b : Num} {l : List Num}, FpSt s.m.ram top (b :: l) → ∃ s', QHalts fpCode O t.code s s' ∧ FpBin s s' (f b top) l)
      {s s' : QS} {top : Num} {l : List Num}, FpSt s.m.ram top l → l.length + max a.need (1 + b.need) ≤ 8 → TokRun O (a.toks ++ b.toks ++ [t]) s s' → Res s s' (bin2 f (a.eval O s.m.ram) (b.eval O s.m.ram)) (top :: l) := by
    intro f t a b iha ihb ht s s' top l hf hn hr
    obtain ⟨s2, h12, h3⟩ := hr.split
    obtain ⟨s1, h1, h2⟩ := h12.split
    obtain ⟨⟨va, f1, hva⟩, e1, k1⟩ := iha hf (by omega) h1
    have R2 := ihb f1 (by simp only [List.length_cons]; omega) h2
    rw [b.eval_congr k1 h2.loads] at R2
    obtain ⟨s3, r3, e3, -, q3⟩ := h3.one
    refine bin_res hva k1 e1 R2 r3 e3 fun vb fb => ?_
    obtain ⟨s4, q4, b4⟩ := ht s3 fb
    rw [q3.unique q4]
    exact b4
  have un : ∀ (f : Num → Num) (t : FTok) (a : FExp) (_ : ∀ {s s' : QS} {top : Num} {l : List Num}, FpSt s.m.ram top l → l.length + a.need ≤ 8 → TokRun O a.toks s s' → Res s s' (a.eval O s.m.ram) (top :: l))
      (_ : ∀ (s : QS) {top : Num} {l : List Num}, FpSt s.m.ram top l → ∃ s', QHalts fpCode O t.code s s' ∧ FpR s s' (f top) l s.m.zp)
      {s s' : QS} {top : Num} {l : List Num}, FpSt s.m.ram top l → l.length + a.need ≤ 8 → TokRun O (a.toks ++ [t]) s s' → Res s s' ((a.eval O s.m.ram).map f) (top :: l) := by
    intro f t a iha ht s s' top l hf hn hr
    obtain ⟨s1, h1, h3⟩ := hr.split
    obtain ⟨⟨va, f1, hva⟩, e1, k1⟩ := iha hf hn h1
    obtain ⟨s3, r3, e3, -, q3⟩ := h3.one
    obtain ⟨s4, q4, b4⟩ := ht s3 (show FpSt s3.m.ram va (top :: l) by rw [r3]; exact f1)
    rw [q3.unique q4]
    exact un_res hva k1 e1 r3 e3 b4
  induction e with
  | const n =>
    intro s s' top l hf hn hr
    obtain ⟨s1, r1, e1, ⟨hO, hv⟩, q1⟩ := TokRun.one hr
    obtain ⟨s2, c, c', q2, b2, -⟩ := tok_float (O := O) s1 (show FpSt s1.m.ram top l by rw [r1]; exact hf) (by simp only [FExp.need] at hn; omega) rfl hO
    rw [q1.unique q2]
    refine ⟨⟨_, b2.st, fun x hx => ?_⟩, ?_, ?_⟩
    · rw [hv]; simpa [FExp.eval] using hx
    · rw [b2.zp]; exact e1
    · rw [← r1]; exact b2.keep
  | load w =>
    intro s s' top l hf hn hr
    obtain ⟨s1, r1, e1, ⟨hO, hv⟩, q1⟩ := TokRun.one hr
    obtain ⟨s2, q2, b2⟩ := tok_load (O := O) s1 (show FpSt s1.m.ram top l by rw [r1]; exact hf) (by simp only [FExp.need] at hn; omega) hv hO
    rw [q1.unique q2]
    refine ⟨⟨_, b2.st, fun x hx => ?_⟩, ?_, ?_⟩
    · rw [r1]; simpa [FExp.eval] using hx
    · rw [b2.zp]; exact e1
    · rw [← r1]; exact b2.keep
  | ofInt w =>
    intro s s' top l hf hn hr
    obtain ⟨s1, r1, e1, hv, q1⟩ := TokRun.one hr
    obtain ⟨s2, q2, b2⟩ := tok_intfp (O := O) s1 (show FpSt s1.m.ram top l by rw [r1]; exact hf) (by simp only [FExp.need] at hn; omega) hv
    rw [q1.unique q2]
    refine ⟨⟨_, b2.st, fun x hx => ?_⟩, ?_, ?_⟩
    · rw [ofInt_int]; simpa [FExp.eval] using hx
    · rw [b2.zp]; exact e1
    · rw [← r1]; exact b2.keep
  | add a b iha ihb => intro s s' top l hf hn hr; exact bin O.add .add a b iha ihb (fun s _ _ _ h => tok_add s h) hf hn hr
  | sub a b iha ihb => intro s s' top l hf hn hr; exact bin O.sub .sub a b iha ihb (fun s _ _ _ h => tok_sub s h) hf hn hr
  | mul a b iha ihb => intro s s' top l hf hn hr; exact bin O.mul .mul a b iha ihb (fun s _ _ _ h => tok_mul s h) hf hn hr
  | div a b iha ihb => intro s s' top l hf hn hr; exact bin O.div .div a b iha ihb (fun s _ _ _ h => tok_div s h) hf hn hr
  | neg a ih => intro s s' top l hf hn hr; exact un Num.neg .neg a ih (fun s _ _ h => tok_neg s h) hf hn hr
  | abs a ih => intro s s' top l hf hn hr; exact un Num.abs .abs a ih (fun s _ _ h => tok_abs s h) hf hn hr
  | sgn a ih => intro s s' top l hf hn hr; exact un Num.sgn .sgn a ih (fun s _ _ h => tok_sgn s h) hf hn hr

/-- Specification: the constants of an expression are in the memory, and its variables are out of page zero and of the stack. -/
def FTok.Ok (ram : W → B) : FTok → Prop
  | .float n => ∃ w, NumOut w ∧ numAt ram w = n
  | .load w => NumOut w
  | _ => True

theorem FTok.Ok.keep {t : FTok} {r r' : W → B} (h : t.Ok r) (hk : FpKeep r r') : t.Ok r' := by
  cases t with
  | float n => obtain ⟨w, hO, hv⟩ := h; exact ⟨w, hO, by rw [← hv]; exact hO.congr fun a h1 h2 => hk a h1 (.inr h2)⟩
  | _ => exact h

theorem word_split (w : W) : word (w.setWidth 8) ((w >>> 8).setWidth 8) = w := by
  have wl := w.isLt
  apply BitVec.eq_of_toNat_eq
  rw [word_toNat, BitVec.toNat_setWidth, BitVec.toNat_setWidth, BitVec.toNat_ushiftRight, Nat.shiftRight_eq_div_pow]
  omega

/-- The hypotheses of `C58_value` can be met: when the constants are in the memory, every expression with enough places in the stack has a run. -/
theorem C58_runs (e : FExp) : ∀ (s : QS) {top : Num} {l : List Num}, FpSt s.m.ram top l → l.length + e.need ≤ 8 → (∀ t ∈ e.toks, t.Ok s.m.ram) → ∃ s', TokRun O e.toks s s' := by
  have bin : ∀ (f : Num → Num → Option Num) (t : FTok) (a b : FExp) (_ : ∀ (s : QS) {top : Num} {l : List Num}, FpSt s.m.ram top l → l.length + a.need ≤ 8 → (∀ t ∈ a.toks, t.Ok s.m.ram) → ∃ s', TokRun O a.toks s s')
      (_ : ∀ (s : QS) {top : Num} {l : List Num}, FpSt s.m.ram top l → l.length + b.need ≤ 8 → (∀ t ∈ b.toks, t.Ok s.m.ram) → ∃ s', TokRun O b.toks s s') (_ : ∀ m, t.Has m)
      (_ : ∀ (s : QS) {top b : Num} {l : List Num}, FpSt s.m.ram top (b :: l) → ∃ s', QHalts fpCode O t.code s s' ∧ FpBin s s' (f b top) l)
      (s : QS) {top : Num} {l : List Num}, FpSt s.m.ram top l → l.length + max a.need (1 + b.need) ≤ 8 → (∀ u ∈ a.toks ++ b.toks ++ [t], u.Ok s.m.ram) → ∃ s', TokRun O (a.toks ++ b.toks ++ [t]) s s' := by
    intro f t a b iha ihb hh ht s top l hf hn hk
    obtain ⟨s1, h1⟩ := iha s hf (by omega) fun u hu => hk u (by simp [hu])
    obtain ⟨⟨va, f1, -⟩, -, k1⟩ := C58_value a hf (by omega) h1
    obtain ⟨s2, h2⟩ := ihb s1 f1 (by simp only [List.length_cons]; omega) fun u hu => (hk u (by simp [hu])).keep k1
    obtain ⟨⟨vb, f2, -⟩, -, k2⟩ := C58_value b f1 (by simp only [List.length_cons]; omega) h2
    obtain ⟨s3, q3, -⟩ := ht s2 f2
    exact ⟨s3, (h1.append h2).append (.cons rfl rfl (hh _) q3 (.nil _))⟩
  have un : ∀ (f : Num → Num) (t : FTok) (a : FExp) (_ : ∀ (s : QS) {top : Num} {l : List Num}, FpSt s.m.ram top l → l.length + a.need ≤ 8 → (∀ t ∈ a.toks, t.Ok s.m.ram) → ∃ s', TokRun O a.toks s s') (_ : ∀ m, t.Has m)
      (_ : ∀ (s : QS) {top : Num} {l : List Num}, FpSt s.m.ram top l → ∃ s', QHalts fpCode O t.code s s' ∧ FpR s s' (f top) l s.m.zp)
      (s : QS) {top : Num} {l : List Num}, FpSt s.m.ram top l → l.length + a.need ≤ 8 → (∀ u ∈ a.toks ++ [t], u.Ok s.m.ram) → ∃ s', TokRun O (a.toks ++ [t]) s s' := by
    intro f t a iha hh ht s top l hf hn hk
    obtain ⟨s1, h1⟩ := iha s hf hn fun u hu => hk u (by simp [hu])
    obtain ⟨⟨va, f1, -⟩, -, k1⟩ := C58_value a hf hn h1
    obtain ⟨s3, q3, -⟩ := ht s1 f1
    exact ⟨s3, h1.append (.cons rfl rfl (hh _) q3 (.nil _))⟩
  induction e with
  | const n =>
    intro s top l hf hn hk
    obtain ⟨w, hO, hv⟩ := hk (.float n) (by simp [FExp.toks])
    obtain ⟨s2, c, c', q2, -⟩ := tok_float (O := O) { s with m := { s.m with zp := { s.m.zp with cptr := w.setWidth 8, cptrh := (w >>> 8).setWidth 8 } } } (w := w) hf (by simp only [FExp.need] at hn; omega) (word_split w) hO
    exact ⟨s2, .cons (s := s) (s1 := { s with m := { s.m with zp := { s.m.zp with cptr := w.setWidth 8, cptrh := (w >>> 8).setWidth 8 } } }) rfl rfl
      (by rw [FTok.Has]; dsimp only; rw [word_split]; exact ⟨hO, hv⟩) q2 (.nil _)⟩
  | load w =>
    intro s top l hf hn hk
    have hO := hk (.load w) (by simp [FExp.toks])
    obtain ⟨s2, q2, -⟩ := tok_load (O := O) { s with m := { s.m with a := w.setWidth 8, x := (w >>> 8).setWidth 8 } } (w := w) hf (by simp only [FExp.need] at hn; omega) (word_split w) hO
    exact ⟨s2, .cons (s := s) (s1 := { s with m := { s.m with a := w.setWidth 8, x := (w >>> 8).setWidth 8 } }) rfl rfl ⟨hO, word_split w⟩ q2 (.nil _)⟩
  | ofInt w =>
    intro s top l hf hn hk
    obtain ⟨s2, q2, -⟩ := tok_intfp (O := O) { s with m := { s.m with a := w.setWidth 8, x := (w >>> 8).setWidth 8 } } (w := w) hf (by simp only [FExp.need] at hn; omega) (word_split w)
    exact ⟨s2, .cons (s := s) (s1 := { s with m := { s.m with a := w.setWidth 8, x := (w >>> 8).setWidth 8 } }) rfl rfl (word_split w) q2 (.nil _)⟩
  | add a b iha ihb => intro s top l hf hn hk; exact bin O.add .add a b iha ihb (fun _ => trivial) (fun s _ _ _ h => tok_add s h) s hf hn hk
  | sub a b iha ihb => intro s top l hf hn hk; exact bin O.sub .sub a b iha ihb (fun _ => trivial) (fun s _ _ _ h => tok_sub s h) s hf hn hk
  | mul a b iha ihb => intro s top l hf hn hk; exact bin O.mul .mul a b iha ihb (fun _ => trivial) (fun s _ _ _ h => tok_mul s h) s hf hn hk
  | div a b iha ihb => intro s top l hf hn hk; exact bin O.div .div a b iha ihb (fun _ => trivial) (fun s _ _ _ h => tok_div s h) s hf hn hk
  | neg a ih => intro s top l hf hn hk; exact un Num.neg .neg a ih (fun _ => trivial) (fun s _ _ h => tok_neg s h) s hf hn hk
  | abs a ih => intro s top l hf hn hk; exact un Num.abs .abs a ih (fun _ => trivial) (fun s _ _ h => tok_abs s h) s hf hn hk
  | sgn a ih => intro s top l hf hn hk; exact un Num.sgn .sgn a ih (fun _ => trivial) (fun s _ _ h => tok_sgn s h) s hf hn hk

/-- An assignment: the variable has the value, the stack of numbers is as before the expression, and the other memory does not change. -/
theorem C58_assign {e : FExp} {s s1 s2 s' : QS} {top v : Num} {l : List Num} {w : W} (hf : FpSt s.m.ram top l) (hn : l.length + e.need ≤ 8) (h1 : TokRun O e.toks s s1) (hv : e.eval O s.m.ram = some v)
    (hr : s2.m.ram = s1.m.ram) (hw : word s2.m.zp.saddr s2.m.zp.saddrh = w) (hO : NumOut w) (h2 : QHalts fpCode O fpCode.EXE_FP_STORE s2 s') :
    numAt s'.m.ram w = v ∧ FpSt s'.m.ram top l ∧ ∀ a : W, 6 ≤ (a - w).toNat → a ≠ 0xB0#16 → (a.toNat < 0xD4 ∨ (0x100 ≤ a.toNat ∧ a.toNat < 0x4D0) ∨ 0x500 ≤ a.toNat) → s'.m.ram a = s.m.ram a := by
  obtain ⟨⟨v1, f1, e1⟩, -, k1⟩ := C58_value e hf hn h1
  rw [e1 v hv] at f1
  obtain ⟨s3, q3, f3, v3, n3, -⟩ := tok_store (O := O) s2 (w := w) (show FpSt s2.m.ram v (top :: l) by rw [hr]; exact f1) hw hO
  rw [h2.unique q3]
  exact ⟨v3, f3, fun a h h' h'' => by rw [n3 a h h' (by omega), hr, k1 a h' h'']⟩

/-- The word that a comparison leaves in the stack of integers. -/
theorem xx_int (b : B) : ((word b b).toInt < 0 ↔ 128 ≤ b.toNat) ∧ (word b b = 0#16 ↔ b = 0#8) := by
  have hb := b.isLt
  constructor
  · rw [int16, word_toNat]; split <;> omega
  · constructor
    · intro h
      have := congrArg BitVec.toNat h
      rw [word_toNat] at this
      exact BitVec.eq_of_toNat_eq (by simp at this ⊢; omega)
    · rintro rfl; rfl

/-- A comparison: in the stack of integers there is a word that is negative if the difference `d` is, and zero if the difference is zero; the second operand of the comparison of integers is zero.  The stack of numbers
is as before the two expressions. -/
theorem C58_compare {a b : FExp} {s s1 s2 s' : QS} {top x y d : Num} {l : List Num} (hf : FpSt s.m.ram top l) (hn : l.length + (FExp.sub a b).need ≤ 8) (h1 : TokRun O (a.toks ++ b.toks) s s1)
    (hx : a.eval O s.m.ram = some x) (hy : b.eval O s.m.ram = some y) (hd : O.sub x y = some d) (hr : s2.m.ram = s1.m.ram) (h2 : QHalts fpCode O fpCode.EXE_FP_CMP s2 s') :
    FpSt s'.m.ram top l ∧ s'.m.zp.sptr = s2.m.zp.sptr - 1#8 ∧ (∀ j, j ≠ s'.m.zp.sptr → s'.m.sl j = s2.m.sl j ∧ s'.m.sh j = s2.m.sh j) ∧ word s'.m.a s'.m.x = 0#16 ∧
    ((word (s'.m.sl s'.m.zp.sptr) (s'.m.sh s'.m.zp.sptr)).toInt < 0 ↔ 128 ≤ d.e.toNat) ∧ (word (s'.m.sl s'.m.zp.sptr) (s'.m.sh s'.m.zp.sptr) = 0#16 ↔ d.e = 0#8) := by
  rw [FExp.need] at hn
  obtain ⟨sa, ha, hb⟩ := h1.split
  obtain ⟨⟨va, fa, ea⟩, -, ka⟩ := C58_value a hf (by omega) ha
  obtain ⟨⟨vb, fb, eb⟩, -, kb⟩ := C58_value b fa (by simp only [List.length_cons]; omega) hb
  rw [b.eval_congr ka hb.loads] at eb
  obtain ⟨s3, v, q3, c3, e3⟩ := tok_cmp (O := O) s2 (show FpSt s2.m.ram vb (va :: top :: l) by rw [hr]; exact fb)
  rw [ea x hx, eb y hy] at e3
  have hvd := e3 d hd
  rw [hvd] at c3
  rw [h2.unique q3]
  have hs : s3.m.zp.sptr = s2.m.zp.sptr - 1#8 := by rw [c3.zp]
  have h5 : s3.m.sl s3.m.zp.sptr = d.e := by rw [hs, c3.sl, upd_at]
  have h6 : s3.m.sh s3.m.zp.sptr = d.e := by rw [hs, c3.sh, upd_at]
  rw [h5, h6]
  refine ⟨c3.st, hs, fun j hj => ?_, by rw [c3.ax.1, c3.ax.2]; rfl, xx_int d.e⟩
  rw [hs] at hj
  rw [c3.sl, c3.sh]
  simp [upd, hj]

/-- `INT`: the integer has the sign of the number and the absolute value from the OS, if that is less than 32768; if not, there is error 3. -/
theorem C58_integer {e : FExp} {s s1 s2 s' : QS} {top v : Num} {l : List Num} (hf : FpSt s.m.ram top l) (hn : l.length + e.need ≤ 8) (h1 : TokRun O e.toks s s1) (hv : e.eval O s.m.ram = some v)
    (hr : s2.m.ram = s1.m.ram) (he : s2.m.zp.ioerr = s1.m.zp.ioerr) (h2 : QHalts fpCode O fpCode.EXE_FP_INT s2 s') :
    FpSt s'.m.ram top l ∧ FpKeep s.m.ram s'.m.ram ∧ match O.fpi { v with e := v.e &&& 0x7F#8 } with
      | some k => if k.toNat < 32768 then (word s'.m.a s'.m.x).toInt = (if 128 ≤ v.e.toNat then - (k.toNat : Int) else k.toNat) ∧ s'.m.zp.ioerr = s.m.zp.ioerr else s'.m.zp.ioerr = 3#8
      | none => s'.m.zp.ioerr = 3#8 := by
  obtain ⟨⟨v1, f1, e1⟩, er, k1⟩ := C58_value e hf hn h1
  rw [e1 v hv] at f1
  rw [hv] at er
  obtain ⟨s3, q3, i3, r3⟩ := tok_int (O := O) s2 (show FpSt s2.m.ram v (top :: l) by rw [hr]; exact f1)
  rw [h2.unique q3]
  refine ⟨i3.st, k1.trans (by rw [← hr]; exact i3.keep), ?_⟩
  change match O.fpi v.abs with
    | some k => _
    | none => _
  cases hp : O.fpi v.abs with
  | none =>
    rw [hp] at r3
    dsimp only at r3 ⊢
    rw [r3]
  | some k =>
    rw [hp] at r3
    dsimp only at r3 ⊢
    obtain ⟨w3, z3⟩ := r3
    split
    · next hk =>
      rw [if_pos hk] at z3
      refine ⟨?_, by rw [z3, he, er]; rfl⟩
      rw [w3, topBit]
      simp only [decide_eq_true_eq]
      split
      · rw [int16, BitVec.toNat_neg]
        split <;> omega
      · rw [int16, if_pos hk]
    · next hk =>
      rw [if_neg hk] at z3
      rw [z3]

/-- The stack has no check: with eight numbers in it, one more push stores its bytes out of the stack, in the buffers of the OS; one of them is in `FPSCR` (`$05E6` to `$05EB`), where `SQR` and powers have a number. -/
theorem C58_ninth_refuted (m : M) (k : Code) (st : List Slot) (hs : m.stk = .ret k :: st) {top : Num} {l : List Num} (hf : FpSt m.ram top l) (hl : l.length = 8) :
    ∃ m', Reach fpCode fpCode.push_fr0 m k m' ∧ m'.ram 0xB0#16 = 255#8 ∧ m'.ram 0x5E7#16 = top.d3 := by
  obtain ⟨m', r, -, -, e⟩ := push_raw m k st hs
  have hp := hf.fptr
  have h0 : m.ram 0xB0#16 = 0#8 := BitVec.eq_of_toNat_eq (by simp; omega)
  rw [h0] at e
  refine ⟨m', r, ?_, ?_⟩
  · rw [e]; rfl
  · rw [e, ← hf.top]; rfl

/-- `INT(-32768.0)`: the integer exists but there is an error. -/
theorem C58_int_min_refuted {e : FExp} {s s1 s2 s' : QS} {top v : Num} {l : List Num} (hf : FpSt s.m.ram top l) (hn : l.length + e.need ≤ 8) (h1 : TokRun O e.toks s s1) (hv : e.eval O s.m.ram = some v)
    (hr : s2.m.ram = s1.m.ram) (he : s2.m.zp.ioerr = s1.m.zp.ioerr) (h2 : QHalts fpCode O fpCode.EXE_FP_INT s2 s') (hk : O.fpi { v with e := v.e &&& 0x7F#8 } = some 32768#16) : s'.m.zp.ioerr = 3#8 := by
  have := (C58_integer hf hn h1 hv hr he h2).2.2
  rw [hk] at this
  exact this

/-! ### Examples -/

/-- A memory: an empty stack, `1`, `2` and `3` at `$600`, `$606` and `$700`. -/
def exFpRam : W → B := putNum (putNum (putNum (upd (fun _ => 0#8) 0xB0#16 8#8) 0x600#16 ⟨0x40#8, 1#8, 0#8, 0#8, 0#8, 0#8⟩) 0x606#16 ⟨0x40#8, 2#8, 0#8, 0#8, 0#8, 0#8⟩) 0x700#16 ⟨0x40#8, 3#8, 0#8, 0#8, 0#8, 0#8⟩

/-- `1 - (2 * X)` with `X` at `$700`. -/
def exExp : FExp := .sub (.const ⟨0x40#8, 1#8, 0#8, 0#8, 0#8, 0#8⟩) (.mul (.const ⟨0x40#8, 2#8, 0#8, 0#8, 0#8, 0#8⟩) (.load 0x700#16))

theorem exSt : FpSt exFpRam ⟨0#8, 0#8, 0#8, 0#8, 0#8, 0#8⟩ [] := ⟨rfl, fun _ h => by simp at h, rfl⟩

/-- It needs three places and has a run from that memory, with any arithmetic; then `C58_value` gives the result. -/
example (O : NOps) (s : QS) (hs : s.m.ram = exFpRam) : ∃ s', TokRun O exExp.toks s s' ∧ Res s s' (exExp.eval O exFpRam) [⟨0#8, 0#8, 0#8, 0#8, 0#8, 0#8⟩] := by
  have hf : FpSt s.m.ram ⟨0#8, 0#8, 0#8, 0#8, 0#8, 0#8⟩ [] := by rw [hs]; exact exSt
  have hn : ([] : List Num).length + exExp.need ≤ 8 := by decide
  obtain ⟨s', h⟩ := C58_runs (O := O) exExp s hf hn (by
    intro t ht
    simp only [exExp, FExp.toks, List.cons_append, List.nil_append, List.mem_cons, List.not_mem_nil, or_false] at ht
    rw [hs]
    rcases ht with rfl | rfl | rfl | rfl | rfl
    · exact ⟨0x600#16, .inr ⟨by decide, by decide⟩, rfl⟩
    · exact ⟨0x606#16, .inr ⟨by decide, by decide⟩, rfl⟩
    · exact .inr ⟨by decide, by decide⟩
    · trivial
    · trivial)
  exact ⟨s', h, by have := C58_value exExp hf hn h; rwa [hs] at this⟩

/-- The order of the operands: with a subtraction that gives its first operand and a product that gives its second one, the value is `1`. -/
example (O : NOps) (h1 : O.sub = fun a _ => some a) (h2 : O.mul = fun _ b => some b) : exExp.eval O exFpRam = some ⟨0x40#8, 1#8, 0#8, 0#8, 0#8, 0#8⟩ := by
  simp only [exExp, FExp.eval, h1, h2]; rfl

/-- `1-(1-(1-…))` with eight constants fits in the stack; with nine it does not. -/
example : (Nat.rec (.const ⟨0x40#8, 1#8, 0#8, 0#8, 0#8, 0#8⟩) (fun _ e => .sub (.const ⟨0x40#8, 1#8, 0#8, 0#8, 0#8, 0#8⟩) e) 7 : FExp).need = 8 ∧
    (Nat.rec (.const ⟨0x40#8, 1#8, 0#8, 0#8, 0#8, 0#8⟩) (fun _ e => .sub (.const ⟨0x40#8, 1#8, 0#8, 0#8, 0#8, 0#8⟩) e) 8 : FExp).need = 9 := ⟨rfl, rfl⟩

/-- A full stack exists. -/
example : FpSt (fun _ => 0#8) ⟨0#8, 0#8, 0#8, 0#8, 0#8, 0#8⟩ (List.replicate 8 ⟨0#8, 0#8, 0#8, 0#8, 0#8, 0#8⟩) := ⟨rfl, fun i h => by rw [List.getElem_replicate]; rfl, rfl⟩

end
end FB.Rt
