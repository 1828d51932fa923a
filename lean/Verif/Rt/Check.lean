import Verif.Rt.Sim
import Verif.Sim
/-!
# Checking that a run is safe

A decision procedure for the condition `SafeRun` of `Verif.Rt.Sim`, for programs that end.
-/
namespace FB.Rt

variable {env : Env} {img : Image} {P : List Codew}

theorem ctl_d {t : Tok} {ops r : List Codew} {c c' : Cfg} (h : ctl P t ops r c = .run c') : c'.d = c.d.killAx := by
  unfold ctl goto doRet at h
  repeat' split at h
  all_goals first | (cases h; done) | (cases h; rfl)

/-- Addresses of the program and of the table. -/
def fixedAddrs (env : Env) (img : Image) (P : List Codew) : List W :=
  (List.range (bytesAll env img P).length).map (fun i => img.base + BitVec.ofNat 16 i) ++
  P.flatMap fun c => match c with | .tok t => [word (img.num t) img.page, word (img.num t + 1) img.page] | _ => []

theorem fixed_mem {a : W} (h : Fixed env img P a) : a ∈ fixedAddrs env img P := by
  rcases h with ⟨i, hi, rfl⟩ | ⟨t, ht, h⟩
  · exact List.mem_append_left _ (List.mem_map.2 ⟨i, List.mem_range.2 hi, rfl⟩)
  · refine List.mem_append_right _ (List.mem_flatMap.2 ⟨_, ht, ?_⟩)
    simpa using h

/-- The event is a character written. -/
def isPut : Event → Bool
  | .put _ _ => true
  | _ => false

/-- A string of one character. -/
def isOne : Val → Bool
  | .ptr [_] _ => true
  | _ => false

/-- One step is safe. -/
def okStep (env : Env) (img : Image) (P : List Codew) (t : Tok) (ops : List Codew) (d d' : D) : Bool :=
  (routine env img t).isSome && d'.out.all isPut && decide (d'.stk.length ≤ 40) &&
  (touched env t ops d).all (fun a => !decide (a ∈ [pcol env, img.chr, img.chr + 1, aptr env, aptr env + 1])) &&
  ((written env t ops d).all fun a => !decide (a ∈ fixedAddrs env img P)) &&
  (!decide (t = .CHR) || d.stk.all fun x => !isOne x) &&
  (!decide (t = .STR_IDX) || match d.stk with | _ :: v :: _ => (strBytes d.mem v).isSome && apartStr d.mem v LB | _ => true)

/-- The run from `c` ends in `n` steps and all are safe. -/
def okRun (env : Env) (img : Image) (P : List Codew) : Nat → Cfg → Bool
  | 0, _ => false
  | n + 1, c => match FB.step env P c with
      | .run c' => okRun env img P n c' && match c.code with
          | .tok t :: r => (match splitOps (arity env t) r with | some (ops, _) => okStep env img P t ops c.d c'.d | none => false)
          | _ => true
      | _ => true

theorem okStep_safe {t : Tok} {ops : List Codew} {d d' : D} (h : okStep env img P t ops d d' = true) : Safe env img P t ops d d' := by
  simp only [okStep, Bool.and_eq_true, Bool.or_eq_true, List.all_eq_true, decide_eq_true_eq, Bool.not_eq_true',
    decide_eq_false_iff_not] at h
  obtain ⟨⟨⟨⟨⟨⟨h1, h2⟩, h3⟩, h4⟩, h5⟩, h6⟩, h7⟩ := h
  refine ⟨h1, ?_, h3, fun a ha hf => h5 a ha (fixed_mem hf), ?_, ?_, ?_⟩
  · intro e he
    have := h2 e he
    cases e <;> first | (cases this; done) | exact ⟨_, _, rfl⟩
  · intro a ha hr
    refine h4 a ha ?_
    rcases hr with e | e | e | e | e <;> rw [e] <;> simp
  · intro ht x hx b o e
    rcases h6 with h6 | h6
    · exact h6 ht
    · have := h6 x hx
      rw [e] at this; cases this
  · intro ht x v st hs
    rcases h7 with h7 | h7
    · exact absurd ht h7
    · rw [hs] at h7
      simpa using h7

theorem okRun_step {n : Nat} {c c' : Cfg} (h : okRun env img P (n + 1) c = true) (hs : FB.step env P c = .run c') :
    okRun env img P n c' = true ∧ StepSafe env img P c c' := by
  rw [okRun, hs] at h
  simp only [Bool.and_eq_true] at h
  refine ⟨h.1, ?_⟩
  intro t r ops r' hc ho
  have h2 := h.2
  rw [hc] at h2
  simp only [ho] at h2
  exact okStep_safe h2

/-- A run that passes the check is safe. -/
theorem okRun_safe {n : Nat} {c : Cfg} (h : okRun env img P n c = true) : SafeRun env img P c := by
  have key : ∀ i n c c1, okRun env img P n c = true → runN env P i c = .run c1 → ∃ n', okRun env img P n' c1 = true := by
    intro i
    induction i with
    | zero => intro n c c1 h h'; cases h'; exact ⟨n, h⟩
    | succ i ih =>
      intro n c c1 h h'
      rw [runN] at h'
      cases n with
      | zero => cases h
      | succ n =>
        cases hs : FB.step env P c with
        | run c2 => rw [hs] at h'; exact ih n c2 c1 (okRun_step h hs).1 h'
        | done d => rw [hs] at h'; cases h'
        | wrong => rw [hs] at h'; cases h'
  intro i c1 c2 h1 h2
  obtain ⟨n', h3⟩ := key i n c c1 h h1
  cases n' with
  | zero => cases h3
  | succ n' => exact (okRun_step h3 h2).2

/-! ## Checking the placement -/

/-- The program is placed. -/
def okPlaced (env : Env) (img : Image) (P : List Codew) : Bool :=
  (P.all fun c => match c with
    | .label l => (match findLabel l P with | some k => decide (env.wordSym l = addr env img P k) | none => true)
    | .str s => decide (s.length ≤ 255)
    | _ => true) &&
  ([pcol env, img.chr, img.chr + 1, aptr env, aptr env + 1].all fun a => !decide (a ∈ fixedAddrs env img P)) &&
  !decide (pcol env = img.chr) && !decide (pcol env = img.chr + 1)

theorem findLabel_mem {l : String} {k : List Codew} : ∀ {P : List Codew}, findLabel l P = some k → Codew.label l ∈ P := by
  intro P
  induction P with
  | nil => intro h; cases h
  | cons x P ih =>
    intro h
    unfold findLabel at h
    split at h
    · next e => rw [e]; exact List.mem_cons_self ..
    · exact List.mem_cons_of_mem _ (ih h)

theorem okPlaced_placed (h : okPlaced env img P = true) : Placed env img P := by
  simp only [okPlaced, Bool.and_eq_true, List.all_eq_true, Bool.not_eq_true', decide_eq_false_iff_not] at h
  obtain ⟨⟨⟨h1, h2⟩, h3⟩, h4⟩ := h
  refine ⟨?_, ?_, ?_, h3, h4⟩
  · intro l k hk
    have := h1 _ (findLabel_mem hk)
    simpa [hk] using this
  · intro s hs
    simpa using h1 _ hs
  · intro a ha hf
    have hm := fixed_mem hf
    rcases ha with rfl | rfl | rfl | rfl | rfl <;> exact h2 _ (by simp) hm

/-- The program is in memory. -/
def okLoaded (env : Env) (img : Image) (P : List Codew) (ram : W → B) : Bool :=
  ((List.range (bytesAll env img P).length).all fun i => decide ((bytesAll env img P)[i]? = some (ram (img.base + BitVec.ofNat 16 i)))) &&
  P.all fun c => match c with
    | .tok t => decide (ram (word (img.num t) img.page) = lo (img.exe t)) && decide (ram (word (img.num t + 1) img.page) = hi (img.exe t))
    | _ => true

theorem okLoaded_loaded {ram : W → B} (h : okLoaded env img P ram = true) : Loaded env img P ram := by
  simp only [okLoaded, Bool.and_eq_true, List.all_eq_true, decide_eq_true_eq] at h
  obtain ⟨h1, h2⟩ := h
  refine ⟨?_, fun t ht => ?_, fun t ht => ?_⟩
  · intro i b hb
    have := h1 i (List.mem_range.2 (List.getElem?_eq_some_iff.1 hb).1)
    rw [hb] at this
    exact (Option.some.inj this).symm
  · have := h2 _ ht
    simp only [Bool.and_eq_true, decide_eq_true_eq] at this
    exact this.1
  · have := h2 _ ht
    simp only [Bool.and_eq_true, decide_eq_true_eq] at this
    exact this.2

/-! ## The start of a program -/

/-- The state in which `interpreter_run` (`interpreter.asm:151-208`) enters the loop: code pointer at the start, integer stack of
40 places empty, channel and colour 0, nothing written; the page of the variables is that of `clear_data`; the instruction that
`move.asm` modifies is `DEY` (`interpreter.asm:120-135`), and `array_ptr`, which the routines access by its name and programs by its address, is
one cell.  The stack of the processor is what is above the place where the program was called. -/
structure Booted (env : Env) (img : Image) (P : List Codew) (m : M) : Prop where
  cptr : word m.zp.cptr m.zp.cptrh = img.base
  sptr : m.zp.sptr = 40
  stk : m.stk = []
  chn : m.zp.chn = 0
  color : m.ram (pcol env) = 0
  one : m.ram img.chr = 1
  vpage : env.heap = word 0 m.zp.vpage
  out : m.out = []
  loaded : Loaded env img P m.ram
  free : word m.zp.arr m.zp.arrh = mkW (m.ram (aptr env)) (m.ram (aptr env + 1))
  mins : m.zp.mins = 0x88

theorem Booted.rep {m : M} (h : Booted env img P m) : Rep env img P (initCfg P m.ram) m.view := by
  refine ⟨List.suffix_refl P, ?_, nofun, h.stk, nofun, nofun, ⟨?_, ?_⟩, fun _ _ => rfl, h.color, h.one, h.loaded, h.vpage, ⟨?_, ?_⟩, ?_, h.free, h.mins⟩
  · show word m.zp.cptr m.zp.cptrh = _
    rw [h.cptr, addr]; simp [initCfg]
  · show m.zp.sptr.toNat + 0 = 40
    rw [h.sptr]; rfl
  · intro i x hx; cases hx
  · show (0 : W).toNat < 8; decide
  · exact h.chn
  · show [] = m.out.map evOf
    rw [h.out]; rfl

end FB.Rt
