import Verif.Parse.Discipline
import Verif.Props.C18

/-!
# Tables that follow the discipline

Soundness of the checker of `Verif/Parse/Discipline.lean`: in tables that pass it no action finds the code
empty or its last element of the wrong kind, and lines that do not switch to other code only add elements.
-/

namespace FB.Parse

open Frame

theorem lookup_assign_self {α : Type} (k : Str) (v : α) (l : List (Str × α)) :
    lookup k (assign k v l) = some v := by
  induction l with
  | nil => simp [assign, lookup]
  | cons x l ih =>
    obtain ⟨k', v'⟩ := x
    simp only [assign]
    split
    · next h => subst h; simp [lookup]
    · next h => simp [lookup, h, ih]

theorem lookup_assign_ne {α : Type} {k k' : Str} (v : α) (l : List (Str × α)) (h : k ≠ k') :
    lookup k (assign k' v l) = lookup k l := by
  induction l with
  | nil => simp [assign, lookup, h]
  | cons x l ih =>
    obtain ⟨k1, v1⟩ := x
    simp only [assign]
    split
    · next h1 => subst h1; simp [lookup, h]
    · simp only [lookup, ih]

/-- The code of a procedure (empty if it does not exist). -/
def codeOf (s : PS) (k : Str) : List CW := (lookup k s.procs).getD []

theorem code_eq (s : PS) : s.code = codeOf s s.curProc := rfl

theorem curProc_eq {s s' : PS} (h : s'.procStack = s.procStack) : s'.curProc = s.curProc := by
  unfold PS.curProc; rw [h]

theorem codeOf_eq {s s' : PS} (h : s'.procs = s.procs) (k : Str) : codeOf s' k = codeOf s k := by
  unfold codeOf; rw [h]

theorem code_congr {s s' : PS} (h1 : s'.procStack = s.procStack) (h2 : s'.procs = s.procs) :
    s'.code = s.code := by
  rw [code_eq, code_eq, curProc_eq h1, codeOf_eq h2]

@[simp] theorem setCode_code (s : PS) (c : List CW) : (s.setCode c).code = c := by
  unfold PS.code PS.setCode PS.curProc
  simp [lookup_assign_self]

theorem setCode_codeOf (s : PS) (c : List CW) {k : Str} (h : k ≠ s.curProc) :
    codeOf (s.setCode c) k = codeOf s k := by
  unfold codeOf PS.setCode
  simp [lookup_assign_ne _ _ h]

@[simp] theorem emit_code (s : PS) (c : CK) : (s.emit c).code = ⟨c, s.linenum⟩ :: s.code := by
  unfold PS.emit; simp

theorem emit_codeOf (s : PS) (c : CK) {k : Str} (h : k ≠ s.curProc) :
    codeOf (s.emit c) k = codeOf s k := setCode_codeOf s _ h

/-- `s'` has the code of `s` with `c` in place of the current procedure. -/
structure Code (s : PS) (c : List CW) (s' : PS) : Prop where
  stack : s'.procStack = s.procStack
  code : s'.code = c
  other : ∀ k, k ≠ s.curProc → codeOf s' k = codeOf s k

theorem Code.refl (s : PS) : Code s s.code s := ⟨rfl, rfl, fun _ _ => rfl⟩

theorem Code.trans {s s1 s2 : PS} {c c1 : List CW} (h1 : Code s c s1) (h2 : Code s1 c1 s2) :
    Code s c1 s2 :=
  ⟨h2.stack.trans h1.stack, h2.code, fun k hk =>
    (h2.other k (by rw [curProc_eq h1.stack]; exact hk)).trans (h1.other k hk)⟩

theorem Code.same {s s' : PS} (h1 : s'.procStack = s.procStack) (h2 : s'.procs = s.procs) :
    Code s s.code s' := ⟨h1, code_congr h1 h2, fun k _ => codeOf_eq h2 k⟩

theorem Code.setCode (s : PS) (c : List CW) : Code s c (s.setCode c) :=
  ⟨rfl, by simp, fun _ hk => setCode_codeOf s c hk⟩

/-- Continue with a step that leaves the code alone. -/
theorem Code.andSame {s s1 s2 : PS} {c : List CW} (h : Code s c s1) (h1 : s2.procStack = s1.procStack)
    (h2 : s2.procs = s1.procs) : Code s c s2 := by
  have := h.trans (Code.same h1 h2)
  rw [h.code] at this; exact this

/-- Continue with an `emit`. -/
theorem Code.andEmit {s s1 : PS} {c : List CW} (h : Code s c s1) (k : CK) :
    Code s (⟨k, s1.linenum⟩ :: c) (s1.emit k) := by
  have := h.trans (Code.setCode s1 (⟨k, s1.linenum⟩ :: s1.code))
  refine ⟨this.stack, ?_, this.other⟩
  rw [emit_code, h.code]

theorem Code.andSet {s s1 : PS} {c : List CW} (h : Code s c s1) (c' : List CW) :
    Code s c' (s1.setCode c') := h.trans (Code.setCode s1 c')

theorem resize_append (e base : List CW) : PS.resize (e ++ base) base.length = base := by
  unfold PS.resize
  rw [if_pos (by simp)]
  simp

theorem resize_ge (e base : List CW) {n : Nat} (h : base.length ≤ n) :
    ∃ e', PS.resize (e ++ base) n = e' ++ base := by
  unfold PS.resize
  split
  · refine ⟨e.drop ((e ++ base).length - n), ?_⟩
    rw [List.drop_append_of_le_length]
    simp; omega
  · exact ⟨_, (List.append_assoc _ _ _).symm⟩

theorem Code.andRestore {s s1 : PS} {c e : List CW} (h : Code s c s1) (v : PS.Saved) {base : List CW}
    (hc : c = e ++ base) (hv : v.opos = base.length) : Code s base (s1.restore v) := by
  have h1 := h.trans (Code.setCode s1 (PS.resize s1.code v.opos))
  have h2 : Code s (PS.resize s1.code v.opos) (s1.restore v) := h1.andSame rfl rfl
  rw [h.code, hv, hc, resize_append] at h2
  exact h2

/-! ## Actions -/

/-- Last elements of the code as described. -/
inductive Matches : List Abs → List CW → Prop
  | nil : Matches [] []
  | cons {x : Abs} {c : CW} {l : List Abs} {cs : List CW} : x.Holds c → Matches l cs →
      Matches (x :: l) (c :: cs)

theorem Matches.append {l m : List Abs} {c d : List CW} (h1 : Matches l c) (h2 : Matches m d) :
    Matches (l ++ m) (c ++ d) := by
  induction h1 with
  | nil => exact h2
  | cons hx _ ih => exact .cons hx ih

theorem Matches.length {l : List Abs} {c : List CW} (h : Matches l c) : c.length = l.length := by
  induction h with
  | nil => rfl
  | cons _ _ ih => simp [ih]

theorem Abs.sub_holds {x y : Abs} (h : x.sub y = true) {c : CW} (hx : x.Holds c) : y.Holds c := by
  cases y with
  | any => trivial
  | sym m =>
    cases x with
    | any => cases h
    | sym l =>
      obtain ⟨n, hn, hk⟩ := hx
      simp only [Abs.sub, List.all_eq_true, decide_eq_true_eq] at h
      exact ⟨n, h n hn, hk⟩

theorem subList_split {l m : List Abs} {c : List CW} (h : Matches l c) (hs : subList l m = true) :
    ∃ c1 c2, c = c1 ++ c2 ∧ Matches m c1 ∧ Matches (l.drop m.length) c2 := by
  induction m generalizing l c with
  | nil => exact ⟨[], c, rfl, .nil, h⟩
  | cons y ys ih =>
    cases h with
    | nil => cases hs
    | @cons x d l' c' hx ht =>
      simp only [subList, Bool.and_eq_true] at hs
      obtain ⟨c1, c2, rfl, h3, h4⟩ := ih ht hs.2
      exact ⟨d :: c1, c2, rfl, .cons (Abs.sub_holds hs.1 hx) h3, h4⟩

/-- The state `s` is as described, in a line started with the code `base` and procedures of `s0`. -/
def ASt.Holds (a : ASt) (base : List CW) (s0 s : PS) : Prop :=
  ∃ top rest, s.code = top ++ rest ∧ Matches a.known top ∧
    (a.clean = true → s.procStack = s0.procStack ∧ (∀ k, k ≠ s0.curProc → codeOf s k = codeOf s0 k) ∧
      ∃ extra, rest = extra ++ base ∧ (a.exact = true → extra = []))

/-- Only that code was added. -/
def Added (base : List CW) (s0 s : PS) : Prop :=
  s.procStack = s0.procStack ∧ (∀ k, k ≠ s0.curProc → codeOf s k = codeOf s0 k) ∧
    ∃ extra, s.code = extra ++ base

/-- What is known after an action, line or table. -/
def Sound (b : ASt) (base : List CW) (s0 : PS) : Res → Prop
  | .ok s => b.Holds base s0 s
  | .fail s => b.clean = true → Added base s0 s
  | .err e => e ≠ .ub ∧ e ≠ .internal

theorem ASt.Holds.added {a : ASt} {base : List CW} {s0 s : PS} (h : a.Holds base s0 s)
    (hc : a.clean = true) : Added base s0 s := by
  obtain ⟨top, rest, h1, -, h3⟩ := h
  obtain ⟨h4, h5, e, rfl, -⟩ := h3 hc
  exact ⟨h4, h5, top ++ e, by rw [h1, List.append_assoc]⟩

/-- The code was replaced by `new ++ c`. -/
theorem Added.code {base : List CW} {s0 s s' : PS} (h : Added base s0 s) {c : List CW}
    (hc : Code s c s') (hb : ∃ e, c = e ++ base) : Added base s0 s' := by
  obtain ⟨h1, h2, e, h3⟩ := h
  obtain ⟨e', rfl⟩ := hb
  exact ⟨hc.stack.trans h1, fun k hk => (hc.other k (by rw [curProc_eq h1]; exact hk)).trans (h2 k hk), e',
    hc.code⟩

/-- Elements `new` pushed on `s`. -/
theorem ASt.Holds.pushes {a : ASt} {base : List CW} {s0 s s' : PS} (h : a.Holds base s0 s)
    {new : List CW} (hc : Code s (new ++ s.code) s') (l : List Abs) (hl : Matches l new) :
    ({ a with known := l ++ a.known } : ASt).Holds base s0 s' := by
  obtain ⟨top, rest, h1, h2, h3⟩ := h
  refine ⟨new ++ top, rest, by rw [hc.code, h1, List.append_assoc], hl.append h2, fun hcl => ?_⟩
  obtain ⟨h4, h5, h6⟩ := h3 hcl
  exact ⟨hc.stack.trans h4, fun k hk => (hc.other k (by rw [curProc_eq h4]; exact hk)).trans (h5 k hk), h6⟩

theorem ASt.Holds.same {a : ASt} {base : List CW} {s0 s s' : PS} (h : a.Holds base s0 s)
    (h1 : s'.procStack = s.procStack) (h2 : s'.procs = s.procs) : a.Holds base s0 s' := by
  have := h.pushes (new := []) (Code.same h1 h2) [] .nil
  exact this

theorem ASt.Holds.push {a : ASt} {base : List CW} {s0 s s' : PS} (h : a.Holds base s0 s) {c : CW}
    (hc : Code s (c :: s.code) s') (x : Abs) (hx : x.Holds c) : (a.push x).Holds base s0 s' :=
  h.pushes (new := [c]) hc [x] (.cons hx .nil)

theorem ASt.Holds.emit {a : ASt} {base : List CW} {s0 s : PS} (h : a.Holds base s0 s) (k : CK) :
    (a.push .any).Holds base s0 (s.emit k) := h.push ((Code.refl s).andEmit k) _ trivial

theorem ASt.Holds.forget {a : ASt} {base : List CW} {s0 s : PS} (h : a.Holds base s0 s) :
    a.forget.Holds base s0 s := by
  obtain ⟨top, rest, h1, -, h3⟩ := h
  refine ⟨[], top ++ rest, h1, .nil, fun hcl => ?_⟩
  obtain ⟨h4, h5, e, rfl, -⟩ := h3 hcl
  exact ⟨h4, h5, top ++ e, by rw [List.append_assoc], fun h => by cases h⟩

theorem ASt.pop_some {a b : ASt} {p : Abs → Bool} (h : a.pop p = some b) :
    ∃ x l, a.known = x :: l ∧ p x = true ∧ b = { a with known := l } := by
  unfold ASt.pop at h
  split at h
  · cases h
  · next x l heq =>
    split at h
    · next hp => cases h; exact ⟨x, l, heq, hp, rfl⟩
    · cases h

/-- Removing the last element. -/
theorem ASt.Holds.pop {a b : ASt} {base : List CW} {s0 s : PS} {p : Abs → Bool} (h : a.Holds base s0 s)
    (hp : a.pop p = some b) : ∃ x c cs, p x = true ∧ x.Holds c ∧ s.code = c :: cs ∧
      s.removeLast = some (c, s.setCode cs) ∧ b.clean = a.clean ∧
      ∀ s', Code s cs s' → b.Holds base s0 s' := by
  obtain ⟨x, l, h1, h2, rfl⟩ := ASt.pop_some hp
  obtain ⟨top, rest, h3, h4, h5⟩ := h
  rw [h1] at h4
  cases h4 with
  | @cons _ c _ top' hx ht =>
    refine ⟨x, c, top' ++ rest, h2, hx, h3, ?_, rfl, fun s' hc => ?_⟩
    · unfold PS.removeLast; rw [h3]; rfl
    · refine ⟨top', rest, hc.code, ht, fun hcl => ?_⟩
      obtain ⟨h6, h7, h8⟩ := h5 hcl
      exact ⟨hc.stack.trans h6, fun k hk => (hc.other k (by rw [curProc_eq h6]; exact hk)).trans (h7 k hk),
        h8⟩

theorem sym_getStr {x : Abs} {c : CW} (h : x.Holds c) (hs : ∃ l, x = .sym l) :
    ∃ l n, x = .sym l ∧ n ∈ l ∧ c.k = .byteStr n ∧ c.k.getStr = some n := by
  obtain ⟨l, rfl⟩ := hs
  obtain ⟨n, hn, hk⟩ := h
  exact ⟨l, n, rfl, hn, hk, by rw [hk]; rfl⟩

theorem removeStr_of {s : PS} {c : CW} {cs : List CW} {n : Str}
    (h : s.removeLast = some (c, s.setCode cs)) (hn : c.k.getStr = some n) :
    removeStr s = .ok (n, s.setCode cs) := by
  unfold removeStr; rw [h]; simp only; rw [hn]

/-- Every procedure or data block that is open is in the stack of jumps, in order. -/
def ProcJ (s : PS) : Prop := (s.jumps.filter (fun j => j.type = .PROC_DATA)).map Jump.label = s.procStack

theorem ProcJ.same {s s' : PS} (h : ProcJ s) (h1 : s'.jumps = s.jumps) (h2 : s'.procStack = s.procStack) :
    ProcJ s' := by unfold ProcJ; rw [h1, h2]; exact h

theorem ProcJ.pushLoop {s : PS} (h : ProcJ s) {t : LT} (ht : t ≠ .PROC_DATA) : ProcJ (s.pushLoop t).2 := by
  unfold ProcJ at *
  have h1 : (s.pushLoop t).2.jumps = ⟨t, (s.pushLoop t).1, s.linenum⟩ :: s.jumps := by
    simp only [PS.pushLoop]; split <;> rfl
  rw [h1, pushLoop_procStack, List.filter_cons_of_neg (by simpa using ht)]
  exact h

theorem popLoop_none {s : PS} {t : LT} (h : (s.popLoop t).1 = none) : (s.popLoop t).2 = s.popLoopErr t := by
  unfold PS.popLoop at *
  split at h
  · rfl
  · split at h
    · next hc => rw [if_pos hc]
    · cases h

theorem popLoop_some {s : PS} {t : LT} {l : Str} (h : (s.popLoop t).1 = some l) :
    ∃ j js, s.jumps = j :: js ∧ (j.type = t ∨ (t = .ELSE ∧ j.type = .IF)) ∧ l = j.label ∧
      (s.popLoop t).2.jumps = js := by
  unfold PS.popLoop at *
  split at h
  · cases h
  · next j js heq =>
    split at h
    · cases h
    · next hc =>
      rw [if_neg hc]
      refine ⟨j, js, heq, ?_, ?_, ?_⟩
      · by_cases h1 : j.type = t
        · exact .inl h1
        · by_cases h2 : t = .ELSE
          · by_cases h3 : j.type = .IF
            · exact .inr ⟨h2, h3⟩
            · exact absurd ⟨h1, .inr h3⟩ hc
          · exact absurd ⟨h1, .inl h2⟩ hc
      · simpa using h.symm
      · simp only; split <;> rfl

theorem ProcJ.popLoop {s : PS} (h : ProcJ s) {t : LT} (ht : t ≠ .PROC_DATA) : ProcJ (s.popLoop t).2 := by
  cases hl : (s.popLoop t).1 with
  | none => rw [popLoop_none hl]; exact h.same rfl rfl
  | some l =>
    obtain ⟨j, js, h1, h2, -, h3⟩ := popLoop_some hl
    unfold ProcJ at *
    rw [h3, popLoop_procStack, ← h, h1, List.filter_cons_of_neg]
    rcases h2 with h2 | ⟨-, h2⟩ <;> simp [h2, ht]

theorem ProcJ.popElifs (n : Nat) {s : PS} (h : ProcJ s) : ProcJ (popElifs n s) := by
  induction n generalizing s with
  | zero => exact h
  | succ n ih =>
    simp only [FB.Parse.popElifs]
    split
    · exact ih ((h.popLoop (by decide)).same rfl rfl)
    · exact h

theorem ProcJ.pushData {s s' : PS} (h : ProcJ s) (cs : List CW)
    (h1 : s'.jumps = (s.pushLoop .PROC_DATA).2.jumps)
    (h2 : s'.procStack = (((s.pushLoop .PROC_DATA).2.setCode cs).pushProc (s.pushLoop .PROC_DATA).1).procStack) :
    ProcJ s' := by
  unfold ProcJ at *
  have h3 : (s.pushLoop .PROC_DATA).2.jumps = ⟨.PROC_DATA, (s.pushLoop .PROC_DATA).1, s.linenum⟩ :: s.jumps := by
    simp only [PS.pushLoop]; split <;> rfl
  rw [h1, h2, h3, List.filter_cons_of_pos (by simp)]
  simp [PS.pushProc, h]

/-- The stack of procedures agrees with the stack of jumps after any action. -/
theorem ProcJ.action (env : Env) (a : Act) {s : PS} (h : ProcJ s)
    (he : a = .ELSEIF → ∀ c cs n, s.code = c :: cs → c.k.getStr = some n → getLoopType n ≠ some .PROC_DATA) :
    (action env a s).All ProcJ := by
  have sm : ∀ {s' : PS}, s'.jumps = s.jumps → s'.procStack = s.procStack → ProcJ s' := fun h1 h2 => h.same h1 h2
  cases a <;> simp only [FB.Parse.action]
  case CONST_STRING => simp only [eConstString]; (repeat' split) <;> exact sm (by simp) (by simp)
  case COUNT_PARAM => exact h.same rfl rfl
  case DATA_FILE =>
    simp only [eDataFile]; (repeat' split) <;> first | trivial | exact sm (by simp) (by simp)
  case DO_EXEC => simp only [eDoExec]; (repeat' split) <;> first | trivial | exact sm (by simp) (by simp)
  case ELSEIF =>
    simp only [eElseIf]; split
    · exact h.popLoop (by decide)
    · split
      · trivial
      · next t s1 heq =>
        obtain ⟨c, cs, n, h0, rfl, h2, h3⟩ := removeLT_code heq
        by_cases ht : t = .PROC_DATA
        · subst ht
          rw [code_congr (s := s) (by simp) (by simp)] at h0
          exact absurd h3 (he rfl c cs n h0 h2)
        · have h1 : ProcJ ((s.popLoop .IF).2.setCode cs) := (h.popLoop (by decide)).same rfl rfl
          exact (h1.pushLoop ht).same (by simp) (by simp)
  case EOL => simp only [eEol, eRem]; (repeat' split) <;> exact sm (by simp) (by simp)
  case EXIT_LOOP => simp only [eExitLoop]; (repeat' split) <;> exact sm (by simp) (by simp)
  case LABEL =>
    simp only [eLabel]; split
    · trivial
    · obtain ⟨c, cs, -, rfl, -⟩ := removeStr_code ‹_›
      (repeat' split) <;> first | trivial | exact sm (by simp) (by simp)
  case LABEL_CREATE => simp only [eLabelCreate]; (repeat' split) <;> exact sm (by simp) (by simp)
  case LABEL_DEF =>
    simp only [eLabelDef]; split
    · trivial
    · obtain ⟨cs, -, rfl⟩ := removeLast_code ‹_›
      split
      · exact h.pushData cs (by simp) (by simp)
      · exact h.pushData cs (by simp) (by simp)
  case LABEL_SET_TYPE =>
    simp only [eLabelSetType]; split
    · trivial
    · obtain ⟨c, cs, -, rfl, -⟩ := removeStr_code ‹_›
      (repeat' split) <;> first | trivial | exact sm (by simp) (by simp)
  case DATA_SET_ROM_SEG => exact h.same rfl rfl
  case DATA_SET_SEGMENT => simp only [eDataSetSegment]; (repeat' split) <;> exact sm (by simp) (by simp)
  case NUMBER_BYTE => simp only [eNumberByte]; (repeat' split) <;> exact sm (by simp) (by simp)
  case NUMBER_FP => simp only [eNumberFp]; (repeat' split) <;> exact sm (by simp) (by simp)
  case NUMBER_WORD => simp only [eNumberWord]; (repeat' split) <;> exact sm (by simp) (by simp)
  case POP_FOR =>
    have h1 : ProcJ ((s.popLoop .FOR_1).2.popLoop .FOR_2).2 := (h.popLoop (by decide)).popLoop (by decide)
    simp only [ePopFor]; split
    · split
      · trivial
      · obtain ⟨cs, -, rfl⟩ := removeLast_code ‹_›
        exact h1.same (by simp) (by simp)
    · exact h1
  case POP_IF =>
    simp only [ePopIf]; split
    · exact h.popLoop (by decide)
    · exact ProcJ.popElifs _ ((h.popLoop (by decide)).same rfl rfl)
  case POP_LOOP =>
    simp only [ePopLoop]; (repeat' split) <;> exact (h.popLoop (t := .DO_LOOP) (by decide)).same rfl rfl
  case POP_PROC_2 =>
    simp only [ePopProc2]; (repeat' split) <;> exact (h.popLoop (t := .PROC_2) (by decide)).same rfl rfl
  case POP_PROC_DATA =>
    simp only [ePopProcData]; split
    · next hn => rw [popLoop_none hn]; exact h.same rfl rfl
    · next l hl =>
      obtain ⟨j, js, h1, h2, rfl, h3⟩ := popLoop_some hl
      have h2' : j.type = .PROC_DATA := by
        rcases h2 with h2 | ⟨h2, -⟩
        · exact h2
        · cases h2
      have hj := h
      unfold ProcJ at hj
      rw [h1, List.filter_cons_of_pos (by simpa using h2')] at hj
      unfold PS.popProc
      rw [popLoop_procStack, ← hj]
      simp only [List.map_cons, if_true, Res.All_ok]
      unfold ProcJ
      dsimp only
      rw [h3]
  case POP_REPEAT =>
    simp only [ePopRepeat]; (repeat' split) <;> exact (h.popLoop (t := .REPEAT) (by decide)).same rfl rfl
  case POP_VAR => simp only [ePopVar]; (repeat' split) <;> first | trivial | exact sm (by simp) (by simp)
  case POP_WHILE =>
    have h1 : ProcJ ((s.popLoop .WHILE_2).2.popLoop .WHILE_1).2 := (h.popLoop (by decide)).popLoop (by decide)
    simp only [ePopWhile]; (repeat' split) <;> exact h1.same (by simp) (by simp)
  case PROC_CHECK => simp only [eProcCheck]; (repeat' split) <;> first | trivial | exact sm (by simp) (by simp)
  case PUSH_LT =>
    simp only [ePushLT]; split
    · trivial
    · next t s1 heq =>
      obtain ⟨c, cs, n, -, rfl, -⟩ := removeLT_code heq
      have h0 : ProcJ (s.setCode cs) := h.same rfl rfl
      split <;> first
        | exact (h0.pushLoop (by decide)).same (by simp) (by simp)
        | exact h0.pushLoop (by decide)
        | skip
      split
      · trivial
      · obtain ⟨cs', -, rfl⟩ := removeLast_code ‹_›
        exact h0.pushData cs' (by simp) (by simp)
  case PUSH_VAR =>
    simp only [ePushVar]; split
    · trivial
    · obtain ⟨cs, -, rfl⟩ := removeLast_code ‹_›
      exact sm (by simp) (by simp)
  case REM => exact h.same rfl rfl
  case VAR_CREATE => simp only [eVarCreate]; (repeat' split) <;> exact sm (by simp) (by simp)
  case VAR_SEARCH =>
    simp only [eVarSearch, varCheck]; split
    · trivial
    · obtain ⟨c, cs, -, rfl, -⟩ := removeStr_code ‹_›
      (repeat' split) <;> exact sm (by simp) (by simp)
  case VAR_SET_TYPE =>
    simp only [eVarSetType]; split
    · trivial
    · obtain ⟨c, cs, -, rfl, -⟩ := removeStr_code ‹_›
      (repeat' split) <;> exact sm (by simp) (by simp)
  case VAR_WORD => simp only [eVarWord, varCheck]; (repeat' split) <;> exact sm (by simp) (by simp)

/-! ## Effect of each action on the code -/

theorem getAsmWord_true {s : PS} (h : (getAsmWord s).1 = true) :
    ∃ w, Code s (w :: s.code) (getAsmWord s).2 := by
  unfold getAsmWord at *
  dsimp only at *
  split at h
  · next h1 =>
    rw [if_pos h1]
    split at h
    · next name _ =>
      have h1 := (Code.same (s := s) (s' := ((s.expect 64).2.getIdent.2.addText (64 :: name)).addSVar (64 :: name))
        (by simp) (by simp)).andEmit (.wordStr name)
      exact ⟨_, h1.andSame rfl rfl⟩
    · cases h
  · cases h

theorem getAsmWord_false {s : PS} (h : (getAsmWord s).1 = false) : (getAsmWord s).2.procs = s.procs := by
  unfold getAsmWord at *
  dsimp only at *
  split at h
  · next h1 =>
    rw [if_pos h1]
    split at h
    · cases h
    · simp
  · next h1 => rw [if_neg h1]; simp

theorem getAsmByte_true {s : PS} (h : (getAsmByte s).1 = true) :
    ∃ w, Code s (w :: s.code) (getAsmByte s).2 := by
  unfold getAsmByte at *
  dsimp only at *
  split at h
  · next h1 =>
    rw [if_pos h1]
    split at h
    · next h2 =>
      rw [if_pos h2]
      split at h
      · next name _ =>
        have h1 := (Code.same (s := s) (s' := (((s.expect 64).2.expect 64).2.getIdent.2.addText
          (64 :: 64 :: name)).addSVar (64 :: 64 :: name)) (by simp) (by simp)).andEmit (.byteStr name)
        exact ⟨_, h1.andSame rfl rfl⟩
      · cases h
    · cases h
  · cases h

theorem getAsmByte_false {s : PS} (h : (getAsmByte s).1 = false) : (getAsmByte s).2.procs = s.procs := by
  unfold getAsmByte at *
  dsimp only at *
  split at h
  · next h1 =>
    rw [if_pos h1]
    split at h
    · next h2 =>
      rw [if_pos h2]
      split at h
      · cases h
      · simp
    · next h2 => rw [if_neg h2]; simp
  · next h1 => rw [if_neg h1]; simp

theorem parseFpExp_code (s : PS) : Code s s.code (parseFpExp s).2 := by
  have hr : ∀ s' : PS, s'.procStack = s.procStack → s'.procs = s.procs → Code s s.code (s'.restore s.save) :=
    fun s' h1 h2 => (Code.same h1 h2).andRestore (e := []) _ rfl rfl
  simp only [parseFpExp]
  have hp : ∀ b : Bool, (if b then ((s.expect 69).2.expect 45).2
      else (((s.expect 69).2.expect 45).2.expect 43).2).procs = s.procs := by intro b; cases b <;> simp
  have hq : ∀ b : Bool, (if b then ((s.expect 69).2.expect 45).2
      else (((s.expect 69).2.expect 45).2.expect 43).2).procStack = s.procStack := by
    intro b; cases b <;> simp
  split
  · split
    · exact hr _ (hq _) (hp _)
    · split
      · exact Code.same (hq _) (hp _)
      · exact Code.same (hq _) (hp _)
  · exact hr _ (by simp) (by simp)

theorem popElifs_code (n : Nat) (s : PS) : ∃ new, Code s (new ++ s.code) (popElifs n s) := by
  induction n generalizing s with
  | zero => exact ⟨[], Code.refl s⟩
  | succ n ih =>
    simp only [popElifs]
    split
    · have h1 := (Code.same (s := s) (s' := (s.popLoop .ELIF).2) (by simp) (by simp)).andEmit
        (.label ((s.popLoop .ELIF).1.getD []))
      obtain ⟨new, h2⟩ := ih ((s.popLoop .ELIF).2.emit (.label ((s.popLoop .ELIF).1.getD [])))
      have := h1.trans h2
      rw [h1.code, List.append_cons] at this
      exact ⟨_, this⟩
    · exact ⟨[], Code.refl s⟩

theorem emitData_code (l : List Nat) (s : PS) : ∃ new, Code s (new ++ s.code) (emitData l s) := by
  induction l generalizing s with
  | nil => exact ⟨[], Code.refl s⟩
  | cons c cs ih =>
    simp only [emitData]
    have h1 := (Code.refl s).andEmit (.byte c)
    obtain ⟨new, h2⟩ := ih (s.emit (.byte c))
    have := h1.trans h2
    rw [h1.code, List.append_cons] at this
    exact ⟨_, this⟩

/-- An unknown number of new elements. -/
theorem ASt.Holds.more {a : ASt} {base : List CW} {s0 s s' : PS} (h : a.Holds base s0 s)
    {new : List CW} (hc : Code s (new ++ s.code) s') : a.forget.Holds base s0 s' := by
  obtain ⟨top, rest, h1, h2, h3⟩ := h
  refine ⟨[], new ++ top ++ rest, by rw [hc.code, h1]; simp, .nil, fun hcl => ?_⟩
  obtain ⟨h4, h5, e, rfl, -⟩ := h3 hcl
  exact ⟨hc.stack.trans h4, fun k hk => (hc.other k (by rw [curProc_eq h4]; exact hk)).trans (h5 k hk),
    new ++ top ++ e, by simp, fun h => by cases h⟩

/-- As before, and one of the new elements is known to exist. -/
theorem ASt.Holds.more1 {a : ASt} {base : List CW} {s0 s s' : PS} (h : a.Holds base s0 s)
    {new : List CW} {c : CW} (hc : Code s (new ++ c :: s.code) s') :
    (a.forget.push .any).Holds base s0 s' := by
  cases new with
  | nil => exact h.forget.push (c := c) hc .any trivial
  | cons d ds =>
    obtain ⟨top, rest, h1, h2, h3⟩ := h
    refine ⟨[d], ds ++ c :: (top ++ rest), by rw [hc.code, h1]; simp, .cons trivial .nil, fun hcl => ?_⟩
    obtain ⟨h4, h5, e, rfl, -⟩ := h3 hcl
    exact ⟨hc.stack.trans h4, fun k hk => (hc.other k (by rw [curProc_eq h4]; exact hk)).trans (h5 k hk),
      ds ++ c :: (top ++ e), by simp, fun h => by cases h⟩

theorem ASt.Holds.push1 {a : ASt} {base : List CW} {s0 s s' : PS} (h : a.Holds base s0 s)
    (hc : ∃ c, Code s (c :: s.code) s') : (a.push .any).Holds base s0 s' :=
  let ⟨_, hc⟩ := hc
  h.push hc .any trivial

theorem ASt.Holds.push2 {a : ASt} {base : List CW} {s0 s s' : PS} (h : a.Holds base s0 s) 
    (hc : ∃ c d, Code s (c :: d :: s.code) s') : ((a.push .any).push .any).Holds base s0 s' :=
  let ⟨c, d, hc⟩ := hc
  h.pushes (new := [c, d]) hc [.any, .any] (.cons trivial (.cons trivial .nil))

theorem ASt.Holds.push3 {a : ASt} {base : List CW} {s0 s s' : PS} (h : a.Holds base s0 s) 
    (hc : ∃ c d e, Code s (c :: d :: e :: s.code) s') : (((a.push .any).push .any).push .any).Holds base s0 s' :=
  let ⟨c, d, e, hc⟩ := hc
  h.pushes (new := [c, d, e]) hc [.any, .any, .any] (.cons trivial (.cons trivial (.cons trivial .nil)))

theorem ASt.Holds.fail {a b : ASt} {base : List CW} {s0 s s' : PS} (h : a.Holds base s0 s)
    (hb : b.clean = a.clean) (h1 : s'.procStack = s.procStack) (h2 : s'.procs = s.procs) :
    b.clean = true → Added base s0 s' := fun hc => (h.same h1 h2).added (hb ▸ hc)

theorem isLoop_LT {x : Abs} {c : CW} (hp : x.isLoop = true) (hx : x.Holds c) :
    ∃ n t, c.k.getStr = some n ∧ getLoopType n = some t ∧ t ≠ .PROC_DATA := by
  cases x with
  | any => cases hp
  | sym l =>
    obtain ⟨n, hn, hk⟩ := hx
    simp only [Abs.isLoop, List.all_eq_true, Bool.and_eq_true, bne_iff_ne, ne_eq] at hp
    obtain ⟨h1, h2⟩ := hp n hn
    obtain ⟨t, ht⟩ := Option.isSome_iff_exists.1 h1
    exact ⟨n, t, by rw [hk]; rfl, ht, fun h => h2 (by rw [ht, h])⟩

theorem isLabelT_ok {x : Abs} {c : CW} (hp : x.isLabelT = true) (hx : x.Holds c) :
    ∃ n t, c.k.getStr = some n ∧ labelTypeOf n = some t := by
  cases x with
  | any => cases hp
  | sym l =>
    obtain ⟨n, hn, hk⟩ := hx
    simp only [Abs.isLabelT, List.all_eq_true] at hp
    obtain ⟨t, ht⟩ := Option.isSome_iff_exists.1 (hp n hn)
    exact ⟨n, t, by rw [hk]; rfl, ht⟩

theorem isSym_ok {x : Abs} {c : CW} (hp : x.isSym = true) (hx : x.Holds c) : ∃ n, c.k.getStr = some n := by
  cases x with
  | any => cases hp
  | sym l =>
    obtain ⟨n, hn, hk⟩ := hx
    exact ⟨n, by rw [hk]; rfl⟩

theorem removeLT_of {s : PS} {c : CW} {cs : List CW} {n : Str} {t : LT}
    (h : s.removeLast = some (c, s.setCode cs)) (hn : c.k.getStr = some n) (ht : getLoopType n = some t) :
    removeLT s = .ok (t, s.setCode cs) := by
  unfold removeLT; rw [removeStr_of h hn]; simp only; rw [ht]

theorem varCheck_sound {a : ASt} {base : List CW} {s0 s : PS} (h : a.Holds base s0 s) (t : VT) :
    Sound (a.push .any) base s0 (varCheck t s) := by
  simp only [varCheck]
  split
  · exact h.fail rfl (by simp) (by simp)
  · split
    · exact h.fail rfl (by simp) (by simp)
    · split
      · exact h.fail rfl (by simp) (by simp)
      · exact h.push (((Code.refl s).andSame (by simp) (by simp)).andEmit _) _ trivial

theorem emitVarn_code (s : PS) (name : Str) : ∃ w, Code s (w :: s.code) (emitVarn s name) := by
  unfold emitVarn
  exact ⟨_, (Code.refl s).andEmit _⟩

/-- An action used as the checker demands does what the checker says, and does not raise an internal error
or use an element of an empty vector. -/
theorem action_sound (env : Env) (x : Act) {a b : ASt} {base : List CW} {s0 s : PS}
    (ht : actTy x a = some b) (h : a.Holds base s0 s) (hj : ProcJ s) : Sound b base s0 (action env x s) := by
  cases x <;> simp only [actTy, Option.some.injEq, Option.map_eq_some_iff] at ht <;>
    simp only [FB.Parse.action]
  case CONST_STRING =>
    subst ht; simp only [eConstString]; split
    · exact h.push (((Code.refl s).andSame (by simp) (by simp)).andEmit _) _ trivial
    · exact h.fail rfl (by simp) (by simp)
  case COUNT_PARAM => subst ht; exact h.fail rfl rfl rfl
  case DATA_FILE =>
    subst ht; simp only [eDataFile]; split
    · exact h.fail rfl (by simp) (by simp)
    · split
      · exact ⟨by simp, by simp⟩
      · next data _ =>
        obtain ⟨new, hc⟩ := emitData_code (data.take 65536) (getConstString s.skipws).2
        have h1 : Code s s.code (getConstString s.skipws).2 := Code.same (by simp) (by simp)
        have := h1.trans hc
        rw [h1.code] at this
        exact h.more this
  case DO_EXEC =>
    subst ht; simp only [eDoExec]; split
    · exact h.push (((Code.refl s).andSame (by simp) (by simp)).andEmit _) _ trivial
    · exact ⟨by simp, by simp⟩
  case ELSEIF =>
    obtain ⟨a', hp, rfl⟩ := ht
    have h1 : a.Holds base s0 (s.popLoop .IF).2 := h.same (by simp) (by simp)
    obtain ⟨y, c, cs, hy, hyc, hcode, hrl, hcl, hH⟩ := h1.pop hp
    obtain ⟨n, t, hn, hlt, -⟩ := isLoop_LT hy hyc
    simp only [eElseIf]; split
    · exact fun hc => h1.added (by rw [← hcl]; exact hc)
    · rw [removeLT_of hrl hn hlt]
      simp only
      refine (hH _ (Code.setCode _ cs)).push2 ?_
      exact ⟨_, _, ((Code.same (s' := (((s.popLoop .IF).2.setCode cs).pushLoop t).2) (by simp) (by simp)).andEmit _).andEmit _⟩
  case EOL =>
    subst ht; simp only [eEol, eRem]; (repeat' split)
    all_goals first
      | exact h.same (by simp) (by simp)
      | exact h.fail rfl (by simp) (by simp)
  case EXIT_LOOP =>
    subst ht; simp only [eExitLoop]; split
    · exact h.fail rfl (by simp) (by simp)
    · exact h.fail rfl (by simp) (by simp)
    · exact h.emit _
  case LABEL =>
    obtain ⟨a', hp, rfl⟩ := ht
    obtain ⟨y, c, cs, hy, hyc, hcode, hrl, hcl, hH⟩ := h.pop hp
    obtain ⟨n, t, hn, hlt⟩ := isLabelT_ok hy hyc
    have h1 := hH _ (Code.setCode _ cs)
    simp only [eLabel, removeStr_of hrl hn, hlt]
    (repeat' split)
    all_goals first
      | exact h1.fail rfl (by simp) (by simp)
      | exact h1.push (((Code.refl _).andSame (by simp) (by simp)).andEmit _) _ trivial
  case LABEL_CREATE =>
    subst ht; simp only [eLabelCreate]; (repeat' split)
    all_goals first
      | exact h.same (by simp) (by simp)
      | exact h.fail rfl (by simp) (by simp)
  case LABEL_DEF =>
    obtain ⟨a', hp, rfl⟩ := ht
    have h1 : a.Holds base s0 (s.pushLoop .PROC_DATA).2 := h.same (by simp) (by simp)
    obtain ⟨y, c, cs, -, -, hcode, hrl, -, -⟩ := h1.pop hp
    simp only [eLabelDef, hrl]
    split
    · intro hc; cases hc
    · refine ⟨[_], _, emit_code _ _, .cons trivial .nil, fun hc => by cases hc⟩
  case LABEL_SET_TYPE =>
    obtain ⟨y, c, cs, hy, hyc, hcode, hrl, hcl, hH⟩ := (h.same (s' := s.skipws) rfl rfl).pop ht
    obtain ⟨n, t, hn, hlt⟩ := isLabelT_ok hy hyc
    simp only [eLabelSetType, removeStr_of hrl hn, hlt]
    exact (hH _ (Code.setCode _ cs)).same rfl rfl
  case DATA_SET_ROM_SEG => subst ht; exact h.same rfl rfl
  case DATA_SET_SEGMENT =>
    subst ht; simp only [eDataSetSegment]; split
    · exact h.same (by simp) (by simp)
    · exact h.fail rfl (by simp) (by simp)
  case NUMBER_BYTE =>
    subst ht; simp only [eNumberByte]
    have h0 : Code s s.code s.skipws := Code.same rfl rfl
    split
    · next hb =>
      obtain ⟨w, hw⟩ := getAsmByte_true hb
      exact h.push (h0.trans hw) _ trivial
    · next hb =>
      have hf := getAsmByte_false (by simpa using hb)
      split
      · exact h.fail rfl (by simp) (by rw [getNumber_procs, hf]; rfl)
      · have h1 := h0.andSame (s2 := (getNumber (getAsmByte s.skipws).2).2) (by simp) (by rw [getNumber_procs, hf])
        exact h.push1 ⟨_, (h1.andEmit (.byte (getNumber (getAsmByte s.skipws).2).1)).andSame rfl rfl⟩
  case NUMBER_WORD =>
    subst ht; simp only [eNumberWord]
    have h0 : Code s s.code s.skipws := Code.same rfl rfl
    split
    · next hb =>
      obtain ⟨w, hw⟩ := getAsmWord_true hb
      exact h.push (h0.trans hw) _ trivial
    · next hb =>
      have hf := getAsmWord_false (by simpa using hb)
      split
      · exact h.fail rfl (by simp) (by rw [getNumber_procs, hf]; rfl)
      · have h1 := h0.andSame (s2 := (getNumber (getAsmWord s.skipws).2).2) (by simp) (by rw [getNumber_procs, hf])
        exact h.push1 ⟨_, (h1.andEmit (.word (getNumber (getAsmWord s.skipws).2).1)).andSame rfl rfl⟩
  case NUMBER_FP =>
    subst ht; simp only [eNumberFp]
    split
    · exact h.fail rfl (by simp) (by simp)
    · next hd =>
      have h1 : ∀ s', s'.procStack = s.procStack → s'.procs = s.procs →
          Code s s.code (parseFpExp s').2 := by
        intro s' e1 e2
        have := (Code.same e1 e2).trans (parseFpExp_code s')
        rw [code_congr e1 e2] at this
        exact this
      generalize he : parseFpExp _ = e
      have h2 : Code s s.code e.2 := by rw [← he]; exact h1 _ (by simp) (by simp)
      split
      · intro hc
        obtain ⟨-, -, x, hx⟩ := h.added (by exact hc)
        exact (h.added (by exact hc)).code h2 ⟨x, hx⟩
      · next bt _ =>
        have h3 := (h2.andSame (s2 := (e.2.addText bt.2).addSFp bt.2) (by simp) (by simp)).andEmit (.fp bt.1)
        exact h.push1 ⟨_, h3.andSame rfl rfl⟩
  case POP_FOR =>
    obtain ⟨a', hp, rfl⟩ := ht
    have h1 : a.Holds base s0 ((s.popLoop .FOR_1).2.popLoop .FOR_2).2 := h.same (by simp) (by simp)
    obtain ⟨y, c, cs, hy, hyc, hcode, hrl, hcl, hH⟩ := h1.pop hp
    simp only [ePopFor]; split
    · simp only [hrl]
      refine (hH _ (Code.setCode _ cs)).push3 ?_
      exact ⟨_, _, _, (((Code.refl _).andEmit _).andEmit _).andEmit _⟩
    · exact fun hc => h1.added (by rw [← hcl]; exact hc)
  case POP_IF =>
    subst ht; simp only [ePopIf]; split
    · exact h.fail rfl (by simp) (by simp)
    · next l hl =>
      have h1 : Code s _ ((s.popLoop .ELSE).2.emit (.label l)) :=
        ((Code.refl s).andSame (by simp) (by simp)).andEmit (.label l)
      obtain ⟨new, h2⟩ := popElifs_code (s.popLoop .ELSE).2.jumps.length ((s.popLoop .ELSE).2.emit (.label l))
      have := h1.trans h2
      rw [h1.code] at this
      exact h.more1 this
  case POP_LOOP =>
    subst ht; simp only [ePopLoop]; split
    · exact h.fail rfl (by simp) (by simp)
    · exact h.push2 ⟨_, _, (((Code.refl s).andSame (by simp) (by simp)).andEmit _).andEmit _⟩
  case POP_PROC_2 =>
    subst ht; simp only [ePopProc2]; split
    · exact h.fail rfl (by simp) (by simp)
    · exact h.push (((Code.refl s).andSame (by simp) (by simp)).andEmit _) _ trivial
  case POP_PROC_DATA =>
    subst ht; simp only [ePopProcData]; split
    · intro hc; cases hc
    · next l hl =>
      obtain ⟨j, js, h1, h2, rfl, h3⟩ := popLoop_some hl
      have h2' : j.type = .PROC_DATA := by
        rcases h2 with h2 | ⟨h2, -⟩
        · exact h2
        · cases h2
      have hj' := hj
      unfold ProcJ at hj'
      rw [h1, List.filter_cons_of_pos (by simpa using h2')] at hj'
      unfold PS.popProc
      rw [popLoop_procStack, ← hj']
      simp only [List.map_cons, if_true]
      exact ⟨[], _, rfl, .nil, fun hc => by cases hc⟩
  case POP_REPEAT =>
    subst ht; simp only [ePopRepeat]; split
    · exact h.fail rfl (by simp) (by simp)
    · exact h.push2 ⟨_, _, (((Code.refl s).andSame (by simp) (by simp)).andEmit _).andEmit _⟩
  case POP_VAR =>
    subst ht; simp only [ePopVar]; split
    · exact ⟨by simp, by simp⟩
    · exact h.push ((Code.setCode s _).andSame rfl rfl) _ trivial
  case POP_WHILE =>
    subst ht; simp only [ePopWhile]; split
    · exact h.push3 ⟨_, _, _, ((((Code.refl s).andSame (by simp) (by simp)).andEmit _).andEmit _).andEmit _⟩
    · exact h.fail rfl (by simp) (by simp)
  case PROC_CHECK =>
    subst ht; simp only [eProcCheck]; split
    · exact h.same rfl rfl
    · exact ⟨by simp, by simp⟩
  case PUSH_LT =>
    obtain ⟨a', hp, rfl⟩ := ht
    obtain ⟨y, c, cs, hy, hyc, hcode, hrl, hcl, hH⟩ := h.pop hp
    obtain ⟨n, t, hn, hlt, hne⟩ := isLoop_LT hy hyc
    have h1 : ∀ t, a'.Holds base s0 ((s.setCode cs).pushLoop t).2 := fun t =>
      (hH _ (Code.setCode _ cs)).same (by simp) (by simp)
    simp only [ePushLT, removeLT_of hrl hn hlt]
    cases t <;> simp only
    all_goals first
      | exact absurd rfl hne
      | exact (h1 _).forget
      | exact (h1 _).more (new := [_]) ((Code.refl _).andEmit _)
  case PUSH_VAR =>
    obtain ⟨y, c, cs, hy, hyc, hcode, hrl, hcl, hH⟩ := h.pop ht
    simp only [ePushVar, hrl]
    exact hH _ ((Code.setCode _ cs).andSame rfl rfl)
  case REM => subst ht; exact h.same rfl rfl
  case VAR_CREATE =>
    subst ht; simp only [eVarCreate]; split
    · exact h.fail rfl (by simp) (by simp)
    · split
      · exact h.fail rfl (by simp) (by simp)
      · next name _ _ _ =>
        obtain ⟨w, hw⟩ := emitVarn_code
          { s.getIdent.2 with vars := assign name (256 * s.getIdent.2.vars.length) s.getIdent.2.vars } name
        have h1 : Code s s.code
          { s.getIdent.2 with vars := assign name (256 * s.getIdent.2.vars.length) s.getIdent.2.vars } :=
          Code.same (by simp) (by simp)
        have h2 := h1.trans hw
        rw [h1.code] at h2
        exact h.push1 ⟨w, h2.andSame (by simp) (by simp)⟩
  case VAR_SEARCH =>
    obtain ⟨a', hp, rfl⟩ := ht
    obtain ⟨y, c, cs, hy, hyc, hcode, hrl, hcl, hH⟩ := h.pop hp
    obtain ⟨n, hn⟩ := isSym_ok hy hyc
    simp only [eVarSearch, removeStr_of hrl hn]
    exact varCheck_sound (hH _ (Code.setCode _ cs)) _
  case VAR_SET_TYPE =>
    obtain ⟨y, c, cs, hy, hyc, hcode, hrl, hcl, hH⟩ := (h.same (s' := s.skipws) rfl rfl).pop ht
    obtain ⟨n, hn⟩ := isSym_ok hy hyc
    have h1 := hH _ (Code.setCode _ cs)
    simp only [eVarSetType, removeStr_of hrl hn]
    split
    · exact h1.same rfl rfl
    · exact h1.fail rfl rfl rfl
  case VAR_WORD => subst ht; exact varCheck_sound h _

/-! ## Lines and tables -/

theorem emits_sound {a : ASt} {base : List CW} {s0 s : PS} (h : a.Holds base s0 s) (d : List DCode) :
    (a.emits d).Holds base s0 (emitBytes d s) := by
  induction d generalizing a s with
  | nil => exact h
  | cons d ds ih =>
    refine ih (h.push ((Code.refl s).andEmit d.ck) _ ?_)
    cases d <;> first | exact trivial | exact ⟨_, List.mem_singleton.2 rfl, rfl⟩

theorem actTy_clean {x : Act} {a b : ASt} (h : actTy x a = some b) (hb : b.clean = true) : a.clean = true := by
  have hp : ∀ {p : Abs → Bool} {c : ASt}, a.pop p = some c → c.clean = a.clean := by
    intro p c hc
    obtain ⟨x, l, -, -, rfl⟩ := ASt.pop_some hc
    rfl
  cases x <;> simp only [actTy, Option.some.injEq, Option.map_eq_some_iff] at h
  all_goals first
    | (subst h; exact hb)
    | (subst h; cases hb)
    | (rw [← hp h]; exact hb)
    | (obtain ⟨c, hc, rfl⟩ := h; first | cases hb | (rw [← hp hc]; exact hb))

theorem emits_clean (a : ASt) (d : List DCode) : (a.emits d).clean = a.clean := by
  induction d generalizing a with
  | nil => rfl
  | cons d ds ih => exact ih _

theorem seq_clean {a c : ASt} {b : TEff} (h : a.seq b = some c) (hc : c.clean = true) :
    a.clean = true ∧ b.out.clean = true := by
  unfold ASt.seq at h
  split at h
  · cases h
    by_cases hb : b.out.clean = true
    · refine ⟨?_, hb⟩
      simp only [hb, if_true] at hc
      split at hc <;> exact hc
    · simp only [hb] at hc; cases hc
  · cases h

theorem checkLine_clean {ann : Nat → Option TEff} {l : List PCode} {a b : ASt} (h : checkLine ann l a = some b)
    (hb : b.clean = true) : a.clean = true := by
  induction l generalizing a with
  | nil => cases h; exact hb
  | cons c cs ih =>
    cases c with
    | lit l => exact ih h
    | emit d => rw [← emits_clean a d]; exact ih h
    | emitRet d => rw [← emits_clean a d]; cases h; exact hb
    | call t =>
      simp only [checkLine, Option.bind_eq_some_iff] at h
      obtain ⟨c, ⟨e, -, h2⟩, h3⟩ := h
      exact (seq_clean h2 (ih h3)).1
    | ext x =>
      simp only [checkLine, Option.bind_eq_some_iff] at h
      obtain ⟨c, h2, h3⟩ := h
      exact actTy_clean h2 (ih h3)
    | ret => cases h; exact hb

/-- What is known of the parsing of a table with effect `b`. Auxiliary, models nothing. -/
def TabSound (b : TEff) (tab : PS → Res) : Prop :=
  ∀ s need base, s.code = need ++ base → Matches b.need need → ProcJ s →
    Sound b.out base s (tab s) ∧ (tab s).All ProcJ

theorem seq_sound {a c : ASt} {b : TEff} {base : List CW} {s0 s : PS} {tab : PS → Res}
    (ht : TabSound b tab) (hs : a.seq b = some c) (h : a.Holds base s0 s) (hj : ProcJ s) :
    Sound c base s0 (tab s) := by
  have hcl := @seq_clean a c b hs
  unfold ASt.seq at hs
  split at hs
  · next hsub =>
    obtain ⟨top, rest, h1, h2, h3⟩ := h
    obtain ⟨c1, c2, rfl, h4, h5⟩ := subList_split h2 hsub
    obtain ⟨h6, -⟩ := ht s c1 (c2 ++ rest) (by rw [h1, List.append_assoc]) h4 hj
    revert h6
    cases tab s with
    | err e => exact id
    | fail s' =>
      intro h6 hc
      obtain ⟨k1, k2⟩ := hcl hc
      obtain ⟨p1, p2, e, p3⟩ := h6 k2
      obtain ⟨q1, q2, e', rfl, -⟩ := h3 k1
      exact ⟨p1.trans q1, fun k hk => (p2 k (by rw [curProc_eq q1]; exact hk)).trans (q2 k hk),
        e ++ c2 ++ e', by rw [p3]; simp⟩
    | ok s' =>
      rintro ⟨t', r', p1, p2, p3⟩
      cases hs
      by_cases hb : b.out.clean = true
      · obtain ⟨p4, p5, e, rfl, p6⟩ := p3 hb
        by_cases hx : b.out.exact = true
        · obtain rfl := p6 hx
          simp only [hb, hx, if_true]
          refine ⟨t' ++ c2, rest, by rw [p1]; simp, p2.append h5, fun hc => ?_⟩
          obtain ⟨q1, q2, q3⟩ := h3 hc
          exact ⟨p4.trans q1, fun k hk => (p5 k (by rw [curProc_eq q1]; exact hk)).trans (q2 k hk), q3⟩
        · simp only [hb, hx, if_true]
          refine ⟨t', e ++ (c2 ++ rest), p1, p2, fun hc => ?_⟩
          obtain ⟨q1, q2, e', rfl, -⟩ := h3 hc
          exact ⟨p4.trans q1, fun k hk => (p5 k (by rw [curProc_eq q1]; exact hk)).trans (q2 k hk),
            e ++ c2 ++ e', by simp, fun h => by cases h⟩
      · simp only [hb]
        exact ⟨t', r', p1, p2, fun h => by cases h⟩
  · cases hs

theorem parseLiteral_data (l : Str) (s : PS) :
    (parseLiteral l s).All fun s' => s'.procStack = s.procStack ∧ s'.procs = s.procs ∧ s'.jumps = s.jumps := by
  unfold parseLiteral
  dsimp only
  split <;> simp

theorem parseLiteral_noerr (l : Str) (s : PS) (e : Err) : parseLiteral l s ≠ .err e := by
  unfold parseLiteral
  dsimp only
  split <;> simp

theorem line_sound (env : Env) {ann : Nat → Option TEff} {tab : Nat → PS → Res}
    (htab : ∀ t b, ann t = some b → TabSound b (tab t)) {l : List PCode} {a b : ASt}
    (hl : checkLine ann l a = some b) {base : List CW} {s0 s : PS} (h : a.Holds base s0 s) (hj : ProcJ s) :
    Sound b base s0 (parseLine (action env) tab l s) ∧ (parseLine (action env) tab l s).All ProcJ := by
  induction l generalizing a s with
  | nil => cases hl; exact ⟨h, hj⟩
  | cons c cs ih =>
    have step : ∀ {r : Res} {a' : ASt}, Sound a' base s0 r → r.All ProcJ → checkLine ann cs a' = some b →
        Sound b base s0 (r.andThen (parseLine (action env) tab cs)) ∧
        (r.andThen (parseLine (action env) tab cs)).All ProcJ := by
      intro r a' h1 h2 h3
      cases r with
      | ok s1 => exact ih h3 h1 h2
      | fail s1 => exact ⟨fun hc => h1 (checkLine_clean h3 hc), h2⟩
      | err e => exact ⟨h1, trivial⟩
    cases c with
    | lit l =>
      have h1 := parseLiteral_data l s
      have h2 := parseLiteral_noerr l s
      refine step (r := parseLiteral l s) (a' := a) ?_ ?_ hl
      · revert h1 h2
        cases parseLiteral l s with
        | ok s1 => exact fun h1 _ => h.same h1.1 h1.2.1
        | fail s1 => exact fun h1 _ => h.fail rfl h1.1 h1.2.1
        | err e => exact fun _ h2 => absurd rfl (h2 e)
      · exact h1.mono fun s1 h1 => hj.same h1.2.2 h1.1
    | emit d => exact ih hl (emits_sound h d) (hj.same (by simp) (by simp))
    | emitRet d =>
      cases hl
      exact ⟨emits_sound h d, hj.same (by simp) (by simp)⟩
    | call t =>
      simp only [checkLine, Option.bind_eq_some_iff] at hl
      obtain ⟨c, ⟨e, h1, h2⟩, h3⟩ := hl
      refine step (seq_sound (htab t e h1) h2 h hj) ?_ h3
      have hs := h2
      unfold ASt.seq at hs
      split at hs
      · next hsub =>
        obtain ⟨top, rest, k1, k2, k3⟩ := h
        obtain ⟨c1, c2, rfl, h4, h5⟩ := subList_split k2 hsub
        exact (htab t e h1 s c1 (c2 ++ rest) (by rw [k1, List.append_assoc]) h4 hj).2
      · cases hs
    | ext x =>
      simp only [checkLine, Option.bind_eq_some_iff] at hl
      obtain ⟨c, h2, h3⟩ := hl
      refine step (action_sound env x h2 h hj) (hj.action env x ?_) h3
      rintro rfl c cs n hc hn
      simp only [actTy, Option.map_eq_some_iff] at h2
      obtain ⟨a', hp, -⟩ := h2
      obtain ⟨y, c', cs', hy, hyc, hcode, -⟩ := h.pop hp
      rw [hcode] at hc
      cases hc
      obtain ⟨n', t, hn', ht, hne⟩ := isLoop_LT hy hyc
      rw [hn] at hn'
      cases hn'
      rw [ht]
      exact fun hh => hne (Option.some.inj hh)
    | ret => cases hl; exact ⟨h, hj⟩

theorem ASt.sub_holds {a b : ASt} (h : a.sub b = true) {base : List CW} {s0 s : PS} (hh : a.Holds base s0 s) :
    b.Holds base s0 s := by
  simp only [ASt.sub, Bool.and_eq_true, Bool.or_eq_true, Bool.not_eq_true', beq_iff_eq] at h
  obtain ⟨⟨h1, h2⟩, h3⟩ := h
  obtain ⟨top, rest, k1, k2, k3⟩ := hh
  obtain ⟨c1, c2, rfl, h4, h5⟩ := subList_split k2 h1
  refine ⟨c1, c2 ++ rest, by rw [k1, List.append_assoc], h4, fun hc => ?_⟩
  obtain ⟨q1, q2, e, rfl, q3⟩ := k3 (by simpa [hc] using h2)
  refine ⟨q1, q2, c2 ++ e, by simp, fun hx => ?_⟩
  rw [hc, hx] at h3
  simp only [Bool.and_self, Bool.true_eq_false, false_or] at h3
  rw [q3 h3.1]
  have : (a.known.drop b.known.length) = [] := by rw [← h3.2]; simp
  rw [this] at h5
  cases h5
  rfl

theorem ASt.sub_clean {a b : ASt} (h : a.sub b = true) (hb : b.clean = true) : a.clean = true := by
  simp only [ASt.sub, Bool.and_eq_true, Bool.or_eq_true, Bool.not_eq_true', beq_iff_eq] at h
  simpa [hb] using h.1.2

/-- Leaving a table by failure: nothing was added and the code has the length of the start. -/
theorem lines_sound (env : Env) {ann : Nat → Option TEff} {tab : Nat → PS → Res}
    (htab : ∀ t b, ann t = some b → TabSound b (tab t)) {b : TEff} (ls : List (List PCode))
    (hn : b.need = [] ∨ ls.length ≤ 1)
    (hl : ∀ l ∈ ls, ∃ a, checkLine ann l ⟨b.need, true, true⟩ = some a ∧ a.sub b.out = true)
    {s : PS} {need base : List CW} (hc : s.code = need ++ base) (hm : Matches b.need need) (hj : ProcJ s)
    {sp : PS.Saved} (hsp : sp.opos = need.length + base.length) :
    Sound b.out base s (parseLines (action env) tab sp ls s) ∧
    (parseLines (action env) tab sp ls s).All ProcJ := by
  induction ls generalizing s need base with
  | nil => exact ⟨fun _ => ⟨rfl, fun _ _ => rfl, need, hc⟩, hj.same rfl rfl⟩
  | cons l ls ih =>
    obtain ⟨a, h1, h2⟩ := hl l List.mem_cons_self
    have h0 : ASt.Holds ⟨b.need, true, true⟩ base s s :=
      ⟨need, base, hc, hm, fun _ => ⟨rfl, fun _ _ => rfl, [], rfl, fun _ => rfl⟩⟩
    obtain ⟨h3, h4⟩ := line_sound env htab h1 h0 hj
    unfold parseLines
    split
    · next s1 heq =>
      rw [heq] at h3 h4
      exact ⟨(ASt.sub_holds h2 h3).same rfl rfl, h4.same rfl rfl⟩
    · next s1 heq =>
      rw [heq] at h3 h4
      have hj' : ProcJ (s1.restore sp) := h4.same (by simp) (by simp)
      rcases hn with hn | hn
      · rw [hn] at hm
        cases hm
        simp only [List.nil_append] at hc
        simp only [List.length_nil, Nat.zero_add] at hsp
        by_cases hcl : b.out.clean = true
        · obtain ⟨p1, p2, e, p3⟩ := h3 (ASt.sub_clean h2 hcl)
          have hr : Code s base (s1.restore sp) := Code.andRestore ⟨p1, p3, p2⟩ sp rfl hsp
          have hcode := hr.code
          obtain ⟨i1, i2⟩ := ih (Or.inl hn) (fun l hl' => hl l (List.mem_cons_of_mem _ hl')) (need := [])
            (base := base) hcode (by rw [hn]; exact .nil) hj' (by simpa using hsp)
          refine ⟨?_, i2⟩
          have hst : (s1.restore sp).procStack = s.procStack := hr.stack
          revert i1
          cases parseLines (action env) tab sp ls (s1.restore sp) with
          | ok s2 =>
            rintro ⟨t, r, k1, k2, k3⟩
            refine ⟨t, r, k1, k2, fun hcl => ?_⟩
            obtain ⟨m1, m2, m3⟩ := k3 hcl
            exact ⟨m1.trans hst, fun k hk => (m2 k (by rw [curProc_eq hst]; exact hk)).trans (hr.other k hk), m3⟩
          | fail s2 =>
            intro hh hcl
            obtain ⟨m1, m2, m3⟩ := hh hcl
            exact ⟨m1.trans hst, fun k hk => (m2 k (by rw [curProc_eq hst]; exact hk)).trans (hr.other k hk), m3⟩
          | err e => exact id
        · -- the effect says nothing about the start
          have hlen : (s1.restore sp).code.length = base.length := by
            unfold PS.restore
            show ((s1.setCode (PS.resize s1.code sp.opos))).code.length = _
            rw [setCode_code, ← hsp]
            unfold PS.resize
            split
            · simp; omega
            · simp; omega
          obtain ⟨i1, i2⟩ := ih (Or.inl hn) (fun l hl' => hl l (List.mem_cons_of_mem _ hl')) (need := [])
            (base := (s1.restore sp).code) rfl (by rw [hn]; exact .nil) hj' (by simpa [hlen] using hsp)
          refine ⟨?_, i2⟩
          revert i1
          cases parseLines (action env) tab sp ls (s1.restore sp) with
          | ok s2 =>
            rintro ⟨t, r, k1, k2, -⟩
            exact ⟨t, r, k1, k2, fun h => absurd h hcl⟩
          | fail s2 => exact fun _ h => absurd h hcl
          | err e => exact id
      · have : ls = [] := by
          simp only [List.length_cons] at hn
          exact List.length_eq_zero_iff.1 (by omega)
        subst this
        refine ⟨fun hcl => ?_, hj'.same rfl rfl⟩
        obtain ⟨p1, p2, e, p3⟩ := h3 (ASt.sub_clean h2 hcl)
        obtain ⟨e', he⟩ := resize_ge e base (n := sp.opos) (by omega)
        have hr : Code s (e' ++ base) (s1.restore sp) := by
          have k1 : Code s (e ++ base) s1 := ⟨p1, p3, p2⟩
          have k2 := k1.andSet (PS.resize s1.code sp.opos)
          rw [p3, he] at k2
          rw [← p3] at he
          unfold PS.restore
          rw [he]
          exact k2.andSame rfl rfl
        exact ⟨hr.stack, hr.other, e', hr.code⟩
    · next e heq =>
      rw [heq] at h3
      exact ⟨h3, trivial⟩

end FB.Parse
