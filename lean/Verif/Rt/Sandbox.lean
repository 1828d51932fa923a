import Verif.Rt.Keep
/-!
# A routine inside more code

A routine that returns does the same when its code is part of a bigger one, whatever the caller is; and what its text does not change is the same.
-/
namespace FB.Rt

/-- A final part of the code. -/
def Suf (P k : Code) : Prop := ∃ a, P = a ++ k

theorem Suf.tail {P r : Code} {l : Line} (h : Suf P (l :: r)) : Suf P r := by
  obtain ⟨a, h⟩ := h; exact ⟨a ++ [l], by rw [h]; simp⟩

theorem Suf.all {q : Ins → Bool} {P k : Code} (h : Suf P k) (hP : allIns q P = true) : allIns q k = true := by
  obtain ⟨a, rfl⟩ := h
  simp only [allIns, List.all_append, Bool.and_eq_true] at hP ⊢
  exact hP.2

theorem find_suf {l : String} : ∀ {P k : Code}, find l P = some k → Suf P k := by
  intro P
  induction P with
  | nil => intro k h; cases h
  | cons a P ih =>
    intro k h
    cases a with
    | lb l' =>
      rw [find_lb] at h
      split at h
      · cases h; exact ⟨[.lb l'], rfl⟩
      · obtain ⟨b, rfl⟩ := ih h; exact ⟨.lb l' :: b, rfl⟩
    | ins i => rw [find_ins] at h; obtain ⟨b, rfl⟩ := ih h; exact ⟨.ins i :: b, rfl⟩

/-- The return addresses in a stack are in the code. -/
def StkSuf (P : Code) (s : List Slot) : Prop := ∀ k, .ret k ∈ s → Suf P k

theorem StkSuf.tl {P : Code} {b : Slot} {s : List Slot} (h : StkSuf P (b :: s)) : StkSuf P s := fun k hk => h k (List.mem_cons_of_mem _ hk)
theorem StkSuf.byte {P : Code} {b : B} {s : List Slot} (h : StkSuf P s) : StkSuf P (.byte b :: s) := by
  intro k hk; rcases List.mem_cons.1 hk with e | e
  · cases e
  · exact h k e
theorem StkSuf.flags {P : Code} {a b c d : Bool} {s : List Slot} (h : StkSuf P s) : StkSuf P (.flags a b c d :: s) := by
  intro k hk; rcases List.mem_cons.1 hk with e | e
  · cases e
  · exact h k e
theorem StkSuf.ret {P r : Code} {s : List Slot} (h : StkSuf P s) (hr : Suf P r) : StkSuf P (.ret r :: s) := by
  intro k hk; rcases List.mem_cons.1 hk with e | e
  · cases e; exact hr
  · exact h k e

/-- Instructions that look at the stack. -/
def Ins.onStk : Ins → Bool
  | .pha | .pla | .php | .plp | .dropRet | .tsx => true
  | _ => false

theorem exec_restack {i : Ins} (hi : i.onStk = false) (m : M) (T : List Slot) :
    exec i { m with stk := T } = (exec i m).map fun m1 => { m1 with stk := T } := by
  have put : ∀ (m : M) o v, ({ m with stk := T } : M).put o v = { m.put o v with stk := T } := by intro m o v; cases o <;> rfl
  have get : ∀ (m : M) o, ({ m with stk := T } : M).get o = m.get o := by intro m o; cases o <;> rfl
  cases i
  all_goals first
    | (cases hi; done)
    | (simp only [exec, M.nz, M.adc, M.cmp, put, get, Option.map_some, Option.map_none]; done)
    | (simp only [exec, M.nz, M.adc, M.cmp, put, get, Option.map_some, Option.map_none]
       split
       · simp
       · split <;> simp)

theorem exec_same_stk {i : Ins} (hi : i.onStk = false) {m m1 : M} (h : exec i m = some m1) : m1.stk = m.stk := by
  have put : ∀ (m : M) o v, (m.put o v).stk = m.stk := by intro m o v; cases o <;> rfl
  cases i
  all_goals first
    | (cases hi; done)
    | (simp only [exec, reduceCtorEq] at h; done)
    | (simp only [exec, Option.some.injEq] at h; subst h; simp only [M.nz, M.adc, M.cmp, put]; done)
    | (simp only [exec] at h
       split at h
       · cases h; rfl
       · split at h
         · cases h; rfl
         · cases h)

section
variable {P Q S : Code}

theorem step_br (b : Bool) (l : String) (r : Code) (m : M) : branch P b l r m = .stuck ∨ ∃ k, Out.go k m = branch P b l r m ∧ (k = r ∨ find l P = some k) := by
  unfold branch
  cases h : find l P with
  | none => exact .inl rfl
  | some k => right; cases b
              · exact ⟨r, rfl, .inl rfl⟩
              · exact ⟨k, rfl, .inr rfl⟩

/-- Where a step goes. -/
theorem step_go {k k1 : Code} {m m1 : M} (h : step P k m = .go k1 m1) :
    (∃ l r, k = .lb l :: r ∧ k1 = r ∧ m1 = m) ∨
    (∃ i r, k = .ins i :: r ∧ m1 = m ∧ (k1 = r ∨ ∃ l, find l P = some k1)) ∨
    (∃ l r, k = .ins (.jsr l) :: r ∧ find l P = some k1 ∧ m1 = { m with stk := .ret r :: m.stk }) ∨
    (∃ r s, k = .ins .rts :: r ∧ m.stk = .ret k1 :: s ∧ m1 = { m with stk := s }) ∨
    (∃ i r, k = .ins i :: r ∧ k1 = r ∧ exec i m = some m1) := by
  cases k with
  | nil => cases h
  | cons a r =>
    cases a with
    | lb l => left; injection h with e1 e2; exact ⟨l, r, rfl, e1.symm, e2.symm⟩
    | ins i =>
      have br : ∀ b l, branch P b l r m = .go k1 m1 → (∃ i' r', (Line.ins i :: r : Code) = .ins i' :: r' ∧ m1 = m ∧ (k1 = r' ∨ ∃ l, find l P = some k1)) := by
        intro b l h
        rcases step_br (P := P) b l r m with e | ⟨k, e, he⟩
        · rw [e] at h; cases h
        · rw [← e] at h; cases h
          exact ⟨i, _, rfl, rfl, he.imp id fun h => ⟨l, h⟩⟩
      have ex : (match exec i m with | some m' => Out.go r m' | none => .stuck) = .go k1 m1 → (∃ i' r', (Line.ins i :: r : Code) = .ins i' :: r' ∧ k1 = r' ∧ exec i' m = some m1) := by
        intro h
        cases he : exec i m with
        | none => rw [he] at h; cases h
        | some m' => rw [he] at h; cases h; exact ⟨i, _, rfl, rfl, he⟩
      cases i
      case bcc l => exact .inr (.inl (br _ l h))
      case bcs l => exact .inr (.inl (br _ l h))
      case beq l => exact .inr (.inl (br _ l h))
      case bne l => exact .inr (.inl (br _ l h))
      case bmi l => exact .inr (.inl (br _ l h))
      case bpl l => exact .inr (.inl (br _ l h))
      case bvc l => exact .inr (.inl (br _ l h))
      case bvs l => exact .inr (.inl (br _ l h))
      case jmp l =>
        simp only [step, jump] at h
        cases hl : find l P with
        | none => rw [hl] at h; cases h
        | some k' => rw [hl] at h; cases h; exact .inr (.inl ⟨_, r, rfl, rfl, .inr ⟨l, hl⟩⟩)
      case jsr l =>
        simp only [step, jump] at h
        cases hl : find l P with
        | none => rw [hl] at h; cases h
        | some k' => rw [hl] at h; cases h; exact .inr (.inr (.inl ⟨l, r, rfl, hl, rfl⟩))
      case rts =>
        simp only [step] at h
        cases hs : m.stk with
        | nil => rw [hs] at h; cases h
        | cons b s =>
          rw [hs] at h
          cases b with
          | byte b => cases h
          | flags => cases h
          | ret k => cases h; exact .inr (.inr (.inr (.inl ⟨r, s, rfl, rfl, rfl⟩)))
      case next => cases h
      case nextIncsp => cases h
      case fail => cases h
      all_goals exact .inr (.inr (.inr (.inr (ex h))))

theorem run_succ_go {n : Nat} {k k' : Code} {m m' : M} (h : run P (n + 1) k m = .go k' m') : ∃ k1 m1, step P k m = .go k1 m1 ∧ run P n k1 m1 = .go k' m' := by
  rw [run] at h
  cases hs : step P k m with
  | go k1 m1 => rw [hs] at h; exact ⟨k1, m1, rfl, h⟩
  | halt => rw [hs] at h; cases h
  | err => rw [hs] at h; cases h
  | stuck => rw [hs] at h; cases h

theorem exec_suf {i : Ins} {m m1 : M} (h : exec i m = some m1) (hs : StkSuf P m.stk) : StkSuf P m1.stk := by
  cases hi : i.onStk with
  | false => rw [exec_same_stk hi h]; exact hs
  | true =>
    cases i
    all_goals first
      | (cases hi; done)
      | (simp only [exec, Option.some.injEq] at h; subst h
         first
         | exact hs
         | exact hs.byte
         | exact hs.flags)
      | (simp only [exec] at h
         split at h
         · next e => cases h; rw [e] at hs; exact hs.tl
         · cases h)

/-- Code that does not know a place does not get there. -/
theorem run_lost (hS : ¬ Suf P S) : ∀ n k m m', Suf P k → StkSuf P m.stk → run P n k m ≠ .go S m' := by
  intro n
  induction n with
  | zero => intro k m m' hk _ h; cases h; exact hS hk
  | succ n ih =>
    intro k m m' hk hs h
    obtain ⟨k1, m1, h1, h2⟩ := run_succ_go h
    rcases step_go h1 with ⟨l, r, rfl, rfl, rfl⟩ | ⟨i, r, rfl, rfl, e | ⟨l, hl⟩⟩ | ⟨l, r, rfl, hl, rfl⟩ | ⟨r, s, rfl, hs', rfl⟩ | ⟨i, r, rfl, rfl, he⟩
    · exact ih _ _ _ hk.tail hs h2
    · subst e; exact ih _ _ _ hk.tail hs h2
    · exact ih _ _ _ (find_suf hl) hs h2
    · exact ih _ _ _ (find_suf hl) (hs.ret hk.tail) h2
    · rw [hs'] at hs; exact ih _ _ _ (hs _ (List.mem_cons_self ..)) hs.tl h2
    · exact ih _ _ _ hk.tail (exec_suf he hs) h2

theorem branch_lift (hPQ : ∀ l k, find l P = some k → find l Q = some k) {b : Bool} {l : String} {r k1 : Code} {m m' m1 : M}
    (h : branch P b l r m = .go k1 m1) : branch Q b l r m' = .go k1 m' := by
  unfold branch at h ⊢
  cases hl : find l P with
  | none => rw [hl] at h; cases h
  | some k => rw [hl] at h; rw [hPQ _ _ hl]; cases h; rfl

/-- Steps that do not look at the stack, with more code and another stack. -/
theorem step_lift (hPQ : ∀ l k, find l P = some k → find l Q = some k) {i : Ins} (hi : i.onStk = false) {r k1 : Code} {m m1 : M} (T : List Slot)
    (h : step P (.ins i :: r) m = .go k1 m1) (hj : ∀ l, i ≠ .jsr l) (hr : i ≠ .rts) :
    step Q (.ins i :: r) { m with stk := T } = .go k1 { m1 with stk := T } ∧ m1.stk = m.stk := by
  have br : ∀ b l, branch P b l r m = .go k1 m1 → branch Q b l r { m with stk := T } = .go k1 { m1 with stk := T } ∧ m1.stk = m.stk := by
    intro b l h
    have e : m1 = m := by
      rcases step_br (P := P) b l r m with e | ⟨k, e, he⟩
      · rw [e] at h; cases h
      · rw [← e] at h; cases h; rfl
    subst e
    exact ⟨branch_lift hPQ h, rfl⟩
  have ex : (match exec i m with | some m' => Out.go r m' | none => .stuck) = .go k1 m1 →
      (match exec i { m with stk := T } with | some m' => Out.go r m' | none => .stuck) = .go k1 { m1 with stk := T } ∧ m1.stk = m.stk := by
    intro h
    rw [exec_restack hi]
    cases he : exec i m with
    | none => rw [he] at h; cases h
    | some m' => rw [he] at h; cases h; exact ⟨rfl, exec_same_stk hi he⟩
  cases i
  case bcc l => exact br _ l h
  case bcs l => exact br _ l h
  case beq l => exact br _ l h
  case bne l => exact br _ l h
  case bmi l => exact br _ l h
  case bpl l => exact br _ l h
  case bvc l => exact br _ l h
  case bvs l => exact br _ l h
  case jmp l =>
    simp only [step, jump] at h ⊢
    cases hl : find l P with
    | none => rw [hl] at h; cases h
    | some k' => rw [hl] at h; rw [hPQ _ _ hl]; cases h; exact ⟨rfl, rfl⟩
  case jsr l => exact absurd rfl (hj l)
  case rts => exact absurd rfl hr
  case next => cases h
  case nextIncsp => cases h
  case fail => cases h
  all_goals first
    | (cases hi; done)
    | exact ex h

/-- A run that returns, in more code and with another caller; `f` is what the code does not change. -/
theorem run_lift {α : Type} (f : M → α) (q : Ins → Bool) (hf : ∀ i m m', q i = true → exec i m = some m' → f m' = f m)
    (hs : ∀ m s, f { m with stk := s } = f m) (hq : q .tsx = false) (hP : allIns q P = true)
    (hPQ : ∀ l k, find l P = some k → find l Q = some k) (hS : ¬ Suf P S) (hS' : ∀ m : M, ∃ m', step P S m = .go [] m') (hS0 : S ≠ []) (k0 : Code) (st : List Slot) :
    ∀ n k m m' s, Suf P k → StkSuf P s → m.stk = s ++ [.ret S] → run P n k m = .go S m' →
      f m' = f m ∧ Reach Q k { m with stk := s ++ .ret k0 :: st } k0 { m' with stk := st } := by
  intro n
  induction n with
  | zero => intro k m m' s hk _ _ h; cases h; exact absurd hk hS
  | succ n ih =>
    intro k m m' s hk hss hst h
    obtain ⟨k1, m1, h1, h2⟩ := run_succ_go h
    rcases k with _ | ⟨⟨l⟩ | ⟨i⟩, r⟩
    · cases h1
    · injection h1 with e1 e2
      subst e1; subst e2
      obtain ⟨a, b⟩ := ih _ _ _ _ hk.tail hss hst h2
      exact ⟨a, Reach.step (k1 := r) rfl b⟩
    · have hqi : q i = true := by
        have := hk.all hP
        simp only [allIns, List.all_cons, Bool.and_eq_true] at this
        exact this.1
      by_cases hj : ∃ l, i = .jsr l
      · obtain ⟨l, rfl⟩ := hj
        simp only [step, jump] at h1
        cases hl : find l P with
        | none => rw [hl] at h1; cases h1
        | some k' =>
          rw [hl] at h1; cases h1
          obtain ⟨a, b⟩ := ih _ _ _ (.ret r :: s) (find_suf hl) (hss.ret hk.tail) (by simp [hst]) h2
          exact ⟨a.trans (hs _ _), Reach.step (by simp only [step, jump, hPQ _ _ hl]; rfl) b⟩
      by_cases hr : i = .rts
      · subst hr
        simp only [step, hst] at h1
        cases s with
        | nil =>
          simp only [List.nil_append] at h1
          cases h1
          cases n with
          | zero => cases h2; exact ⟨hs _ _, Reach.step (k1 := k0) (m1 := { m with stk := st }) rfl (Reach.refl ..)⟩
          | succ n =>
            obtain ⟨k2, m2, h3, h4⟩ := run_succ_go h2
            obtain ⟨m3, h5⟩ := hS' { m with stk := [] }
            rw [h5] at h3; cases h3
            cases n with
            | zero => cases h4; exact absurd rfl hS0
            | succ n => rw [run] at h4; cases h4
        | cons b s =>
          cases b with
          | byte b => cases h1
          | flags => cases h1
          | ret k' =>
            simp only [List.cons_append] at h1
            cases h1
            obtain ⟨a, b⟩ := ih _ _ _ s (hss _ (List.mem_cons_self ..)) hss.tl rfl h2
            exact ⟨a.trans (hs _ _), Reach.step (k1 := k1) (m1 := { m with stk := s ++ .ret k0 :: st }) (by simp [step]) b⟩
      cases hi : i.onStk with
      | false =>
        obtain ⟨a, b⟩ := step_lift (Q := Q) hPQ hi (s ++ .ret k0 :: st) h1 (fun l e => hj ⟨l, e⟩) hr
        have hk1 : Suf P k1 ∧ f m1 = f m := by
          rcases step_go h1 with ⟨l, r', e, -, -⟩ | ⟨i', r', e, e2, e3⟩ | ⟨l, r', e, -⟩ | ⟨r', s', e, -⟩ | ⟨i', r', e, e2, he⟩
          · cases e
          · cases e
            refine ⟨?_, by rw [e2]⟩
            rcases e3 with e3 | ⟨l, hl⟩
            · rw [e3]; exact hk.tail
            · exact find_suf hl
          · cases e; exact absurd ⟨l, rfl⟩ hj
          · cases e; exact absurd rfl hr
          · cases e; exact ⟨by rw [e2]; exact hk.tail, hf _ _ _ hqi he⟩
        obtain ⟨c, d⟩ := ih k1 m1 m' s hk1.1 hss (by rw [b]; exact hst) h2
        exact ⟨c.trans hk1.2, Reach.step a d⟩
      | true =>
        have key : ∀ m1', exec i m = some m1' → k1 = r → m1 = m1' → ∀ s', StkSuf P s' → m1'.stk = s' ++ [.ret S] →
            exec i { m with stk := s ++ .ret k0 :: st } = some { m1' with stk := s' ++ .ret k0 :: st } → (step Q (.ins i :: r) { m with stk := s ++ .ret k0 :: st } = .go r { m1' with stk := s' ++ .ret k0 :: st }) →
            f m' = f m ∧ Reach Q (.ins i :: r) { m with stk := s ++ .ret k0 :: st } k0 { m' with stk := st } := by
          intro m1' he ek em s' hs' hst' _ hstep
          subst ek; subst em
          obtain ⟨c, d⟩ := ih k1 m1 m' s' hk.tail hs' hst' h2
          exact ⟨c.trans (hf _ _ _ hqi he), Reach.step hstep d⟩
        cases i
        case pha =>
          cases h1
          exact key _ rfl rfl rfl (.byte m.a :: s) hss.byte (by simp [hst]) rfl rfl
        case php =>
          cases h1
          exact key _ rfl rfl rfl (.flags m.c m.z m.n m.v :: s) hss.flags (by simp [hst]) rfl rfl
        case pla =>
          cases s with
          | nil => simp [step, exec, hst] at h1
          | cons b s =>
            cases b with
            | byte b =>
              simp only [step, exec, hst, List.cons_append] at h1
              cases h1
              exact key _ (by simp [exec, hst]) rfl rfl s hss.tl rfl rfl rfl
            | flags => simp [step, exec, hst] at h1
            | ret => simp [step, exec, hst] at h1
        case plp =>
          cases s with
          | nil => simp [step, exec, hst] at h1
          | cons b s =>
            cases b with
            | byte b => simp [step, exec, hst] at h1
            | flags =>
              simp only [step, exec, hst, List.cons_append] at h1
              cases h1
              exact key _ (by simp [exec, hst]) rfl rfl s hss.tl rfl rfl rfl
            | ret => simp [step, exec, hst] at h1
        case dropRet =>
          cases s with
          | nil =>
            simp only [step, exec, hst, List.nil_append] at h1
            cases h1
            exact absurd h2 (run_lost hS _ _ _ _ hk.tail (fun k hk => by cases hk))
          | cons b s =>
            cases b with
            | byte b => simp [step, exec, hst] at h1
            | flags => simp [step, exec, hst] at h1
            | ret =>
              simp only [step, exec, hst, List.cons_append] at h1
              cases h1
              exact key _ (by simp [exec, hst]) rfl rfl s hss.tl rfl rfl rfl
        case tsx => rw [hq] at hqi; cases hqi
        all_goals cases hi

end
end FB.Rt
