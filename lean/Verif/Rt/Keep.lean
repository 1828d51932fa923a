import Verif.Rt.M6502
/-!
# What a routine does not touch

If no instruction of a routine stores to a cell, the cell is the same when the routine ends; the same for the characters
written.  The condition is on the text of the routine and is decided by evaluation.
-/
namespace FB.Rt

/-- All instructions have a property. -/
def allIns (q : Ins → Bool) (k : Code) : Bool := k.all fun l => match l with | .lb _ => true | .ins i => q i

/-- The code that is in the stack has it too. -/
def StkIns (q : Ins → Bool) (s : List Slot) : Prop := ∀ k, .ret k ∈ s → allIns q k = true

theorem find_allIns {q : Ins → Bool} {l : String} : ∀ {P k : Code}, allIns q P = true → find l P = some k → allIns q k = true := by
  intro P
  induction P with
  | nil => intro k _ h; simp [find] at h
  | cons a P ih =>
    intro k hP h
    simp only [allIns, List.all_cons, Bool.and_eq_true] at hP
    cases a with
    | lb l' =>
      rw [find_lb] at h
      split at h
      · cases h; exact hP.2
      · exact ih hP.2 h
    | ins i => rw [find_ins] at h; exact ih hP.2 h

/-- `exec` changes the stack only by bytes, flags and dropping. -/
theorem exec_stk {q : Ins → Bool} {i : Ins} {m m' : M} (h : exec i m = some m') (hs : StkIns q m.stk) : StkIns q m'.stk := by
  have put : ∀ (m : M) o v, (m.put o v).stk = m.stk := by intro m o v; cases o <;> rfl
  have cons : ∀ (b : Slot) s, (∀ k, b ≠ .ret k) → StkIns q s → StkIns q (b :: s) := by
    intro b s hb hs k hk
    rcases List.mem_cons.1 hk with h | h
    · exact absurd h.symm (hb k)
    · exact hs k h
  have tl : ∀ (b : Slot) s, StkIns q (b :: s) → StkIns q s := fun b s hs k hk => hs k (List.mem_cons_of_mem _ hk)
  cases i
  all_goals first
    | (simp only [exec, reduceCtorEq] at h; done)
    | (simp only [exec, Option.some.injEq] at h; subst h
       first
         | (simpa only [M.nz, M.adc, M.cmp, put] using hs)
         | exact cons _ _ (by simp) hs)
    | (simp only [exec] at h
       split at h
       · next e =>
         have hs' := hs
         rw [e] at hs'
         cases h; exact tl _ _ hs'
       · cases h)
    | (simp only [exec] at h
       split at h
       · cases h; exact hs
       · split at h
         · cases h; exact hs
         · cases h)

/-- An observation `f` that instructions with property `q` do not change is the same at the end of a routine made of them. -/
theorem run_keep {α : Type} (f : M → α) (q : Ins → Bool) (hf : ∀ i m m', q i = true → exec i m = some m' → f m' = f m)
    (hs : ∀ m s, f { m with stk := s } = f m)
    (hi : q .nextIncsp = true → ∀ m : M, f { m with zp := { m.zp with sptr := m.zp.sptr + 1 } } = f m)
    {P : Code} (hP : allIns q P = true) :
    ∀ n k m m', allIns q k = true → StkIns q m.stk → run P n k m = .halt m' → f m' = f m := by
  intro n
  induction n with
  | zero => intro k m m' _ _ h; cases h
  | succ n ih =>
    intro k m m' hk hst h
    cases k with
    | nil => simp [run, step] at h
    | cons a r =>
      simp only [allIns, List.all_cons, Bool.and_eq_true] at hk
      have hr : allIns q r = true := hk.2
      cases a with
      | lb l => exact ih r m m' hr hst (by simpa [run, step] using h)
      | ins i =>
        have hq : q i = true := hk.1
        have br : ∀ (b : Bool) l, (match branch P b l r m with | .go k' m' => run P n k' m' | o => o) = .halt m' → f m' = f m := by
          intro b l h
          unfold branch at h
          cases hl : find l P with
          | none => rw [hl] at h; cases h
          | some k' =>
            rw [hl] at h
            refine ih _ m m' ?_ hst h
            cases b
            · exact hr
            · exact find_allIns hP hl
        have ex : (match (match exec i m with | some m1 => Out.go r m1 | none => .stuck) with | .go k' m' => run P n k' m' | o => o) = .halt m' →
            f m' = f m := by
          intro h
          cases he : exec i m with
          | none => rw [he] at h; cases h
          | some m1 =>
            rw [he] at h
            exact (ih r m1 m' hr (exec_stk he hst) h).trans (hf i m m1 hq he)
        cases i
        case bcc l => exact br _ l h
        case bcs l => exact br _ l h
        case beq l => exact br _ l h
        case bne l => exact br _ l h
        case bmi l => exact br _ l h
        case bpl l => exact br _ l h
        case bvc l => exact br _ l h
        case bvs l => exact br _ l h
        case jmp l =>
          simp only [run, step, jump] at h
          cases hl : find l P with
          | none => rw [hl] at h; cases h
          | some k' => rw [hl] at h; exact ih k' m m' (find_allIns hP hl) hst h
        case jsr l =>
          simp only [run, step, jump] at h
          cases hl : find l P with
          | none => rw [hl] at h; cases h
          | some k' =>
            rw [hl] at h
            refine (ih k' _ m' (find_allIns hP hl) ?_ h).trans (hs m _)
            intro k hk
            rcases List.mem_cons.1 hk with e | e
            · cases e; exact hr
            · exact hst k e
        case rts =>
          simp only [run, step] at h
          cases hst' : m.stk with
          | nil => rw [hst'] at h; cases h
          | cons b s =>
            rw [hst'] at h
            cases b with
            | byte b => cases h
            | flags => cases h
            | ret k =>
              have := hst
              rw [hst'] at this
              exact (ih _ _ m' (this _ (List.mem_cons_self ..)) (fun k hk => this k (List.mem_cons_of_mem _ hk)) h).trans (hs m _)
        case next => cases h; rfl
        case nextIncsp => cases h; exact hi hq m
        case fail => cases h
        all_goals exact ex h

/-- The cell is the target of the operand. -/
def Opd.isCell (c : Cell) : Opd → Bool
  | .zp c' => decide (c' = c)
  | _ => false

/-- The instruction does not store to the cell. -/
def Ins.spares (c : Cell) : Ins → Bool
  | .sta o | .stx o | .sty o | .inc o | .dec o | .asl o | .lsr o | .rol o | .ror o => !o.isCell c
  | .putc => !decide (c = .ioerr)
  | .nextIncsp => !decide (c = .sptr)
  | _ => true

theorem get_set_ne (z : Zp) (v : B) {c c' : Cell} (h : c' ≠ c) : (z.set c' v).get c = z.get c := by
  cases c <;> cases c' <;> first | rfl | exact absurd rfl h

theorem put_spares {c : Cell} (m : M) {o : Opd} (v : B) (h : (!o.isCell c) = true) : (m.put o v).zp.get c = m.zp.get c := by
  cases o <;> first | rfl | skip
  simp only [Opd.isCell, Bool.not_eq_true', decide_eq_false_iff_not] at h
  exact get_set_ne _ _ h

/-- A routine that does not store to a cell keeps it. -/
theorem Halts.keeps (c : Cell) {P k : Code} {m m' : M} (h : Halts P k m m') (hP : allIns (Ins.spares c) P = true)
    (hk : allIns (Ins.spares c) k = true) (hs : ∀ k', .ret k' ∉ m.stk) : m'.zp.get c = m.zp.get c := by
  obtain ⟨n, hn⟩ := h
  refine run_keep (fun m => m.zp.get c) (Ins.spares c) ?_ (fun _ _ => rfl) ?_ hP n k m m' hk (fun k' hk' => absurd hk' (hs k')) hn
  · intro i m m' hq he
    cases i
    all_goals first
      | (simp only [exec, reduceCtorEq] at he; done)
      | (simp only [exec, Option.some.injEq] at he; subst he
         first
           | rfl
           | (simp only [Ins.spares] at hq; exact put_spares m _ hq))
      | (simp only [exec] at he
         split at he
         · cases he; rfl
         · cases he)
      | (simp only [exec] at he
         split at he
         · cases he; rfl
         · split at he
           · cases he; rfl
           · cases he)
      | (simp only [exec, Option.some.injEq] at he; subst he
         simp only [Ins.spares, Bool.not_eq_true', decide_eq_false_iff_not] at hq
         exact get_set_ne m.zp _ (c' := .ioerr) (Ne.symm hq))
  · intro hq m
    simp only [Ins.spares, Bool.not_eq_true', decide_eq_false_iff_not] at hq
    exact get_set_ne m.zp _ (c' := .sptr) (Ne.symm hq)

/-- The instruction writes no character. -/
def Ins.quiet : Ins → Bool
  | .putc => false
  | _ => true

/-- A routine without `putc` writes nothing. -/
theorem Halts.quiet {P k : Code} {m m' : M} (h : Halts P k m m') (hP : allIns Ins.quiet P = true)
    (hk : allIns Ins.quiet k = true) (hs : ∀ k', .ret k' ∉ m.stk) : m'.out = m.out := by
  have put : ∀ (m : M) o v, (m.put o v).out = m.out := by intro m o v; cases o <;> rfl
  obtain ⟨n, hn⟩ := h
  refine run_keep (fun m => m.out) Ins.quiet ?_ (fun _ _ => rfl) (fun _ _ => rfl) hP n k m m' hk (fun k' hk' => absurd hk' (hs k')) hn
  intro i m m' hq he
  cases i
  all_goals first
    | (simp only [exec, reduceCtorEq] at he; done)
    | (cases hq; done)
    | (simp only [exec, Option.some.injEq] at he; subst he
       simp only [M.nz, M.adc, M.cmp, put]; done)
    | (simp only [exec] at he
       split at he
       · cases he; rfl
       · cases he)
    | (simp only [exec] at he
       split at he
       · cases he; rfl
       · split at he
         · cases he; rfl
         · cases he)

end FB.Rt
