import Verif.Drv.Main

/-!
# Lemmas on the driver

`stem` is a name without its extension. The lemmas are about names, one argument and the list of steps.
-/

namespace FB.Drv

open FB.Parse (Str ofS)

/-- A name without its extension: `add_extension` (`/repo/src/compiler/os.cc:86-93`) with nothing added. -/
def stem (name : Str) : Str := addExt name []

theorem addExt_eq (n e : Str) : addExt n e = stem n ++ e := by
  unfold stem addExt
  split <;> simp

theorem lastIdx_none {c : Nat} : ∀ {s : Str}, c ∉ s → lastIdx c s = none
  | [], _ => rfl
  | x :: xs, h => by
    simp only [List.mem_cons, not_or] at h
    simp [lastIdx, lastIdx_none h.2, Ne.symm h.1]

theorem lastIdx_dot {c : Nat} {e : Str} (he : c ∉ e) : ∀ s : Str, lastIdx c (s ++ c :: e) = some s.length
  | [] => by simp [lastIdx, lastIdx_none he]
  | x :: xs => by simp [lastIdx, lastIdx_dot he xs]

theorem stem_ext {s e : Str} (hs : s ≠ []) (he : 46 ∉ e) : stem (s ++ 46 :: e) = s := by
  unfold stem addExt
  rw [lastIdx_dot he]
  cases s with
  | nil => exact absurd rfl hs
  | cons x xs => simp

theorem extLower_ext {s e : Str} (hs : s ≠ []) (he : 46 ∉ e) : extLower (s ++ 46 :: e) = e.map lower := by
  unfold extLower
  rw [lastIdx_dot he]
  cases s with
  | nil => exact absurd rfl hs
  | cons x xs => simp

theorem stem_ne {n : Str} (h : n ≠ []) : stem n ≠ [] := by
  unfold stem addExt
  split
  · simpa using h
  · simpa using h
  · next p hp hq =>
    cases n with
    | nil => exact absurd rfl h
    | cons x xs =>
      cases p with
      | zero => exact absurd rfl (hp)
      | succ p => simp

/-- An object file, `/repo/src/compiler/main.cc:246`. -/
def IsObj (f : Str) : Prop := extLower f = ofS "o" ∨ extLower f = ofS "obj"

/-- A file in assembler, `/repo/src/compiler/main.cc:251`. -/
def IsAsm (f : Str) : Prop := ¬ IsObj f ∧ (extLower f = ofS "s" ∨ extLower f = ofS "asm")

/-- A file in BASIC, `/repo/src/compiler/main.cc:265`. -/
def IsBas (f : Str) : Prop := ¬ IsObj f ∧ ¬ IsAsm f

/-- The fields of the options that have to do with files. -/
structure Same (o o' : Opts) : Prop where
  out : o'.outName = o.outName
  exe : o'.exeName = o.exeName
  got : o'.gotOut = o.gotOut
  next : o'.nextOut = o.nextOut
  bas : o'.bas = o.bas
  asm : o'.asm = o.asm
  link : o'.link = o.link

theorem starts_head {a p : Str} (h : starts a p = true) (hp : p.head? = some 45) : a.head? = some 45 := by
  unfold starts at h
  rw [List.isPrefixOf_iff_prefix] at h
  obtain ⟨t, rfl⟩ := h
  cases p with
  | nil => simp at hp
  | cons x xs => simpa using hp

theorem optArg_head {a p : Str} (h : optArg a p = true) (hp : p.head? = some 45) : a.head? = some 45 := by
  unfold optArg at h
  simp only [Bool.or_eq_true] at h
  cases p with
  | nil => simp at hp
  | cons x xs => rcases h with h | h <;> exact starts_head h (by simpa using hp)

theorem optArg_ne {a : Str} {c : Nat} {p : Str} (h : optArg a (45 :: c :: p) = true) (hc : c ≠ 111) : starts a (ofS "-o") = false := by
  have : ∃ t, a = 45 :: c :: t := by
    unfold optArg starts at h
    simp only [Bool.or_eq_true, List.isPrefixOf_iff_prefix] at h
    rcases h with ⟨t, rfl⟩ | ⟨t, rfl⟩ <;> exact ⟨_, rfl⟩
  obtain ⟨t, rfl⟩ := this
  have : ofS "-o" = [45, 111] := by decide
  rw [this]
  simp [starts, List.isPrefixOf, Ne.symm hc]

/-- What one argument does. -/
inductive ArgCase (o : Opts) (a : Str) (o' : Opts) : Prop
  | name : o.nextOut = true →
      o' = { o with outName := a, exeName := if o.exeName = [] then a else o.exeName, nextOut := false } → ArgCase o a o'
  | out : o.nextOut = false → a = ofS "-o" → o.gotOut = false → o' = { o with gotOut := true, nextOut := true } → ArgCase o a o'
  | outName : o.nextOut = false → a ≠ ofS "-o" → starts a (ofS "-o") = true → o.gotOut = false → a.drop 2 ≠ [] →
      o' = { o with gotOut := true, outName := a.drop 2, exeName := if o.exeName = [] then a.drop 2 else o.exeName } → ArgCase o a o'
  | opt : o.nextOut = false → a ≠ ofS "-o" → starts a (ofS "-o") = false → a.head? = some 45 → Same o o' →
      o'.oneStep = (o.oneStep || decide (a = ofS "-c")) → ArgCase o a o'
  | file : o.nextOut = false → a.head? ≠ some 45 → a ≠ [] → o' = fileStep o a → ArgCase o a o'

theorem same_ne {a : Str} (h : starts a (ofS "-o") = false) : a ≠ ofS "-o" := by
  rintro rfl; revert h; decide

theorem iteC {α : Type} {c : Prop} [Decidable c] {x y z : α} (h : (if c then x else y) = z) : (c ∧ x = z) ∨ (¬ c ∧ y = z) := by
  by_cases hc : c
  · exact .inl ⟨hc, by rwa [if_pos hc] at h⟩
  · exact .inr ⟨hc, by rwa [if_neg hc] at h⟩

theorem argStep_cases {num o a o'} (h : argStep num o a = .ok o') : ArgCase o a o' := by
  unfold argStep at h
  have opt : ∀ {p : Str} {c : Nat} {o'' : Opts}, ¬ o.nextOut = true → optArg a p = true → (∃ q, p = 45 :: c :: q) → c ≠ 111 → c ≠ 99 →
      Same o o'' → o''.oneStep = o.oneStep → ArgCase o a o'' := by
    rintro p c o'' hn hp ⟨q, rfl⟩ hc hc' hs h1
    have hns := optArg_ne hp hc
    refine .opt (by simpa using hn) (same_ne hns) hns (optArg_head hp rfl) hs ?_
    have : a ≠ ofS "-c" := by
      rintro rfl
      have e : ofS "-c" = [45, 99] := by decide
      rw [e] at hp
      simp [optArg, starts, List.isPrefixOf, hc'] at hp
    simp [this, h1]
  have plain : ∀ {p : String} {o'' : Opts}, ¬ o.nextOut = true → a = ofS p → starts (ofS p) (ofS "-o") = false → (ofS p).head? = some 45 →
      Same o o'' → o''.oneStep = (o.oneStep || decide (ofS p = ofS "-c")) → ArgCase o a o'' := by
    intro p o'' hn ha h1 h2 hs h3
    subst ha
    exact .opt (by simpa using hn) (same_ne h1) h1 h2 hs h3
  have ok : ∀ {x y : Opts}, (Except.ok x : Except Nat Opts) = .ok y → x = y := by intro x y h; cases h; rfl
  rcases iteC h with ⟨hn, h⟩ | ⟨hn, h⟩
  · exact .name hn (ok h).symm
  rcases iteC h with ⟨ha, h⟩ | ⟨_, h⟩
  · exact plain hn ha (by decide) (by decide) (ok h ▸ ⟨rfl, rfl, rfl, rfl, rfl, rfl, rfl⟩) (ok h ▸ by rw [decide_eq_false (by decide), Bool.or_false])
  rcases iteC h with ⟨ha, h⟩ | ⟨_, h⟩
  · exact plain hn ha (by decide) (by decide) (ok h ▸ ⟨rfl, rfl, rfl, rfl, rfl, rfl, rfl⟩) (ok h ▸ by rw [decide_eq_false (by decide), Bool.or_false])
  rcases iteC h with ⟨ha, h⟩ | ⟨_, h⟩
  · exact plain hn ha (by decide) (by decide) (ok h ▸ ⟨rfl, rfl, rfl, rfl, rfl, rfl, rfl⟩) (ok h ▸ by rw [decide_eq_false (by decide), Bool.or_false])
  rcases iteC h with ⟨ha, h⟩ | ⟨_, h⟩
  · cases h
  rcases iteC h with ⟨ha, h⟩ | ⟨_, h⟩
  · exact plain hn ha (by decide) (by decide) (ok h ▸ ⟨rfl, rfl, rfl, rfl, rfl, rfl, rfl⟩) (ok h ▸ by simp)
  rcases iteC h with ⟨ha, h⟩ | ⟨_, h⟩
  · exact plain hn ha (by decide) (by decide) (ok h ▸ ⟨rfl, rfl, rfl, rfl, rfl, rfl, rfl⟩) (ok h ▸ by rw [decide_eq_false (by decide), Bool.or_false])
  rcases iteC h with ⟨ha, h⟩ | ⟨_, h⟩
  · rcases iteC h with ⟨_, h⟩ | ⟨_, h⟩
    · cases h
    exact opt (c := 108) hn ha ⟨_, rfl⟩ (by decide) (by decide) (ok h ▸ ⟨rfl, rfl, rfl, rfl, rfl, rfl, rfl⟩) (ok h ▸ rfl)
  rcases iteC h with ⟨ha, h⟩ | ⟨_, h⟩
  · exact plain hn ha (by decide) (by decide) (ok h ▸ ⟨rfl, rfl, rfl, rfl, rfl, rfl, rfl⟩) (ok h ▸ by rw [decide_eq_false (by decide), Bool.or_false])
  rcases iteC h with ⟨ha, h⟩ | ⟨_, h⟩
  · split at h
    · cases h
    exact opt (c := 108) hn ha ⟨_, rfl⟩ (by decide) (by decide) (ok h ▸ ⟨rfl, rfl, rfl, rfl, rfl, rfl, rfl⟩) (ok h ▸ rfl)
  rcases iteC h with ⟨ha, h⟩ | ⟨_, h⟩
  · cases h
  rcases iteC h with ⟨ha, h⟩ | ⟨_, h⟩
  · exact plain hn ha (by decide) (by decide) (ok h ▸ ⟨rfl, rfl, rfl, rfl, rfl, rfl, rfl⟩) (ok h ▸ by rw [decide_eq_false (by decide), Bool.or_false])
  rcases iteC h with ⟨ha, h⟩ | ⟨_, h⟩
  · exact plain hn ha (by decide) (by decide) (ok h ▸ ⟨rfl, rfl, rfl, rfl, rfl, rfl, rfl⟩) (ok h ▸ by rw [decide_eq_false (by decide), Bool.or_false])
  rcases iteC h with ⟨ha, h⟩ | ⟨hne, h⟩
  · cases h
  rcases iteC h with ⟨ho, h⟩ | ⟨_, h⟩
  · rcases iteC h with ⟨_, h⟩ | ⟨hg, h⟩
    · cases h
    rcases iteC h with ⟨hd, h⟩ | ⟨hd, h⟩
    · exact .outName (by simpa using hn) (by rintro rfl; exact hd (by decide)) ho (by simpa using hg) hd (ok h).symm
    · have : a = ofS "-o" := by
        unfold starts at ho
        rw [List.isPrefixOf_iff_prefix] at ho
        obtain ⟨t, rfl⟩ := ho
        have e : ofS "-o" = [45, 111] := by decide
        rw [e] at hd ⊢
        simpa using hd
      exact .out (by simpa using hn) this (by simpa using hg) (ok h).symm
  rcases iteC h with ⟨ha, h⟩ | ⟨_, h⟩
  · rcases iteC h with ⟨_, h⟩ | ⟨_, h⟩
    · cases h
    exact opt (c := 115) hn ha ⟨_, rfl⟩ (by decide) (by decide) (ok h ▸ ⟨rfl, rfl, rfl, rfl, rfl, rfl, rfl⟩) (ok h ▸ rfl)
  rcases iteC h with ⟨ha, h⟩ | ⟨_, h⟩
  · rcases iteC h with ⟨_, h⟩ | ⟨_, h⟩
    · cases h
    exact opt (c := 116) hn ha ⟨_, rfl⟩ (by decide) (by decide) (ok h ▸ ⟨rfl, rfl, rfl, rfl, rfl, rfl, rfl⟩) (ok h ▸ rfl)
  rcases iteC h with ⟨ha, h⟩ | ⟨_, h⟩
  · exact opt (c := 67) hn ha ⟨_, rfl⟩ (by decide) (by decide) (ok h ▸ ⟨rfl, rfl, rfl, rfl, rfl, rfl, rfl⟩) (ok h ▸ rfl)
  rcases iteC h with ⟨ha, h⟩ | ⟨_, h⟩
  · exact opt (c := 88) hn ha ⟨_, rfl⟩ (by decide) (by decide) (ok h ▸ ⟨rfl, rfl, rfl, rfl, rfl, rfl, rfl⟩) (ok h ▸ rfl)
  rcases iteC h with ⟨ha, h⟩ | ⟨_, h⟩
  · exact opt (c := 83) hn ha ⟨_, rfl⟩ (by decide) (by decide) (ok h ▸ ⟨rfl, rfl, rfl, rfl, rfl, rfl, rfl⟩) (ok h ▸ rfl)
  rcases iteC h with ⟨ha, h⟩ | ⟨_, h⟩
  · exact opt (c := 68) hn ha ⟨_, rfl⟩ (by decide) (by decide) (ok h ▸ ⟨rfl, rfl, rfl, rfl, rfl, rfl, rfl⟩) (ok h ▸ rfl)
  rcases iteC h with ⟨ha, h⟩ | ⟨_, h⟩
  · exact opt (c := 115) hn ha ⟨_, rfl⟩ (by decide) (by decide) (ok h ▸ ⟨rfl, rfl, rfl, rfl, rfl, rfl, rfl⟩) (ok h ▸ rfl)
  rcases iteC h with ⟨ha, h⟩ | ⟨_, h⟩
  · exact opt (c := 116) hn ha ⟨_, rfl⟩ (by decide) (by decide) (ok h ▸ ⟨rfl, rfl, rfl, rfl, rfl, rfl, rfl⟩) (ok h ▸ rfl)
  rcases iteC h with ⟨ha, h⟩ | ⟨hd, h⟩
  · cases h
  exact .file (by simpa using hn) hd hne (ok h).symm

/-- The list of steps done: all of them, or the first ones with the last one failed. -/
theorem steps_prefix (st : List Ev → Nat) : ∀ (l h : List Ev), ∃ k, (steps st h l).1 = h ++ l.take k ∧ ((steps st h l).2 = 0 → k = l.length) := by
  intro l
  induction l with
  | nil => intro h; exact ⟨0, by simp [steps], fun _ => rfl⟩
  | cons e r ih =>
    intro h
    have go : ∀ x, steps st h (e :: r) = steps st (h ++ [x]) r → x = e →
        ∃ k, (steps st h (e :: r)).1 = h ++ (e :: r).take k ∧ ((steps st h (e :: r)).2 = 0 → k = (e :: r).length) := by
      rintro x hx rfl
      obtain ⟨k, h1, h2⟩ := ih (h ++ [x])
      refine ⟨k + 1, ?_, ?_⟩
      · rw [hx, h1]; simp
      · rw [hx]; intro h3; simp [h2 h3]
    have stop : (steps st h (e :: r) = (h ++ [e], 1)) →
        ∃ k, (steps st h (e :: r)).1 = h ++ (e :: r).take k ∧ ((steps st h (e :: r)).2 = 0 → k = (e :: r).length) := by
      intro hx
      exact ⟨1, by simp [hx], by simp [hx]⟩
    cases e with
    | remove f => exact go (.remove f) rfl rfl
    | compile i o' l' =>
      by_cases hz : st (h ++ [.compile i o' l']) = 0
      · exact go (.compile i o' l') (by simp [steps, hz]) rfl
      · exact stop (by simp [steps, hz])
    | assemble i o' l' =>
      by_cases hz : st (h ++ [.assemble i o' l']) = 0
      · exact go (.assemble i o' l') (by simp [steps, hz]) rfl
      · exact stop (by simp [steps, hz])
    | link i o' l' =>
      by_cases hz : st (h ++ [.link i o' l']) = 0
      · exact go (.link i o' l') (by simp [steps, hz]) rfl
      · exact stop (by simp [steps, hz])

end FB.Drv
