import Verif.Syn.Merge

/-!
# Lemmas on the deletion of tables and on joining emits
-/

namespace FB.Syn

open FB.Parse (Str Act DCode PCode Table)

section
variable {X ρ : Type} {C : Conf X ρ}

/-! ## Erasing tables that are not called -/

theorem get_erase {del : List Nat} {sl : SMs} {t : Nat} (h : t ∉ del) : get (erase del sl) t = get sl t := by
  rw [get, get, erase, List.find?_filter]
  congr 1
  funext s
  by_cases e : s.name = t
  · simp [e, h]
  · simp [e]

theorem line_congr {tab tab' : Nat → St X ρ → Option (Out X ρ)} (l : List PCode) (h : ∀ t, .call t ∈ l → ∀ s, tab t s = tab' t s) :
    ∀ (b : Bool) (s : St X ρ), line C tab b l s = line C tab' b l s := by
  induction l with
  | nil => intro b s; cases b <;> rfl
  | cons c cs ih =>
    have ih := ih fun t ht => h t (List.mem_cons_of_mem _ ht)
    intro b s
    cases c with
    | lit l => cases b <;> simp only [line, ih]
    | call t => simp only [line, ih, h t List.mem_cons_self]
    | _ => simp only [line, ih]

theorem lines_congr {tab tab' : Nat → St X ρ → Option (Out X ρ)} (k : Nat × Nat) (ls : List (List PCode)) (h : ∀ t, (∃ l ∈ ls, .call t ∈ l) → ∀ s, tab t s = tab' t s) :
    ∀ (s : St X ρ), lines C tab k ls s = lines C tab' k ls s := by
  induction ls with
  | nil => intro s; rfl
  | cons l ls ih =>
    intro s
    have ih := ih fun t ⟨l, hl, ht⟩ => h t ⟨l, List.mem_cons_of_mem _ hl, ht⟩
    rw [lines, lines, line_congr l fun t ht => h t ⟨l, List.mem_cons_self, ht⟩]
    simp only [ih]

theorem hasCall_zero {n : Nat} {ls : List (List PCode)} (h : hasCall n ls = 0) : ¬ ∃ l ∈ ls, .call n ∈ l := by
  induction ls with
  | nil => rintro ⟨l, hl, _⟩; exact absurd hl nofun
  | cons l ls ih =>
    rw [hasCall_cons] at h
    rintro ⟨l', hl, ht⟩
    rcases List.mem_cons.mp hl with e | hl
    · rw [e] at ht
      have : l.countP (isCall n) = 0 := by omega
      rw [List.countP_eq_zero] at this
      exact this _ ht (by simp [isCall])
    · exact ih (by omega) ⟨l', hl, ht⟩

theorem erase_table {del : List Nat} {sl : SMs} (h : ∀ n ∈ del, NoCalls n sl) (m : Nat) : ∀ t, t ∉ del → ∀ s : St X ρ, table C (erase del sl) m t s = table C sl m t s := by
  induction m with
  | zero => intro t _ s; rfl
  | succ m ih =>
    intro t ht s
    rw [table, table, get_erase ht]
    split
    · rfl
    · rename_i T hT
      refine lines_congr _ _ (fun n hn s => ih n (fun hd => ?_) s) _
      exact hasCall_zero (h n hd T (get_mem hT) (by rw [get_name hT]; exact fun e => ht (e ▸ hd))) hn

theorem erase_parses {del : List Nat} {sl : SMs} (h : ∀ n ∈ del, NoCalls n sl) {t : Nat} (ht : t ∉ del) (s : St X ρ) (r : Out X ρ) :
    Parses C (erase del sl) t s r ↔ Parses C sl t s r := by
  simp only [Parses, erase_table h _ t ht s]

/-! ## Joining emits -/

theorem put_append (a b : List X) : ∀ s : St X ρ, C.put (a ++ b) s = match C.put a s with
    | .ok s => C.put b s
    | r => r := by
  induction a with
  | nil => intro s; rfl
  | cons x xs ih =>
    intro s
    rw [List.cons_append, Conf.put, Conf.put]
    split
    · rfl
    · exact ih _

theorem join_line (tab : Nat → St X ρ → Option (Out X ρ)) (l : List PCode) : ∀ (b : Bool) (s : St X ρ), line C tab b (joinEmits l) s = line C tab b l s := by
  induction l using joinEmits.induct with
  | case1 a b cs ih =>
    intro f s
    rw [joinEmits, ih]
    simp only [line, List.flatMap_append, put_append]
    cases C.put (a.flatMap C.enc) s <;> rfl
  | case2 c cs hx ih =>
    intro f s
    rw [joinEmits]
    · cases c with
      | lit l => cases f <;> simp only [line, ih]
      | _ => simp only [line, ih]
    · exact hx
  | case3 => intro f s; rw [joinEmits]

theorem joinRet_line (tab : Nat → St X ρ → Option (Out X ρ)) (l : List PCode) : ∀ (b : Bool) (s : St X ρ), line C tab b (joinRet l) s = line C tab b l s := by
  induction l using joinRet.induct with
  | case1 a cs ih =>
    intro f s
    rw [joinRet]
    simp only [line]
    cases C.put (a.flatMap C.enc) s <;> rfl
  | case2 c cs hx ih =>
    intro f s
    rw [joinRet]
    · cases c with
      | lit l => cases f <;> simp only [line, ih]
      | _ => simp only [line, ih]
    · exact hx
  | case3 => intro f s; rw [joinRet]

theorem optLines (tab : Nat → St X ρ → Option (Out X ρ)) (k : Nat × Nat) (ls : List (List PCode)) : ∀ s : St X ρ, lines C tab k (ls.map optLine) s = lines C tab k ls s := by
  induction ls with
  | nil => intro s; rfl
  | cons l ls ih =>
    intro s
    rw [List.map_cons, lines, lines, optLine, joinRet_line, join_line]
    simp only [ih]

theorem get_map {f : SM → SM} (hf : ∀ s, (f s).name = s.name) (sl : SMs) (t : Nat) : get (sl.map f) t = (get sl t).map f := by
  rw [get, get, List.find?_map]
  congr 2
  funext s
  simp [hf]

theorem opt_table (sl : SMs) (m : Nat) : ∀ (t : Nat) (s : St X ρ), table C (sl.map optSM) m t s = table C sl m t s := by
  induction m with
  | zero => intro t s; rfl
  | succ m ih =>
    intro t s
    rw [table, table, get_map (f := optSM) (fun _ => rfl)]
    cases get sl t with
    | none => rfl
    | some T =>
      show lines C _ _ (T.lines.map optLine) _ = _
      rw [optLines]
      exact lines_congr _ _ (fun t _ s => ih t s) _

/-! ## Deleting the calls to an empty table -/

/-- Are two states the same but for blanks skipped? -/
def Near (C : Conf X ρ) (s s' : St X ρ) : Prop := C.skip s = C.skip s'

/-- Two results that are the same but for blanks skipped; with `e`, a success is the same. -/
def NearOut (C : Conf X ρ) (e : Prop) : Out X ρ → Out X ρ → Prop
  | .ok s, .ok s' => Near C s s' ∧ (e → s = s')
  | .fail s, .fail s' => s = s'
  | .stop, .stop => True
  | _, _ => False

/-- Two results, of which the first (with `d`) or the second is known. -/
def NearRes (C : Conf X ρ) (d : Bool) (e : Prop) (x y : Option (Out X ρ)) : Prop :=
  (if d then x = none else y = none) ∨ ∃ r r', x = some r ∧ y = some r' ∧ NearOut C e r r'

theorem NearRes.of {d : Bool} {e : Prop} {r r' : Out X ρ} (h : NearOut C e r r') : NearRes C d e (some r) (some r') := .inr ⟨r, r', rfl, rfl, h⟩

theorem NearOut.refl (e : Prop) (r : Out X ρ) : NearOut C e r r := by
  cases r <;> simp [NearOut, Near]

theorem NearRes.same (d : Bool) (e : Prop) (x : Option (Out X ρ)) : NearRes C d e x x := by
  cases x with
  | none => left; cases d <;> rfl
  | some r => exact .of (.refl e r)

/-- What is known of the two states inside of a line: the same and no blanks follow, the same, or the same but for blanks. -/
inductive Flag
  | fresh | same | near
deriving DecidableEq, Repr

/-- Checks a line for the deletion of the calls to `n`: the codes after a deleted call must start by skipping blanks. `F` are the tables that can end
with the blanks not skipped, `K` the actions that start by skipping blanks, and `f` says if the line is in a table of `F`. -/
def safeLine (n : Nat) (F : Nat → Bool) (K : Act → Bool) (f : Bool) : Flag → List PCode → Bool
  | g, [] => f || g != .near
  | g, .ret :: _ => f || g != .near
  | g, .emitRet _ :: _ => f || g != .near
  | g, .emit _ :: cs => safeLine n F K f g cs
  | g, .lit _ :: cs => g != .near && safeLine n F K f .same cs
  | g, .ext a :: cs => (g != .near || K a) && safeLine n F K f .same cs
  | g, .call t :: cs =>
    if t = n then safeLine n F K f (if g = .fresh then .fresh else .near) cs
    else safeLine n F K f (if F t then .near else .same) cs

theorem put_skip (xs : List X) : ∀ s : St X ρ, C.put xs (C.skip s) = match C.put xs s with
    | .ok s => .ok (C.skip s)
    | r => r := by
  induction xs with
  | nil => intro s; rfl
  | cons x xs ih =>
    intro s
    rw [Conf.put, Conf.put]
    by_cases h : s.opos + 1 = C.lim
    · rw [if_pos h]
      simp only [show (C.skip s).opos = s.opos from rfl, if_pos h]
    · rw [if_neg h]
      simp only [show (C.skip s).opos = s.opos from rfl, if_neg h]
      exact ih { s with opos := s.opos + 1, buf := fun i => if i = s.opos then x else s.buf i }

theorem put_nofail (xs : List X) : ∀ s t : St X ρ, C.put xs s ≠ .fail t := by
  induction xs with
  | nil => intro s t h; exact absurd h nofun
  | cons x xs ih =>
    intro s t h
    rw [Conf.put] at h
    split at h
    · exact absurd h nofun
    · exact ih _ _ h

theorem put_near (xs : List X) {s s' : St X ρ} (h : Near C s s') : NearOut C False (C.put xs s) (C.put xs s') := by
  have e := put_skip (C := C) xs s
  rw [show C.skip s = C.skip s' from h, put_skip] at e
  cases h1 : C.put xs s with
  | ok t =>
    cases h2 : C.put xs s' with
    | ok t' => rw [h1, h2] at e; injection e with e; exact ⟨e.symm, nofun⟩
    | fail t' => exact absurd h2 (put_nofail _ _ _)
    | stop => rw [h1, h2] at e; exact absurd e nofun
  | fail t => exact absurd h1 (put_nofail _ _ _)
  | stop =>
    cases h2 : C.put xs s' with
    | ok t' => rw [h1, h2] at e; exact absurd e nofun
    | fail t' => exact absurd h2 (put_nofail _ _ _)
    | stop => trivial

theorem put_fresh (xs : List X) : ∀ {s t : St X ρ}, C.skip s = s → C.put xs s = .ok t → C.skip t = t := by
  intro s t h e
  have := put_skip (C := C) xs s
  rw [h, e] at this
  injection this with this
  exact this.symm

/-- The states of two lines, of which the second has the calls to the empty table deleted. -/
def Rel (C : Conf X ρ) : Flag → St X ρ → Bool → St X ρ → Bool → Prop
  | .fresh, s, b, s', b' => s = s' ∧ b = false ∧ b' = false ∧ C.skip s = s
  | .same, s, b, s', b' => s = s' ∧ b = b'
  | .near, s, _, s', _ => Near C s s'

theorem Rel.near {g : Flag} {s s' : St X ρ} {b b' : Bool} (h : Rel C g s b s' b') : Near C s s' := by
  cases g with
  | fresh => rw [h.1]; rfl
  | same => rw [h.1]; rfl
  | near => exact h

theorem Rel.eq {g : Flag} {s s' : St X ρ} {b b' : Bool} (h : Rel C g s b s' b') (hg : (g != .near) = true) : s = s' := by
  cases g with
  | fresh => exact h.1
  | same => exact h.1
  | near => exact absurd hg nofun

theorem Rel.flag {g : Flag} {s s' : St X ρ} {b b' : Bool} (h : Rel C g s b s' b') (hg : (g != .near) = true) : b = b' := by
  cases g with
  | fresh => rw [h.2.1, h.2.2.1]
  | same => exact h.2
  | near => exact absurd hg nofun

theorem line_safe {n : Nat} {F : Nat → Bool} {K : Act → Bool} {f d : Bool} {tab tab' : Nat → St X ρ → Option (Out X ρ)}
    (hK : ∀ a, K a = true → ∀ s, C.act a s = C.act a (C.skip s)) (hn : ∀ s, (d = true ∧ tab n s = none) ∨ tab n s = some (.ok (C.skip s)))
    (H : ∀ t, t ≠ n → ∀ s s', Near C s s' → NearRes C d (F t = false) (tab t s) (tab' t s')) (l : List PCode) :
    ∀ (g : Flag) (s s' : St X ρ) (b b' : Bool), Rel C g s b s' b' → safeLine n F K f g l = true →
      NearRes C d (f = false) (line C tab b l s) (line C tab' b' (l.filter fun c => !isCall n c) s') := by
  have hend : ∀ (g : Flag) (s s' : St X ρ) (b b' : Bool), Rel C g s b s' b' → (f || g != .near) = true → NearOut C (f = false) (.ok s) (.ok s') := by
    intro g s s' b b' h hs
    refine ⟨h.near, fun hf => ?_⟩
    rw [hf, Bool.false_or] at hs
    exact h.eq hs
  induction l with
  | nil =>
    intro g s s' b b' h hs
    have e1 : ∀ b s, line C tab b [] s = some (.ok s) := by intro b s; cases b <;> rfl
    have e2 : ∀ b s, line C tab' b [] s = some (.ok s) := by intro b s; cases b <;> rfl
    rw [List.filter_nil, e1, e2]
    exact .of (hend _ _ _ _ _ h hs)
  | cons c cs ih =>
    intro g s s' b b' h hs
    cases c with
    | lit l =>
      rw [safeLine, Bool.and_eq_true] at hs
      rw [List.filter_cons_of_pos (by simp [isCall])]
      have e1 := h.eq hs.1
      have e2 := h.flag hs.1
      subst e1 e2
      cases b with
      | true =>
        simp only [line]
        exact ih .same _ _ _ _ ⟨rfl, rfl⟩ hs.2
      | false =>
        simp only [line]
        cases C.lit l s with
        | no t => exact .same _ _ _
        | yes t => exact ih .same _ _ _ _ ⟨rfl, rfl⟩ hs.2
        | dot t => exact ih .same _ _ _ _ ⟨rfl, rfl⟩ hs.2
    | emit q =>
      rw [safeLine] at hs
      rw [List.filter_cons_of_pos (by simp [isCall])]
      simp only [line]
      have hp := put_near (C := C) (q.flatMap C.enc) h.near
      cases h1 : C.put (q.flatMap C.enc) s with
      | ok t =>
        cases h2 : C.put (q.flatMap C.enc) s' with
        | ok t' =>
          refine ih g _ _ _ _ ?_ hs
          rw [h1, h2] at hp
          cases g with
          | fresh =>
            obtain ⟨e, _, _, hf⟩ := h
            subst e
            rw [h1] at h2
            injection h2 with h2
            exact ⟨h2, rfl, rfl, put_fresh _ hf h1⟩
          | same =>
            obtain ⟨e, _⟩ := h
            subst e
            rw [h1] at h2
            injection h2 with h2
            exact ⟨h2, rfl⟩
          | near => exact hp.1
        | fail t' => exact absurd h2 (put_nofail _ _ _)
        | stop => rw [h1, h2] at hp; exact absurd hp nofun
      | fail t => exact absurd h1 (put_nofail _ _ _)
      | stop =>
        cases h2 : C.put (q.flatMap C.enc) s' with
        | ok t' => rw [h1, h2] at hp; exact absurd hp nofun
        | fail t' => exact absurd h2 (put_nofail _ _ _)
        | stop => exact .of trivial
    | emitRet q =>
      rw [safeLine] at hs
      rw [List.filter_cons_of_pos (by simp [isCall])]
      simp only [line]
      have hp := put_near (C := C) (q.flatMap C.enc) h.near
      cases h1 : C.put (q.flatMap C.enc) s with
      | ok t =>
        cases h2 : C.put (q.flatMap C.enc) s' with
        | ok t' =>
          rw [h1, h2] at hp
          refine .of ⟨hp.1, fun hf => ?_⟩
          rw [hf, Bool.false_or] at hs
          rw [h.eq hs, h2] at h1
          injection h1 with h1
          exact h1.symm
        | fail t' => exact absurd h2 (put_nofail _ _ _)
        | stop => rw [h1, h2] at hp; exact absurd hp nofun
      | fail t => exact absurd h1 (put_nofail _ _ _)
      | stop =>
        cases h2 : C.put (q.flatMap C.enc) s' with
        | ok t' => rw [h1, h2] at hp; exact absurd hp nofun
        | fail t' => exact absurd h2 (put_nofail _ _ _)
        | stop => exact .of trivial
    | ext a =>
      rw [safeLine, Bool.and_eq_true, Bool.or_eq_true] at hs
      rw [List.filter_cons_of_pos (by simp [isCall])]
      simp only [line]
      have e : C.act a s = C.act a s' := by
        rcases hs.1 with hg | hk
        · rw [h.eq hg]
        · rw [hK a hk s, show C.skip s = C.skip s' from h.near, ← hK a hk s']
      rw [e]
      cases C.act a s' with
      | ok t => exact ih .same _ _ _ _ ⟨rfl, rfl⟩ hs.2
      | fail t => exact .same _ _ _
      | stop => exact .same _ _ _
    | call t =>
      rw [safeLine] at hs
      by_cases ht : t = n
      · subst ht
        rw [if_pos rfl] at hs
        rw [List.filter_cons_of_neg (by simp [isCall])]
        simp only [line]
        rcases hn s with ⟨hd, e⟩ | e
        · rw [e]; left; rw [if_pos hd]
        · rw [e]
          refine ih _ _ _ _ _ ?_ hs
          by_cases hg : g = .fresh
          · subst hg
            rw [if_pos rfl]
            obtain ⟨e, _, h2, hf⟩ := h
            refine ⟨by rw [hf, e], rfl, h2, by rw [skip_skip]⟩
          · rw [if_neg hg]
            show C.skip (C.skip s) = _
            rw [skip_skip]; exact h.near
      · rw [if_neg ht] at hs
        rw [List.filter_cons_of_pos (by simp [isCall, ht])]
        simp only [line]
        rcases H t ht s s' h.near with hx | ⟨r, r', e1, e2, hr⟩
        · left
          cases d with
          | true => rw [if_pos rfl] at hx ⊢; rw [hx]
          | false => simp only [Bool.false_eq_true, if_false] at hx ⊢; rw [hx]
        · rw [e1, e2]
          cases r with
          | ok q =>
            cases r' with
            | ok q' =>
              refine ih _ _ _ _ _ ?_ hs
              cases hF : F t with
              | true => exact hr.1
              | false => exact ⟨hr.2 hF, rfl⟩
            | fail q' => exact absurd hr nofun
            | stop => exact absurd hr nofun
          | fail q =>
            cases r' with
            | ok q' => exact absurd hr nofun
            | fail q' => exact .of hr
            | stop => exact absurd hr nofun
          | stop =>
            cases r' with
            | ok q' => exact absurd hr nofun
            | fail q' => exact absurd hr nofun
            | stop => exact .of trivial
    | ret =>
      rw [safeLine] at hs
      rw [List.filter_cons_of_pos (by simp [isCall])]
      simp only [line]
      exact .of (hend _ _ _ _ _ h hs)

theorem lines_safe {n : Nat} {F : Nat → Bool} {K : Act → Bool} {f d : Bool} {tab tab' : Nat → St X ρ → Option (Out X ρ)}
    (hK : ∀ a, K a = true → ∀ s, C.act a s = C.act a (C.skip s)) (hn : ∀ s, (d = true ∧ tab n s = none) ∨ tab n s = some (.ok (C.skip s)))
    (H : ∀ t, t ≠ n → ∀ s s', Near C s s' → NearRes C d (F t = false) (tab t s) (tab' t s')) {k : Nat × Nat} (ls : List (List PCode)) :
    ∀ s : St X ρ, Start C k s → (∀ l ∈ ls, safeLine n F K f .fresh l = true) →
      NearRes C d (f = false) (lines C tab k ls s) (lines C tab' k (ls.map fun l => l.filter fun c => !isCall n c) s) := by
  induction ls with
  | nil => intro s _ _; exact .of rfl
  | cons l ls ih =>
    intro s hs hl
    rw [List.map_cons, lines, lines]
    rcases line_safe hK hn H l .fresh s s false false ⟨rfl, rfl, rfl, hs.skip⟩ (hl l List.mem_cons_self) with hx | ⟨r, r', e1, e2, hr⟩
    · left
      cases d with
      | true => rw [if_pos rfl] at hx ⊢; rw [hx]
      | false => simp only [Bool.false_eq_true, if_false] at hx ⊢; rw [hx]
    · rw [e1, e2]
      cases r with
      | ok q =>
        cases r' with
        | ok q' => exact .of hr
        | fail q' => exact absurd hr nofun
        | stop => exact absurd hr nofun
      | fail q =>
        cases r' with
        | ok q' => exact absurd hr nofun
        | fail q' =>
          have e : q = q' := hr
          rw [e]
          exact ih _ (hs.next _) fun l h => hl l (List.mem_cons_of_mem _ h)
        | stop => exact absurd hr nofun
      | stop =>
        cases r' with
        | ok q' => exact absurd hr nofun
        | fail q' => exact absurd hr nofun
        | stop => exact .of trivial

/-- The check of all tables for the deletion of the calls to `n`. -/
def safeTables (n : Nat) (F : Nat → Bool) (K : Act → Bool) (sl : SMs) : Bool :=
  sl.all fun s => s.lines.all fun l => safeLine n F K (F s.name) .fresh l

theorem table_ret {sl : SMs} {n : Nat} {S : SM} (hS : get sl n = some S) (hl : S.lines = [[.ret]]) (m : Nat) (s : St X ρ) :
    table C sl (m + 1) n s = some (.ok (C.skip s)) := by
  rw [table, hS]
  show lines C _ _ S.lines _ = _
  rw [hl]; rfl

theorem table_safe {n : Nat} {F : Nat → Bool} {K : Act → Bool} {sl : SMs} {S : SM} (hK : ∀ a, K a = true → ∀ s, C.act a s = C.act a (C.skip s))
    (hS : get sl n = some S) (hl : S.lines = [[.ret]]) (hsafe : safeTables n F K sl = true) (d : Bool) (m : Nat) : ∀ t (s s' : St X ρ), Near C s s' →
    NearRes C d (F t = false) (table C sl (if d then m else m + 1) t s) (table C (sl.map (delCall n)) m t s') := by
  induction m with
  | zero =>
    intro t s s' h
    left
    cases d <;> rfl
  | succ m ih =>
    intro t s s' h
    have em : (if d = true then m + 1 else m + 1 + 1) = (if d = true then m else m + 1) + 1 := by cases d <;> rfl
    rw [em, table, table, get_map (f := delCall n) (fun _ => rfl)]
    cases hT : get sl t with
    | none => exact .of trivial
    | some T =>
      show NearRes C d _ (lines C _ _ T.lines _) (lines C _ _ (T.lines.map _) _)
      rw [← show C.skip s = C.skip s' from h]
      refine lines_safe hK ?_ (fun t _ => ih t) _ _ (start_skip s) ?_
      · intro q
        cases d with
        | false => right; exact table_ret hS hl m q
        | true =>
          cases m with
          | zero => left; exact ⟨rfl, rfl⟩
          | succ m => right; exact table_ret hS hl m q
      · intro l hl
        rw [safeTables, List.all_eq_true] at hsafe
        have := hsafe T (get_mem hT)
        rw [List.all_eq_true] at this
        rw [get_name hT] at this
        exact this l hl

/-- Two lists of tables have the same results for table `t`, but for blanks skipped at the end if `F t`. -/
def Agrees (C : Conf X ρ) (F : Nat → Bool) (sl sl' : SMs) (t : Nat) : Prop := ∀ s s', Near C s s' →
  (∀ r, Parses C sl t s r → ∃ r', Parses C sl' t s' r' ∧ NearOut C (F t = false) r r') ∧
  (∀ r', Parses C sl' t s' r' → ∃ r, Parses C sl t s r ∧ NearOut C (F t = false) r r')

theorem NearOut.trans {e : Prop} {a b c : Out X ρ} (h : NearOut C e a b) (g : NearOut C e b c) : NearOut C e a c := by
  cases a <;> cases b <;> cases c <;> simp only [NearOut] at h g ⊢
  · exact ⟨Eq.trans h.1 g.1, fun q => (h.2 q).trans (g.2 q)⟩
  · rw [h, g]

theorem Agrees.trans {F : Nat → Bool} {a b c : SMs} {t : Nat} (h : Agrees C F a b t) (g : Agrees C F b c t) : Agrees C F a c t := by
  intro s s' hn
  refine ⟨fun r hr => ?_, fun r hr => ?_⟩
  · obtain ⟨r1, p1, n1⟩ := (h s s' hn).1 r hr
    obtain ⟨r2, p2, n2⟩ := (g s' s' rfl).1 r1 p1
    exact ⟨r2, p2, n1.trans n2⟩
  · obtain ⟨r1, p1, n1⟩ := (g s' s' rfl).2 r hr
    obtain ⟨r2, p2, n2⟩ := (h s s' hn).2 r1 p1
    exact ⟨r2, p2, n2.trans n1⟩

theorem table_near (sl : SMs) (m t : Nat) {s s' : St X ρ} (h : Near C s s') : table C sl m t s = table C sl m t s' := by
  cases m with
  | zero => rfl
  | succ m => rw [table, table, show C.skip s = C.skip s' from h]

theorem Agrees.refl (F : Nat → Bool) (a : SMs) (t : Nat) : Agrees C F a a t := by
  intro s s' h
  refine ⟨fun r ⟨m, e⟩ => ⟨r, ⟨m, by rw [← table_near a m t h]; exact e⟩, .refl _ _⟩, fun r ⟨m, e⟩ => ⟨r, ⟨m, by rw [table_near a m t h]; exact e⟩, .refl _ _⟩⟩

theorem del_agrees {n : Nat} {F : Nat → Bool} {K : Act → Bool} {sl : SMs} {S : SM} (hK : ∀ a, K a = true → ∀ s, C.act a s = C.act a (C.skip s))
    (hS : get sl n = some S) (hl : S.lines = [[.ret]]) (hsafe : safeTables n F K sl = true) (t : Nat) : Agrees C F sl (sl.map (delCall n)) t := by
  intro s s' h
  refine ⟨fun r ⟨m, e⟩ => ?_, fun r ⟨m, e⟩ => ?_⟩
  · rcases table_safe hK hS hl hsafe true m t s s' h with hx | ⟨r1, r', e1, e2, hr⟩
    · rw [if_pos rfl, if_pos rfl] at hx; rw [e] at hx; exact absurd hx nofun
    · rw [if_pos rfl, e] at e1; injection e1 with e1; rw [e1]; exact ⟨r', ⟨m, e2⟩, hr⟩
  · rcases table_safe hK hS hl hsafe false m t s s' h with hx | ⟨r1, r', e1, e2, hr⟩
    · simp only [Bool.false_eq_true, if_false] at hx; rw [e] at hx; exact absurd hx nofun
    · rw [e] at e2; injection e2 with e2; rw [e2]; exact ⟨r1, ⟨_, e1⟩, hr⟩

/-! ## The loop that deletes the empty tables -/

/-- A table without lines stands for nothing: it is read as a table that always succeeds. -/
def fill (s : SM) : SM := if s.lines = [] then { s with lines := [[.ret]] } else s

/-- The check of all the deletions in `emptyLoop`. -/
def safeLoop (F : Nat → Bool) (K : Act → Bool) : List Nat → SMs → Bool
  | [], _ => true
  | n :: ns, sl =>
    match get sl n with
    | some s => if isEmpty s then safeTables n F K sl && safeLoop F K ns (sl.map (delCall n)) else safeLoop F K ns sl
    | none => safeLoop F K ns sl

theorem fill_name (s : SM) : (fill s).name = s.name := by rw [fill]; split <;> rfl

theorem fill_delCall (n : Nat) (s : SM) : fill (delCall n s) = delCall n (fill s) := by
  obtain ⟨a, l, c⟩ := s
  cases l with
  | nil => rfl
  | cons l ls => rfl

theorem safeLine_ret (n : Nat) (F : Nat → Bool) (K : Act → Bool) (f : Bool) : safeLine n F K f .fresh [.ret] = true := by
  cases f <;> rfl

theorem fill_safe {n : Nat} {F : Nat → Bool} {K : Act → Bool} {sl : SMs} (h : safeTables n F K sl = true) : safeTables n F K (sl.map fill) = true := by
  rw [safeTables, List.all_eq_true] at h ⊢
  intro s hs
  rw [List.mem_map] at hs
  obtain ⟨x, hx, rfl⟩ := hs
  have := h x hx
  rw [fill]
  split
  · simp [safeLine_ret]
  · exact this

theorem emptyLoop_agrees {F : Nat → Bool} {K : Act → Bool} (hK : ∀ a, K a = true → ∀ s, C.act a s = C.act a (C.skip s)) (ns : List Nat) : ∀ (sl : SMs) (del : List Nat),
    safeLoop F K ns sl = true → ∀ t, Agrees C F (sl.map fill) ((emptyLoop ns sl del).1.map fill) t := by
  induction ns with
  | nil => intro sl del _ t; exact .refl _ _ _
  | cons n ns ih =>
    intro sl del h t
    rw [safeLoop] at h
    rw [emptyLoop]
    cases hg : get sl n with
    | none => rw [hg] at h; exact ih _ _ h t
    | some S =>
      rw [hg] at h
      simp only at h ⊢
      by_cases he : isEmpty S = true
      · rw [if_pos he, Bool.and_eq_true] at h
        rw [if_pos he]
        have h1 : get (sl.map fill) n = some (fill S) := by rw [get_map fill_name, hg]; rfl
        have h2 : (fill S).lines = [[.ret]] := by
          rw [isEmpty, Bool.or_eq_true] at he
          rcases he with he | he
          · rw [fill, if_pos (by simpa using he)]
          · have e : S.lines = [[.ret]] := by simpa using he
            rw [fill, if_neg (by rw [e]; nofun), e]
        have := del_agrees hK h1 h2 (fill_safe h.1) t
        rw [List.map_map, show delCall n ∘ fill = fill ∘ delCall n from funext fun s => (fill_delCall n s).symm, ← List.map_map] at this
        exact this.trans (ih _ _ h.2 t)
      · rw [if_neg he] at h ⊢
        exact ih _ _ h t

theorem delCall_hasCall (n t : Nat) (s : SM) : hasCall t (delCall n s).lines ≤ hasCall t s.lines ∧ hasCall n (delCall n s).lines = 0 := by
  obtain ⟨a, l, c⟩ := s
  show hasCall t (l.map _) ≤ hasCall t l ∧ hasCall n (l.map _) = 0
  induction l with
  | nil => exact ⟨Nat.le_refl _, rfl⟩
  | cons x xs ih =>
    rw [List.map_cons, hasCall_cons, hasCall_cons, hasCall_cons, ih.2]
    have h1 : (x.filter fun c => !isCall n c).countP (isCall t) ≤ x.countP (isCall t) := List.filter_sublist.countP_le
    have h2 : (x.filter fun c => !isCall n c).countP (isCall n) = 0 := by
      rw [List.countP_eq_zero]
      intro c hc
      have := (List.mem_filter.mp hc).2
      simpa using this
    exact ⟨by omega, by omega⟩

theorem emptyLoop_calls (ns : List Nat) : ∀ (sl : SMs) (del : List Nat), (∀ n ∈ del, ∀ s ∈ sl, hasCall n s.lines = 0) →
    ∀ n ∈ (emptyLoop ns sl del).2, ∀ s ∈ (emptyLoop ns sl del).1, hasCall n s.lines = 0 := by
  induction ns with
  | nil => intro sl del h; exact h
  | cons n ns ih =>
    intro sl del h
    rw [emptyLoop]
    split
    · split
      · refine ih _ _ ?_
        intro d hd s hs
        rw [List.mem_map] at hs
        obtain ⟨x, hx, rfl⟩ := hs
        rcases List.mem_append.mp hd with hd | hd
        · have := h d hd x hx
          have := (delCall_hasCall n d x).1
          omega
        · rw [List.mem_singleton.mp hd]; exact (delCall_hasCall n 0 x).2
      · exact ih _ _ h
    · exact ih _ _ h

theorem emptyLoop_names (ns : List Nat) : ∀ (sl : SMs) (del : List Nat), (emptyLoop ns sl del).1.map SM.name = sl.map SM.name ∧ (∀ n ∈ del, n ∈ (emptyLoop ns sl del).2) := by
  induction ns with
  | nil => intro sl del; exact ⟨rfl, fun _ h => h⟩
  | cons n ns ih =>
    intro sl del
    rw [emptyLoop]
    split
    · split
      · refine ⟨?_, fun d hd => (ih _ _).2 d (List.mem_append_left _ hd)⟩
        rw [(ih _ _).1, List.map_map]; rfl
      · exact ih _ _
    · exact ih _ _

theorem emptyLoop_nil (ns : List Nat) : ∀ (sl : SMs) (del : List Nat), (sl.map SM.name).Nodup →
    ∀ s ∈ (emptyLoop ns sl del).1, s.lines = [] → s.name ∈ ns → s.name ∈ (emptyLoop ns sl del).2 := by
  have back : ∀ ns (sl : SMs) (del : List Nat), ∀ s ∈ (emptyLoop ns sl del).1, s.lines = [] → ∃ x ∈ sl, x.name = s.name ∧ x.lines = [] := by
    intro ns
    induction ns with
    | nil => intro sl del s hs h; exact ⟨s, hs, rfl, h⟩
    | cons n ns ih =>
      intro sl del s hs h
      rw [emptyLoop] at hs
      split at hs
      · split at hs
        · obtain ⟨x, hx, e, hl⟩ := ih _ _ s hs h
          rw [List.mem_map] at hx
          obtain ⟨y, hy, rfl⟩ := hx
          exact ⟨y, hy, e, by simpa [delCall] using hl⟩
        · exact ih _ _ s hs h
      · exact ih _ _ s hs h
  induction ns with
  | nil => intro sl del _ s _ _ h; exact absurd h nofun
  | cons n ns ih =>
    intro sl del hd s hs hl hn
    rcases List.mem_cons.mp hn with e | hn
    · obtain ⟨x, hx, e', hx'⟩ := back _ _ _ s hs hl
      have hg : get sl n = some x := by rw [← e, ← e']; exact get_mem_of hd hx
      rw [emptyLoop, hg]
      simp only
      rw [if_pos (by rw [isEmpty, hx']; rfl), e]
      exact (emptyLoop_names _ _ _).2 n (List.mem_append_right _ (List.mem_singleton.mpr rfl))
    · rw [emptyLoop] at hs ⊢
      cases hy : get sl n with
      | none => rw [hy] at hs; exact ih _ _ hd s hs hl hn
      | some y =>
        rw [hy] at hs
        simp only at hs ⊢
        by_cases he : isEmpty y = true
        · rw [if_pos he] at hs ⊢
          refine ih _ _ ?_ s hs hl hn
          rw [List.map_map]; exact hd
        · rw [if_neg he] at hs ⊢
          exact ih _ _ hd s hs hl hn

theorem clean_agrees {F : Nat → Bool} {K : Act → Bool} {sl : SMs} (hd : (sl.map SM.name).Nodup) (hK : ∀ a, K a = true → ∀ s, C.act a s = C.act a (C.skip s))
    (h : safeLoop F K (sl.map SM.name) sl = true) {t : Nat} (ht : t ∉ (emptyLoop (sl.map SM.name) sl []).2) : Agrees C F (sl.map fill) (syntaxClean sl) t := by
  have a1 := emptyLoop_agrees hK _ _ [] h t
  have hc := emptyLoop_calls (sl.map SM.name) sl [] nofun
  have hz := emptyLoop_nil (sl.map SM.name) sl [] hd
  have hn := (emptyLoop_names (sl.map SM.name) sl []).1
  rw [syntaxClean]
  generalize emptyLoop (sl.map SM.name) sl [] = q at a1 ht hc hz hn
  obtain ⟨x, D⟩ := q
  simp only at a1 ht hc hz hn ⊢
  have he : erase D (x.map fill) = erase D x := by
    rw [erase, erase, List.filter_map]
    have : ((fun s : SM => !D.contains s.name) ∘ fill) = fun s => !D.contains s.name := by
      funext s; show (!D.contains (fill s).name) = _; rw [fill_name]
    rw [this]
    rw [List.map_congr_left (g := id), List.map_id]
    intro s hs
    rw [List.mem_filter] at hs
    rw [fill, if_neg]; rfl
    intro hl
    have := hz s hs.1 hl (by rw [← hn]; exact List.mem_map_of_mem hs.1)
    have h2 := hs.2
    simp [this] at h2
  have hp : ∀ s r, Parses C ((erase D x).map optSM) t s r ↔ Parses C (x.map fill) t s r := by
    intro s r
    have : ∀ m, table C ((erase D x).map optSM) m t s = table C (x.map fill) m t s := by
      intro m
      rw [opt_table, ← he]
      refine erase_table ?_ m t ht s
      intro d hd s hs _
      rw [List.mem_map] at hs
      obtain ⟨y, hy, rfl⟩ := hs
      have := hc d hd y hy
      rw [fill]
      split
      · rfl
      · exact this
    simp only [Parses, this]
  intro s s' hn
  obtain ⟨f, g⟩ := a1 s s' hn
  refine ⟨fun r hr => ?_, fun r hr => ?_⟩
  · obtain ⟨r', p, q⟩ := f r hr
    exact ⟨r', (hp _ _).mpr p, q⟩
  · exact g r ((hp _ _).mp hr)

theorem Agrees.exact {F : Nat → Bool} {a b : SMs} {t : Nat} (h : Agrees C F a b t) (hF : F t = false) (s : St X ρ) (r : Out X ρ) : Parses C b t s r ↔ Parses C a t s r := by
  have hr : ∀ r r', NearOut C (F t = false) r r' → r = r' := by
    intro r r' h
    cases r with
    | ok q => cases r' with
      | ok q' => rw [h.2 hF]
      | fail q' => exact absurd h nofun
      | stop => exact absurd h nofun
    | fail q => cases r' with
      | ok q' => exact absurd h nofun
      | fail q' => rw [show q = q' from h]
      | stop => exact absurd h nofun
    | stop => cases r' with
      | ok q' => exact absurd h nofun
      | fail q' => exact absurd h nofun
      | stop => rfl
  refine ⟨fun p => ?_, fun p => ?_⟩
  · obtain ⟨q, p1, n1⟩ := (h s s rfl).2 r p
    rw [← hr _ _ n1]; exact p1
  · obtain ⟨q, p1, n1⟩ := (h s s rfl).1 r p
    rw [hr _ _ n1]; exact p1

end

end FB.Syn
