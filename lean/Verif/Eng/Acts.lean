import Verif.Eng.Eol
/-!
# Routines of the native compiler as code

The runs of the parser with routines that are 6502 code.
-/
namespace FB.Eng
open FB.Rt FB.Syn
open FB.Parse (Str Act DCode PCode)

/-- The routines that are modelled as code: all the code and the place where they start. `actions.asm:141-165`. -/
def routine : Act → Option (Code × Code)
  | .REM => some (eolCode, eolCode.E_REM)
  | .EOL => some (eolCode, eolCode.E_EOL)
  | _ => none

/-- What these routines do (`actions.asm:141-165`). -/
def natAct {ρ : Type} (txt : Str) : Act → St B ρ → Syn.Out B ρ
  | .REM => natRem txt
  | .EOL => natEol txt
  | _ => fun _ => .stop

/-- The calls to the code of the routines. -/
def codeX (L : Lay) (w : W) (m : M) (r : Option M) : Prop := ∃ a ∈ L.exts, L.act a = w ∧ ∃ P k m', routine a = some (P, k) ∧ r = some m' ∧ Calls P k m m'

section
variable {ρ : Type} {L : Lay} {E : Mem ρ} {txt : Str}

theorem Calls.det {P k : Code} {m m1 m2 : M} (h1 : Calls P k m m1) (h2 : Calls P k m m2) : m1 = m2 := by
  obtain ⟨n1, h1⟩ := h1
  obtain ⟨n2, h2⟩ := h2
  have stuck : ∀ n (ma mb : M), run P n [] ma = .go [] mb → ma = mb := by
    intro n ma mb h
    cases n with
    | zero => injection h
    | succ n => rw [run] at h; simp [FB.Rt.step] at h
  have key : ∀ (a b : Nat) {ma mb : M}, a ≤ b → run P a k { m with stk := .ret [] :: m.stk } = .go [] ma → run P b k { m with stk := .ret [] :: m.stk } = .go [] mb → ma = mb := by
    intro a b ma mb hab ha hb
    obtain ⟨d, rfl⟩ := Nat.exists_eq_add_of_le hab
    rw [run_add, ha] at hb
    exact stuck d _ _ hb
  rcases Nat.le_total n1 n2 with h | h
  · exact key _ _ h h1 h2
  · exact (key _ _ h h2 h1).symm

/-- If the addresses of the routines are different, each one has one result. -/
theorem codeX_functional (hi : ∀ a ∈ L.exts, ∀ b ∈ L.exts, L.act a = L.act b → a = b) (w : W) (m : M) (r r' : Option M) (h : codeX L w m r) (h' : codeX L w m r') : r = r' := by
  obtain ⟨a, ha, rfl, P, k, m1, e1, rfl, c1⟩ := h
  obtain ⟨b, hb, hw, P', k', m2, e2, rfl, c2⟩ := h'
  have := hi b hb a ha hw
  subst this
  rw [e1] at e2
  injection e2 with e2
  injection e2 with e2 e3
  subst e2; subst e3
  rw [Calls.det c1 c2]

/-- The code of the routines does what `natAct` says. -/
theorem natActs (G : Good L E txt) (W : Whole E txt) (hr : ∀ a ∈ L.exts, (routine a).isSome) : Acts L E (codeX L) (natAct txt) := by
  intro a ha s m h _
  have hs := hr a ha
  have hc : a = .EOL ∨ a = .REM := by cases a <;> simp [routine] at hs ⊢
  rcases hc with rfl | rfl
  · rw [natAct]
    have key := eol_calls G W s m h
    cases hx : natEol txt s with
    | ok s' => rw [hx] at key; obtain ⟨m', c, x⟩ := key; exact ⟨m', ⟨_, ha, rfl, _, _, m', rfl, rfl, c⟩, x⟩
    | fail s' => rw [hx] at key; obtain ⟨m', c, x⟩ := key; exact ⟨m', ⟨_, ha, rfl, _, _, m', rfl, rfl, c⟩, x⟩
    | stop => rw [hx] at key; exact key.elim
  · obtain ⟨m', c, h1, h2, h3, h4⟩ := rem_calls G W s m h
    exact ⟨m', ⟨_, ha, rfl, _, _, m', rfl, rfl, c⟩, h2, h1, h4, h3⟩

end
end FB.Eng
