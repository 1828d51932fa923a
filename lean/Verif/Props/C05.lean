import Verif.TermJumps
import Verif.Props.C03
/-!
# C05: when the optimizer ends

`C05_every_round_terminates_partial` and `C05_termination_refuted` are in `Verif.Props.C03`.  Here: the only
thing that can keep the optimizer from ending is a cycle of jumps.
-/
namespace FB
open Peep

/-- From label `l` the program does nothing but go to another label `t`: after `l` come only labels, and
then a jump to `t`, or `t` is the last of those labels. -/
def Leads (c : List Codew) (l t : String) : Prop :=
  t ≠ l ∧ ∃ (ls : List String) (r : List Codew), .label l :: (ls.map Codew.label ++ r) <:+ c ∧
    ((∃ q, r = .tok .JUMP :: .wordStr t :: q) ∨ ls.getLast? = some t)

theorem Edge.leads {c : List Codew} {l t : String} (h : Edge c l t) : Leads c l t := by
  obtain ⟨h1, h2, rest, h3, h4⟩ := h
  obtain ⟨ls, r, rfl, h5⟩ := targetOf_spec _ _ _ h4
  refine ⟨h1, ls, r, h3, ?_⟩
  rcases h5 with ⟨rfl, _⟩ | ⟨_, h5⟩ | ⟨h5, _⟩ | h5
  · exact absurd rfl h2
  · exact .inl h5
  · cases h5
  · exact .inr h5

theorem hasLbl_of : ∀ {s : List Char}, ['l', 'b', 'l'] <:+: s → hasLbl s = true := by
  intro s
  induction s with
  | nil => intro h; simp at h
  | cons c s ih =>
    intro h
    rw [hasLbl, Bool.or_eq_true]
    rcases List.infix_cons_iff.1 h with h | h
    · exact .inl (List.isPrefixOf_iff_prefix.2 h)
    · exact .inr (ih h)

/-- The code before round `n` (from 0) of the main loop of the optimizer. -/
def codeAt (P : List Codew) (n : Nat) : List Codew := ((round Fix.actual)^[n] (prepare ⟨P, false, false⟩)).code

/-- **C05, as far as it holds**: on every well-formed program whose labels have "lbl" in their names, as all
those that the parser makes, the optimizer ends, unless from some round on the code before every round has
a label that leads, over other labels, back to itself: a cycle of jumps is the only thing that can keep it
from ending.  Missing: that it ends in spite of them, which is false (`C05_termination_refuted`). -/
theorem C05_ends_without_cycles_partial {P : List Codew} (hg : Wf P) (hl : ∀ l ∈ labels P, ['l', 'b', 'l'] <:+: l.toList) :
    (∃ fuel Q, optimize Fix.actual fuel P = some Q) ∨
    ∃ n, ∀ k, n ≤ k → ∃ l, Relation.TransGen (Leads (codeAt P k)) l l := by
  have hp := prepare_wf ⟨P, false, false⟩ hg
  rcases rounds_end_or_cycle Fix.actual (prepare ⟨P, false, false⟩) hp.1 (fun l h => hasLbl_of (hl l (hp.2.2.1 l h))) with
    ⟨fuel, e', h⟩ | ⟨n, h⟩
  · exact .inl ⟨fuel, (finish e').code, by simp only [optimize, optimizeEd, h, Option.map_some]⟩
  · exact .inr ⟨n, fun k hk => let ⟨l, hl⟩ := h k hk; ⟨l, Relation.TransGen.mono (fun _ _ h => Edge.leads h) _ _ hl⟩⟩

/-- So it ends if rounds without such cycles come up again and again. -/
theorem C05_ends_partial {P : List Codew} (hg : Wf P) (hl : ∀ l ∈ labels P, ['l', 'b', 'l'] <:+: l.toList)
    (h : ∀ n, ∃ k, n ≤ k ∧ ∀ l, ¬ Relation.TransGen (Leads (codeAt P k)) l l) : ∃ fuel Q, optimize Fix.actual fuel P = some Q := by
  refine (C05_ends_without_cycles_partial hg hl).resolve_right ?_
  rintro ⟨n, hn⟩
  obtain ⟨k, hk, h1⟩ := h n
  obtain ⟨l, h2⟩ := hn k hk
  exact h1 l h2

/-- The hypotheses are met by `exLoop`, on which it ends, and by `cyc`, on which it does not. -/
example : (Wf exLoop ∧ (∀ l ∈ labels exLoop, ['l', 'b', 'l'] <:+: l.toList) ∧ ∃ fuel Q, optimize Fix.actual fuel exLoop = some Q) ∧
    (Wf cyc ∧ (∀ l ∈ labels cyc, ['l', 'b', 'l'] <:+: l.toList) ∧ ¬ ∃ fuel Q, optimize Fix.actual fuel cyc = some Q) := by
  refine ⟨⟨by decide +kernel, by decide +kernel, 6, exLoopOpt, ?_⟩, by decide +kernel, by decide +kernel, ?_⟩
  · simp only [optimize, optimizeF_sound exLoop_opt.1]; rfl
  · rintro ⟨fuel, Q, h⟩
    rw [C05_termination_refuted.2] at h; cases h

/-- In `cyc1`, the code of `cyc` before the second round, `lblA` leads to `lblB`, that to `lblC`, and that
to `lblA`. -/
example : Relation.TransGen (Leads cyc1) "lblA" "lblA" := by
  refine .head (b := "lblB") ⟨by decide, [], _, ⟨cyc1.take 7, rfl⟩, .inl ⟨_, rfl⟩⟩ ?_
  refine .head (b := "lblC") ⟨by decide, [], _, ⟨cyc1.take 13, rfl⟩, .inl ⟨_, rfl⟩⟩ ?_
  exact .single ⟨by decide, [], _, ⟨cyc1.take 19, rfl⟩, .inl ⟨_, rfl⟩⟩

end FB
