import Verif.Props.C22
import Verif.Props.C29

/-!
# C23: jumps of control structures have one target

Claim: each label used by a jump of a loop, `IF`, `EXIT` or `PROC` is defined exactly once in the final code.

"At most once" is true of all the accepted programs (`C23_at_most_once_partial`), and two structures never get the same label
(`C23_fresh`). "At least once" is false, for the reason given in C22 (`C23_undefined_refuted`): the assembler rejects the output of
such a program, or, when the native compiler is used, there is no target at all. -/

namespace FB.Parse

open Frame

/-- The labels of structures: `jump_lbl_n`, and `jump_lbl_n_x` for the end of a loop. -/
def StructLabel (l : Str) : Prop := ∃ n, l = PS.jumpLabel n ∨ l = PS.jumpLabel n ++ [95, 120]

/-- Places where a label is defined in a list of code. -/
def defines (l : Str) (code : List CW) : Nat := code.countP fun c => c.k = .label l

/-- Places where a label is used as an operand in a list of code. -/
def uses (l : Str) (code : List CW) : Nat := code.countP fun c => c.k = .wordStr l

/-- A label of a structure is defined at most once in the final code. Missing for the full claim: that it is defined if it is
used; this is false. -/
theorem C23_at_most_once_partial {env : Env} {src : Str} {s : PS} (h : compile (fpStart env) src = .ok s) {out : List CW}
    (hf : FullCode s out) {l : Str} (hl : StructLabel l) : defines l out ≤ 1 := by
  obtain ⟨n, hn⟩ := hl
  obtain ⟨s0, hs, hp, hm⟩ := compile_main h
  have h1 : codeLab s0 l ≤ 1 := hm.codeLab (n := n) hn
  have h2 : codeLab s l = codeLab s0 l := by
    rw [hs, codeLab_emit]
    simp
  have h3 : defines l out = (s.procs.map fun p => nlab l p.2).sum := by
    unfold defines
    rw [(C29_items h hf).countP_eq, List.countP_flatten, List.map_map]
    rfl
  have : defines l out ≤ codeLab s l := by
    rw [h3]; exact Nat.le_add_right _ _
  omega

/-- A new label was never used before: it is not defined anywhere in the code, and no open structure will define it. -/
theorem C23_fresh {env : Env} {src : Str} {x : PS} (hx : FMoves env anyItem src initPS x) (t : LT) {l : Str}
    (hl : l = (x.pushLoop t).1 ∨ l = (x.pushLoop t).1 ++ [95, 120]) :
    (∀ p ∈ x.procs, defines l p.2 = 0) ∧ ∀ j ∈ x.jumps, l ∉ pend j := by
  rw [pushLoop_fst] at hl
  have h1 := hx.defs.2 (x.labelNum + 1) l hl
  rw [if_neg (by omega)] at h1
  have h2 : defs initPS l = 0 := rfl
  have h3 : codeLab x l = 0 ∧ pendLab x.jumps l = 0 := by unfold defs at h1 h2; omega
  constructor
  · intro p hp
    have h4 : (x.procs.map fun p => nlab l p.2).sum = 0 := by unfold codeLab at h3; omega
    have h5 : ∀ ps : List (Str × List CW), (ps.map fun p => nlab l p.2).sum = 0 → ∀ p ∈ ps, nlab l p.2 = 0 := by
      intro ps
      induction ps with
      | nil => intro _ p hp; cases hp
      | cons q ps ih =>
        intro h p hp
        rw [List.map_cons, List.sum_cons] at h
        rcases List.mem_cons.mp hp with rfl | hp
        · omega
        · exact ih (by omega) p hp
    exact h5 _ h4 p hp
  · intro j hj hm
    have := List.count_eq_zero.mp h3.2
    exact this (List.mem_flatten.mpr ⟨_, List.mem_map.mpr ⟨j, hj, rfl⟩, hm⟩)

theorem fullCode_one {s : PS} {m : List CW} (hp : s.procs = [([], m.reverse)]) (hm : terminated m = m) : FullCode s m := by
  have := FullCode.mk (s := s) [] (by unfold sprocs; rw [hp]; simp) .nil
  unfold mainOf at this
  rw [hp] at this
  simpa [lookup, hm] using this

/-- The hypotheses are met, and the label is defined: the end of a `DO` loop. -/
example : ∃ s out, compile (fpStart noEnv) (ofS "DO\nEXIT\nLOOP\n") = .ok s ∧ FullCode s out ∧
    uses (ofS "jump_lbl_1_x") out = 1 ∧ defines (ofS "jump_lbl_1_x") out = 1 := by
  have h : blocks (compile (fpStart noEnv) (ofS "DO\nEXIT\nLOOP\n")) =
      some [([], [⟨.label (ofS "jump_lbl_1"), 1⟩, ⟨.tok .JUMP, 2⟩, ⟨.wordStr (ofS "jump_lbl_1_x"), 2⟩, ⟨.tok .JUMP, 3⟩,
        ⟨.wordStr (ofS "jump_lbl_1"), 3⟩, ⟨.label (ofS "jump_lbl_1_x"), 3⟩, ⟨.tok .END, 3⟩])] := by decide +kernel
  obtain ⟨s, hs, hp⟩ := blocks_procs h
  exact ⟨s, _, hs, fullCode_one hp (by decide +kernel), by decide +kernel, by decide +kernel⟩

example : StructLabel (ofS "jump_lbl_1_x") := ⟨1, .inr (by decide +kernel)⟩

/-- The claim is false for this program: it is accepted, and its final code has a jump to a label that is not defined. -/
theorem C23_undefined_refuted : ∃ s out l, compile (fpStart noEnv) (ofS "A=1\nIF A\nELIF=3\nIF A\nENDIF\n") = .ok s ∧
    FullCode s out ∧ StructLabel l ∧ uses l out = 1 ∧ defines l out = 0 := by
  have h : blocks (compile (fpStart noEnv) (ofS "A=1\nIF A\nELIF=3\nIF A\nENDIF\n")) =
      some [([], [⟨.tok .BYTE, 1⟩, ⟨.byte 1, 1⟩, ⟨.tok .VAR_STORE, 1⟩, ⟨.varn [65] 0, 1⟩,
        ⟨.tok .VAR_LOAD, 2⟩, ⟨.varn [65] 0, 2⟩, ⟨.tok .COMP_0, 2⟩, ⟨.tok .CJUMP, 2⟩, ⟨.wordStr (ofS "jump_lbl_1"), 2⟩,
        ⟨.tok .BYTE, 3⟩, ⟨.byte 3, 3⟩, ⟨.tok .VAR_STORE, 3⟩, ⟨.varn (ofS "ELIF") 1, 3⟩,
        ⟨.tok .VAR_LOAD, 4⟩, ⟨.varn [65] 0, 4⟩, ⟨.tok .COMP_0, 4⟩, ⟨.tok .CJUMP, 4⟩, ⟨.wordStr (ofS "jump_lbl_3"), 4⟩,
        ⟨.label (ofS "jump_lbl_3"), 5⟩, ⟨.label (ofS "jump_lbl_2"), 5⟩, ⟨.tok .END, 5⟩])] := by decide +kernel
  obtain ⟨s, hs, hp⟩ := blocks_procs h
  exact ⟨s, _, ofS "jump_lbl_1", hs, fullCode_one hp (by decide +kernel), ⟨1, .inl (by decide +kernel)⟩, by decide +kernel,
    by decide +kernel⟩

end FB.Parse
