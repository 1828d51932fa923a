import Verif.Native.Joint
import Verif.Props.C23

/-!
# C25: the native compiler and the cross compiler resolve jumps to the same places

The native compiler writes addresses in the code, and completes them later (`patch_codep`); the cross compiler writes names of labels, that the assembler resolves.
Both are run side by side (`J.Step`) over the same codes emitted and the same actions. When the native compiler accepts the program, its code is the code of the cross compiler laid out
in memory, with each name replaced by the address where the cross compiler defines that name (`Resolved`).

The native compiler writes a procedure (or `DATA`) where it is, with a jump over it; the cross compiler writes it apart. `Resolved` says that the codes of each procedure follow one another with
only such jumps between them.

What is missing for the full claim: the parser may abandon only codes emitted after the last action (`J.Step.back`). With both compilers it can abandon a text after an action has opened
a structure, and the claim is then false (`C25_abandoned_refuted`). The grammars of the native compiler are not modelled: what the grammar does before each action is in `guard`.
-/

namespace FB

open FB.Parse FB.Native

/-- There is at `a` a jump to `b`, in code that will run at `reloc` bytes from where it is written. -/
def SkipAt (E : Enc) (reloc : Nat) (m : Nat → Nat) (a b : Nat) : Prop :=
  bytesAt m a (E.enc (.tok .JUMP)) ∧ word m (a + 1) = (b + reloc) % 65536

/-- Memory `m`, from address `base` to `cp`, has the code `C` of the cross compiler (the codes of each procedure, last one first), with labels resolved:
each code has an address; the codes that are not references have their bytes at that address; the references to labels have the address of the one label with that name;
the codes of each procedure follow one another; the main program starts at `base` and ends at `cp`. -/
def Resolved (E : Enc) (reloc base : Nat) (m : Nat → Nat) (cp : Nat) (C : Str → List CW) : Prop :=
  ∃ lay : Str → List (CW × Nat),
    (∀ q, (lay q).map Prod.fst = C q) ∧
    (∀ q c a, (c, a) ∈ lay q → base ≤ a ∧ a + csize E c.k ≤ cp) ∧
    (∀ q c a, (c, a) ∈ lay q → plain c.k → bytesAt m a (E.enc c.k)) ∧
    (∀ q c a l, (c, a) ∈ lay q → c.k = .wordStr l → IsJump l →
      ∃ p, word m a = (p + reloc) % 65536 ∧ (∃ q' c', (c', p) ∈ lay q' ∧ c'.k = .label l) ∧
        ∀ q' c' p', (c', p') ∈ lay q' → c'.k = .label l → p' = p) ∧
    Chain (csize E) (SkipAt E reloc m) base (lay []) cp ∧
    ∀ q, ∃ b e, Chain (csize E) (SkipAt E reloc m) b (lay q) e

/-- If the native compiler accepts the program, no structure is open in the cross compiler and the code of the native compiler is the one of the cross compiler with labels
resolved. -/
theorem C25_partial (E : Enc) (reloc base : Nat) (env : Env) (m : Nat → Nat) (j : J) (h : J.Steps E reloc env (J.init m base) j)
    (ha : j.ns.accepts) (hn : j.ns.names.length ≤ 256) :
    j.ps.jumps = [] ∧ Resolved E reloc base j.ns.mem j.ns.cp (codeOf j.ps) := by
  obtain ⟨T, K, Fs, h1, h2, h3, -⟩ := h.inv hn
  have hF : Fs = [] := by
    have := h2.es
    rw [ha.1] at this
    cases Fs with
    | nil => rfl
    | cons F Fs => rw [List.flatMap_cons] at this; cases F <;> cases this
  subst hF
  have hp : ∀ l a, ¬ pending [] j.ns l a := by
    rintro l a (⟨F, hF, _⟩ | ⟨e, he, h0, _⟩)
    · cases hF
    · exact ha.2 e he h0
  have hK : ∀ a b, K a b → SkipAt E reloc j.ns.mem a b := fun a b k => ⟨h1.jumps a (h1.closed a b k).1, (h1.closed a b k).2⟩
  refine ⟨h2.js, fun q => layOf E base q T, fun q => (h1.code q).symm, ?_, ?_, ?_, ?_, ?_⟩
  · intro q c a hc
    have := (layOf_at.1 hc).range
    rw [h1.cp_eq]; exact this
  · exact fun q c a hc => h1.bytes q c a (layOf_at.1 hc)
  · intro q c a l hc hk hj
    rcases h1.refs l a ⟨q, c, layOf_at.1 hc, hk, hj⟩ with g | ⟨p, hd, hw⟩
    · exact absurd g (hp l a)
    · refine ⟨p, hw, ?_, fun q' c' p' hc' hk' => h1.uniq l p' p ⟨q', c', layOf_at.1 hc', hk'⟩ hd⟩
      obtain ⟨q', c', hc', hk'⟩ := hd
      exact ⟨q', c', layOf_at.2 hc', hk'⟩
  · obtain ⟨ends, ho, hc, -⟩ := h1.chain
    have := hc.mono hK
    rwa [show ends [] = j.ns.cp from ho] at this
  · intro q
    obtain ⟨ends, -, -, hc⟩ := h1.chain
    obtain ⟨b, hb⟩ := hc q
    exact ⟨b, _, hb.mono hK⟩

section Example

/-- An encoding: some tokens, the types of loops as `actions.asm` numbers them, other codes without bytes. -/
def enc0 : CK → List Nat
  | .tok .JUMP => [1] | .tok .CJUMP => [2] | .tok .CALL => [3] | .tok .RET => [4] | .tok _ => [9]
  | .byteStr l => [(([LT.PROC_DATA, .EXIT, .LAST_JUMP, .PROC_2, .DO_LOOP, .REPEAT, .WHILE_1, .FOR_1, .WHILE_2, .FOR_2, .IF, .ELSE, .ELIF].find?
      fun t => t.name = l).map ltNum).getD 0]
  | _ => []

/-- The encoding of the example. -/
def encEx : Enc := ⟨enc0, by intro t; cases t <;> decide +kernel, by intro t; cases t <;> rfl, fun _ => rfl⟩

/-- Commands of the example. -/
inductive Cmd
  | text (t : String)
  | tok (t : Tok)
  | lt (t : LT)
  | act (a : Act)

/-- `guard`, for the actions of the example. -/
def guardB (s : PS) (f : Nat) : Act → Bool
  | .PUSH_LT => match s.code with
    | ⟨.byteStr l, _⟩ :: _ => decide (1 ≤ f) && [LT.DO_LOOP, .REPEAT, .WHILE_1, .WHILE_2, .IF, .PROC_2].any fun t => t.name = l
    | _ => false
  | .LABEL_DEF => match s.code with
    | ⟨.tok .JUMP, _⟩ :: _ => decide (1 ≤ f) && !s.lastLabel.isEmpty
    | _ => false
  | .DO_EXEC => !s.lastLabel.isEmpty
  | .ELSEIF => false
  | .POP_FOR => false
  | .LABEL => false
  | _ => true

theorem guardB_ok {s : PS} {f : Nat} {a : Act} (h : guardB s f a = true) : Native.guard encEx s f a := by
  have ne : ∀ l : Str, (!l.isEmpty) = true → l ≠ [] := by rintro l h rfl; cases h
  cases a
  case PUSH_LT =>
    unfold guardB at h
    dsimp only at h
    split at h
    · next l ln cs hc =>
      rw [Bool.and_eq_true, decide_eq_true_eq, List.any_eq_true] at h
      obtain ⟨hf, t, ht, e⟩ := h
      rw [decide_eq_true_eq] at e
      subst e
      exact ⟨t, ht, ln, cs, hc, hf⟩
    · cases h
  case LABEL_DEF =>
    unfold guardB at h
    dsimp only at h
    split at h
    · next ln cs hc =>
      rw [Bool.and_eq_true, decide_eq_true_eq] at h
      exact ⟨ln, cs, hc, h.1, ne _ h.2⟩
    · cases h
  case DO_EXEC => exact ne _ h
  case ELSEIF => cases h
  case POP_FOR => cases h
  case LABEL => cases h
  all_goals trivial

/-- One command, in both compilers. -/
def cmd (env : Env) (c : Cmd) (j : J) : Option J :=
  match c with
  | .text t => some ⟨{ j.ps with str := ofS t, pos := 0 }, j.ns, j.fresh⟩
  | .tok t => some ⟨j.ps.emit (.tok t), j.ns.emitB (enc0 (.tok t)), j.fresh + 1⟩
  | .lt t => some ⟨j.ps.emit (.byteStr t.name), j.ns.emitB (enc0 (.byteStr t.name)), j.fresh + 1⟩
  | .act a => if guardB j.ps j.fresh a then
      match action env a j.ps, j.ns.action 0 j.ps.getIdent.1 a with
      | .ok s, some n => some ⟨s, n, 0⟩
      | _, _ => none
    else none

/-- A list of commands. -/
def cmds (env : Env) : List Cmd → J → Option J
  | [], j => some j
  | c :: cs, j => (cmd env c j).bind (cmds env cs)

theorem cmd_step {env : Env} {c : Cmd} {j k : J} (h : cmd env c j = some k) : J.Step encEx 0 env j k := by
  cases c with
  | text t => cases h; exact .other rfl rfl rfl rfl rfl
  | tok t => cases h; exact .emit (E := encEx) (.tok t) trivial
  | lt t => cases h; exact .emit (E := encEx) (.byteStr t.name) trivial
  | act a =>
    unfold cmd at h
    dsimp only at h
    split at h
    · next hg =>
      split at h
      · next hs hn => cases h; exact .act a (guardB_ok hg) hs hn
      · cases h
    · cases h

theorem cmds_steps {env : Env} : ∀ {cs : List Cmd} {i j k : J}, J.Steps encEx 0 env i j → cmds env cs j = some k → J.Steps encEx 0 env i k
  | [], i, j, k, h, e => by cases e; exact h
  | c :: cs, i, j, k, h, e => by
    unfold cmds at e
    cases hc : cmd env c j with
    | none => rw [hc] at e; cases e
    | some l => rw [hc] at e; exact cmds_steps (h.tail (cmd_step hc)) e

/-- `EXEC A`, `PROC A`, `DO`, `IF` .. `EXIT`, `ENDIF`, `LOOP`, `ENDPROC`: a call before the definition, a procedure in the middle of the main program, and an exit out of a loop
from inside another structure. -/
def exCmds : List Cmd :=
  [.text "A", .act .LABEL_CREATE, .tok .CALL, .act .DO_EXEC,
   .text "A", .act .LABEL_CREATE, .tok .JUMP, .act .LABEL_DEF, .lt .PROC_2, .act .PUSH_LT,
   .lt .DO_LOOP, .act .PUSH_LT,
   .tok .CJUMP, .lt .IF, .act .PUSH_LT, .tok .JUMP, .act .EXIT_LOOP, .act .POP_IF,
   .tok .JUMP, .act .POP_LOOP,
   .act .POP_PROC_2, .tok .RET, .act .POP_PROC_DATA, .tok .END]

/-- The end of the example. -/
def exEnd : Option J := cmds noEnv exCmds (J.init (fun _ => 0) 1000)

/-- The hypotheses of `C25_partial` are met, and the native code is the one expected: call to 1006; jump to 1016; conditional jump to 1012, jump to 1015, jump to 1006, return. -/
example : ∃ j, J.Steps encEx 0 noEnv (J.init (fun _ => 0) 1000) j ∧ j.ns.accepts ∧ j.ns.names.length ≤ 256 ∧
    (List.range 17).map (fun i => j.ns.mem (1000 + i)) =
      [3, 238, 3,  1, 248, 3,  2, 244, 3,  1, 247, 3,  1, 238, 3,  4,  9] := by
  have h : (exEnd.any fun j => decide (j.ns.loops = [] ∧ (∀ e ∈ j.ns.lab, e.st ≠ 0) ∧ j.ns.names.length ≤ 256 ∧
      (List.range 17).map (fun i => j.ns.mem (1000 + i)) = [3, 238, 3,  1, 248, 3,  2, 244, 3,  1, 247, 3,  1, 238, 3,  4,  9])) = true := by
    decide +kernel
  cases hj : exEnd with
  | none => rw [hj] at h; cases h
  | some j =>
    rw [hj, Option.any_some, decide_eq_true_eq] at h
    exact ⟨j, cmds_steps .refl hj, ⟨h.1, h.2.1⟩, h.2.2⟩

end Example

/-- The native compiler, with the program of `C25_abandoned_refuted`: line 1; line 2 read as `IF A`, that opens the structure and fails at the `$`; line 2 again from its start
(`opos` is restored, `loop_sp` is not); line 3. The bytes of the tokens are 200 and more, variable `A` is number 0 and `IFA$` number 1. -/
def abandoned : Option NS :=
  let n : NS := NS.emitB { mem := fun _ => 0, cp := 1000 } [200, 1, 201, 0]
  match (n.emitB [202, 0, 203, 204, ltNum .IF]).ePushLT with
  | none => none
  | some n' => NS.ePopIf 0 (NS.emitB { n' with cp := n.cp } [205, 1, 206, 2, 88, 88, 207])

/-- The claim is false of a program that is first read in another way: with `A=1`, `IFA$="XX"`, `ENDIF` both compilers accept, the cross compiler defines a label that nothing uses,
and the native compiler writes its address over the text `XX` (at 1008). -/
theorem C25_abandoned_refuted :
    blocks (compile (fpStart noEnv) (ofS "A=1\nIFA$=\"XX\"\nENDIF\n")) =
      some [([], [⟨.tok .BYTE, 1⟩, ⟨.byte 1, 1⟩, ⟨.tok .VAR_STORE, 1⟩, ⟨.varn (ofS "A") 0, 1⟩,
        ⟨.tok .VAR_SADDR, 2⟩, ⟨.varn (ofS "IFA") 1, 2⟩, ⟨.tok .CSTRING, 2⟩, ⟨.str (ofS "XX"), 2⟩, ⟨.tok (.other "COPY_STR"), 2⟩,
        ⟨.label (ofS "jump_lbl_1"), 3⟩, ⟨.tok .END, 3⟩])] ∧
    ∃ n, abandoned = some n ∧ n.accepts ∧ (List.range 11).map (fun i => n.mem (1000 + i)) = [200, 1, 201, 0, 205, 1, 206, 2, 243, 3, 207] := by
  refine ⟨by decide +kernel, ?_⟩
  have h : (abandoned.any fun n => decide (n.loops = [] ∧ (∀ e ∈ n.lab, e.st ≠ 0) ∧
      (List.range 11).map (fun i => n.mem (1000 + i)) = [200, 1, 201, 0, 205, 1, 206, 2, 243, 3, 207])) = true := by decide +kernel
  cases hj : abandoned with
  | none => rw [hj] at h; cases h
  | some j =>
    rw [hj, Option.any_some, decide_eq_true_eq] at h
    exact ⟨j, rfl, ⟨h.1, h.2.1⟩, h.2.2⟩

end FB
