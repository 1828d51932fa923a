import Verif.Props.C21
import Verif.Props.C16
import Verif.Parse.Items

/-!
# C21 for whole programs

Every item of the code that the parser generates for any source text, with the shipped grammar, can be written, so
`C21_encoding` applies to the whole program.
-/

namespace FB.Out

open FB.Parse

/-- The items that the grammar emits can be written. -/
def writableB : DCode → Bool
  | .token t => symB (tokName t)
  | .byteSym s | .wordSym s => symB s
  | _ => true
where
  /-- Decides `IsSym`. -/
  symB (s : Str) : Bool := (match s with | [] => false | c :: _ => !isDigit 10 c) && s.all symC

theorem symB_spec {s : Str} (h : writableB.symB s = true) : IsSym s := by
  unfold writableB.symB at h
  cases s with
  | nil => simp at h
  | cons c t =>
    simp only [Bool.and_eq_true, Bool.not_eq_true', List.all_eq_true] at h
    exact ⟨⟨c, t, rfl, h.1⟩, h.2⟩

theorem writableB_spec {d : DCode} (h : writableB d = true) : Writable d.ck := by
  cases d <;> simp only [writableB, DCode.ck, Writable] at h ⊢ <;> first | exact symB_spec h | trivial

/-- All the items of a grammar satisfy a test. -/
def allItems (p : DCode → Bool) (ts : List Table) : Bool :=
  ts.all fun t => t.lines.all fun l => l.all fun
    | .emit ds | .emitRet ds => ds.all p
    | _ => true

theorem emits_of_all {p : DCode → Bool} {ts : List Table} (h : allItems p ts = true) :
    Emits (fun d => p d = true) (fun n => ts[n]?) := by
  intro t tab ht l hl c hc ds hds d hd
  have h1 := List.all_eq_true.mp h tab (List.mem_of_getElem? ht)
  have h2 := List.all_eq_true.mp (List.all_eq_true.mp h1 l hl) c hc
  rcases hds with rfl | rfl <;> exact List.all_eq_true.mp h2 d hd

theorem fp_writable : Emits (fun d => writableB d = true) AtariFp.grammar :=
  emits_of_all (ts := AtariFp.tables) (by decide +kernel)

/-- The conversion of floating point numbers gives bytes. -/
def FpBytes (env : Env) : Prop :=
  ∀ b d e x, env.fp b d e = some x → x.1 ≠ [] ∧ ∀ c ∈ x.1, c < 256

/-- All the characters that may appear in a symbol. -/
def Name (s : Str) : Prop := ∀ c ∈ s, symC c = true

theorem ident_name {n : Str} (h : Ident n) : IsSym n := by
  obtain ⟨⟨c, t, rfl, hc⟩, hs⟩ := h
  refine ⟨⟨c, t, rfl, ?_⟩, ?_⟩
  · have h : ∀ c : Fin 123, PS.identStartC c.1 = true → isDigit 10 c.1 = false := by decide +kernel
    refine h ⟨c, ?_⟩ hc
    unfold PS.identStartC at hc
    simp only [Bool.or_eq_true, Bool.and_eq_true, decide_eq_true_eq, beq_iff_eq] at hc
    omega
  · intro x hx
    have := hs x hx
    unfold PS.identC at this
    unfold symC
    simp only [Bool.or_eq_true, Bool.and_eq_true, decide_eq_true_eq, beq_iff_eq] at this ⊢
    omega

theorem prefix_sym {n : Str} (h : Name n) : IsSym (labelPrefix ++ n) := by
  refine ⟨⟨102, ofS "b_lbl_" ++ n, rfl, by decide⟩, ?_⟩
  intro c hc
  rcases List.mem_append.mp hc with hc | hc
  · have : ∀ c ∈ labelPrefix, symC c = true := by decide
    exact this c hc
  · exact h c hc

theorem decDigits_name (n : Nat) : Name (PS.decDigits n) := by
  intro c hc
  have := (decDigits_spec n).2.1 c hc
  have h := isDigit_facts this
  unfold symC
  simp only [Bool.or_eq_true, Bool.and_eq_true, decide_eq_true_eq, beq_iff_eq]
  omega

theorem jumpLabel_sym (n : Nat) : IsSym (PS.jumpLabel n) := by
  refine ⟨⟨106, _, rfl, by decide⟩, ?_⟩
  intro c hc
  rcases List.mem_append.mp hc with hc | hc
  · have : ∀ c ∈ [106, 117, 109, 112, 95, 108, 98, 108, 95], symC c = true := by decide
    exact this c hc
  · exact decDigits_name n c hc

theorem lblX_sym {l : Str} (h : IsSym l) : IsSym (lblX l) := by
  obtain ⟨⟨c, t, rfl, hc⟩, hs⟩ := h
  refine ⟨⟨c, t ++ [95, 120], rfl, hc⟩, ?_⟩
  intro x hx
  rcases List.mem_append.mp hx with hx | hx
  · exact hs x hx
  · have : ∀ c ∈ [95, 120], symC c = true := by decide
    exact this x hx

/-- The invariant of the parser. -/
structure WInv (s : PS) : Prop where
  items : ∀ c, InCode s c → Writable c.k
  str : ∀ c ∈ s.str, c < 256
  jumps : ∀ j ∈ s.jumps, IsSym j.label
  last : Name s.lastLabel

theorem WInv.move {env : Env} (hf : FpBytes env) {s s' : PS} (h : WInv s)
    (m : Move env (fun d => writableB d = true) s s') : WInv s' := by
  have hj : ∀ j ∈ s'.jumps, IsSym j.label := by
    intro j hj
    rcases m.jumps_mem hj with hj | hj
    · exact h.jumps j hj
    · rw [hj]; exact jumpLabel_sym _
  have hi : ∀ c, InCode s' c → Writable c.k := by
    intro c hc
    rcases m.items hc with hc | ⟨hn, -⟩
    · exact h.items c hc
    · generalize c.k = k at hn
      cases hn with
      | gram d hd => exact writableB_spec hd
      | plain k hp =>
        cases hp with
        | byte => trivial
        | word => trivial
        | str b hb => exact hb h.str
        | fp b d e x hx => exact hf _ _ _ _ hx
        | wordStr n hn => exact ident_name hn
        | byteStr n hn => exact ident_name hn
        | varn n v hv hn => exact (ident_name hn).2
        | ref n l hl ht hn => exact prefix_sym (ident_name hn).2
      | jump j k hjm hk =>
        have := hjm.elim (h.jumps j) (hj j)
        rcases hk with rfl | rfl | rfl | rfl
        · exact this
        · exact this
        · exact lblX_sym this
        · exact lblX_sym this
      | user k hk => rcases hk with rfl | rfl <;> exact prefix_sym h.last
      | newVar n hn hi hv => exact (ident_name hi).2
      | fill => exact symB_spec (by decide)
  refine ⟨hi, ?_, hj, ?_⟩
  · have : s'.str = s.str := by cases m <;> first | exact Same.str ‹_› | rfl | simp
    rw [this]; exact h.str
  · cases m with
    | same hs => rw [hs.lastLabel]; exact h.last
    | makeLabel _ hn => exact (ident_name hn).2
    | _ => simpa using h.last

theorem WInv.fmoves {env : Env} (hf : FpBytes env) {src : Str} (hb : ∀ c ∈ src, c < 256) {s s' : PS} (h : WInv s)
    (m : FMoves env (fun d => writableB d = true) src s s') : WInv s' := by
  induction m with
  | refl => exact h
  | tail _ m ih =>
    cases m with
    | move m => exact ih.move hf m
    | line l ln hl =>
      refine ⟨fun c hc => ih.items c ?_, fun c hc => hb c (hl c hc), ih.jumps, ih.last⟩
      rcases hc with hc | hc
      · exact .inl hc
      · simp [PS.newLine] at hc

/-- C21, the whole program: every item that the compiler generates for a source text (of bytes), with the shipped
grammar, is written as a line of assembly that assembles to the bytes of that item. -/
theorem C21_program (env : Env) (hf : FpBytes env) (src : Str) (hb : ∀ c ∈ src, c < 256) (s : PS)
    (h : compile (fpStart env) src = .ok s) (σ : Str → Nat) (c : CW) (hc : InCode s c) :
    assemble σ (toAsm c.k) = encode σ c.k := by
  obtain ⟨s0, hm, -, rfl⟩ := compile_moves fp_writable _ src s h
  have h0 : WInv initPS := by
    refine ⟨?_, by simp [initPS], by simp [initPS], by simp [initPS, Name]⟩
    rintro c (⟨k, code, hk, hc⟩ | hc)
    · simp [initPS] at hk
      rw [hk.2] at hc; simp at hc
    · simp [initPS] at hc
  have h1 := h0.fmoves hf hb hm
  apply C21_encoding
  rcases inCode_emit hc with rfl | hc
  · exact symB_spec (by decide)
  · exact h1.items c hc

/-- The main code of a program, to look at examples. -/
def mainCode : CRes → Option (List CK)
  | .ok s => some ((codeOf s []).reverse.map CW.k)
  | .err _ => none

/-- A program that meets the hypotheses: the code generated for `?"A"` and `X=1`. -/
example : FpBytes noEnv ∧ (∀ c ∈ ofS "?\"A\"\nX=1\n", c < 256) ∧
    mainCode (compile (fpStart noEnv) (ofS "?\"A\"\nX=1\n")) = some [.tok .CSTRING, .str [65], .tok .PRINT_STR,
      .tok .BYTE_PUT, .byte 155, .tok .ZERO, .tok .IOCHN, .tok .BYTE, .byte 1, .tok .VAR_STORE, .varn [88] 0,
      .tok .END] := by
  refine ⟨?_, by decide, by decide +kernel⟩
  intro b d e x h
  simp [noEnv] at h

end FB.Out
