import Verif.Out.Full
import Verif.Parse.Unique
import Verif.Parse.Params
import Verif.Props.C17

/-!
# C29: the final code has every procedure exactly once

`full_code` joins the code of the main program and of the procedures and data blocks. The main program comes first and ends with
the `END` that the compiler adds; then comes each block, exactly once and complete, in the order of their first lines.
-/

namespace FB.Parse

open Frame

theorem perm_map {α β : Type} {f : α → β} {bs cs : List β} (h : bs.Perm cs) :
    ∀ l : List α, cs = l.map f → ∃ l' : List α, l'.Perm l ∧ bs = l'.map f := by
  induction h with
  | nil => intro l hl; exact ⟨l, .refl _, hl⟩
  | cons x _ ih =>
    intro l hl
    cases l with
    | nil => cases hl
    | cons a l =>
      simp only [List.map_cons, List.cons.injEq] at hl
      obtain ⟨l', h1, h2⟩ := ih l hl.2
      exact ⟨a :: l', h1.cons a, by rw [hl.1, h2]; rfl⟩
  | swap x y t =>
    intro l hl
    cases l with
    | nil => cases hl
    | cons a l =>
      cases l with
      | nil => cases hl
      | cons b l =>
        simp only [List.map_cons, List.cons.injEq] at hl
        exact ⟨b :: a :: l, .swap _ _ _, by rw [hl.1, hl.2.1, hl.2.2]; rfl⟩
  | trans _ _ ih1 ih2 =>
    intro l hl
    obtain ⟨l1, h1, h2⟩ := ih2 l hl
    obtain ⟨l2, h3, h4⟩ := ih1 l1 h2
    exact ⟨l2, h3.trans h1, h4⟩

theorem lookup_of_mem {α : Type} {m : List (Str × α)} (h : (m.map Prod.fst).Nodup) {k : Str} {v : α} (hm : (k, v) ∈ m) :
    lookup k m = some v := by
  induction m with
  | nil => cases hm
  | cons p m ih =>
    obtain ⟨k', v'⟩ := p
    simp only [List.map_cons, List.nodup_cons] at h
    unfold lookup
    rcases List.mem_cons.mp hm with e | hm'
    · cases e; rw [if_pos rfl]
    · rw [if_neg, ih h.2 hm']
      rintro rfl
      exact h.1 (List.mem_map.mpr ⟨(_, v), hm', rfl⟩)

/-- The blocks after the main program, one for each key that has code. -/
theorem fullCode_keys {s : PS} (hk : KeysOk s) {out : List CW} (h : FullCode s out) :
    ∃ ks : List Str, ks.Nodup ∧ (∀ k, k ∈ ks ↔ k ≠ [] ∧ codeOf s k ≠ []) ∧
      ks.Pairwise (fun a b => firstLine (codeOf s a).reverse ≤ firstLine (codeOf s b).reverse) ∧
      out = terminated (codeOf s []).reverse ++ (ks.map fun k => (codeOf s k).reverse).flatten := by
  obtain ⟨bs, hp, hs⟩ := h
  have e : sprocs s = ((s.procs.filter fun p => p.1 ≠ [] ∧ p.2 ≠ []).map Prod.fst).map fun k => (codeOf s k).reverse := by
    unfold sprocs
    rw [List.map_map]
    refine List.map_congr_left fun p hp => ?_
    simp only [Function.comp, codeOf]
    rw [lookup_of_mem hk.nodup (k := p.1) (v := p.2) (List.mem_filter.mp hp).1]
    rfl
  obtain ⟨ks, h1, h2⟩ := perm_map hp _ e
  refine ⟨ks, ?_, ?_, ?_, ?_⟩
  · rw [h1.nodup_iff]
    exact (List.filter_sublist.map _).nodup hk.nodup
  · intro k
    rw [h1.mem_iff]
    simp only [List.mem_map, List.mem_filter]
    constructor
    · rintro ⟨⟨k, v⟩, ⟨hm, hc⟩, rfl⟩
      have hc : k ≠ [] ∧ v ≠ [] := by simpa using hc
      refine ⟨hc.1, ?_⟩
      unfold codeOf
      rw [lookup_of_mem hk.nodup hm]
      exact hc.2
    · rintro ⟨h1, h2⟩
      unfold codeOf at h2
      cases hl : lookup k s.procs with
      | none => rw [hl] at h2; exact absurd rfl h2
      | some v =>
        rw [hl] at h2
        exact ⟨(k, v), ⟨mem_of_lookup hl, by simpa using ⟨h1, h2⟩⟩, rfl⟩
  · rw [h2, List.pairwise_map] at hs
    exact hs
  · rw [h2]
    rfl

section
variable {env : Env} {src : Str}

theorem compileLines_procJ {start : PS → Res} (hst : ∀ s, ProcJ s → (start s).All ProcJ) (n : Nat) :
    ∀ (src : Str) (ln : Nat) (s s' : PS), ProcJ s → compileLines start n src ln s = .ok s' → ProcJ s' := by
  induction n with
  | zero => intro src ln s s' _ h; simp [compileLines] at h
  | succ n ih =>
    intro src ln s s' hj h
    unfold compileLines at h
    dsimp only at h
    split at h
    · cases h; exact hj
    · split at h
      · cases h
      · next s1 heq =>
        refine ih _ _ _ _ ?_ h
        unfold compileLine at heq
        exact loop_procJ hst _ _ (s.newLine _ ln) _ (hj.same rfl rfl) heq

/-- The last item of the main program is the `END` that the compiler adds. -/
theorem compile_main {s : PS} (h : compile (fpStart env) src = .ok s) :
    ∃ s0 : PS, s = s0.emit (.tok .END) ∧ s0.procStack = [] ∧ FMoves env anyItem src initPS s0 := by
  have h0 := h
  unfold compile at h
  split at h
  · cases h
  · next s0 hs0 =>
    split at h
    · next hl =>
      cases h
      obtain ⟨b, hb, hn⟩ : ∃ b, AtariFp.ann AtariFp.n_PARSE_START = some b ∧ b.need = [] := ⟨_, rfl, rfl⟩
      have hj : ProcJ s0 := compileLines_procJ (start := fpStart env) (fun s hj =>
        (table_sound env AtariFp.fpDisciplined _ _ b hb s [] s.code rfl (by rw [hn]; exact .nil) hj).2) _ _ _ _ _ (show ProcJ initPS from rfl) hs0
      have hjs : s0.jumps = [] := by simpa [loopsOk] using hl
      refine ⟨s0, rfl, ?_, ?_⟩
      · unfold ProcJ at hj
        rw [hjs] at hj
        exact hj.symm
      · exact compileLines_moves (fun s => parseTable_moves (fun _ _ _ _ _ _ _ _ _ _ _ => trivial) _ _ s) _ _ _ _ _
          (fun _ h => h) hs0
    · cases h

/-- C29. `body` is the code of the main program before the `END`; `ks` are the keys of all blocks that have code. -/
theorem C29_full_code {s : PS} (h : compile (fpStart env) src = .ok s) {out : List CW} (hf : FullCode s out) :
    ∃ (body : List CW) (ks : List Str),
      out = body ++ [(⟨.tok .END, s.linenum⟩ : CW)] ++ (ks.map fun k => (codeOf s k).reverse).flatten ∧
      codeOf s [] = (body ++ [(⟨.tok .END, s.linenum⟩ : CW)]).reverse ∧
      ks.Nodup ∧ (∀ k, k ∈ ks ↔ k ≠ [] ∧ codeOf s k ≠ []) ∧
      ks.Pairwise (fun a b => firstLine (codeOf s a).reverse ≤ firstLine (codeOf s b).reverse) := by
  obtain ⟨s0, rfl, hp, hm⟩ := compile_main h
  have hk : KeysOk (s0.emit (.tok .END)) := (hm.keys .init).emit _
  obtain ⟨ks, h1, h2, h3, h4⟩ := fullCode_keys hk hf
  have hc : codeOf (s0.emit (.tok .END)) [] = ⟨.tok .END, s0.linenum⟩ :: codeOf s0 [] := by
    have := emit_code s0 (.tok .END)
    rw [code_eq, code_eq, curProc_eq (s := s0) (by simp)] at this
    rwa [show s0.curProc = [] by unfold PS.curProc; rw [hp]; rfl] at this
  refine ⟨(codeOf s0 []).reverse, ks, ?_, ?_, h1, h2, h3⟩
  · rw [h4, hc]
    simp [terminated]
  · rw [hc]
    simp

theorem main_blocks (m : List (Str × List CW)) (h : (m.map Prod.fst).Nodup) :
    (((lookup [] m).getD []) ++ ((m.filter fun p => p.1 ≠ [] ∧ p.2 ≠ []).map Prod.snd).flatten).Perm (m.map Prod.snd).flatten := by
  induction m with
  | nil => exact .refl _
  | cons p m ih =>
    obtain ⟨k, v⟩ := p
    simp only [List.map_cons, List.nodup_cons] at h
    have ih := ih h.2
    unfold lookup
    by_cases hk : k = []
    · subst hk
      have hl : lookup [] m = none := by
        cases hl : lookup [] m with
        | none => rfl
        | some v => exact absurd (List.mem_map.mpr ⟨_, mem_of_lookup hl, rfl⟩) h.1
      rw [hl] at ih
      simpa using ih.append_left v
    · rw [if_neg (Ne.symm hk)]
      by_cases hv : v = []
      · subst hv
        simpa [hk] using ih
      · simp only [ne_eq, hk, not_false_eq_true, hv, and_self, decide_true, List.filter_cons_of_pos, List.map_cons,
          List.flatten_cons]
        refine .trans ?_ (ih.append_left v)
        rw [← List.append_assoc, ← List.append_assoc]
        exact List.perm_append_comm.append_right _

theorem flatten_perm {α : Type} {a b : List (List α)} (h : a.Perm b) : a.flatten.Perm b.flatten := by
  induction h with
  | nil => exact .refl _
  | cons x _ ih => exact ih.append_left x
  | swap x y t =>
    simp only [List.flatten_cons, ← List.append_assoc]
    exact List.perm_append_comm.append_right _
  | trans _ _ h1 h2 => exact h1.trans h2

theorem flatten_reverse_perm {α : Type} (a : List (Str × List α)) :
    (a.map fun p => p.2.reverse).flatten.Perm (a.map Prod.snd).flatten := by
  induction a with
  | nil => exact .refl _
  | cons x a ih => exact (List.reverse_perm _).append ih

/-- The final code has the same items as all the blocks together: nothing is lost or repeated. -/
theorem C29_items {s : PS} (h : compile (fpStart env) src = .ok s) {out : List CW} (hf : FullCode s out) :
    out.Perm (s.procs.map Prod.snd).flatten := by
  obtain ⟨s0, hs, hp, hm⟩ := compile_main h
  have hk : KeysOk s := by rw [hs]; exact (hm.keys .init).emit _
  obtain ⟨body, ks, -, hc, -⟩ := C29_full_code h hf
  obtain ⟨bs, h1, h2⟩ := hf
  have ht : terminated (mainOf s) = (codeOf s []).reverse := by
    unfold mainOf
    show terminated (codeOf s []).reverse = _
    rw [hc]
    simp [terminated]
  rw [ht]
  refine .trans ?_ (main_blocks s.procs hk.nodup)
  exact (List.reverse_perm _).append (.trans (flatten_perm h1) (flatten_reverse_perm _))

end

/-- The blocks of an accepted program. -/
def blocks : CRes → Option (List (Str × List CW))
  | .ok s => some (s.procs.map fun p => (p.1, p.2.reverse))
  | .err _ => none

theorem blocks_procs {r : CRes} {m : List (Str × List CW)} (h : blocks r = some m) :
    ∃ s, r = .ok s ∧ s.procs = m.map fun p => (p.1, p.2.reverse) := by
  cases r with
  | err e => cases h
  | ok s =>
    refine ⟨s, rfl, ?_⟩
    have e : ∀ l : List (Str × List CW), (l.map fun p => (p.1, p.2.reverse)).map (fun p => (p.1, p.2.reverse)) = l := by
      intro l
      induction l with
      | nil => rfl
      | cons x l ih => rw [List.map_cons, List.map_cons, ih]; simp
    rw [← Option.some.inj h, e]

theorem fullCode_two {s : PS} {k1 k2 : Str} {m a b : List CW} (hp : s.procs = [([], m.reverse), (k1, a.reverse), (k2, b.reverse)])
    (h1 : k1 ≠ []) (h2 : k2 ≠ []) (ha : a ≠ []) (hb : b ≠ []) (hab : firstLine a ≤ firstLine b) (hm : terminated m = m) :
    FullCode s (m ++ a ++ b) := by
  have := FullCode.mk (s := s) [a, b] (by unfold sprocs; rw [hp]; simp [h1, h2, ha, hb])
    (by simpa using hab)
  unfold mainOf at this
  rw [hp] at this
  simpa [lookup, hm] using this

/-- A procedure, an assignment, and an array with data. The `DATA` inside of the main program goes after it, and so does the
procedure at the start. -/
example : ∃ s, compile (fpStart noEnv) (ofS "PROC B\nENDPROC\nX=1\nDATA A()=1,2\n") = .ok s ∧
    FullCode s ([⟨.tok .BYTE, 3⟩, ⟨.byte 1, 3⟩, ⟨.tok .VAR_STORE, 3⟩, ⟨.varn [88] 0, 3⟩, ⟨.tok .END, 4⟩] ++
      [⟨.label (ofS "fb_lbl_B"), 1⟩, ⟨.label (ofS "jump_lbl_2_x"), 2⟩, ⟨.tok .RET, 2⟩] ++
      [⟨.label (ofS "fb_lbl_A"), 4⟩, ⟨.word 1, 4⟩, ⟨.word 2, 4⟩]) := by
  have h : blocks (compile (fpStart noEnv) (ofS "PROC B\nENDPROC\nX=1\nDATA A()=1,2\n")) =
      some [([], [⟨.tok .BYTE, 3⟩, ⟨.byte 1, 3⟩, ⟨.tok .VAR_STORE, 3⟩, ⟨.varn [88] 0, 3⟩, ⟨.tok .END, 4⟩]),
        (ofS "jump_lbl_1", [⟨.label (ofS "fb_lbl_B"), 1⟩, ⟨.label (ofS "jump_lbl_2_x"), 2⟩, ⟨.tok .RET, 2⟩]),
        (ofS "jump_lbl_3", [⟨.label (ofS "fb_lbl_A"), 4⟩, ⟨.word 1, 4⟩, ⟨.word 2, 4⟩])] := by decide +kernel
  obtain ⟨s, hs, hp⟩ := blocks_procs h
  exact ⟨s, hs, fullCode_two hp (by decide +kernel) (by decide +kernel) (by simp) (by simp) (by decide) (by decide +kernel)⟩

end FB.Parse
