import Verif.Syn.Clean
import Verif.Parse.GrammarFp
import Verif.Parse.Grammar5200
import Verif.Parse.Actions

/-!
# C33: optimizing the grammar tables does not change what is parsed

`syntax_optimize` is called by the program that writes the tables of the native compiler with `merge = true` (`syntp.cc:171`) and by the cross compiler
when it reads a target with `merge = false` (`target.cc:156`).

The claim is proved for every list of tables (with different names, as in a `std::map`), for every text, every initial state and whatever the actions do:
* merging tables leaves every result of every table unchanged (`C33_merge`);
* joining emits leaves it unchanged too, in the cross compiler with all the messages and limits (`C33_cross`);
* the deletion of empty tables leaves it unchanged (`C33_clean`) if a table without lines is read as one that always succeeds and if the calls are in places where
  the blanks not skipped now are skipped by what follows (`safeLoop`, a check on the tables).

Both conditions are necessary: `C33_missing_refuted`, `C33_blanks_refuted`. The tables of the target `atari-5200` have an empty table without lines, and they
pass the check.
-/

namespace FB

open FB.Parse (Str Act DCode PCode Table PS Res)
open FB.Syn

section
variable {X ρ : Type}

/-- The interpreter gives one result. -/
theorem C33_unique (C : Conf X ρ) (sl : SMs) (t : Nat) (s : St X ρ) (r r' : Out X ρ) (h : Parses C sl t s r) (h' : Parses C sl t s r') : r = r' := by
  obtain ⟨m, e⟩ := h
  obtain ⟨m', e'⟩ := h'
  rcases Nat.le_total m m' with hm | hm
  · have := table_le sl hm _ _ _ e; rw [e'] at this; injection this with this; exact this.symm
  · have := table_le sl hm _ _ _ e'; rw [e] at this; injection this with this

/-- Merging tables does not change the result of any table that remains, and the table at which parsing starts remains. When `syntax_merge` returns with an error
the tables are changed too (`syntp` ignores the result) and the claim is the same. -/
theorem C33_merge (start : Nat) (sl sl' : SMs) (ok : Bool) (hd : (sl.map SM.name).Nodup) (h : syntaxMerge start sl = some (ok, sl')) :
    (∀ (C : Conf X ρ) (t : Nat), t ∈ sl'.map SM.name → ∀ s r, Parses C sl' t s r ↔ Parses C sl t s r) ∧ (start ∈ sl.map SM.name → start ∈ sl'.map SM.name) := by
  rw [syntaxMerge] at h
  have hk := mergeLoop_kept (start := start) hd (sl.map SM.name) sl [] ⟨fun C t s r => Iff.rfl, rfl, nofun, nofun⟩
  cases hq : mergeLoop start (sl.map SM.name) sl [] with
  | undefined => rw [hq] at h; exact absurd h nofun
  | error x =>
    rw [hq] at h hk
    injection h with h
    injection h with _ h
    rw [← h]
    exact ⟨fun C t _ s r => hk.1 C t s r, fun hs => by rw [hk.2]; exact hs⟩
  | done x del =>
    rw [hq] at h hk
    injection h with h
    injection h with _ h
    rw [← h]
    refine ⟨fun C t ht s r => ?_, fun hs => ?_⟩
    · have htd : t ∉ del := by
        rw [List.mem_map] at ht
        obtain ⟨y, hy, e⟩ := ht
        rw [erase, List.mem_filter] at hy
        rw [← e]
        have := hy.2
        simpa using this
      exact (erase_parses hk.2.2.2 htd s r).trans (hk.1 C t s r)
    · rw [← hk.2.1, List.mem_map] at hs
      obtain ⟨y, hy, e⟩ := hs
      rw [List.mem_map]
      refine ⟨y, ?_, e⟩
      rw [erase, List.mem_filter]
      refine ⟨hy, ?_⟩
      have := hk.2.2.1
      rw [← e] at this
      simpa using this

/-- The names of the tables that remain after the deletion of the empty tables. -/
theorem clean_names {sl : SMs} {t : Nat} (h : t ∈ (syntaxClean sl).map SM.name) : t ∉ (emptyLoop (sl.map SM.name) sl []).2 := by
  rw [syntaxClean, List.map_map, List.mem_map] at h
  obtain ⟨y, hy, e⟩ := h
  rw [erase, List.mem_filter] at hy
  have : y.name = t := e
  rw [← this]
  simpa using hy.2

/-- Deleting the empty tables and joining the emits does not change the result of a table `t` that remains, if it is not in the set `F` of tables that can end
before some blanks; the tables of `F` have the same results but for those blanks. `K` are the actions that start by skipping blanks. -/
theorem C33_clean (C : Conf X ρ) (F : Nat → Bool) (K : Act → Bool) (sl : SMs) (hd : (sl.map SM.name).Nodup) (hK : ∀ a, K a = true → ∀ s, C.act a s = C.act a (C.skip s))
    (hs : safeLoop F K (sl.map SM.name) sl = true) (t : Nat) (ht : t ∈ (syntaxClean sl).map SM.name) :
    Agrees C F (sl.map fill) (syntaxClean sl) t ∧ (F t = false → ∀ s r, Parses C (syntaxClean sl) t s r ↔ Parses C (sl.map fill) t s r) := by
  have h := clean_agrees hd hK hs (clean_names ht)
  exact ⟨h, fun hF s r => h.exact hF s r⟩

theorem safeLoop_none (F : Nat → Bool) (K : Act → Bool) (sl : SMs) (h : ∀ s ∈ sl, isEmpty s = false) (ns : List Nat) : safeLoop F K ns sl = true := by
  induction ns with
  | nil => rfl
  | cons n ns ih =>
    rw [safeLoop]
    split
    · rename_i s hs
      rw [h s (get_mem hs)]
      exact ih
    · exact ih

theorem fill_none (sl : SMs) (h : ∀ s ∈ sl, isEmpty s = false) : sl.map fill = sl := by
  rw [List.map_congr_left (g := id), List.map_id]
  intro s hs
  rw [fill, if_neg]
  · rfl
  · intro e
    have := h s hs
    rw [isEmpty, e] at this
    exact absurd this nofun

/-- The whole of `syntax_optimize` does not change what is parsed if no table is empty. -/
theorem C33_optimize (C : Conf X ρ) (start : Nat) (merge ok : Bool) (sl sl' : SMs) (hd : (sl.map SM.name).Nodup)
    (he : ∀ x, (merge = false ∧ x = sl) ∨ (merge = true ∧ syntaxMerge start sl = some (true, x)) → ∀ s ∈ x, isEmpty s = false)
    (h : syntaxOptimize start merge sl = some (ok, sl')) (t : Nat) (ht : t ∈ sl'.map SM.name) (s : St X ρ) (r : Out X ρ) :
    Parses C sl' t s r ↔ Parses C sl t s r := by
  have hclean : ∀ x : SMs, (x.map SM.name).Nodup → (∀ s ∈ x, isEmpty s = false) → t ∈ (syntaxClean x).map SM.name → (Parses C (syntaxClean x) t s r ↔ Parses C x t s r) := by
    intro x hx hxe htx
    have := (C33_clean C (fun _ => false) (fun _ => false) x hx nofun (safeLoop_none _ _ x hxe _) t htx).2 rfl s r
    rw [fill_none x hxe] at this
    exact this
  rw [syntaxOptimize] at h
  cases merge with
  | false =>
    injection h with h
    injection h with _ h
    rw [← h] at ht ⊢
    exact hclean sl hd (he sl (.inl ⟨rfl, rfl⟩)) ht
  | true =>
    rw [if_pos rfl] at h
    cases hm : syntaxMerge start sl with
    | none => rw [hm] at h; exact absurd h nofun
    | some q =>
      obtain ⟨b, x⟩ := q
      rw [hm] at h
      have h33 := C33_merge (X := X) (ρ := ρ) start sl x b hd hm
      cases b with
      | false =>
        injection h with h
        injection h with _ h
        rw [← h] at ht ⊢
        exact h33.1 C t ht s r
      | true =>
        injection h with h
        injection h with _ h
        rw [← h] at ht ⊢
        have hx : (x.map SM.name).Nodup := by
          rw [syntaxMerge] at hm
          have hk := mergeLoop_kept (start := start) hd (sl.map SM.name) sl [] ⟨fun C t s r => Iff.rfl, rfl, nofun, nofun⟩
          cases hq : mergeLoop start (sl.map SM.name) sl [] with
          | undefined => rw [hq] at hm; exact absurd hm nofun
          | error y => rw [hq] at hm; injection hm with hm; exact absurd hm nofun
          | done y del =>
            rw [hq] at hm hk
            injection hm with hm
            injection hm with _ hm
            rw [← hm, erase]
            refine List.Nodup.sublist (List.filter_sublist.map _) ?_
            rw [hk.2.1]; exact hd
        have htx : t ∈ x.map SM.name := by
          rw [syntaxClean, List.map_map, List.mem_map] at ht
          obtain ⟨y, hy, e⟩ := ht
          rw [erase, List.mem_filter] at hy
          rw [← (emptyLoop_names (x.map SM.name) x []).1, List.mem_map]
          exact ⟨y, hy.1, e⟩
        exact (hclean x hx (he x (.inr ⟨rfl, hm⟩)) ht).trans (h33.1 C t htx s r)

end

/-! ## The cross compiler -/

namespace Syn

theorem emitBytes_append (a b : List DCode) : ∀ s : PS, Parse.emitBytes (a ++ b) s = Parse.emitBytes b (Parse.emitBytes a s) := by
  induction a with
  | nil => intro s; rfl
  | cons d ds ih => intro s; rw [List.cons_append, Parse.emitBytes, Parse.emitBytes, ih]

theorem join_parseLine (act : Act → PS → Res) (tab : Nat → PS → Res) (l : List PCode) : ∀ s : PS, Parse.parseLine act tab (joinEmits l) s = Parse.parseLine act tab l s := by
  induction l using joinEmits.induct with
  | case1 a b cs ih =>
    intro s
    rw [joinEmits, ih]
    simp only [Parse.parseLine, emitBytes_append]
  | case2 c cs hx ih =>
    intro s
    rw [joinEmits]
    · have ih' : Parse.parseLine act tab (joinEmits cs) = Parse.parseLine act tab cs := funext ih
      cases c <;> simp only [Parse.parseLine, ih']
    · exact hx
  | case3 => intro s; rw [joinEmits]

theorem joinRet_parseLine (act : Act → PS → Res) (tab : Nat → PS → Res) (l : List PCode) : ∀ s : PS, Parse.parseLine act tab (joinRet l) s = Parse.parseLine act tab l s := by
  induction l using joinRet.induct with
  | case1 a cs ih => intro s; rw [joinRet]; simp only [Parse.parseLine]
  | case2 c cs hx ih =>
    intro s
    rw [joinRet]
    · have ih' : Parse.parseLine act tab (joinRet cs) = Parse.parseLine act tab cs := funext ih
      cases c <;> simp only [Parse.parseLine, ih']
    · exact hx
  | case3 => intro s; rw [joinRet]

/-- `statemachine::optimize` on a table of the parser of the cross compiler, `/repo/src/compiler/synt-sm.cc:396-428`. -/
def optTable (t : Table) : Table := { t with lines := t.lines.map optLine }

end Syn

/-- In the cross compiler, joining the emits changes nothing at all: result, code, positions, listings, messages and the limit of the recursion. -/
theorem C33_cross (act : Act → PS → Res) (G : Parse.Grammar) (m : Nat) : ∀ (t : Nat) (s : PS),
    Parse.parseTable act (fun n => (G n).map optTable) m t s = Parse.parseTable act G m t s := by
  induction m with
  | zero => intro t s; rfl
  | succ m ih =>
    intro t s
    have ih' : Parse.parseTable act (fun n => (G n).map optTable) m = Parse.parseTable act G m := funext fun t => funext fun s => ih t s
    rw [Parse.parseTable, Parse.parseTable, ih']
    cases G t with
    | none => rfl
    | some T =>
      show (if _ then _ else Parse.parseLines act _ _ (T.lines.map optLine) _) = _
      have : ∀ (ls : List (List PCode)) (k : PS.Saved) (s : PS), Parse.parseLines act (Parse.parseTable act G m) k (ls.map optLine) s = Parse.parseLines act (Parse.parseTable act G m) k ls s := by
        intro ls
        induction ls with
        | nil => intro k s; rfl
        | cons l ls ihl =>
          intro k s
          rw [List.map_cons, Parse.parseLines, Parse.parseLines, optLine, joinRet_parseLine, join_parseLine]
          simp only [ihl]
      rw [this]; rfl

/-! ## The tables of the targets -/

/-- The tables of a target as a list for `syntax_optimize`. The flag `complete` is not used without merge. -/
def smsOf (l : List Table) : SMs := (List.range l.length).zipWith (fun i t => { name := i, lines := t.lines, complete := false }) l

/-- In the target `atari-fp` no table is empty, so only emits are joined and `C33_cross` says everything. -/
theorem C33_atari : syntaxClean (smsOf Parse.AtariFp.tables) = (smsOf Parse.AtariFp.tables).map optSM := by
  have h : (smsOf Parse.AtariFp.tables).all (fun s => !isEmpty s) = true := by decide +kernel
  have h' : ∀ s ∈ smsOf Parse.AtariFp.tables, isEmpty s = false := by
    intro s hs
    rw [List.all_eq_true] at h
    simpa using h s hs
  generalize smsOf Parse.AtariFp.tables = sl at h'
  have : ∀ ns, emptyLoop ns sl [] = (sl, []) := by
    intro ns
    induction ns with
    | nil => rfl
    | cons n ns ih =>
      rw [emptyLoop]
      split
      · rename_i s hs
        rw [h' s (get_mem hs)]
        exact ih
      · exact ih
  rw [syntaxClean, this]
  have he : erase [] sl = sl := by rw [erase, List.filter_eq_self]; intro s _; rfl
  rw [he]

/-- The tables of the target `atari-5200` that can end before blanks: `STATEMENT`, whose lines end with the table without lines `IO_CHAN0`. -/
def ends5200 (t : Nat) : Bool := t == Parse.Atari5200.n_STATEMENT

/-- `E_EOL` skips blanks, `/repo/src/compiler/parser-actions.cc:252-262`. -/
def skips5200 (a : Act) : Bool := a == .EOL

/-- In the real actions of the cross compiler `E_EOL` skips blanks first. -/
theorem eol_skips (s : PS) : Parse.eEol s = Parse.eEol s.skipws := by
  have hw : ∀ t : Str, PS.wsLen (t.drop (PS.wsLen t)) = 0 := by
    intro t
    induction t with
    | nil => rfl
    | cons c cs ih =>
      rw [PS.wsLen]
      split
      · rw [List.drop_succ_cons]; exact ih
      · rename_i h; rw [List.drop_zero, PS.wsLen, if_neg h]
  have : s.skipws.skipws = s.skipws := by
    rw [PS.skipws, PS.skipws]
    simp only [← List.drop_drop, hw, Nat.add_zero]
  rw [Parse.eEol, Parse.eEol, this]

/-- In the target `atari-5200` the deletion of the empty table does not change what is parsed, whatever the actions do, if `E_EOL` starts by skipping blanks. -/
theorem C33_5200 {X ρ : Type} (C : Conf X ρ) (hE : ∀ s, C.act .EOL s = C.act .EOL (C.skip s)) (s : St X ρ) (r : Out X ρ) :
    Parses C (syntaxClean (smsOf Parse.Atari5200.tables)) Parse.Atari5200.n_PARSE_START s r ↔
      Parses C ((smsOf Parse.Atari5200.tables).map fill) Parse.Atari5200.n_PARSE_START s r := by
  refine (C33_clean C ends5200 skips5200 _ (by decide +kernel) ?_ (by decide +kernel) _ (by decide +kernel)).2 rfl s r
  intro a ha
  have : a = .EOL := by simpa [skips5200] using ha
  rw [this]; exact hE

/-! ## Refutations -/

/-- A parser with the literals of the native compiler, and actions that do nothing. -/
def exConf (txt : Str) : Conf Nat Unit := { txt := txt, blank := fun c => c == 32, lim := 256, enc := fun _ => [0], lit := litMatch txt, act := fun _ s => .ok s }

/-- The state at the start of a line. -/
def exSt : St Nat Unit := { pos := 0, opos := 0, buf := fun _ => 0, rest := () }

/-- `A: "X" B "Y"` where `B` always succeeds. -/
def exBlanks : SMs := [⟨0, [[.lit [88], .call 1, .lit [89], .ret]], false⟩, ⟨1, [[.ret]], true⟩]

/-- The claim is false for the deletion of empty tables in general: `X Y` is accepted before and not after, because the deleted table skipped the blanks. -/
theorem C33_blanks_refuted : (∃ s', Parses (exConf [88, 32, 89]) exBlanks 0 exSt (.ok s')) ∧ (∃ s', Parses (exConf [88, 32, 89]) (syntaxClean exBlanks) 0 exSt (.fail s')) := by
  refine ⟨⟨_, 2, rfl⟩, ?_⟩
  have : syntaxClean exBlanks = [⟨0, [[.lit [88], .lit [89], .ret]], false⟩] := by decide +kernel
  rw [this]
  exact ⟨_, 1, rfl⟩

/-- `A: "X" B` where `B` has no lines. -/
def exMissing : SMs := [⟨0, [[.lit [88], .call 1, .ret]], false⟩, ⟨1, [], false⟩]

/-- A table without lines never succeeds, and after its deletion its calls always do. The target `atari-5200` has one: `IO_CHAN0`. -/
theorem C33_missing_refuted : (∃ s', Parses (exConf [88]) exMissing 0 exSt (.fail s')) ∧ (∃ s', Parses (exConf [88]) (syntaxClean exMissing) 0 exSt (.ok s')) ∧
    ((smsOf Parse.Atari5200.tables).any fun s => s.lines == []) = true := by
  refine ⟨⟨_, 2, rfl⟩, ?_, by decide +kernel⟩
  have : syntaxClean exMissing = [⟨0, [[.lit [88], .ret]], false⟩] := by decide +kernel
  rw [this]
  exact ⟨_, 1, rfl⟩

/-- `A: "X"` or `B`, where `B` has no lines. -/
def exModes : SMs := [⟨0, [[.lit [88], .ret], [.call 1, .ret]], false⟩, ⟨1, [], false⟩]

/-- With such a table the two modes of the optimizer give tables that parse different texts: with merge `Y` is rejected, without merge it is accepted. -/
theorem C33_modes_refuted : ∃ a b, syntaxOptimize 0 true exModes = some (true, a) ∧ syntaxOptimize 0 false exModes = some (true, b) ∧
    (∃ s', Parses (exConf [89]) a 0 exSt (.fail s')) ∧ (∃ s', Parses (exConf [89]) b 0 exSt (.ok s')) := by
  refine ⟨[⟨0, [[.lit [88], .ret]], false⟩], [⟨0, [[.lit [88], .ret], [.ret]], false⟩], ?_, ?_, ⟨_, 1, rfl⟩, ⟨_, 1, rfl⟩⟩
  · decide +kernel
  · decide +kernel

/-! ## Examples -/

/-- Tables like those of the native compiler: expressions that call `INT_FUNCTIONS` (2) once in the middle and `FUNCS` (3) at the end. -/
def exTables : SMs := [
  ⟨0, [[.call 1, .emit [.byteVal 1], .emit [.byteVal 2], .ret]], false⟩,
  ⟨1, [[.lit [40], .call 1, .lit [41], .ret], [.call 2, .ret], [.lit [88], .ret], [.call 3, .ret]], false⟩,
  ⟨2, [[.lit [65, 98], .call 1, .emit [.byteVal 3], .ret]], false⟩,
  ⟨3, [[.lit [78], .emit [.byteVal 4], .ret], [.ret]], true⟩]

/-- The optimized tables. -/
def exOptimized : SMs := [
  ⟨0, [[.call 1, .emitRet [.byteVal 1, .byteVal 2]]], false⟩,
  ⟨1, [[.lit [40], .call 1, .lit [41], .ret], [.lit [65, 98], .call 1, .emitRet [.byteVal 3]], [.lit [88], .ret], [.lit [78], .emitRet [.byteVal 4]], [.ret]], true⟩]

theorem exTables_optimized : syntaxOptimize 0 true exTables = some (true, exOptimized) := by decide +kernel

/-- They parse the same, for every text, state and actions. -/
example {X ρ : Type} (C : Conf X ρ) (s : St X ρ) (r : Out X ρ) : Parses C exOptimized 0 s r ↔ Parses C exTables 0 s r := by
  refine C33_optimize C 0 true true exTables exOptimized (by decide) ?_ exTables_optimized 0 (by decide) s r
  rintro x (⟨h, -⟩ | ⟨-, h⟩)
  · exact absurd h nofun
  · have e : syntaxMerge 0 exTables = some (true, [
        ⟨0, [[.call 1, .emit [.byteVal 1], .emit [.byteVal 2], .ret]], false⟩,
        ⟨1, [[.lit [40], .call 1, .lit [41], .ret], [.lit [65, 98], .call 1, .emit [.byteVal 3], .ret], [.lit [88], .ret], [.lit [78], .emit [.byteVal 4], .ret], [.ret]], true⟩]) := by
      decide +kernel
    rw [e] at h
    injection h with h
    injection h with _ h
    rw [← h]
    decide

/-- And they accept texts: `A.( X)` emits 3, 1, 2. -/
example : ∃ s', Parses (exConf [65, 46, 40, 32, 88, 41, 155]) exTables 0 exSt (.ok s') ∧ s'.pos = 6 ∧ s'.opos = 3 := ⟨_, ⟨6, rfl⟩, rfl, rfl⟩

/-- A parser of the line `CLS ` in which `E_EOL` looks for the end of the line and the other actions fail. -/
def exCls : Conf Nat Unit := { exConf [67, 76, 83, 32, 155] with
  act := fun a s =>
    let s' := (exConf [67, 76, 83, 32, 155]).skip s
    if a = .EOL ∧ s'.pos = 4 then .ok s' else .fail s' }

/-- The line is accepted with the optimized tables of the target `atari-5200`, and so it is with the tables as read. -/
example : ∃ r, Parses exCls ((smsOf Parse.Atari5200.tables).map fill) Parse.Atari5200.n_PARSE_START exSt (.ok r) := by
  have h : (match table exCls (syntaxClean (smsOf Parse.Atari5200.tables)) 6 Parse.Atari5200.n_PARSE_START exSt with
      | some (.ok s) => s.pos == 4
      | _ => false) = true := by decide +kernel
  split at h
  · rename_i s hs
    refine ⟨s, (C33_5200 exCls ?_ exSt (.ok s)).mp ⟨6, hs⟩⟩
    intro s
    show (if _ then _ else _ : Out Nat Unit) = if _ then _ else _
    rw [show (exConf [67, 76, 83, 32, 155]).skip (exCls.skip s) = (exConf [67, 76, 83, 32, 155]).skip s from skip_skip s]
  · exact absurd h nofun

end FB
