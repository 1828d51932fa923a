import Verif.Drv.Inv

/-!
# C54: the compiler and the files of the user

Claim: compiling does not overwrite or delete a file given as input. It is false in general: the names of the temporary files and
of the listings are made from the names of the inputs, and no test is done. `C54_inputs_kept_partial` is for all command lines in which
the names do not collide, and the theorems `_refuted` show that each of its conditions is needed.
-/

namespace FB.Drv

open FB.Parse (Str ofS)

/-- Specification: the files that one step writes, or deletes. -/
def touched : Ev → List Str
  | .compile _ out lst => out :: lst.toList
  | .assemble _ out lst => out :: lst.toList
  | .link _ out lbl => out :: lbl.toList
  | .remove f => [f]

/-- Specification: the names in a command line do not collide. -/
structure Apart (F O : List Str) (o : Opts) (binExt : Str) : Prop where
  /-- A file in assembler or object code has a name different (without the extension) from the names of the other files and
  of the results. -/
  names : ∀ f ∈ F, ∀ s, f = s ++ ofS ".asm" ∨ f = s ++ ofS ".o" → (∀ g ∈ F, stem g = s → g = f) ∧ ∀ g ∈ O, stem g ≠ s
  /-- No file is the result. -/
  out : ∀ f ∈ F, f ∉ O
  /-- No file ends with the extension of the programs of the target. -/
  bin : ∀ f ∈ F, ¬ binExt <:+ f
  /-- With a listing of the source, no file ends with its extension. -/
  list : o.showText = true → ∀ f ∈ F, ¬ o.listExt <:+ f
  /-- With listings of the assembler and of labels, no file ends with their extensions. -/
  lst : o.listing = true → ∀ f ∈ F, ¬ ofS ".lst" <:+ f ∧ ¬ ofS ".lbl" <:+ f

theorem dotAsm : ofS ".asm" = 46 :: [97, 115, 109] := by decide
theorem dotO : ofS ".o" = 46 :: [111] := by decide

theorem asm_isAsm {s : Str} (hs : s ≠ []) : IsAsm (s ++ ofS ".asm") := by
  rw [dotAsm]
  unfold IsAsm IsObj
  rw [extLower_ext hs (by decide)]
  decide

theorem o_isObj {s : Str} (hs : s ≠ []) : IsObj (s ++ ofS ".o") := by
  rw [dotO]
  unfold IsObj
  rw [extLower_ext hs (by decide)]
  decide

theorem asm_safe {o : Opts} {F O : List Str} {b : Str} (hg : Good o F O) (ha : Apart F O o b) {p : Str × Str} (hp : p ∈ o.bas) : p.2 ∉ F := by
  intro hf
  obtain ⟨h1, h2, g, h3, h4⟩ := hg.bas p hp
  obtain ⟨n1, n2⟩ := ha.names _ hf (stem g) (.inl h4)
  rcases List.mem_cons.1 h3 with rfl | h3
  · have : p.1 = p.2 := n1 _ h1 rfl
    rw [this, h4] at h2
    exact h2.2 (asm_isAsm (stem_ne (hg.ne _ h1)))
  · exact n2 g h3 rfl

theorem obj_safe {o : Opts} {F O : List Str} {b : Str} (hg : Good o F O) (ha : Apart F O o b) {p : Str × Str} (hp : p ∈ o.asm) : p.2 ∉ F := by
  intro hf
  obtain ⟨_, g, h3, h4⟩ := hg.asm p hp
  obtain ⟨n1, n2⟩ := ha.names _ hf (stem g) (.inr h4)
  rcases h3 with ⟨h1, h2⟩ | h3
  · have : g = p.2 := n1 _ h1 rfl
    apply h2
    rw [this, h4]
    exact o_isObj (stem_ne (hg.ne _ h1))
  · exact n2 g h3 rfl

theorem exe_safe {o : Opts} {F O : List Str} {b : Str} (hg : Good o F O) (ha : Apart F O o b) (hl : o.link ≠ []) : exeOf o b ∉ F := by
  intro hf
  unfold exeOf at hf
  split at hf
  · contradiction
  · by_cases he : o.exeName = []
    · rw [if_pos he, addExt_eq] at hf
      exact ha.bin _ hf ⟨_, rfl⟩
    · rw [if_neg he] at hf
      exact ha.out _ hf (hg.exe.resolve_left he)

/-- For every command line that is accepted and where the names do not collide, and whatever the result of each step: none of the
files of the command line is written or deleted. Missing: command lines where names collide, see the theorems below. -/
theorem C54_inputs_kept_partial (num : Str → Option Nat) (args : List Str) (o : Opts) (binExt : Str) (st : List Ev → Nat)
    (h : parseArgs num args = .ok o) (ha : Apart (filesOf false args) (outsOf false args) o binExt) :
    ∀ e ∈ (runMain o binExt st).1, ∀ f ∈ filesOf false args, f ∉ touched e := by
  have hg := good_args h
  intro e he f hf hw
  obtain ⟨k, h1, _⟩ := steps_prefix st (basEvs o ++ asmEvs o ++ linkEvs o binExt ++ rmEvs o) []
  unfold runMain at he
  rw [h1, List.nil_append] at he
  have he := List.mem_of_mem_take he
  simp only [List.mem_append] at he
  rcases he with ((he | he) | he) | he
  · obtain ⟨p, hp, rfl⟩ := List.mem_map.1 he
    simp only [touched, List.mem_cons, Option.mem_toList] at hw
    rcases hw with rfl | hw
    · exact asm_safe hg ha hp hf
    · by_cases hs : o.showText = true
      · simp only [hs, if_true, Option.some.injEq, addExt_eq] at hw
        exact ha.list hs f hf ⟨_, hw⟩
      · simp [hs] at hw
  · obtain ⟨p, hp, rfl⟩ := List.mem_map.1 he
    simp only [touched, List.mem_cons, Option.mem_toList] at hw
    rcases hw with rfl | hw
    · exact obj_safe hg ha hp hf
    · by_cases hs : o.listing = true
      · simp only [hs, if_true, Option.some.injEq, addExt_eq] at hw
        exact (ha.lst hs f hf).1 ⟨_, hw⟩
      · simp [hs] at hw
  · unfold linkEvs at he
    by_cases hl : o.link = []
    · simp [hl] at he
    · rw [if_neg hl, List.mem_singleton] at he
      subst he
      simp only [touched, List.mem_cons, Option.mem_toList] at hw
      rcases hw with rfl | hw
      · exact exe_safe hg ha hl hf
      · by_cases hs : o.listing = true
        · simp only [hs, if_true, Option.some.injEq, addExt_eq] at hw
          exact (ha.lst hs f hf).2 ⟨_, hw⟩
        · simp [hs] at hw
  · unfold rmEvs at he
    by_cases hk : o.keep = true
    · simp [hk] at he
    · simp only [hk] at he
      obtain ⟨x, hx, rfl⟩ := List.mem_map.1 he
      simp only [touched, List.mem_singleton] at hw
      subst hw
      unfold temps at hx
      by_cases h1 : o.oneStep = true
      · simp [h1] at hx
      · simp only [h1] at hx
        rcases List.mem_append.1 hx with hx | hx
        · obtain ⟨p, hp, rfl⟩ := List.mem_map.1 hx
          exact asm_safe hg ha hp hf
        · obtain ⟨p, hp, rfl⟩ := List.mem_map.1 hx
          exact obj_safe hg ha hp hf

/-- A command line, and the steps when none fails. -/
def demo (args : List String) : Option (List Ev × Nat) :=
  match parseArgs (fun _ => none) (args.map ofS) with
  | .ok o => some (runMain o (ofS ".xex") fun _ => 0)
  | .error _ => none

/-- An example that meets the conditions: a program in BASIC, a file in assembler and an object file, with a name for the result. -/
example : ∃ o, parseArgs (fun _ => none) (["-o", "game.xex", "-l", "-g", "game.bas", "irq.asm", "lib/font.o"].map ofS) = .ok o ∧
    Apart (filesOf false (["-o", "game.xex", "-l", "-g", "game.bas", "irq.asm", "lib/font.o"].map ofS))
      (outsOf false (["-o", "game.xex", "-l", "-g", "game.bas", "irq.asm", "lib/font.o"].map ofS)) o (ofS ".xex") := by
  refine ⟨_, rfl, ?_⟩
  have hF : filesOf false (["-o", "game.xex", "-l", "-g", "game.bas", "irq.asm", "lib/font.o"].map ofS) =
      [ofS "game.bas", ofS "irq.asm", ofS "lib/font.o"] := by decide
  have hO : outsOf false (["-o", "game.xex", "-l", "-g", "game.bas", "irq.asm", "lib/font.o"].map ofS) = [ofS "game.xex"] := by decide
  rw [hF, hO]
  refine ⟨?_, by decide, by decide, fun _ => by decide, fun _ => by decide⟩
  intro f hf s hs
  have key : ∀ e : Str, 46 ∉ e → f = s ++ 46 :: e → s ≠ [] → s = stem f := by
    rintro e he rfl hs; exact (stem_ext hs he).symm
  have hs0 : s ≠ [] := by
    rintro rfl
    simp only [List.nil_append] at hs
    rcases hs with rfl | rfl <;> revert hf <;> decide
  have : s = stem f := by
    rcases hs with h | h
    · exact key _ (by decide) (dotAsm ▸ h) hs0
    · exact key _ (by decide) (dotO ▸ h) hs0
  subst this
  clear key hs0
  revert f
  decide

/-- The steps of that example. -/
example : demo ["-o", "game.xex", "game.bas", "irq.asm"] = some
    ([.compile (ofS "game.bas") (ofS "game.asm") none, .assemble (ofS "game.asm") (ofS "game.o") none,
      .assemble (ofS "irq.asm") (ofS "irq.o") none, .link [ofS "game.o", ofS "irq.o"] (ofS "game.xex") none,
      .remove (ofS "game.asm"), .remove (ofS "game.o"), .remove (ofS "irq.o")], 0) := by decide

/-- `fastbasic game.bas game.asm`: the file in assembler is overwritten with the program compiled, and deleted. -/
theorem C54_same_name_refuted : ∃ tr, demo ["game.bas", "game.asm"] = some (tr, 0) ∧
    Ev.compile (ofS "game.bas") (ofS "game.asm") none ∈ tr ∧ Ev.remove (ofS "game.asm") ∈ tr := by
  refine ⟨_, rfl, by decide, by decide⟩

/-- `fastbasic irq.asm irq.o`: the object file is overwritten and deleted. -/
theorem C54_object_refuted : ∃ tr, demo ["irq.asm", "irq.o"] = some (tr, 0) ∧
    Ev.assemble (ofS "irq.asm") (ofS "irq.o") none ∈ tr ∧ Ev.remove (ofS "irq.o") ∈ tr := by
  refine ⟨_, rfl, by decide, by decide⟩

/-- `fastbasic -o game.xex main.bas game.asm`: the name of the result gives the name of the temporary file. -/
theorem C54_output_refuted : ∃ tr, demo ["-o", "game.xex", "main.bas", "game.asm"] = some (tr, 0) ∧
    Ev.compile (ofS "main.bas") (ofS "game.asm") none ∈ tr ∧ Ev.remove (ofS "game.asm") ∈ tr := by
  refine ⟨_, rfl, by decide, by decide⟩

/-- `fastbasic -l:lst game.lst`: the source is overwritten with its listing (only the extension `bas` is tested). The file is
opened for reading before (`/repo/src/compiler/compile.cc:181-194`), but it is empty when it is read. -/
theorem C54_listing_refuted : ∃ tr, demo ["-l:lst", "game.lst"] = some (tr, 0) ∧
    Ev.compile (ofS "game.lst") (ofS "game.asm") (some (ofS "game.lst")) ∈ tr := by
  refine ⟨_, rfl, by decide⟩

/-- `fastbasic -g game.lst`: the source is overwritten with the listing of the assembler. -/
theorem C54_asm_listing_refuted : ∃ tr, demo ["-g", "game.lst"] = some (tr, 0) ∧
    Ev.assemble (ofS "game.asm") (ofS "game.o") (some (ofS "game.lst")) ∈ tr := by
  refine ⟨_, rfl, by decide⟩

/-- `fastbasic game.bas game.fb`: two programs are compiled to the same file. -/
theorem C54_two_sources_refuted : ∃ tr, demo ["game.bas", "game.fb"] = some (tr, 0) ∧
    Ev.compile (ofS "game.bas") (ofS "game.asm") none ∈ tr ∧ Ev.compile (ofS "game.fb") (ofS "game.asm") none ∈ tr := by
  refine ⟨_, rfl, by decide, by decide⟩

/-- `fastbasic ../game`: the extension is looked for in the whole path, and the program is compiled to `..asm`, that is, to a file in
the current directory with a name that has nothing of `game`. -/
theorem C54_path_refuted : ∃ tr, demo ["../game"] = some (tr, 0) ∧ Ev.compile (ofS "../game") (ofS "..asm") none ∈ tr := by
  refine ⟨_, rfl, by decide⟩

end FB.Drv
