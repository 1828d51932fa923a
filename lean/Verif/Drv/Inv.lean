import Verif.Drv.Lemmas
import Mathlib.Data.List.Forall2
import Mathlib.Tactic.SplitIfs

/-!
# What the options of the driver collect

`filesOf` and `outsOf` say which arguments are files and which are names of the option `-o`; `Good` relates them with the lists of
`main` (`/repo/src/compiler/main.cc:105-122`).
-/

namespace FB.Drv

open FB.Parse (Str ofS)

/-- Specification: the files of a command line. They are the arguments that do not begin with `-`, except the one after `-o`
(the first argument says that the last one was `-o`). -/
def filesOf : Bool → List Str → List Str
  | _, [] => []
  | true, _ :: r => filesOf false r
  | false, a :: r => if a = ofS "-o" then filesOf true r else if a.head? = some 45 then filesOf false r else a :: filesOf false r

/-- Specification: the names given with `-o`, in the next argument or in the same one. -/
def outsOf : Bool → List Str → List Str
  | _, [] => []
  | true, a :: r => a :: outsOf false r
  | false, a :: r =>
    if a = ofS "-o" then outsOf true r else if (ofS "-o").isPrefixOf a then a.drop 2 :: outsOf false r else outsOf false r

/-- The object file of a file of the command line: itself, or the one that the assembler writes for it. -/
def ObjOf (o : Opts) (f l : Str) : Prop :=
  (IsObj f ∧ l = f) ∨ (IsAsm f ∧ (f, l) ∈ o.asm) ∨ (IsBas f ∧ ∃ a, (f, a) ∈ o.bas ∧ (a, l) ∈ o.asm)

/-- The lists after some arguments, with files `F` and names `O`. -/
structure Good (o : Opts) (F O : List Str) : Prop where
  got : o.gotOut = true → o.nextOut = false → o.outName ∈ O
  ngot : o.nextOut = true → o.gotOut = true
  exe : o.exeName = [] ∨ o.exeName ∈ O
  bas : ∀ p ∈ o.bas, p.1 ∈ F ∧ IsBas p.1 ∧ ∃ g ∈ p.1 :: O, p.2 = stem g ++ ofS ".asm"
  asm : ∀ p ∈ o.asm, ((p.1 ∈ F ∧ IsAsm p.1) ∨ ∃ q ∈ o.bas, q.2 = p.1) ∧ ∃ g, ((g ∈ F ∧ ¬ IsObj g) ∨ g ∈ O) ∧ p.2 = stem g ++ ofS ".o"
  link : ∀ f ∈ o.link, (f ∈ F ∧ IsObj f) ∨ ∃ q ∈ o.asm, q.2 = f
  all : ∀ f ∈ F, (IsBas f ∧ ∃ a, (f, a) ∈ o.bas) ∨ (IsAsm f ∧ ∃ b, (f, b) ∈ o.asm) ∨ (IsObj f ∧ f ∈ o.link)
  ne : ∀ f ∈ F, f ≠ []
  order : o.oneStep = false → List.Forall₂ (ObjOf o) F o.link

theorem Good.mono {o o' : Opts} {F O O' : List Str} (h : Good o F O) (hb : o'.bas = o.bas) (ha : o'.asm = o.asm) (hl : o'.link = o.link)
    (h1 : o'.oneStep = false → o.oneStep = false) (hO : ∀ x ∈ O, x ∈ O')
    (hg : o'.gotOut = true → o'.nextOut = false → o'.outName ∈ O') (hn : o'.nextOut = true → o'.gotOut = true)
    (he : o'.exeName = [] ∨ o'.exeName ∈ O') : Good o' F O' where
  got := hg
  ngot := hn
  exe := he
  bas := by
    rw [hb]; intro p hp
    obtain ⟨h1, h2, g, h3, h4⟩ := h.bas p hp
    refine ⟨h1, h2, g, ?_, h4⟩
    rcases List.mem_cons.1 h3 with h3 | h3
    · exact List.mem_cons.2 (.inl h3)
    · exact List.mem_cons.2 (.inr (hO _ h3))
  asm := by
    rw [hb, ha]; intro p hp
    obtain ⟨h1, g, h3, h4⟩ := h.asm p hp
    exact ⟨h1, g, h3.imp id (hO _), h4⟩
  link := by rw [ha, hl]; exact h.link
  all := by rw [hb, ha, hl]; exact h.all
  ne := h.ne
  order := by
    intro h0
    rw [hl]
    have := h.order (h1 h0)
    refine this.imp ?_
    intro a b hab
    simpa [ObjOf, ha, hb] using hab

theorem forall₂_snoc {α β : Type} {R : α → β → Prop} {l : List α} {m : List β} {a : α} {b : β} (h : List.Forall₂ R l m) (hr : R a b) :
    List.Forall₂ R (l ++ [a]) (m ++ [b]) := by
  induction h with
  | nil => exact .cons hr .nil
  | cons h _ ih => exact .cons h ih

theorem Good.file {o : Opts} {F O : List Str} {a : Str} (h : Good o F O) (hn : o.nextOut = false) (hne : a ≠ []) :
    Good (fileStep o a) (F ++ [a]) O := by
  have ne' : ∀ f ∈ F ++ [a], f ≠ [] := by
    intro f hf
    rcases List.mem_append.1 hf with hf | hf
    · exact h.ne f hf
    · simpa using (List.mem_singleton.1 hf) ▸ hne
  by_cases ho : IsObj a
  · have e : fileStep o a = { o with link := o.link ++ [a] } := by unfold fileStep; exact if_pos ho
    rw [e]
    refine ⟨h.got, h.ngot, h.exe, ?_, ?_, ?_, ?_, ne', ?_⟩
    · intro p hp
      obtain ⟨h1, h2, h3⟩ := h.bas p hp
      exact ⟨List.mem_append_left _ h1, h2, h3⟩
    · intro p hp
      obtain ⟨h1, g, h3, h4⟩ := h.asm p hp
      exact ⟨h1.imp (fun h => ⟨List.mem_append_left _ h.1, h.2⟩) id, g, h3.imp (fun h => ⟨List.mem_append_left _ h.1, h.2⟩) id, h4⟩
    · intro f hf
      rcases List.mem_append.1 hf with hf | hf
      · exact (h.link f hf).imp (fun h => ⟨List.mem_append_left _ h.1, h.2⟩) id
      · rw [List.mem_singleton.1 hf]; exact .inl ⟨by simp, ho⟩
    · intro f hf
      rcases List.mem_append.1 hf with hf | hf
      · exact (h.all f hf).imp id (.imp id fun h => ⟨h.1, List.mem_append_left _ h.2⟩)
      · rw [List.mem_singleton.1 hf]; exact .inr (.inr ⟨ho, by simp⟩)
    · intro h0
      exact forall₂_snoc (h.order h0) (.inl ⟨ho, rfl⟩)
  have got : o.gotOut = true → o.outName ∈ O := fun hg => h.got hg hn
  by_cases hs : extLower a = ofS "s" ∨ extLower a = ofS "asm"
  · obtain ⟨b, eb⟩ : ∃ b, b = if o.gotOut then addExt o.outName (ofS ".o") else addExt a (ofS ".o") := ⟨_, rfl⟩
    have e : fileStep o a = { o with gotOut := false, asm := o.asm ++ [(a, b)], link := if o.oneStep then o.link else o.link ++ [b] } := by
      unfold fileStep; rw [eb]; exact (if_neg ho).trans (if_pos hs)
    have hb : ∃ g, ((g ∈ F ++ [a] ∧ ¬ IsObj g) ∨ g ∈ O) ∧ b = stem g ++ ofS ".o" := by
      rw [eb]
      by_cases hg : o.gotOut = true
      · exact ⟨o.outName, .inr (got hg), by rw [if_pos hg, addExt_eq]⟩
      · exact ⟨a, .inl ⟨by simp, ho⟩, by rw [if_neg hg, addExt_eq]⟩
    have ha : IsAsm a := ⟨ho, hs⟩
    rw [e]
    refine ⟨by simp, by simp [hn], h.exe, ?_, ?_, ?_, ?_, ne', ?_⟩
    · intro p hp
      obtain ⟨h1, h2, h3⟩ := h.bas p hp
      exact ⟨List.mem_append_left _ h1, h2, h3⟩
    · intro p hp
      rcases List.mem_append.1 hp with hp | hp
      · obtain ⟨h1, g, h3, h4⟩ := h.asm p hp
        exact ⟨h1.imp (fun h => ⟨List.mem_append_left _ h.1, h.2⟩) id, g, h3.imp (fun h => ⟨List.mem_append_left _ h.1, h.2⟩) id, h4⟩
      · rw [List.mem_singleton.1 hp]
        exact ⟨.inl ⟨by simp, ha⟩, hb⟩
    · intro f hf
      have old : f ∈ o.link → (f ∈ F ++ [a] ∧ IsObj f) ∨ ∃ q ∈ o.asm ++ [(a, b)], q.2 = f := fun hf =>
        (h.link f hf).imp (fun h => ⟨List.mem_append_left _ h.1, h.2⟩) fun ⟨q, h1, h2⟩ => ⟨q, List.mem_append_left _ h1, h2⟩
      by_cases h1 : o.oneStep = true
      · simp only [h1, if_true] at hf; exact old hf
      · simp only [h1, if_false] at hf
        rcases List.mem_append.1 hf with hf | hf
        · exact old hf
        · rw [List.mem_singleton.1 hf]; exact .inr ⟨(a, b), by simp, rfl⟩
    · intro f hf
      have lk : ∀ {x}, x ∈ o.link → x ∈ (if o.oneStep then o.link else o.link ++ [b]) := by
        intro x hx; split
        · exact hx
        · exact List.mem_append_left _ hx
      rcases List.mem_append.1 hf with hf | hf
      · exact (h.all f hf).imp id (.imp (fun ⟨h1, c, h2⟩ => ⟨h1, c, List.mem_append_left _ h2⟩) fun h => ⟨h.1, lk h.2⟩)
      · rw [List.mem_singleton.1 hf]; exact .inr (.inl ⟨ha, b, by simp⟩)
    · intro h0
      have h0' : o.oneStep = false := h0
      simp only [h0', Bool.false_eq_true, if_false]
      refine forall₂_snoc ((h.order h0').imp ?_) (.inr (.inl ⟨ha, by simp⟩))
      intro x y hxy
      exact hxy.imp id (.imp (fun h => ⟨h.1, List.mem_append_left _ h.2⟩) fun ⟨h1, c, h2, h3⟩ => ⟨h1, c, h2, List.mem_append_left _ h3⟩)
  · obtain ⟨b, eb⟩ : ∃ b, b = if o.gotOut then addExt o.outName (ofS ".o") else addExt a (ofS ".o") := ⟨_, rfl⟩
    obtain ⟨c, ec⟩ : ∃ c, c = if o.gotOut then addExt o.outName (ofS ".asm") else addExt a (ofS ".asm") := ⟨_, rfl⟩
    have e : fileStep o a = { o with gotOut := false, bas := o.bas ++ [(a, c)]
                                     asm := if o.oneStep then o.asm else o.asm ++ [(c, b)]
                                     link := if o.oneStep then o.link else o.link ++ [b] } := by
      unfold fileStep; rw [eb, ec]; exact (if_neg ho).trans (if_neg hs)
    have hb : ∃ g, ((g ∈ F ++ [a] ∧ ¬ IsObj g) ∨ g ∈ O) ∧ b = stem g ++ ofS ".o" := by
      rw [eb]
      by_cases hg : o.gotOut = true
      · exact ⟨o.outName, .inr (got hg), by rw [if_pos hg, addExt_eq]⟩
      · exact ⟨a, .inl ⟨by simp, ho⟩, by rw [if_neg hg, addExt_eq]⟩
    have hc : ∃ g ∈ a :: O, c = stem g ++ ofS ".asm" := by
      rw [ec]
      by_cases hg : o.gotOut = true
      · exact ⟨o.outName, List.mem_cons.2 (.inr (got hg)), by rw [if_pos hg, addExt_eq]⟩
      · exact ⟨a, by simp, by rw [if_neg hg, addExt_eq]⟩
    have ha : IsBas a := ⟨ho, fun h => hs h.2⟩
    rw [e]
    have am : ∀ {x}, x ∈ o.asm → x ∈ (if o.oneStep then o.asm else o.asm ++ [(c, b)]) := by
      intro x hx; split
      · exact hx
      · exact List.mem_append_left _ hx
    refine ⟨by simp, by simp [hn], h.exe, ?_, ?_, ?_, ?_, ne', ?_⟩
    · intro p hp
      rcases List.mem_append.1 hp with hp | hp
      · obtain ⟨h1, h2, h3⟩ := h.bas p hp
        exact ⟨List.mem_append_left _ h1, h2, h3⟩
      · rw [List.mem_singleton.1 hp]
        exact ⟨by simp, ha, hc⟩
    · intro p hp
      have old : p ∈ o.asm → ((p.1 ∈ F ++ [a] ∧ IsAsm p.1) ∨ ∃ q ∈ o.bas ++ [(a, c)], q.2 = p.1) ∧
          ∃ g, ((g ∈ F ++ [a] ∧ ¬ IsObj g) ∨ g ∈ O) ∧ p.2 = stem g ++ ofS ".o" := by
        intro hp
        obtain ⟨h1, g, h3, h4⟩ := h.asm p hp
        exact ⟨h1.imp (fun h => ⟨List.mem_append_left _ h.1, h.2⟩) (fun ⟨q, h1, h2⟩ => ⟨q, List.mem_append_left _ h1, h2⟩), g,
          h3.imp (fun h => ⟨List.mem_append_left _ h.1, h.2⟩) id, h4⟩
      by_cases h1 : o.oneStep = true
      · simp only [h1, if_true] at hp; exact old hp
      · simp only [h1, if_false] at hp
        rcases List.mem_append.1 hp with hp | hp
        · exact old hp
        · rw [List.mem_singleton.1 hp]; exact ⟨.inr ⟨(a, c), by simp, rfl⟩, hb⟩
    · intro f hf
      by_cases h1 : o.oneStep = true
      · simp only [h1, if_true] at hf ⊢
        exact (h.link f hf).imp (fun h => ⟨List.mem_append_left _ h.1, h.2⟩) id
      · simp only [h1, if_false] at hf ⊢
        rcases List.mem_append.1 hf with hf | hf
        · exact (h.link f hf).imp (fun h => ⟨List.mem_append_left _ h.1, h.2⟩) fun ⟨q, h1, h2⟩ => ⟨q, List.mem_append_left _ h1, h2⟩
        · rw [List.mem_singleton.1 hf]; exact .inr ⟨(c, b), by simp, rfl⟩
    · intro f hf
      have lk : ∀ {x}, x ∈ o.link → x ∈ (if o.oneStep then o.link else o.link ++ [b]) := by
        intro x hx; split
        · exact hx
        · exact List.mem_append_left _ hx
      rcases List.mem_append.1 hf with hf | hf
      · exact (h.all f hf).imp (fun ⟨h1, c, h2⟩ => ⟨h1, c, List.mem_append_left _ h2⟩)
          (.imp (fun ⟨h1, c, h2⟩ => ⟨h1, c, am h2⟩) fun h => ⟨h.1, lk h.2⟩)
      · rw [List.mem_singleton.1 hf]; exact .inl ⟨ha, c, by simp⟩
    · intro h0
      have h0' : o.oneStep = false := h0
      simp only [h0', Bool.false_eq_true, if_false]
      refine forall₂_snoc ((h.order h0').imp ?_) (.inr (.inr ⟨ha, c, by simp, by simp [h0']⟩))
      intro x y hxy
      exact hxy.imp id (.imp (fun h => ⟨h.1, List.mem_append_left _ h.2⟩) fun ⟨h1, c, h2, h3⟩ => ⟨h1, c, List.mem_append_left _ h2, List.mem_append_left _ h3⟩)

theorem Good.loop {num : Str → Option Nat} : ∀ {args : List Str} {o o' : Opts} {F O : List Str}, Good o F O → argLoop num o args = .ok o' →
    Good o' (F ++ filesOf o.nextOut args) (O ++ outsOf o.nextOut args)
  | [], o, o', F, O, h, hl => by
    have : o = o' := by simpa [argLoop] using hl
    subst this
    simpa [filesOf, outsOf] using h
  | a :: r, o, o', F, O, h, hl => by
    unfold argLoop at hl
    split at hl
    · cases hl
    next o1 hs =>
    rcases argStep_cases hs with ⟨hn, e⟩ | ⟨hn, ha, hg, e⟩ | ⟨hn, ha, hst, hg, hd, e⟩ | ⟨hn, ha, hst, hh, hs', h1⟩ | ⟨hn, hh, hne, e⟩
    · have : Good o1 F (O ++ [a]) := by
        subst e
        refine h.mono rfl rfl rfl id (by intro x hx; exact List.mem_append_left _ hx) (by simp) (by simp) ?_
        by_cases hx : o.exeName = []
        · right; simp [hx]
        · right; simp only [hx, if_false]; exact List.mem_append_left _ (h.exe.resolve_left hx)
      have := Good.loop this hl
      have en : o1.nextOut = false := by rw [e]
      rw [en] at this
      simpa [hn, filesOf, outsOf] using this
    · have : Good o1 F O := by
        subst e
        exact h.mono rfl rfl rfl id (by simp) (by simp) (by simp) h.exe
      have := Good.loop this hl
      have en : o1.nextOut = true := by rw [e]
      rw [en] at this
      simpa [hn, filesOf, outsOf, ha] using this
    · have : Good o1 F (O ++ [a.drop 2]) := by
        subst e
        refine h.mono rfl rfl rfl id (by intro x hx; exact List.mem_append_left _ hx) (by simp) (by simp [hn]) ?_
        by_cases hx : o.exeName = []
        · right; simp [hx]
        · right; simp only [hx, if_false]; exact List.mem_append_left _ (h.exe.resolve_left hx)
      have := Good.loop this hl
      have en : o1.nextOut = false := by rw [e]; exact hn
      rw [en] at this
      have hh : a.head? = some 45 := starts_head hst rfl
      have hst' : (ofS "-o").isPrefixOf a = true := hst
      simpa only [hn, filesOf, outsOf, if_neg ha, if_pos hh, if_pos hst', List.append_assoc, List.singleton_append] using this
    · have : Good o1 F O :=
        h.mono hs'.bas hs'.asm hs'.link (by rw [h1]; simp; intro h _; exact h) (by simp) (by rw [hs'.got, hs'.next, hs'.out]; exact h.got)
          (by rw [hs'.got, hs'.next]; exact h.ngot) (by rw [hs'.exe]; exact h.exe)
      have := Good.loop this hl
      rw [hs'.next, hn] at this
      have hst' : ¬ (ofS "-o").isPrefixOf a = true := by
        have : (ofS "-o").isPrefixOf a = false := hst
        simp [this]
      simpa only [hn, filesOf, outsOf, if_neg ha, if_pos hh, if_neg hst'] using this
    · have := h.file hn hne
      rw [← e] at this
      have := Good.loop this hl
      have en : o1.nextOut = false := by rw [e]; unfold fileStep; dsimp only; split_ifs <;> exact hn
      rw [en] at this
      have ha : a ≠ ofS "-o" := by rintro rfl; exact hh (by decide)
      have hst' : ¬ (ofS "-o").isPrefixOf a = true := fun h => hh (starts_head h rfl)
      simpa only [hn, filesOf, outsOf, if_neg ha, if_neg hh, if_neg hst', List.append_assoc, List.singleton_append] using this

theorem good_init : Good {} [] [] := by
  refine ⟨by simp, by simp, .inl rfl, by simp, by simp, by simp, by simp, by simp, fun _ => .nil⟩

theorem good_args {num args o} (h : parseArgs num args = .ok o) : Good o (filesOf false args) (outsOf false args) := by
  unfold parseArgs at h
  split at h
  · cases h
  next o1 h1 =>
  split at h
  · cases h
  have : o1 = o := by cases h; rfl
  subst this
  have := good_init.loop h1
  simpa using this

end FB.Drv
