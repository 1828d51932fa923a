import Verif.Drv.Target
import Verif.Drv.Lemmas
import Mathlib.Tactic.SplitIfs
import Mathlib.Data.List.TakeWhile

/-!
# C56: what a target file means

A target file is a list of items, with the items of another file in the place of each `include`. The result of reading it is: for
`library`, `config` and `extension` the value of the last item, for `syntax` and `ca65` all the words of all items, in order. This is
proved for all files that end with an end of line. It is false for the others: the last line is ignored.
-/

namespace FB.Drv

open FB.Parse (Str ofS)

/-- Specification: the lines of a text. The last one may have no end of line. -/
def textLines (cur : Str) : Str → List Str
  | [] => if cur = [] then [] else [cur]
  | c :: cs => if c = 10 then cur :: textLines [] cs else textLines (cur ++ [c]) cs

/-- Specification: the words of a text, in one pass. -/
def textWords (cur : Str) : Str → List Str
  | [] => if cur = [] then [] else [cur]
  | c :: cs => if blank c then (if cur = [] then textWords [] cs else cur :: textWords [] cs) else textWords (cur ++ [c]) cs

/-- Specification: a line is blank or a comment. -/
def Idle (line : Str) : Prop := ∃ b s, line = b ++ s ∧ (∀ c ∈ b, blank c = true) ∧ (s = [] ∨ ∃ r, s = 35 :: r)

/-- Specification: a line with a key and a value, which goes from the first character that is not a blank to the end of the line. -/
def IsItem (line key val : Str) : Prop :=
  ∃ b m, line = b ++ key ++ m ++ val ∧ (∀ c ∈ b, blank c = true) ∧ (∀ c ∈ m, blank c = true) ∧ (∀ c ∈ key, blank c = false) ∧
    key ≠ [] ∧ key.head? ≠ some 35 ∧ (m = [] → val = []) ∧ (∀ c, val.head? = some c → blank c = false)

/-- Specification: the file for a name. The extension `.tgt` is added to names without dots, the name `default` is used if there
is none, and all but absolute paths are searched. -/
def fileFor (search : Str → Str) (name : Str) : Str :=
  let full := if name = [] then ofS "default.tgt" else if name.contains 46 then name else name ++ ofS ".tgt"
  if (ofS "/").isPrefixOf full then full else search full

/-- Specification: the items of some lines, with the items of the files included. -/
inductive Items (search : Str → Str) (fs : Str → Option Str) : List Str → List (Str × Str) → Prop
  | nil : Items search fs [] []
  | idle {l r I} : Idle l → Items search fs r I → Items search fs (l :: r) I
  | item {l r k v I} : IsItem l k v → k ≠ ofS "include" → Items search fs r I → Items search fs (l :: r) ((k, v) :: I)
  | incl {l r v txt I J} : IsItem l (ofS "include") v → fs (fileFor search v) = some txt → Items search fs (textLines [] txt) I →
      Items search fs r J → Items search fs (l :: r) (I ++ J)

/-- Specification: the value of the last item with a key. -/
def lastVal (k : Str) (I : List (Str × Str)) : Str := ((I.filter (·.1 == k)).getLast?.map (·.2)).getD []

/-- Specification: the words of all the items with a key. -/
def allWords (k : Str) (I : List (Str × Str)) : List Str := (I.filter (·.1 == k)).flatMap fun i => textWords [] i.2

/-- Specification: the keys. -/
def knownKeys : List Str := [ofS "library", ofS "config", ofS "extension", ofS "ca65", ofS "syntax"]

/-- Specification: what a list of items means. -/
def meaning (I : List (Str × Str)) : Tgt where
  slist := allWords (ofS "syntax") I
  ca65 := allWords (ofS "ca65") I
  lib := lastVal (ofS "library") I
  cfg := lastVal (ofS "config") I
  ext := lastVal (ofS "extension") I

/-- All files are empty or end with an end of line. -/
def Ended (fs : Str → Option Str) : Prop := ∀ n txt, fs n = some txt → txt = [] ∨ ∃ t, txt = t ++ [10]

theorem tgtFile_eq (search : Str → Str) (name : Str) : tgtFile search name = fileFor search name := by
  unfold tgtFile fileFor
  have abs : ∀ f : Str, (f.head? = some 47) ↔ (ofS "/").isPrefixOf f = true := by
    intro f
    have e : ofS "/" = [47] := by decide
    rw [e]
    cases f with
    | nil => simp [List.isPrefixOf]
    | cons c f =>
      simp only [List.head?_cons, Option.some.injEq, List.isPrefixOf, Bool.and_true, beq_iff_eq]
      exact ⟨Eq.symm, Eq.symm⟩
  by_cases h : name = []
  · subst h
    have e : addExt (ofS "default") (ofS ".tgt") = ofS "default.tgt" := by decide
    have e1 : ¬ 46 ∈ ofS "default" := by decide
    simp only [if_true, if_neg e1, e, abs]
  · by_cases hd : 46 ∈ name
    · simp only [if_neg h, if_pos hd, abs, List.contains_iff_mem.2 hd, if_true]
    · have e : addExt name (ofS ".tgt") = name ++ ofS ".tgt" := by
        unfold addExt
        rw [lastIdx_none hd]
      have hc : name.contains 46 = false := by simpa using hd
      simp only [if_neg h, if_neg hd, abs, e, hc, Bool.false_eq_true, if_false]

theorem lines_ended : ∀ (t cur : Str), getLines cur (t ++ [10]) = textLines cur (t ++ [10])
  | [], cur => by simp [getLines, textLines]
  | c :: t, cur => by
    simp only [List.cons_append, getLines, textLines]
    rw [lines_ended t, lines_ended t]

theorem getLines_eq {fs : Str → Option Str} (h : Ended fs) {n txt} (hf : fs n = some txt) : getLines [] txt = textLines [] txt := by
  rcases h n txt hf with rfl | ⟨t, rfl⟩
  · rfl
  · exact lines_ended t []

theorem words_cur : ∀ (s cur : Str), (∀ c ∈ cur, blank c = false) → cur ≠ [] →
    textWords cur s = (cur ++ s.takeWhile (!blank ·)) :: textWords [] ((s.dropWhile (!blank ·)).dropWhile blank)
  | [], cur, _, hn => by simp [textWords, hn]
  | c :: s, cur, hc, hn => by
    by_cases hb : blank c = true
    · have e : textWords [] s = textWords [] (s.dropWhile blank) := by
        clear hc hn
        induction s with
        | nil => rfl
        | cons d s ih =>
          by_cases hd : blank d = true
          · simp [textWords, hd, ih]
          · simp [hd]
      simp [textWords, hb, hn, e]
    · have hb' : blank c = false := by simpa using hb
      simp only [textWords, hb', Bool.false_eq_true, if_false]
      rw [words_cur s (cur ++ [c]) (by
        intro x hx
        rcases List.mem_append.1 hx with hx | hx
        · exact hc x hx
        · rw [List.mem_singleton.1 hx]; exact hb') (by simp)]
      simp [hb']

theorem wordLoop_eq : ∀ (n : Nat) (s : Str), s.length ≤ n → (∀ c, s.head? = some c → blank c = false) → wordLoop n s = textWords [] s
  | 0, s, h, _ => by
    have : s = [] := List.length_eq_zero_iff.1 (Nat.le_zero.1 h)
    subst this; rfl
  | n + 1, [], _, _ => by simp [wordLoop, textWords]
  | n + 1, c :: s, h, hh => by
    have hb : blank c = false := hh c rfl
    have e1 : textWords [] (c :: s) = textWords [c] s := by simp [textWords, hb]
    rw [e1, words_cur s [c] (by simpa using hb) (by simp)]
    unfold wordLoop
    rw [if_neg (by simp)]
    have hd : ((c :: s).dropWhile (!blank ·)) = s.dropWhile (!blank ·) := by simp [hb]
    rw [hd]
    rw [wordLoop_eq n]
    · simp [hb]
    · have h1 : ((s.dropWhile (!blank ·)).dropWhile blank).length ≤ (s.dropWhile (!blank ·)).length := (List.dropWhile_suffix _).length_le
      have h2 : (s.dropWhile (!blank ·)).length ≤ s.length := (List.dropWhile_suffix _).length_le
      simp at h
      omega
    · intro d hd
      have := List.head?_dropWhile_not blank (s.dropWhile (!blank ·))
      rw [hd] at this
      simpa using this

theorem dropWhile_blank {b s : Str} (hb : ∀ c ∈ b, blank c = true) (hs : ∀ c, s.head? = some c → blank c = false) : (b ++ s).dropWhile blank = s := by
  rw [List.dropWhile_append_of_pos (by simpa using hb)]
  cases s with
  | nil => rfl
  | cons c s => simp [hs c rfl]

theorem idle_line {inc t l} (h : Idle l) : tgtLine inc t l = some (.ok t) := by
  obtain ⟨b, s, rfl, hb, hs⟩ := h
  have : (b ++ s).dropWhile blank = s := by
    apply dropWhile_blank hb
    rcases hs with rfl | ⟨r, rfl⟩
    · simp
    · simp [blank]
  unfold tgtLine
  rw [this]
  rcases hs with rfl | ⟨r, rfl⟩ <;> simp

theorem item_parts {l k v : Str} (h : IsItem l k v) :
    ∃ s, l.dropWhile blank = s ∧ s ≠ [] ∧ s.head? ≠ some 35 ∧ s.takeWhile (!blank ·) = k ∧ (s.dropWhile (!blank ·)).dropWhile blank = v := by
  obtain ⟨b, m, rfl, hb, hm, hk, hk0, hk1, hmv, hv⟩ := h
  obtain ⟨c, k, rfl⟩ := List.exists_cons_of_ne_nil hk0
  have hc : blank c = false := hk c (by simp)
  have e1 : (b ++ c :: k ++ m ++ v).dropWhile blank = c :: k ++ (m ++ v) := by
    rw [List.append_assoc, List.append_assoc]
    exact dropWhile_blank hb (by intro d hd; simp at hd; rw [← hd]; exact hc)
  have hmv' : ∀ d, (m ++ v).head? = some d → blank d = true := by
    intro d hd
    cases m with
    | nil => rw [hmv rfl] at hd; simp at hd
    | cons x m => simp at hd; rw [← hd]; exact hm x (by simp)
  refine ⟨_, e1, by simp, by simpa using hk1, ?_, ?_⟩
  · rw [List.takeWhile_append_of_pos (by intro d hd; simp [hk d hd])]
    have : (m ++ v).takeWhile (!blank ·) = [] := by
      cases hx : m ++ v with
      | nil => rfl
      | cons d r => simp [hmv' d (by rw [hx]; rfl)]
    rw [this]; simp
  · rw [List.dropWhile_append_of_pos (by intro d hd; simp [hk d hd])]
    have : (m ++ v).dropWhile (!blank ·) = m ++ v := by
      cases hx : m ++ v with
      | nil => rfl
      | cons d r => simp [hmv' d (by rw [hx]; rfl)]
    rw [this]
    exact dropWhile_blank hm hv

theorem item_of_line {l s : Str} (h : l.dropWhile blank = s) (hs : s ≠ []) (hh : s.head? ≠ some 35) :
    IsItem l (s.takeWhile (!blank ·)) ((s.dropWhile (!blank ·)).dropWhile blank) := by
  have hb0 : ∀ c, s.head? = some c → blank c = false := by
    intro c hc
    have := List.head?_dropWhile_not blank l
    rw [h, hc] at this
    simpa using this
  obtain ⟨c, r, rfl⟩ := List.exists_cons_of_ne_nil hs
  have hc := hb0 c rfl
  refine ⟨l.takeWhile blank, ((c :: r).dropWhile (!blank ·)).takeWhile blank, ?_, ?_, ?_, ?_, ?_, ?_, ?_, ?_⟩
  · rw [List.append_assoc, List.append_assoc, List.takeWhile_append_dropWhile, List.takeWhile_append_dropWhile, ← h, List.takeWhile_append_dropWhile]
  · intro d hd; exact List.mem_takeWhile_imp hd
  · intro d hd; exact List.mem_takeWhile_imp hd
  · intro d hd; simpa using List.mem_takeWhile_imp hd
  · simp [hc]
  · simpa [hc] using hh
  · intro hm
    have hx : ∀ d, ((c :: r).dropWhile (!blank ·)).head? = some d → blank d = true := by
      intro d hd
      have := List.head?_dropWhile_not (!blank ·) (c :: r)
      rw [hd] at this
      simpa using this
    cases hy : (c :: r).dropWhile (!blank ·) with
    | nil => rfl
    | cons d r' =>
      rw [hy] at hm
      simp [hx d (by rw [hy]; rfl)] at hm
  · intro d hd
    have := List.head?_dropWhile_not blank ((c :: r).dropWhile (!blank ·))
    rw [hd] at this
    simpa using this

/-- Adding the meaning of some items to a target. -/
def addItems (t : Tgt) (I : List (Str × Str)) : Tgt where
  slist := t.slist ++ allWords (ofS "syntax") I
  ca65 := t.ca65 ++ allWords (ofS "ca65") I
  lib := ((I.filter (·.1 == ofS "library")).getLast?.map (·.2)).getD t.lib
  cfg := ((I.filter (·.1 == ofS "config")).getLast?.map (·.2)).getD t.cfg
  ext := ((I.filter (·.1 == ofS "extension")).getLast?.map (·.2)).getD t.ext

theorem last_append (k : Str) (I J : List (Str × Str)) (d : Str) :
    (((I ++ J).filter (·.1 == k)).getLast?.map (·.2)).getD d =
      ((J.filter (·.1 == k)).getLast?.map (·.2)).getD (((I.filter (·.1 == k)).getLast?.map (·.2)).getD d) := by
  rw [List.filter_append, List.getLast?_append]
  cases (J.filter (·.1 == k)).getLast? <;> simp

theorem addItems_append (t : Tgt) (I J : List (Str × Str)) : addItems t (I ++ J) = addItems (addItems t I) J := by
  unfold addItems
  simp only [last_append]
  simp only [allWords, List.filter_append, List.flatMap_append, List.append_assoc]

theorem addItems_nil (t : Tgt) : addItems t [] = t := by simp [addItems, allWords]

theorem addItems_one (inc) (t : Tgt) {l k v : Str} (h : IsItem l k v) (hk : k ≠ ofS "include") :
    tgtLine inc t l = if k ∈ knownKeys then some (.ok (addItems t [(k, v)])) else some (.error k) := by
  obtain ⟨s, h1, h2, h3, h4, h5⟩ := item_parts h
  have hv : ∀ c, v.head? = some c → blank c = false := by
    obtain ⟨_, _, _, _, _, _, _, _, _, hv⟩ := h; exact hv
  have hw : wordLoop v.length v = textWords [] v := wordLoop_eq _ _ (Nat.le_refl _) hv
  unfold tgtLine
  simp only [h1]
  rw [if_neg (by simp [h2, h3]), h4, h5, if_neg hk]
  have ne1 : ofS "library" ≠ ofS "config" ∧ ofS "library" ≠ ofS "extension" ∧ ofS "library" ≠ ofS "ca65" ∧ ofS "library" ≠ ofS "syntax" := by decide
  have ne2 : ofS "config" ≠ ofS "library" ∧ ofS "config" ≠ ofS "extension" ∧ ofS "config" ≠ ofS "ca65" ∧ ofS "config" ≠ ofS "syntax" := by decide
  have ne3 : ofS "extension" ≠ ofS "library" ∧ ofS "extension" ≠ ofS "config" ∧ ofS "extension" ≠ ofS "ca65" ∧ ofS "extension" ≠ ofS "syntax" := by decide
  have ne4 : ofS "ca65" ≠ ofS "library" ∧ ofS "ca65" ≠ ofS "config" ∧ ofS "ca65" ≠ ofS "extension" ∧ ofS "ca65" ≠ ofS "syntax" := by decide
  have ne5 : ofS "syntax" ≠ ofS "library" ∧ ofS "syntax" ≠ ofS "config" ∧ ofS "syntax" ≠ ofS "extension" ∧ ofS "syntax" ≠ ofS "ca65" := by decide
  by_cases k1 : k = ofS "library"
  · subst k1; simp [knownKeys, addItems, allWords, ne1]
  by_cases k2 : k = ofS "config"
  · subst k2; simp [knownKeys, addItems, allWords, ne2]
  by_cases k3 : k = ofS "extension"
  · subst k3; simp [knownKeys, addItems, allWords, ne3]
  by_cases k4 : k = ofS "ca65"
  · subst k4; simp [knownKeys, addItems, allWords, ne4, hw]
  by_cases k5 : k = ofS "syntax"
  · subst k5; simp [knownKeys, addItems, allWords, ne5, hw]
  · simp [knownKeys, k1, k2, k3, k4, k5]

theorem readTgt_mono {search fs} : ∀ {n : Nat} {name : Str} {t : Tgt} {r}, readTgt search fs n name t = some r → readTgt search fs (n + 1) name t = some r := by
  intro n
  induction n with
  | zero => intro name t r h; simp [readTgt] at h
  | succ n ih =>
    intro name t r h
    cases hf : fs (tgtFile search name) with
    | none => simp only [readTgt, hf] at h ⊢; exact h
    | some txt =>
      simp only [readTgt.eq_2, hf] at h ⊢
      revert h
      generalize getLines [] txt = L
      induction L generalizing t with
      | nil => exact id
      | cons l L ihL =>
        intro h
        unfold tgtLines at h ⊢
        have key : ∀ x, tgtLine (readTgt search fs n) t l = some x → tgtLine (readTgt search fs (n + 1)) t l = some x := by
          intro x hx
          unfold tgtLine at hx ⊢
          dsimp only at hx ⊢
          split_ifs at hx ⊢ <;> first | exact hx | exact ih hx
        cases hx : tgtLine (readTgt search fs n) t l with
        | none => rw [hx] at h; simp at h
        | some x =>
          rw [hx] at h
          rw [key x hx]
          cases x with
          | error e => exact h
          | ok t' => exact ihL h

theorem readTgt_le {search fs} {n m : Nat} {name : Str} {t : Tgt} {r} (h : readTgt search fs n name t = some r) (hm : n ≤ m) :
    readTgt search fs m name t = some r := by
  induction hm with
  | refl => exact h
  | step _ ih => exact readTgt_mono ih

theorem lines_mono {search fs} {n m : Nat} (hm : n ≤ m) : ∀ {L : List Str} {t : Tgt} {r}, tgtLines (readTgt search fs n) t L = some r →
    tgtLines (readTgt search fs m) t L = some r
  | [], t, r, h => h
  | l :: L, t, r, h => by
    unfold tgtLines at h ⊢
    have key : ∀ x, tgtLine (readTgt search fs n) t l = some x → tgtLine (readTgt search fs m) t l = some x := by
      intro x hx
      unfold tgtLine at hx ⊢
      dsimp only at hx ⊢
      split_ifs at hx ⊢ <;> first | exact hx | exact readTgt_le hx hm
    cases hx : tgtLine (readTgt search fs n) t l with
    | none => rw [hx] at h; simp at h
    | some x =>
      rw [hx] at h
      rw [key x hx]
      cases x with
      | error e => exact h
      | ok t' => exact lines_mono hm h

theorem incl_line {inc t l v} (h : IsItem l (ofS "include") v) : tgtLine inc t l = inc v t := by
  obtain ⟨s, h1, h2, h3, h4, h5⟩ := item_parts h
  unfold tgtLine
  simp only [h1]
  rw [if_neg (by simp [h2, h3]), h4, h5, if_pos rfl]

theorem items_run {search fs} (he : Ended fs) {L I} (h : Items search fs L I) (hk : ∀ i ∈ I, i.1 ∈ knownKeys) :
    ∀ t, ∃ n, tgtLines (readTgt search fs n) t L = some (.ok (addItems t I)) := by
  induction h with
  | nil => intro t; exact ⟨0, by simp [tgtLines, addItems_nil]⟩
  | idle hl _ ih =>
    intro t
    obtain ⟨n, hn⟩ := ih hk t
    exact ⟨n, by unfold tgtLines; rw [idle_line hl]; exact hn⟩
  | @item l r k v I hl hki _ ih =>
    intro t
    obtain ⟨n, hn⟩ := ih (fun i hi => hk i (by simp [hi])) (addItems t [(k, v)])
    refine ⟨n, ?_⟩
    unfold tgtLines
    rw [addItems_one _ t hl hki, if_pos (hk (k, v) (by simp))]
    rw [show (k, v) :: I = [(k, v)] ++ I from rfl, addItems_append]
    exact hn
  | @incl l r v txt I J hl hf _ _ ihI ihJ =>
    intro t
    obtain ⟨n, hn⟩ := ihI (fun i hi => hk i (List.mem_append_left _ hi)) t
    obtain ⟨m, hm⟩ := ihJ (fun i hi => hk i (List.mem_append_right _ hi)) (addItems t I)
    refine ⟨max (n + 1) m, ?_⟩
    unfold tgtLines
    have : readTgt search fs (n + 1) v t = some (.ok (addItems t I)) := by
      unfold readTgt
      rw [← tgtFile_eq] at hf
      simp only [hf, getLines_eq he hf]
      exact hn
    rw [incl_line hl, readTgt_le this (Nat.le_max_left _ _)]
    rw [addItems_append]
    exact lines_mono (Nat.le_max_right _ _) hm

theorem run_items {search fs} (he : Ended fs) : ∀ (n : Nat) (L : List Str) (t t' : Tgt), tgtLines (readTgt search fs n) t L = some (.ok t') →
    ∃ I, Items search fs L I ∧ (∀ i ∈ I, i.1 ∈ knownKeys) ∧ t' = addItems t I := by
  intro n
  induction n with
  | zero =>
    intro L
    induction L with
    | nil => intro t t' h; exact ⟨[], .nil, by simp, by simp [tgtLines] at h; rw [addItems_nil, h]⟩
    | cons l L ih =>
      intro t t' h
      unfold tgtLines at h
      by_cases hs : l.dropWhile blank = [] ∨ (l.dropWhile blank).head? = some 35
      · have hi : Idle l := by
          refine ⟨l.takeWhile blank, l.dropWhile blank, List.takeWhile_append_dropWhile.symm, fun c hc => List.mem_takeWhile_imp hc, ?_⟩
          rcases hs with hs | hs
          · exact .inl hs
          · cases hx : l.dropWhile blank with
            | nil => exact .inl rfl
            | cons c r => rw [hx] at hs; simp at hs; exact .inr ⟨r, by rw [hs]⟩
        rw [idle_line hi] at h
        obtain ⟨I, h1, h2, h3⟩ := ih t t' h
        exact ⟨I, .idle hi h1, h2, h3⟩
      · rw [not_or] at hs
        have hi := item_of_line rfl hs.1 hs.2
        by_cases hk : (l.dropWhile blank).takeWhile (!blank ·) = ofS "include"
        · rw [hk] at hi
          rw [incl_line hi] at h
          simp [readTgt] at h
        · rw [addItems_one _ t hi hk] at h
          split at h
          · next t1 e1 =>
            split at e1
            · next hkn =>
              cases e1
              obtain ⟨I, h1, h2, h3⟩ := ih _ t' h
              refine ⟨_ :: I, .item hi hk h1, ?_, ?_⟩
              · intro i hi'
                rcases List.mem_cons.1 hi' with rfl | hi'
                · exact hkn
                · exact h2 i hi'
              · rw [h3, ← addItems_append]; rfl
            · cases e1
          · next hx => split at hx <;> simp_all
  | succ n ihn =>
    intro L
    induction L with
    | nil => intro t t' h; exact ⟨[], .nil, by simp, by simp [tgtLines] at h; rw [addItems_nil, h]⟩
    | cons l L ih =>
      intro t t' h
      unfold tgtLines at h
      by_cases hs : l.dropWhile blank = [] ∨ (l.dropWhile blank).head? = some 35
      · have hi : Idle l := by
          refine ⟨l.takeWhile blank, l.dropWhile blank, List.takeWhile_append_dropWhile.symm, fun c hc => List.mem_takeWhile_imp hc, ?_⟩
          rcases hs with hs | hs
          · exact .inl hs
          · cases hx : l.dropWhile blank with
            | nil => exact .inl rfl
            | cons c r => rw [hx] at hs; simp at hs; exact .inr ⟨r, by rw [hs]⟩
        rw [idle_line hi] at h
        obtain ⟨I, h1, h2, h3⟩ := ih t t' h
        exact ⟨I, .idle hi h1, h2, h3⟩
      · rw [not_or] at hs
        have hi := item_of_line rfl hs.1 hs.2
        by_cases hk : (l.dropWhile blank).takeWhile (!blank ·) = ofS "include"
        · rw [hk] at hi
          rw [incl_line hi] at h
          split at h
          · next t1 e1 =>
            unfold readTgt at e1
            split at e1
            · cases e1
            · next txt hf =>
              rw [getLines_eq he hf] at e1
              obtain ⟨I, i1, i2, i3⟩ := ihn _ _ _ e1
              obtain ⟨J, j1, j2, j3⟩ := ih _ t' h
              refine ⟨I ++ J, .incl hi (by rw [← tgtFile_eq]; exact hf) i1 j1, ?_, ?_⟩
              · intro i hi'
                rcases List.mem_append.1 hi' with hi' | hi'
                · exact i2 i hi'
                · exact j2 i hi'
              · rw [j3, i3, addItems_append]
          · next hx => exact absurd h (hx t')
        · rw [addItems_one _ t hi hk] at h
          split at h
          · next t1 e1 =>
            split at e1
            · next hkn =>
              cases e1
              obtain ⟨I, h1, h2, h3⟩ := ih _ t' h
              refine ⟨_ :: I, .item hi hk h1, ?_, ?_⟩
              · intro i hi'
                rcases List.mem_cons.1 hi' with rfl | hi'
                · exact hkn
                · exact h2 i hi'
              · rw [h3, ← addItems_append]; rfl
            · cases e1
          · next hx => split at hx <;> simp_all

/-- For all files that end with an end of line: reading a target ends without error with the target `t` if and only if the file
has a list of items, all with known keys, and `t` is their meaning. Missing: files where the last line has no end of line. -/
theorem C56_target_partial (search : Str → Str) (fs : Str → Option Str) (he : Ended fs) (name : Str) (t : Tgt) :
    (∃ n, readTgt search fs n name {} = some (.ok t)) ↔
      ∃ txt I, fs (fileFor search name) = some txt ∧ Items search fs (textLines [] txt) I ∧ (∀ i ∈ I, i.1 ∈ knownKeys) ∧ t = meaning I := by
  have hm : ∀ I, addItems {} I = meaning I := by intro I; simp [addItems, meaning, lastVal]
  constructor
  · rintro ⟨n, h⟩
    cases n with
    | zero => simp [readTgt] at h
    | succ n =>
      unfold readTgt at h
      split at h
      · cases h
      · next txt hf =>
        rw [getLines_eq he hf] at h
        obtain ⟨I, h1, h2, h3⟩ := run_items he n _ _ _ h
        exact ⟨txt, I, by rw [← tgtFile_eq]; exact hf, h1, h2, by rw [h3, hm]⟩
  · rintro ⟨txt, I, hf, h1, h2, rfl⟩
    obtain ⟨n, hn⟩ := items_run he h1 h2 {}
    refine ⟨n + 1, ?_⟩
    unfold readTgt
    rw [← tgtFile_eq] at hf
    simp only [hf, getLines_eq he hf, hn, hm]

/-- If the files included by each file are below it in some order, the reading ends, with a target or with an error. -/
theorem C56_ends (search : Str → Str) (fs : Str → Option Str) (he : Ended fs) (rank : Str → Nat)
    (hr : ∀ f txt l v, fs f = some txt → l ∈ textLines [] txt → IsItem l (ofS "include") v → rank (fileFor search v) < rank f)
    (name : Str) : ∃ n r, readTgt search fs n name {} = some r := by
  have key : ∀ n name t, rank (tgtFile search name) < n → ∃ r, readTgt search fs n name t = some r := by
    intro n
    induction n with
    | zero => intro name t h; omega
    | succ n ih =>
      intro name t h
      unfold readTgt
      split
      · exact ⟨_, rfl⟩
      · next txt hf =>
        rw [getLines_eq he hf]
        have hL : ∀ l ∈ textLines [] txt, ∀ v, IsItem l (ofS "include") v → rank (tgtFile search v) < n := by
          intro l hl v hv
          have := hr _ txt l v hf hl hv
          rw [← tgtFile_eq] at this
          omega
        revert hL
        generalize textLines [] txt = L
        induction L generalizing t with
        | nil => intro _; exact ⟨_, rfl⟩
        | cons l L ihL =>
          intro hL
          have next : ∀ x, tgtLine (readTgt search fs n) t l = some x → ∃ r, tgtLines (readTgt search fs n) t (l :: L) = some r := by
            intro x hx
            unfold tgtLines
            rw [hx]
            cases x with
            | error e => exact ⟨_, rfl⟩
            | ok t' => exact ihL t' (fun l hl => hL l (by simp [hl]))
          by_cases hs : l.dropWhile blank = [] ∨ (l.dropWhile blank).head? = some 35
          · refine next (.ok t) ?_
            unfold tgtLine
            dsimp only
            rw [if_pos hs]
          · rw [not_or] at hs
            have hi := item_of_line rfl hs.1 hs.2
            by_cases hk : (l.dropWhile blank).takeWhile (!blank ·) = ofS "include"
            · rw [hk] at hi
              obtain ⟨r, hr⟩ := ih _ t (hL l (by simp) _ hi)
              exact next r (by rw [incl_line hi, hr])
            · have := addItems_one (readTgt search fs n) t hi hk
              split at this
              · exact next _ this
              · exact next _ this
  obtain ⟨r, h⟩ := key (rank (tgtFile search name) + 1) name {} (Nat.lt_succ_self _)
  exact ⟨_, r, h⟩

/-- An example for `C56_ends`: a file that includes another one. -/
example : ∃ n r, readTgt id (fun f => if f = ofS "a.tgt" then some (ofS "include b\n") else
    if f = ofS "b.tgt" then some (ofS "library x\n") else none) n (ofS "a") {} = some r := by
  refine C56_ends _ _ ?_ (fun f => if f = ofS "a.tgt" then 1 else 0) ?_ _
  · intro n txt h
    dsimp only at h
    split_ifs at h
    · exact .inr ⟨ofS "include b", by rw [← Option.some.inj h]; decide⟩
    · exact .inr ⟨ofS "library x", by rw [← Option.some.inj h]; decide⟩
  · intro f txt l v hf hl hi
    obtain ⟨s, h1, _, _, h4, h5⟩ := item_parts hi
    split_ifs at hf with c1 c2
    · rw [← Option.some.inj hf] at hl
      have e : textLines [] (ofS "include b\n") = [ofS "include b"] := by decide
      rw [e, List.mem_singleton] at hl
      subst hl
      have : v = ofS "b" := by rw [← h5, ← h1]; decide
      subst this
      rw [if_pos c1]; decide
    · rw [← Option.some.inj hf] at hl
      have e : textLines [] (ofS "library x\n") = [ofS "library x"] := by decide
      rw [e, List.mem_singleton] at hl
      subst hl
      rw [← h1] at h4
      exact absurd h4 (by decide)

/-- The files of the default target: `/repo/compiler/default.tgt`, `/repo/compiler/atari-fp.tgt` and `/repo/compiler/a800.tgt`. -/
def shippedFs (f : Str) : Option Str :=
  if f = ofS "default.tgt" then some (ofS "# Default target: atari-fp\ninclude atari-fp\n")
  else if f = ofS "atari-fp.tgt" then some (ofS "# Atari 8-bit computer, with floating point\ninclude a800\nsyntax float.syn fujinet.syn\nlibrary fastbasic-fp.lib\nextension .xex\n")
  else if f = ofS "a800.tgt" then some (ofS "# Atari 8-bit computers, base file\nsyntax a800.syn basic.syn dli.syn fileio.syn pm.syn graphics.syn sound.syn extended.syn sio.syn\nconfig fastbasic.cfg\nca65 -tatari\nlibrary fastbasic-int.lib\nextension .xex\n")
  else none

set_option maxRecDepth 20000 in
/-- An example: the files meet the condition, and the default target is read. -/
example : Ended shippedFs := by
  intro n txt h
  have ends : ∀ s : Str, s.getLast? = some 10 → s = [] ∨ ∃ t, s = t ++ [10] := by
    intro s hs
    right
    obtain ⟨t, ht⟩ := List.getLast?_eq_some_iff.1 hs
    exact ⟨t, ht⟩
  unfold shippedFs at h
  split_ifs at h
  · rw [← Option.some.inj h]; exact ends _ (by decide)
  · rw [← Option.some.inj h]; exact ends _ (by decide)
  · rw [← Option.some.inj h]; exact ends _ (by decide)

set_option maxRecDepth 20000 in
example : readTgt id shippedFs 3 [] {} = some (.ok
    { slist := ["a800.syn", "basic.syn", "dli.syn", "fileio.syn", "pm.syn", "graphics.syn", "sound.syn", "extended.syn", "sio.syn", "float.syn", "fujinet.syn"].map ofS
      ca65 := [ofS "-tatari"], lib := ofS "fastbasic-fp.lib", cfg := ofS "fastbasic.cfg", ext := ofS ".xex" }) := by decide

/-- A last line without end of line is ignored, without an error. -/
theorem C56_last_line_refuted :
    readTgt id (fun f => if f = ofS "my.tgt" then some (ofS "library a.lib\nextension .rom") else none) 1 (ofS "my") {} =
      some (.ok { lib := ofS "a.lib" }) ∧
    textLines [] (ofS "library a.lib\nextension .rom") = [ofS "library a.lib", ofS "extension .rom"] := by
  constructor <;> decide

/-- Blanks at the end of a line are part of the value: with lines that end in CR and LF the name of the library ends in CR. -/
theorem C56_blanks_refuted :
    readTgt id (fun f => if f = ofS "my.tgt" then some (ofS "library a.lib\r\n") else none) 1 (ofS "my") {} = some (.ok { lib := ofS "a.lib\r" }) := by
  decide

/-- A file that includes itself: the calls never end. -/
theorem C56_cycle_refuted (n : Nat) (t : Tgt) :
    readTgt id (fun f => if f = ofS "my.tgt" then some (ofS "include my\n") else none) n (ofS "my") t = none := by
  induction n with
  | zero => rfl
  | succ n ih =>
    unfold readTgt
    have e1 : tgtFile id (ofS "my") = ofS "my.tgt" := by decide
    have e2 : getLines [] (ofS "include my\n") = [ofS "include my"] := by decide
    rw [e1, if_pos rfl]
    simp only [e2]
    unfold tgtLines
    have hi : IsItem (ofS "include my") (ofS "include") (ofS "my") :=
      ⟨[], [32], by decide, by decide, by decide, by decide, by decide, by decide, by decide, by
        intro c hc
        have : c = 109 := by
          have e : (ofS "my").head? = some 109 := by decide
          rw [e] at hc; cases hc; rfl
        subst this; decide⟩
    rw [incl_line hi, ih]

end FB.Drv
