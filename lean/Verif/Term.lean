import Verif.Safety
import Mathlib.Logic.Relation
import Mathlib.Data.Finset.Card
import Mathlib.Data.Finset.Filter
import Mathlib.Order.WellFounded
import Mathlib.Data.Prod.Lex
/-!
The rounds of the optimizer: what every round makes smaller.

A round either lowers `weight`, or keeps it and lowers `nu`, or changes nothing but the targets of jumps.
-/
namespace FB
open Peep

/-- Second measure of an item: what the rules that keep the length of the code remove.  Not in the source:
the loop there has no measure. -/
def nu1 : Codew → Nat
  | .tok .SUB => 1
  | .tok .L_NOT => 1
  | .word w => if 255 < w.toInt then 1 else 0
  | _ => 0

def nu (c : List Codew) : Nat := (c.map nu1).sum

theorem nu_cons (a : Codew) (c : List Codew) : nu (a :: c) = nu1 a + nu c := by simp [nu]
theorem nu_append (a c : List Codew) : nu (a ++ c) = nu a + nu c := by simp [nu]
theorem weight_append (a c : List Codew) : weight (a ++ c) = weight a + weight c := by simp [weight]

/-- Nothing changed, or one of the measures is lower. -/
def Dn (c : List Codew) (ch : Bool) (c' : List Codew) (ch' : Bool) : Prop :=
  (c' = c ∧ ch' = ch) ∨ weight c' < weight c ∨ (weight c' = weight c ∧ nu c' < nu c)

/-- What `loop_rel` needs of a relation between the code before and after an edit. -/
structure EdRel (R : List Codew → Bool → List Codew → Bool → Prop) : Prop where
  refl : ∀ c ch, R c ch c ch
  trans : ∀ {a x b y c z}, R a x b y → R b y c z → R a x c z
  app : ∀ {a x b y} acc, R a x b y → R (acc ++ a) x (acc ++ b) y

theorem Dn.rel : EdRel Dn where
  refl _ _ := .inl ⟨rfl, rfl⟩
  trans := by
    rintro a x b y c z (⟨rfl, rfl⟩ | h) h2
    · exact h2
    · rcases h2 with ⟨rfl, rfl⟩ | h2
      · exact .inr h
      · refine .inr ?_; omega
  app := by
    rintro a x b y acc (⟨rfl, rfl⟩ | h)
    · exact .inl ⟨rfl, rfl⟩
    · refine .inr ?_; simp only [weight_append, nu_append]; omega

theorem loop_rel {σ : Type} {body : σ → Ed → σ × Ed × Nat} {R : List Codew → Bool → List Codew → Bool → Prop} (hR : EdRel R)
    (G : List Codew → Prop) (hs : ∀ x c, G (x ++ c) → G c)
    (hG : ∀ s acc c ch ub, G (acc ++ c) → c ≠ [] → G (acc ++ (body s ⟨c, ch, ub⟩).2.1.code))
    (hb : ∀ s c ch ub, G c → c ≠ [] → R c ch (body s ⟨c, ch, ub⟩).2.1.code (body s ⟨c, ch, ub⟩).2.1.changed) :
    ∀ (s : σ) (acc : List Codew) (e : Ed), G (acc ++ e.code) →
      R (acc ++ e.code) e.changed (loop body s acc e).code (loop body s acc e).changed := by
  intro s acc e
  induction s, acc, e using loop.induct (body := body) with
  | case1 s acc e h =>
    intro hg
    unfold loop
    simp only [h, List.append_nil, ↓reduceIte]
    exact hR.refl _ _
  | case2 s acc e h r hr ih =>
    intro hg
    rcases e with ⟨c, ch, ub⟩
    rw [loop]
    have h6 : acc ++ (r.2.1.code.take r.2.2) ++ r.2.1.code.drop r.2.2 = acc ++ r.2.1.code := by simp
    have ih := ih (by simp only [h6]; exact hG s acc c ch ub hg h)
    simp only [h6] at ih
    rw [if_neg h, dif_pos hr]
    exact hR.trans (hR.app acc (hb s c ch ub (hs _ _ hg) h)) ih
  | case3 s acc e h r hr =>
    intro hg
    rcases e with ⟨c, ch, ub⟩
    rw [loop]
    rw [if_neg h, dif_neg hr]
    exact hR.app acc (hb s c ch ub (hs _ _ hg) h)

/-! ## The rules -/

/-- A rule changes nothing or lowers a measure. -/
def RD (r : Rule) : Prop := ∀ c ch ub, r.guard c = true → wf c = true →
  Dn c ch (r.edit ⟨c, ch, ub⟩).code (r.edit ⟨c, ch, ub⟩).changed

theorem RSwf.down {r : Rule} (h : RSwf r) (ha : r.after = .again) : RD r := fun c ch ub hg hw => by
  obtain ⟨c', ch', he, _, hk⟩ := h c ch ub hg hw
  rw [he]
  simp only [ha, if_true] at hk
  exact .inr (.inl hk)

theorem w_del_lt {e : Ed} {n : Nat} (h : n < e.code.length) : weight (e.del n).code < weight e.code := by
  unfold Ed.del
  rw [if_pos h]
  simp only
  generalize e.code = c at h
  induction c generalizing n with
  | nil => simp at h
  | cons a c ih =>
    have := weight1_pos a
    cases n with
    | zero => simp [weight_cons, this]
    | succ n => simp only [List.eraseIdx_cons_succ, weight_cons]; have := ih (n := n) (by simpa using h); omega

theorem w_del (e : Ed) (n : Nat) : weight (e.del n).code ≤ weight e.code := by
  by_cases h : n < e.code.length
  · exact Nat.le_of_lt (w_del_lt h)
  · simp [Ed.del, h]

theorem len_del {e : Ed} {k n : Nat} (h : k < n) (hk : k < e.code.length) : k < (e.del n).code.length := by
  unfold Ed.del
  split
  · simp only [List.length_eraseIdx]; split <;> omega
  · exact hk

theorem w_set (e : Ed) (n : Nat) {x : Codew} (hx : weight1 x = 1) : weight (e.set n x).code ≤ weight e.code := by
  unfold Ed.set
  split
  · simp only
    generalize e.code = c
    induction c generalizing n with
    | nil => simp
    | cons a c ih =>
      have := weight1_pos a
      cases n with
      | zero => simp only [List.set_cons_zero, weight_cons]; omega
      | succ n => simp only [List.set_cons_succ, weight_cons]; have := ih n; omega
  · exact Nat.le_refl _

theorem len_set (e : Ed) (n : Nat) (x : Codew) : (e.set n x).code.length = e.code.length := by
  unfold Ed.set; split <;> simp

theorem len_tok {n : Nat} {t : Tok} {c : List Codew} (h : mtok n t c = true) : n < c.length := by
  rw [mtok_iff] at h; exact (List.getElem?_eq_some_iff.1 h).1

theorem len_label {n : Nat} {c : List Codew} (h : mlabel n c = true) : n < c.length := by
  rw [mlabel_iff] at h; obtain ⟨w, h⟩ := h; exact (List.getElem?_eq_some_iff.1 h).1

theorem down_set1 {r : Rule} (i : Nat) (T : Tok) (j : Nat) (he : ∀ e, r.edit e = (e.setTok i T).del j)
    (hT : weight1 (.tok T) = 1) (hg : ∀ c, r.guard c = true → j < c.length) : RD r := fun c ch ub h _ => by
  rw [he]
  exact .inr (.inl (Nat.lt_of_lt_of_le (w_del_lt (by rw [Ed.setTok, len_set]; exact hg c h)) (w_set _ _ hT)))

theorem down_set2 {r : Rule} (i : Nat) (T : Tok) (j k : Nat) (he : ∀ e, r.edit e = ((e.setTok i T).del j).del k)
    (hT : weight1 (.tok T) = 1) (hg : ∀ c, r.guard c = true → j < c.length) : RD r := fun c ch ub h _ => by
  rw [he]
  exact .inr (.inl (Nat.lt_of_le_of_lt (w_del _ _) (Nat.lt_of_lt_of_le (w_del_lt (by rw [Ed.setTok, len_set]; exact hg c h)) (w_set _ _ hT))))

theorem down_del {r : Rule} (j : Nat) (he : ∀ e, r.edit e = e.del j) : RD r := fun c ch ub _ _ => by
  rw [he]
  by_cases h : j < c.length
  · exact .inr (.inl (w_del_lt h))
  · simp [Ed.del, h, Dn]

/-- Find the test of the last item of a rule. -/
macro "guard_len" : tactic => `(tactic| (intro c h; simp only [rNotNot, rEqNot, rNeqNot, rCallRet, rNotCjump, rNotCnjump, rCjumpJump,
  rCjumpRet, rCnjumpJump, rCnjumpRet, rNotCret, rNotCnret, rChrPrint, Bool.and_eq_true] at h; first
  | exact len_tok h.2
  | (have := len_tok h.2; omega)
  | (have := len_label h.1.2; omega)
  | (have := len_label h.2; omega)))

theorem rNotNot_down : RD rNotNot := down_set1 0 .COMP_0 1 (fun _ => rfl) rfl (by guard_len)
theorem rEqNot_down : RD rEqNot := down_set1 0 .NEQ 1 (fun _ => rfl) rfl (by guard_len)
theorem rNeqNot_down : RD rNeqNot := down_set1 0 .EQ 1 (fun _ => rfl) rfl (by guard_len)
theorem rBoolComp_down : RD rBoolComp := down_del 1 fun _ => rfl
theorem rCallRet_down : RD rCallRet := down_set1 0 .JUMP 2 (fun _ => rfl) rfl (by guard_len)
theorem rNotCjump_down : RD rNotCjump := down_set1 1 .CNJUMP 0 (fun _ => rfl) rfl (by guard_len)
theorem rNotCnjump_down : RD rNotCnjump := down_set1 1 .CJUMP 0 (fun _ => rfl) rfl (by guard_len)
theorem rCjumpJump_down : RD rCjumpJump := down_set2 2 .CNJUMP 1 0 (fun _ => rfl) rfl (by guard_len)
theorem rCjumpRet_down : RD rCjumpRet := down_set2 2 .CNRET 1 0 (fun _ => rfl) rfl (by guard_len)
theorem rCnjumpJump_down : RD rCnjumpJump := down_set2 2 .CJUMP 1 0 (fun _ => rfl) rfl (by guard_len)
theorem rCnjumpRet_down : RD rCnjumpRet := down_set2 2 .CRET 1 0 (fun _ => rfl) rfl (by guard_len)
theorem rNotCret_down : RD rNotCret := down_set1 1 .CNRET 0 (fun _ => rfl) rfl (by guard_len)
theorem rNotCnret_down : RD rNotCnret := down_set1 1 .CRET 0 (fun _ => rfl) rfl (by guard_len)
theorem rDeadJump_down : RD rDeadJump := down_del 2 fun _ => rfl
theorem rDeadRet_down : RD rDeadRet := down_del 1 fun _ => rfl
theorem rChrPrint_down : RD rChrPrint := down_set1 0 .PUT 1 (fun _ => rfl) rfl (by guard_len)

theorem rJumpNext_down : RD rJumpNext := fun c ch ub h _ => by
  have h1 : 1 < c.length := by
    simp only [rJumpNext, Bool.and_eq_true] at h; have := len_label h.1.2; omega
  exact .inr (.inl (Nat.lt_of_le_of_lt (w_del _ _) (w_del_lt h1)))

theorem rNumComp_down : RD rNumComp := fun c ch ub h _ => by
  have h1 : 2 < c.length := by
    simp only [rNumComp, Bool.and_eq_true] at h; exact len_tok h.2
  exact .inr (.inl (Nat.lt_of_lt_of_le (w_del_lt (by rw [Ed.setW, len_set]; exact h1)) (w_set _ _ rfl)))

/-- The edits of the two rules for tests of constants. -/
theorem down_test {c : List Codew} {ch ub : Bool} (h : 2 < c.length) (b : Bool) :
    Dn c ch (if b = true then ((((⟨c, ch, ub⟩ : Ed).del 3).del 2).del 1).del 0 else (((⟨c, ch, ub⟩ : Ed).setTok 2 .JUMP).del 1).del 0).code
      (if b = true then ((((⟨c, ch, ub⟩ : Ed).del 3).del 2).del 1).del 0 else (((⟨c, ch, ub⟩ : Ed).setTok 2 .JUMP).del 1).del 0).changed := by
  cases b
  · refine .inr (.inl ?_)
    simp only [Bool.false_eq_true, if_false]
    exact Nat.lt_of_le_of_lt (w_del _ _) (Nat.lt_of_lt_of_le (w_del_lt (by rw [Ed.setTok, len_set]; simp only; omega)) (w_set _ _ rfl))
  · refine .inr (.inl ?_)
    simp only [if_true]
    exact Nat.lt_of_le_of_lt (w_del _ _) (Nat.lt_of_le_of_lt (w_del _ _)
      (Nat.lt_of_lt_of_le (w_del_lt (len_del (by omega) h)) (w_del _ _)))

theorem rNumCnjump_down : RD rNumCnjump := fun c ch ub h _ => by
  have h1 : 2 < c.length := by simp only [rNumCnjump, Bool.and_eq_true] at h; exact len_tok h.2
  have := down_test (ch := ch) (ub := ub) h1 (decide (Ed.val ⟨c, ch, ub⟩ 1 = 0))
  simp only [decide_eq_true_eq] at this
  exact this

theorem rNumCjump_down : RD rNumCjump := fun c ch ub h _ => by
  have h1 : 2 < c.length := by simp only [rNumCjump, Bool.and_eq_true] at h; exact len_tok h.2
  have := down_test (ch := ch) (ub := ub) h1 (decide (Ed.val ⟨c, ch, ub⟩ 1 ≠ 0))
  simp only [decide_eq_true_eq] at this
  exact this

/-- A window of the code that is replaced. -/
theorem Dn.win {L R post : List Codew} {ch : Bool} (h : weight R < weight L ∨ (weight R = weight L ∧ nu R < nu L)) :
    Dn (L ++ post) ch (R ++ post) true := by
  refine .inr ?_
  simp only [weight_append, nu_append]; omega

theorem rSubSub_down : RD rSubSub := by
  intro c ch ub hg hw
  simp only [rSubSub] at hg ⊢
  uncons c, a0, hg
  uncons c, a1, hg
  rcases c with _ | ⟨a2, c⟩
  · simp [mtok_iff] at hg
  rcases c with _ | ⟨a3, c⟩
  · simp [mtok_iff] at hg
  rcases c with _ | ⟨a4, c⟩
  · simp [mtok_iff] at hg
  rcases c with _ | ⟨a5, c⟩
  · simp [mtok_iff] at hg
  rcases c with _ | ⟨a6, c⟩
  · simp [mtok_iff] at hg
  rcases c with _ | ⟨a7, c⟩
  · simp [mtok_iff] at hg
  guards hg
  obtain ⟨⟨⟨⟨⟨rfl, h1⟩, rfl⟩, rfl⟩, h5⟩, rfl⟩ := hg
  refine .inr (.inr ?_)
  simp [Ed.insTok, Ed.ins, Ed.del, weight_cons, nu_cons, weight1, nu1]
  omega

theorem rStrIdx_down : RD rStrIdx := by
  intro c ch ub hg hw
  simp only [rStrIdx] at hg ⊢
  uncons c, a0, hg
  uncons c, a1, hg
  uncons c, a2, hg
  guards hg
  obtain ⟨⟨⟨rfl, w, rfl⟩, rfl⟩, hv⟩ := hg
  replace hv : 255 < w.toInt := by first | exact hv | exact of_decide_eq_true hv
  refine .inr (.inr ?_)
  simp [Ed.setW, Ed.set, weight_cons, nu_cons, weight1, nu1, hv]

theorem rGtNot_down (fx : Fix) : RD (rGtNot fx) := by
  intro c ch ub hg hw
  simp only [rGtNot] at hg ⊢
  uncons c, a0, hg
  uncons c, a1, hg
  uncons c, a2, hg
  uncons c, a3, hg
  guards hg
  obtain ⟨⟨⟨rfl, w, rfl⟩, rfl⟩, rfl⟩ := hg
  by_cases hm : w.toInt = fx.gtMax
  · refine .inr (.inr ?_)
    simp [Ed.val, val, hm, alwaysTrue, Ed.setTok, Ed.setW, Ed.set, weight_cons, nu_cons, weight1, nu1]
    split <;> omega
  · refine .inr (.inl ?_)
    simp [Ed.val, val, hm, Ed.setTok, Ed.setW, Ed.set, Ed.del, weight_cons, weight1]

theorem rLtNot_down : RD rLtNot := by
  intro c ch ub hg hw
  simp only [rLtNot] at hg ⊢
  uncons c, a0, hg
  uncons c, a1, hg
  uncons c, a2, hg
  uncons c, a3, hg
  guards hg
  obtain ⟨⟨⟨rfl, w, rfl⟩, rfl⟩, rfl⟩ := hg
  by_cases hm : w.toInt = -32768
  · refine .inr (.inr ?_)
    simp [Ed.val, val, hm, alwaysTrue, Ed.setTok, Ed.setW, Ed.set, weight_cons, nu_cons, weight1, nu1]
  · refine .inr (.inl ?_)
    simp [Ed.val, val, hm, Ed.setTok, Ed.setW, Ed.set, Ed.del, weight_cons, weight1]

theorem rJoinPut_down (pc : Int) : RD (rJoinPut pc) := by
  intro c ch ub hg hw
  simp only [rJoinPut] at hg ⊢
  uncons c, a0, hg
  uncons c, a1, hg
  uncons c, a2, hg
  uncons c, a3, hg
  uncons c, a4, hg
  uncons c, a5, hg
  guards hg
  obtain ⟨⟨⟨⟨⟨⟨rfl, hl⟩, rfl⟩, rfl⟩, w, rfl⟩, rfl⟩, _⟩ := hg
  obtain ⟨s1, rfl⟩ : ∃ s, a1 = .str s := by cases a1 <;> simp [mstring] at hl <;> try omega
                                            exact ⟨_, rfl⟩
  refine .inr (.inl ?_)
  simp [Ed.setString, Ed.set, Ed.del, weight_cons, weight1]; omega

theorem rJoinBytePut_down (pc : Int) : RD (rJoinBytePut pc) := by
  intro c ch ub hg hw
  simp only [rJoinBytePut] at hg ⊢
  uncons c, a0, hg
  uncons c, a1, hg
  uncons c, a2, hg
  uncons c, a3, hg
  rcases c with _ | ⟨a4, c⟩
  · simp [mbyte_iff, mword_iff] at hg
  guards hg
  obtain ⟨⟨⟨⟨⟨rfl, hl⟩, rfl⟩, rfl⟩, hb⟩, _⟩ := hg
  obtain ⟨s1, rfl⟩ : ∃ s, a1 = .str s := by cases a1 <;> simp [mstring] at hl <;> try omega
                                            exact ⟨_, rfl⟩
  refine .inr (.inl ?_)
  simp [Ed.setString, Ed.set, Ed.del, weight_cons, weight1]; omega

theorem rJoinStr_down : RD rJoinStr := by
  intro c ch ub hg hw
  simp only [rJoinStr] at hg ⊢
  uncons c, a0, hg
  uncons c, a1, hg
  uncons c, a2, hg
  uncons c, a3, hg
  uncons c, a4, hg
  uncons c, a5, hg
  guards hg
  obtain ⟨⟨⟨⟨rfl, rfl⟩, rfl⟩, rfl⟩, hl⟩ := hg
  obtain ⟨s1, rfl⟩ : ∃ s, a1 = .str s := by cases a1 <;> simp [mstring] at hl <;> try omega
                                            exact ⟨_, rfl⟩
  refine .inr (.inl ?_)
  simp [Ed.setString, Ed.set, Ed.del, weight_cons, weight1]; omega

theorem mainRules_down (fx : Fix) (pc : Int) : ∀ r ∈ mainRules fx pc, RD r := by
  have hw := mainRules_wf fx pc
  intro r hr
  by_cases ha : r.after = .again
  · exact (hw r hr).down ha
  · revert ha
    revert r
    simp only [mainRules, List.forall_mem_cons]
    refine ⟨?_, ?_, ?_, ?_, ?_, ?_, ?_, ?_, ?_, ?_, ?_, ?_, ?_, ?_, ?_, ?_, ?_, ?_, ?_, ?_, ?_, ?_, ?_, ?_, ?_, ?_, ?_, ?_, ?_, ?_, ?_, ?_, ?_, ?_,
      fun _ => rSubSub_down, ?_, ?_, ?_, ?_, ?_, ?_, ?_, ?_, ?_, ?_, ?_, ?_, ?_, fun _ => rNotNot_down, fun _ => rEqNot_down, fun _ => rNeqNot_down,
      fun _ => rBoolComp_down, fun _ => rGtNot_down fx, fun _ => rStrIdx_down, fun _ => rLtNot_down, fun _ => rNumComp_down,
      fun _ => rNumCnjump_down, fun _ => rNumCjump_down, fun _ => rCallRet_down, fun _ => rNotCjump_down, fun _ => rNotCnjump_down,
      fun _ => rCjumpJump_down, fun _ => rCjumpRet_down, fun _ => rCnjumpJump_down, fun _ => rCnjumpRet_down, fun _ => rNotCret_down,
      fun _ => rNotCnret_down, fun _ => rJumpNext_down, fun _ => rDeadJump_down, fun _ => rDeadRet_down, fun _ => rChrPrint_down,
      fun _ => rJoinPut_down pc, fun _ => rJoinBytePut_down pc, fun _ => rJoinStr_down, fun r hr => nomatch hr⟩ <;>
    exact fun ha => absurd rfl ha

theorem runRules_down : ∀ (rs : List Rule), (∀ r ∈ rs, RSwf r) → (∀ r ∈ rs, RD r) → ∀ c ch ub, Wf c →
    Dn c ch (runRules rs ⟨c, ch, ub⟩).1.code (runRules rs ⟨c, ch, ub⟩).1.changed := by
  intro rs
  induction rs with
  | nil => intro _ _ c ch ub _; exact .inl ⟨rfl, rfl⟩
  | cons r rs ih =>
    intro hrs hds c ch ub hg
    have ih := ih (fun r hr => hrs r (List.mem_cons_of_mem _ hr)) (fun r hr => hds r (List.mem_cons_of_mem _ hr))
    unfold runRules
    by_cases hgd : r.guard c = true
    · have hd := hds r (List.mem_cons_self ..) c ch ub hgd hg.ops
      obtain ⟨c', ch', he, hok, hw⟩ := hrs r (List.mem_cons_self ..) c ch ub hgd hg.ops
      simp only [hgd, if_true, he] at hd ⊢
      rcases hr : r.after with _ | _ | _
      · exact hd
      · exact hd
      · exact Dn.rel.trans hd (ih c' ch' ub (hok [] hg).1)
    · simp only [hgd]
      exact ih c ch ub hg

theorem mainBody_down (fx : Fix) (s : Int) (c : List Codew) (ch ub : Bool) (hg : Wf c) :
    Dn c ch (mainBody fx s ⟨c, ch, ub⟩).2.1.code (mainBody fx s ⟨c, ch, ub⟩).2.1.changed := by
  unfold mainBody
  split
  · rename_i hr
    exact (rColor_wf s).down rfl c ch ub hr hg.ops
  · exact runRules_down _ (mainRules_wf fx _) (mainRules_down fx _) c ch ub hg

theorem main_down (fx : Fix) (e : Ed) (hg : Wf e.code) :
    Dn e.code e.changed (loop (mainBody fx) 0 [] e).code (loop (mainBody fx) 0 [] e).changed :=
  loop_rel Dn.rel Wf (fun _ _ h => h.suffix)
    (fun s acc c ch ub h hc => ((mainBody_wf fx s c ch ub trivial h.suffix hc).2.2.1 acc h).1)
    (fun s c ch ub h _ => mainBody_down fx s c ch ub h) 0 [] e hg

/-! ## The other passes -/

theorem removeLabels_down (e : Ed) : Dn e.code e.changed (removeUnusedLabels e).code (removeUnusedLabels e).changed :=
  loop_rel Dn.rel (fun _ => True) (fun _ _ h => h) (fun _ _ _ _ _ _ _ => trivial)
    (fun s c ch ub _ hc => by
      unfold removeLabelsBody
      split
      · refine .inr (.inl (w_del_lt ?_))
        exact List.length_pos_iff.2 hc
      · exact .inl ⟨rfl, rfl⟩) () [] e trivial

theorem traceIochn_down (e : Ed) : Dn e.code e.changed (traceIochn e).code (traceIochn e).changed :=
  loop_rel Dn.rel (fun _ => True) (fun _ _ h => h) (fun _ _ _ _ _ _ _ => trivial)
    (fun s c ch ub _ hc => by
      have hd : mtok 2 .IOCHN c = true → Dn c ch (((⟨c, ch, ub⟩ : Ed).del 2).del 1 |>.del 0).code (((⟨c, ch, ub⟩ : Ed).del 2).del 1 |>.del 0).changed :=
        fun h => .inr (.inl (Nat.lt_of_le_of_lt (w_del _ _) (Nat.lt_of_le_of_lt (w_del _ _) (w_del_lt (len_tok h)))))
      unfold traceIochnBody
      simp only
      split
      · exact .inl ⟨rfl, rfl⟩
      · split
        · rename_i h
          simp only [Bool.and_eq_true] at h
          split
          · exact hd h.2
          · exact .inl ⟨rfl, rfl⟩
        · split
          · exact .inl ⟨rfl, rfl⟩
          · split
            · rename_i h
              simp only [Bool.and_eq_true] at h
              exact hd h.1.1.1.2
            · exact .inl ⟨rfl, rfl⟩) 0 [] e trivial

end FB
