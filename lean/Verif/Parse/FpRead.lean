import Verif.Parse.Fp
import Verif.Parse.Items

/-!
# Reading of floating point literals

A literal is a sign, digits with a point, and an exponent (`Lit`). `eNumberFp_lit`: the action that reads numbers reads any
literal, and passes to the conversion its sign, digits and exponent.
-/

namespace FB.Parse

open PS Frame

/-- Only decimal digits. -/
def Digits (a : Str) : Prop := ∀ c ∈ a, 48 ≤ c ∧ c ≤ 57

/-- The number written with some digits. -/
def decNum (a : Str) : Nat := a.foldl (fun n c => n * 10 + (c - 48)) 0

/-- A floating point literal: a sign, digits, a point, digits, and an exponent with its sign and digits. -/
structure Lit where
  neg : Bool
  a : Str
  dot : Bool
  b : Str
  ex : Option (Str × Str)

/-- The text of the digits of a literal. -/
def Lit.digs (l : Lit) : Str := l.a ++ if l.dot then 46 :: l.b else []

/-- The text of the exponent. -/
def Lit.exText (l : Lit) : Str := match l.ex with
  | none => []
  | some (sg, d) => 69 :: (sg ++ d)

/-- The text of a literal. -/
def Lit.text (l : Lit) : Str := (if l.neg then [45] else []) ++ l.digs ++ l.exText

/-- The exponent. -/
def Lit.exp (l : Lit) : Int := match l.ex with
  | none => 0
  | some (sg, d) => if sg = [45] then -(decNum d : Int) else decNum d

/-- The parts are what they should: at least one digit, and one or two digits in the exponent. -/
structure Lit.Ok (l : Lit) : Prop where
  a : Digits l.a
  b : Digits l.b
  nb : l.dot = false → l.b = []
  ne : l.a ++ l.b ≠ []
  ex : ∀ sg d, l.ex = some (sg, d) → (sg = [] ∨ sg = [43] ∨ sg = [45]) ∧ Digits d ∧ (d.length = 1 ∨ d.length = 2)

/-- What follows a literal: not a digit, a point or the letter `E`. -/
def After (rest : Str) : Prop := ∀ c, rest.head? = some c → ¬ (48 ≤ c ∧ c ≤ 57) ∧ c ≠ 46 ∧ c ≠ 69 ∧ c ≠ 101

theorem fpDigits_app {ds rest : Str} (h1 : ∀ c ∈ ds, (48 ≤ c ∧ c ≤ 57) ∨ c = 46)
    (h2 : ∀ c, rest.head? = some c → ¬ ((48 ≤ c ∧ c ≤ 57) ∨ c = 46)) : fpDigits (ds ++ rest) = ds := by
  induction ds with
  | nil =>
    cases rest with
    | nil => rfl
    | cons c r => simp only [List.nil_append, fpDigits]; rw [if_neg (h2 c rfl)]
  | cons c ds ih =>
    simp only [List.cons_append, fpDigits]
    rw [if_pos (h1 c (List.mem_cons_self ..)), ih fun d hd => h1 d (List.mem_cons_of_mem _ hd)]

theorem digs_mem {l : Lit} (h : l.Ok) : ∀ c ∈ l.digs, (48 ≤ c ∧ c ≤ 57) ∨ c = 46 := by
  intro c hc
  unfold Lit.digs at hc
  rcases List.mem_append.1 hc with hc | hc
  · exact .inl (h.a c hc)
  · split at hc
    · rcases List.mem_cons.1 hc with rfl | hc
      · exact .inr rfl
      · exact .inl (h.b c hc)
    · cases hc

theorem foldl_digs (b : Str) (n : Nat) (h : Digits b) :
    b.foldl (fun n c => if c = 46 then n else n * 10 + (c - 48)) n = b.foldl (fun n c => n * 10 + (c - 48)) n := by
  induction b generalizing n with
  | nil => rfl
  | cons c b ih =>
    have hc := h c (List.mem_cons_self ..)
    simp only [List.foldl_cons]
    rw [if_neg (by omega), ih _ fun d hd => h d (List.mem_cons_of_mem _ hd)]

theorem fpNum_digs {l : Lit} (h : l.Ok) : fpNum l.digs = decNum (l.a ++ l.b) := by
  unfold fpNum decNum Lit.digs
  rw [List.foldl_append, List.foldl_append, foldl_digs _ _ h.a]
  cases hd : l.dot
  · rw [h.nb hd]; rfl
  · simp only [if_true, List.foldl_cons]
    rw [foldl_digs _ _ h.b]

theorem fpDot_digs {l : Lit} (h : l.Ok) : fpDot l.digs = l.b.length := by
  unfold fpDot Lit.digs
  cases hd : l.dot
  · simp only [Bool.false_eq_true, if_false, List.append_nil, h.nb hd]
    rw [if_neg fun hm => by have := h.a _ hm; omega]
    rfl
  · rw [if_pos (by simp)]
    simp only [if_true, List.reverse_append, List.reverse_cons, List.append_assoc, List.cons_append, List.nil_append]
    have : ∀ (b r : Str), (∀ c ∈ b, 48 ≤ c ∧ c ≤ 57) → (b ++ 46 :: r).takeWhile (· ≠ 46) = b := by
      intro b r hb
      induction b with
      | nil => simp
      | cons c b ih =>
        have hc := hb c (List.mem_cons_self ..)
        have hc' : c ≠ 46 := by omega
        have := ih fun d hd => hb d (List.mem_cons_of_mem _ hd)
        simp only [List.cons_append, List.takeWhile_cons]
        simpa [hc'] using this
    rw [this _ _ fun c hc => h.b c (List.mem_reverse.1 hc), List.length_reverse]

theorem digs_all {l : Lit} (h : l.Ok) : l.digs.all (· == 46) = false := by
  have : ∃ c ∈ l.digs, c ≠ 46 := by
    unfold Lit.digs
    cases ha : l.a with
    | cons c a =>
      refine ⟨c, by simp, ?_⟩
      have := h.a c (by rw [ha]; exact List.mem_cons_self ..)
      omega
    | nil =>
      cases hb : l.b with
      | nil => exact absurd (by rw [ha, hb]; rfl) h.ne
      | cons c b =>
        have hd : l.dot = true := by
          cases hd : l.dot
          · have := h.nb hd; rw [hb] at this; cases this
          · rfl
        refine ⟨c, by simp [hd], ?_⟩
        have := h.b c (by rw [hb]; exact List.mem_cons_self ..)
        omega
  obtain ⟨c, hc, h'⟩ := this
  rw [List.all_eq_false]
  exact ⟨c, hc, by simpa using h'⟩

theorem cur_drop (s : PS) : s.cur = (s.str.drop s.pos).head? := by
  unfold PS.cur
  rw [List.head?_drop]

theorem expect_yes {s : PS} {c : Nat} {r : Str} (h : s.str.drop s.pos = c :: r) (hc : up c = c) : s.expect c = (true, s.adv) := by
  unfold PS.expect
  rw [cur_drop, h]
  simp [hc]

theorem expect_no {s : PS} {c : Nat} {r : Str} (h : s.str.drop s.pos = r) (hr : ∀ d, r.head? = some d → up d ≠ up c)
    (h1 : up c ≠ 41) (h2 : up c ≠ 93) : s.expect c = (false, s) := by
  unfold PS.expect
  rw [cur_drop, h, if_neg, if_neg h1, if_neg h2]
  intro e
  cases hh : r.head? with
  | none => rw [hh] at e; cases e
  | some d => rw [hh] at e; simp only [Option.map_some, Option.some.injEq] at e; exact hr d hh e

theorem adv_drop {s : PS} {c : Nat} {r : Str} (h : s.str.drop s.pos = c :: r) : s.adv.str.drop s.adv.pos = r := by
  show s.str.drop (s.pos + 1) = r
  rw [← List.drop_drop, h]
  rfl

theorem digitAt_yes {s : PS} {c : Nat} {r : Str} (h : s.str.drop s.pos = c :: r) (hc : 48 ≤ c ∧ c ≤ 57) :
    digitAt s = some (c - 48) := by
  unfold digitAt
  rw [cur_drop, h]
  simp [decVal, hc]

theorem digitAt_no {s : PS} {r : Str} (h : s.str.drop s.pos = r) (hr : ∀ d, r.head? = some d → ¬ (48 ≤ d ∧ d ≤ 57)) :
    digitAt s = none := by
  unfold digitAt
  rw [cur_drop, h]
  cases hh : r.head? with
  | none => rfl
  | some d => simp [decVal, hr d hh]

/-- The digits of an exponent. -/
theorem expDigits {s1 : PS} {d rest : Str} (neg : Bool) (sv : Saved) (h : s1.str.drop s1.pos = d ++ rest) (hd : Digits d)
    (hl : d.length = 1 ∨ d.length = 2) (ha : After rest) :
    (match digitAt s1 with
    | none => ((0 : Int), s1.restore sv)
    | some d =>
      match digitAt s1.adv with
      | none => (if neg then -(d : Int) else d, s1.adv)
      | some e => (if neg then -((d * 10 + e : Nat) : Int) else ((d * 10 + e : Nat) : Int), s1.adv.adv)) =
    (if neg then -(decNum d : Int) else decNum d, { s1 with pos := s1.pos + d.length }) := by
  match d, hl with
  | [c], _ =>
    rw [digitAt_yes h (hd c (by simp))]
    simp only
    rw [digitAt_no (adv_drop h) fun x hx => (ha x hx).1]
    simp [decNum, PS.adv]
  | [c, e], _ =>
    rw [digitAt_yes h (hd c (by simp))]
    simp only
    rw [digitAt_yes (adv_drop h) (hd e (by simp))]
    simp [decNum, PS.adv]
  | [], h => simp at h
  | _ :: _ :: _ :: _, h => simp at h

/-- The exponent of a literal. -/
theorem parseFpExp_lit {s : PS} {l : Lit} {rest : Str} (h : s.str.drop s.pos = l.exText ++ rest) (hl : l.Ok) (ha : After rest) :
    ∃ s', parseFpExp s = (l.exp, s') ∧ s'.str = s.str ∧ s'.pos = s.pos + l.exText.length ∧ s'.code = s.code ∧
      s'.linenum = s.linenum := by
  unfold Lit.exText Lit.exp at *
  cases he : l.ex with
  | none =>
    rw [he] at h
    simp only [List.nil_append] at h
    refine ⟨s.restore s.save, ?_, by simp, by simp [PS.restore, PS.save], ?_, by simp⟩
    · unfold parseFpExp
      rw [expect_no h (fun d hd => by
        have := ha d hd
        unfold up
        split <;> simp <;> omega) (by decide) (by decide)]
      rfl
    · have : (s.restore s.save).code = (s.setCode (resize s.code s.code.length)).code := rfl
      rw [this, setCode_code]
      simp [resize]
  | some p =>
    obtain ⟨sg, d⟩ := p
    obtain ⟨h1, h2, h3⟩ := hl.ex sg d he
    rw [he] at h
    simp only [List.cons_append, List.append_assoc] at h
    unfold parseFpExp
    rw [expect_yes h (by decide)]
    have h' := adv_drop h
    have hd0 : ∀ x, (d ++ rest).head? = some x → 48 ≤ x ∧ x ≤ 57 := by
      intro x hx
      cases d with
      | nil => simp at h3
      | cons y d => simp only [List.cons_append, List.head?_cons, Option.some.injEq] at hx; subst hx; exact h2 y (by simp)
    simp only [if_true]
    rcases h1 with rfl | rfl | rfl
    · rw [List.nil_append] at h'
      rw [expect_no h' (c := 45) (fun x hx => by have := hd0 x hx; unfold up; split <;> simp <;> omega) (by decide) (by decide)]
      simp only [Bool.false_eq_true, if_false]
      rw [expect_no h' (c := 43) (fun x hx => by have := hd0 x hx; unfold up; split <;> simp <;> omega) (by decide) (by decide)]
      have := expDigits (s1 := s.adv) false s.save h' h2 h3 ha
      simp only [Bool.false_eq_true, if_false] at this
      refine ⟨{ s.adv with pos := s.adv.pos + d.length }, this, rfl, by simp [PS.adv]; omega, rfl, rfl⟩
    · rw [List.cons_append, List.nil_append] at h'
      rw [expect_no h' (c := 45) (fun x hx => by simp at hx; subst hx; decide) (by decide) (by decide)]
      simp only [Bool.false_eq_true, if_false]
      rw [expect_yes h' (by decide)]
      have := expDigits (s1 := s.adv.adv) false s.save (adv_drop h') h2 h3 ha
      simp only [Bool.false_eq_true, if_false] at this
      refine ⟨{ s.adv.adv with pos := s.adv.adv.pos + d.length }, this, rfl, by simp [PS.adv]; omega, rfl, rfl⟩
    · rw [List.cons_append, List.nil_append] at h'
      rw [expect_yes h' (by decide)]
      simp only [if_true]
      have := expDigits (s1 := s.adv.adv) true s.save (adv_drop h') h2 h3 ha
      simp only [if_true] at this
      refine ⟨{ s.adv.adv with pos := s.adv.adv.pos + d.length }, this, rfl, by simp [PS.adv]; omega, rfl, rfl⟩

/-- The action that reads numbers reads a literal up to its end. -/
theorem eNumberFp_lit {env : Env} {s : PS} {l : Lit} {rest : Str} {bt : List Nat × Str} (h : s.str.drop s.pos = l.text ++ rest)
    (hl : l.Ok) (ha : After rest) (he : env.fp l.neg l.digs l.exp = some bt) :
    ∃ s', eNumberFp env s = .ok s' ∧ s'.str = s.str ∧ s'.pos = s.pos + l.text.length + wsLen rest ∧
      s'.code = ⟨.fp bt.1, s.linenum⟩ :: s.code := by
  have hdig : ∀ c, (l.digs ++ (l.exText ++ rest)).head? = some c → (48 ≤ c ∧ c ≤ 57) ∨ c = 46 := by
    intro c hc
    cases hd : l.digs with
    | nil => have := digs_all hl; rw [hd] at this; cases this
    | cons d ds =>
      rw [hd] at hc
      simp only [List.cons_append, List.head?_cons, Option.some.injEq] at hc
      subst hc
      exact digs_mem hl d (by rw [hd]; exact List.mem_cons_self ..)
  have hws : s.skipws = s := by
    have : wsLen (s.str.drop s.pos) = 0 := by
      rw [h]
      unfold Lit.text
      cases l.neg with
      | true => rfl
      | false =>
        simp only [Bool.false_eq_true, if_false, List.nil_append, List.append_assoc]
        cases hd : l.digs ++ (l.exText ++ rest) with
        | nil => rfl
        | cons c r =>
          have := hdig c (by rw [hd]; rfl)
          simp only [wsLen]
          rw [if_neg (by omega)]
    unfold PS.skipws
    rw [this]
    rfl
  obtain ⟨s1, e1, st1, p1, c1, l1, d1⟩ : ∃ s1, s.expect 45 = (l.neg, s1) ∧ s1.str = s.str ∧
      s1.pos = s.pos + (if l.neg then 1 else 0) ∧ s1.code = s.code ∧ s1.linenum = s.linenum ∧
      s1.str.drop s1.pos = l.digs ++ (l.exText ++ rest) := by
    unfold Lit.text at h
    cases hn : l.neg with
    | true =>
      rw [hn] at h
      simp only [if_true, List.cons_append, List.nil_append, List.append_assoc] at h
      exact ⟨s.adv, expect_yes h (by decide), rfl, rfl, rfl, rfl, adv_drop h⟩
    | false =>
      rw [hn] at h
      simp only [Bool.false_eq_true, if_false, List.nil_append, List.append_assoc] at h
      refine ⟨s, expect_no h (fun d hd => ?_) (by decide) (by decide), rfl, rfl, rfl, rfl, h⟩
      have := hdig d hd
      unfold up
      split <;> simp <;> omega
  have hfp : fpDigits (l.digs ++ (l.exText ++ rest)) = l.digs := by
    refine fpDigits_app (digs_mem hl) fun c hc => ?_
    unfold Lit.exText at hc
    cases he : l.ex with
    | none => rw [he] at hc; have := ha c hc; omega
    | some p =>
      rw [he] at hc
      simp only [List.cons_append, List.head?_cons, Option.some.injEq] at hc
      omega
  have hd2 : ({ s1 with pos := s1.pos + l.digs.length } : PS).str.drop ({ s1 with pos := s1.pos + l.digs.length } : PS).pos =
      l.exText ++ rest := by
    show s1.str.drop (s1.pos + l.digs.length) = _
    rw [← List.drop_drop, d1, List.drop_left]
  obtain ⟨s2, e2, st2, p2, c2, l2⟩ := parseFpExp_lit hd2 hl ha
  unfold eNumberFp
  rw [hws, e1]
  simp only
  rw [d1, hfp, if_neg (by rw [digs_all hl]; decide), e2]
  simp only [he]
  refine ⟨_, rfl, ?_, ?_, ?_⟩
  · simp [st2, st1]
  · have hdr : s2.str.drop s2.pos = rest := by
      rw [st2, p2, ← List.drop_drop, hd2, List.drop_left]
    have : (((s2.addText bt.2).addSFp bt.2).emit (.fp bt.1)).skipws.pos = s2.pos + wsLen (s2.str.drop s2.pos) := by
      simp [PS.skipws]
    rw [this, hdr, p2]
    simp only [p1, Lit.text, List.length_append]
    cases l.neg <;> simp <;> omega
  · show ((((s2.addText bt.2).addSFp bt.2).emit (.fp bt.1))).code = _
    rw [emit_code]
    simp only [addSFp_linenum, addText_linenum, l2]
    rw [code_congr (s := s2) (by simp) (by simp), c2]
    show _ :: s1.code = _
    rw [c1, show ({ s1 with pos := s1.pos + l.digs.length } : PS).linenum = s.linenum from l1]

end FB.Parse
