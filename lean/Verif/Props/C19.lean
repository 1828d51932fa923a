import Verif.Parse.Sound

/-!
# C19: integer literals
-/

namespace FB.Parse

open Frame

/-! ## Specification -/

/-- The value of a digit: its place in `0123456789ABCDEF`, in any letter case. -/
def digitOf (c : Nat) : Option Nat := (ofS "0123456789ABCDEF").idxOf? (PS.up c)

/-- Is `c` a digit of that base? -/
def isDigit (base c : Nat) : Bool :=
  match digitOf c with
  | some d => d < base
  | none => false

/-- The mathematical value of a string of digits. -/
def numeral (base : Nat) (ds : Str) : Nat := ds.foldl (fun n c => n * base + (digitOf c).getD 0) 0

/-- The digits at the start of a text. -/
def digitsAt (base : Nat) (t : Str) : Str := t.takeWhile (isDigit base)

/-- The integer literal that a text starts with, and the number of characters it has: `$` and hexadecimal
digits, or decimal digits, maybe after a minus sign; decimal digits followed by a dot are not an integer. -/
def intLiteral : Str → Option (Int × Nat)
  | [] => none
  | c :: t =>
    if c = 36 then
      let ds := digitsAt 16 t
      if ds = [] then none else some (numeral 16 ds, 1 + ds.length)
    else
      let t' := if c = 45 then t else c :: t
      let ds := digitsAt 10 t'
      if ds = [] ∨ (t'.drop ds.length).head? = some 46 then none
      else if c = 45 then some (-(numeral 10 ds : Int), 1 + ds.length)
      else some (numeral 10 ds, ds.length)

/-- The literal can be used in the program: it fits in 16 bits (with or without sign); `-0` can not. -/
def Fits (t : Str) (v : Int) : Prop := -65535 ≤ v ∧ v ≤ 65535 ∧ (t.head? = some 45 → v ≠ 0)

/-! ## Proofs -/

/-- What is left of the line. Auxiliary. -/
def rest (s : PS) : Str := s.str.drop s.pos

theorem cur_rest (s : PS) : s.cur = (rest s).head? := by simp [PS.cur, rest]

theorem rest_adv {s : PS} {c : Nat} {t : Str} (h : rest s = c :: t) : rest s.adv = t := by
  unfold rest at h ⊢
  show List.drop (s.pos + 1) s.str = t
  rw [← List.drop_drop, h]; rfl

/-- Characters that are no letter and no closing parenthesis. -/
def plainC (c : Nat) : Bool := (c < 65 || 96 < c) && c != 41 && (c < 97 || 122 < c)

theorem up_eq_plain {x c : Nat} (h : plainC c = true) : PS.up x = PS.up c ↔ x = c := by
  simp only [plainC, Bool.and_eq_true, Bool.or_eq_true, decide_eq_true_eq, bne_iff_ne] at h
  unfold PS.up
  split <;> split <;> omega

theorem expect_plain_true {s : PS} {c : Nat} {t : Str} (hr : rest s = c :: t) :
    s.expect c = (true, s.adv) := by
  unfold PS.expect
  rw [cur_rest, hr]
  simp

theorem expect_plain_false {s : PS} {c : Nat} (hc : plainC c = true) (hr : (rest s).head? ≠ some c) :
    s.expect c = (false, s) := by
  unfold PS.expect
  rw [cur_rest]
  have h1 : ¬ ((rest s).head?.map PS.up = some (PS.up c)) := by
    cases h : (rest s).head? with
    | none => simp
    | some x =>
      rw [h] at hr
      simp only [Option.map_some, Option.some.injEq]
      rw [up_eq_plain hc]
      exact fun e => hr (by rw [e])
  have h2 : PS.up c = c := by
    simp only [plainC, Bool.and_eq_true, Bool.or_eq_true, decide_eq_true_eq, bne_iff_ne] at hc
    unfold PS.up; split <;> omega
  have h3 : c ≠ 41 ∧ c ≠ 93 := by
    simp only [plainC, Bool.and_eq_true, Bool.or_eq_true, decide_eq_true_eq, bne_iff_ne] at hc
    omega
  rw [if_neg h1, h2, if_neg h3.1, if_neg h3.2]

theorem digitOf_eq (c : Nat) : digitOf c = if 48 ≤ PS.up c ∧ PS.up c ≤ 57 then some (PS.up c - 48)
    else if 65 ≤ PS.up c ∧ PS.up c ≤ 70 then some (PS.up c - 55) else none := by
  unfold digitOf
  generalize PS.up c = u
  rw [show ofS "0123456789ABCDEF" = [48, 49, 50, 51, 52, 53, 54, 55, 56, 57, 65, 66, 67, 68, 69, 70] from by decide]
  by_cases h : u ≤ 70
  · revert u; decide
  · rw [if_neg (by omega), if_neg (by omega)]
    rw [List.idxOf?_eq_none_iff]
    simp only [List.mem_cons, List.not_mem_nil, or_false]
    omega

theorem digitOf_dec {c : Nat} (h : 48 ≤ c ∧ c ≤ 57) : digitOf c = some (c - 48) := by
  have hu : PS.up c = c := by unfold PS.up; rw [if_neg (by omega)]
  rw [digitOf_eq, hu, if_pos h]

theorem digitOf_upper {c : Nat} (h : 65 ≤ c ∧ c ≤ 70) : digitOf c = some (c - 55) := by
  have hu : PS.up c = c := by unfold PS.up; rw [if_neg (by omega)]
  rw [digitOf_eq, hu, if_neg (by omega), if_pos h]

theorem digitOf_lower {c : Nat} (h : 97 ≤ c ∧ c ≤ 102) : digitOf c = some (c - 87) := by
  have hu : PS.up c = c - 32 := by unfold PS.up; rw [if_pos (by omega)]
  rw [digitOf_eq, hu, if_neg (by omega), if_pos (by omega)]
  rfl

theorem digitOf_none {c : Nat} (h : ¬ (48 ≤ c ∧ c ≤ 57)) (h1 : ¬ (65 ≤ c ∧ c ≤ 70)) (h2 : ¬ (97 ≤ c ∧ c ≤ 102)) :
    digitOf c = none := by
  rw [digitOf_eq]
  by_cases hu : 97 ≤ c ∧ c ≤ 122
  · have e : PS.up c = c - 32 := if_pos hu
    rw [e, if_neg (by omega), if_neg (by omega)]
  · have e : PS.up c = c := if_neg hu
    rw [e, if_neg h, if_neg h1]

theorem hexVal_eq (c : Nat) : hexVal c = if isDigit 16 c then digitOf c else none := by
  unfold isDigit hexVal
  by_cases h : 48 ≤ c ∧ c ≤ 57
  · simp only [digitOf_dec h, if_pos h, decide_eq_true_eq]; rw [if_pos (by omega)]
  · rw [if_neg h]
    by_cases h2 : 97 ≤ c ∧ c ≤ 102
    · simp only [digitOf_lower h2, if_pos h2, decide_eq_true_eq]; rw [if_pos (by omega)]; congr 1; omega
    · rw [if_neg h2]
      by_cases h1 : 65 ≤ c ∧ c ≤ 70
      · simp only [digitOf_upper h1, if_pos h1, decide_eq_true_eq]; rw [if_pos (by omega)]; congr 1; omega
      · simp [digitOf_none h h1 h2, if_neg h1]

theorem decVal_eq (c : Nat) : decVal c = if isDigit 10 c then digitOf c else none := by
  unfold isDigit decVal
  by_cases h : 48 ≤ c ∧ c ≤ 57
  · simp only [digitOf_dec h, if_pos h, decide_eq_true_eq]; rw [if_pos (by omega)]
  · rw [if_neg h]
    by_cases h2 : 97 ≤ c ∧ c ≤ 102
    · simp only [digitOf_lower h2, decide_eq_true_eq]; rw [if_neg (by omega)]
    · by_cases h1 : 65 ≤ c ∧ c ≤ 70
      · simp only [digitOf_upper h1, decide_eq_true_eq]; rw [if_neg (by omega)]
      · simp [digitOf_none h h1 h2]

theorem isDigit_some {base c : Nat} (h : isDigit base c = true) : ∃ d, digitOf c = some d := by
  unfold isDigit at h
  split at h
  · next d hd => exact ⟨d, hd⟩
  · cases h

theorem foldl_ge (base : Nat) (hb : 1 ≤ base) (ds : Str) (n : Nat) :
    n ≤ ds.foldl (fun n c => n * base + (digitOf c).getD 0) n := by
  induction ds generalizing n with
  | nil => exact Nat.le_refl _
  | cons d ds ih =>
    refine Nat.le_trans ?_ (ih _)
    have : n * 1 ≤ n * base := Nat.mul_le_mul_left _ hb
    dsimp only
    omega

theorem digLoop_spec (val : Nat → Option Nat) (base : Nat) (hb : 1 ≤ base)
    (hv : ∀ c, val c = if isDigit base c then digitOf c else none) (l : Str) (num cnt : Nat) :
    let v := (digitsAt base l).foldl (fun n c => n * base + (digitOf c).getD 0) num
    (num ≤ 65535 → v ≤ 65535 → digLoop val base l num cnt = (v, cnt + (digitsAt base l).length)) ∧
    (num ≤ 65535 → v > 65535 → (digLoop val base l num cnt).1 > 65535 ∧ (digLoop val base l num cnt).2 > cnt) := by
  induction l generalizing num cnt with
  | nil =>
    simp only [digitsAt, List.takeWhile_nil, List.foldl_nil, digLoop, List.length_nil, Nat.add_zero]
    exact ⟨fun _ _ => trivial, fun h1 h2 => by omega⟩
  | cons c cs ih =>
    simp only [digLoop, hv]
    by_cases hd : isDigit base c = true
    · obtain ⟨d, hd'⟩ := isDigit_some hd
      have e : digitsAt base (c :: cs) = c :: digitsAt base cs := by simp [digitsAt, hd]
      rw [e]
      simp only [List.foldl_cons, hd, if_true, hd', Option.getD_some, List.length_cons]
      obtain ⟨i1, i2⟩ := ih (num * base + d) (cnt + 1)
      have hge := foldl_ge base hb (digitsAt base cs) (num * base + d)
      constructor
      · intro h1 h2
        rw [if_neg (by omega), i1 (by omega) h2]
        congr 1; omega
      · intro h1 h2
        by_cases hbig : num * base + d > 0xFFFF
        · rw [if_pos hbig]; exact ⟨hbig, by simp⟩
        · rw [if_neg hbig]
          have := i2 (by omega) h2
          exact ⟨this.1, by omega⟩
    · have e : digitsAt base (c :: cs) = [] := by simp [digitsAt, hd]
      rw [e]
      simp only [List.foldl_nil, hd, List.length_nil, Nat.add_zero]
      exact ⟨fun _ _ => rfl, fun h1 h2 => by omega⟩

theorem getDigits_spec (val : Nat → Option Nat) (base : Nat) (hb : 1 ≤ base)
    (hv : ∀ c, val c = if isDigit base c then digitOf c else none) (s : PS) :
    let ds := digitsAt base (rest s)
    if ds ≠ [] ∧ numeral base ds ≤ 65535 then
      getDigits val base s = (numeral base ds, { s with pos := s.pos + ds.length })
    else (getDigits val base s).1 > 65535 := by
  intro ds
  obtain ⟨h1, h2⟩ := digLoop_spec val base hb hv (rest s) 0 0
  by_cases hz : ds = []
  · rw [if_neg (by simp [hz])]
    have : (digLoop val base (rest s) 0 0).2 = 0 := by
      have := h1 (by omega) (by rw [show digitsAt base (rest s) = [] from hz]; simp)
      rw [this, show digitsAt base (rest s) = [] from hz]; rfl
    show (if (digLoop val base (rest s) 0 0).2 = 0 then 65536 else _) > 65535
    rw [if_pos this]; omega
  · by_cases hn : numeral base ds ≤ 65535
    · rw [if_pos ⟨hz, hn⟩]
      have := h1 (by omega) hn
      unfold getDigits
      show ((if (digLoop val base (rest s) 0 0).2 = 0 then 65536 else (digLoop val base (rest s) 0 0).1),
        { s with pos := s.pos + (digLoop val base (rest s) 0 0).2 }) = _
      rw [this]
      have hl : 0 + ds.length ≠ 0 := by
        have := List.length_pos_iff.2 hz; omega
      simp only [Nat.zero_add] at hl ⊢
      rw [if_neg hl]
      rfl
    · rw [if_neg (by simp [hn])]
      have := h2 (by omega) (by show numeral base ds > 65535; omega)
      show (if (digLoop val base (rest s) 0 0).2 = 0 then 65536 else (digLoop val base (rest s) 0 0).1) > 65535
      rw [if_neg (by omega)]
      exact this.1

theorem rest_move (s : PS) (n : Nat) : rest { s with pos := s.pos + n } = (rest s).drop n := by
  simp [rest, List.drop_drop]

/-- What `get_number` does, in terms of the specification. -/
theorem getNumber_spec (s : PS) :
    (∀ v n, intLiteral (rest s) = some (v, n) → Fits (rest s) v →
      (getNumber s).1 = (v % 65536).toNat ∧ (getNumber s).2.pos = s.pos + n ∧
      (getNumber s).2.procs = s.procs ∧ (getNumber s).2.procStack = s.procStack) ∧
    ((¬ ∃ v n, intLiteral (rest s) = some (v, n) ∧ Fits (rest s) v) → (getNumber s).1 > 65535) := by
  have hex : ∀ (s : PS), _ := fun s => getDigits_spec hexVal 16 (by omega) hexVal_eq s
  have dec : ∀ (s : PS), _ := fun s => getDigits_spec decVal 10 (by omega) decVal_eq s
  cases hr : rest s with
  | nil =>
    have h36 : s.expect 36 = (false, s) := expect_plain_false rfl (by simp [hr])
    have h45 : s.expect 45 = (false, s) := expect_plain_false rfl (by simp [hr])
    refine ⟨fun v n h => by simp [intLiteral] at h, fun _ => ?_⟩
    have := dec s
    rw [hr] at this
    simp only [digitsAt, List.takeWhile_nil, ne_eq, not_true_eq_false, false_and, if_false] at this
    unfold getNumber getDec
    simp only [h36, h45, Bool.false_eq_true, if_false]
    rw [if_pos this]; exact Nat.lt_succ_self _
  | cons c t =>
    by_cases h36 : c = 36
    · subst h36
      have e36 : s.expect 36 = (true, s.adv) := expect_plain_true hr
      have h := hex s.adv
      rw [rest_adv hr] at h
      simp only [intLiteral, if_true]
      by_cases hf : digitsAt 16 t ≠ [] ∧ numeral 16 (digitsAt 16 t) ≤ 65535
      · rw [if_pos hf] at h
        have hg : getNumber s = (numeral 16 (digitsAt 16 t),
            (({ s.adv with pos := s.adv.pos + (digitsAt 16 t).length } : PS).addText
              (hexText (numeral 16 (digitsAt 16 t)))).addSInt (numeral 16 (digitsAt 16 t))) := by
          unfold getNumber getHex
          simp only [e36, if_true, h]
          rw [if_neg (by omega)]
        rw [if_neg hf.1]
        constructor
        · intro v n h1 h2
          cases h1
          rw [hg]
          refine ⟨by omega, ?_, by simp [PS.adv], by simp [PS.adv]⟩
          simp [PS.adv]; omega
        · intro h1
          refine absurd ⟨_, _, rfl, ?_⟩ h1
          refine ⟨by omega, by omega, fun h => by simp at h⟩
      · rw [if_neg hf] at h
        have hg : (getNumber s).1 > 65535 := by
          unfold getNumber getHex
          simp only [e36, if_true]
          rw [if_pos h]; exact Nat.lt_succ_self _
        refine ⟨fun v n h1 h2 => ?_, fun _ => hg⟩
        split at h1
        · cases h1
        · next hne =>
          cases h1
          exact absurd ⟨hne, by have := h2.2.1; omega⟩ hf
    · have e36 : s.expect 36 = (false, s) := expect_plain_false rfl (by simp [hr, h36])
      simp only [intLiteral, if_neg h36]
      -- state after the optional sign
      obtain ⟨s1, sg, hs1, hr1, hsg, hp1, hd1, hd2⟩ : ∃ (s1 : PS) (sg : Bool), s.expect 45 = (sg, s1) ∧
          rest s1 = (if c = 45 then t else c :: t) ∧ (sg = true ↔ c = 45) ∧
          s1.pos = s.pos + (if c = 45 then 1 else 0) ∧ s1.procs = s.procs ∧ s1.procStack = s.procStack := by
        by_cases h45 : c = 45
        · subst h45
          exact ⟨s.adv, true, expect_plain_true hr, by simp [rest_adv hr], by simp, by simp [PS.adv], rfl, rfl⟩
        · exact ⟨s, false, expect_plain_false rfl (by simp [hr, h45]), by simp [hr, h45], by simp [h45],
            by simp [h45], rfl, rfl⟩
      generalize ht' : (if c = 45 then t else c :: t) = t' at *
      have h := dec s1
      rw [hr1] at h
      by_cases hf : digitsAt 10 t' ≠ [] ∧ numeral 10 (digitsAt 10 t') ≤ 65535
      · rw [if_pos hf] at h
        obtain ⟨hf1, hf2⟩ := hf
        generalize hs2 : ({ s1 with pos := s1.pos + (digitsAt 10 t').length } : PS) = s2 at h
        have hr2 : rest s2 = t'.drop (digitsAt 10 t').length := by rw [← hs2, rest_move, hr1]
        have hp2 : s2.pos = s1.pos + (digitsAt 10 t').length := by rw [← hs2]
        have hq2 : s2.procs = s.procs ∧ s2.procStack = s.procStack := by rw [← hs2]; exact ⟨hd1, hd2⟩
        by_cases hdot : (t'.drop (digitsAt 10 t').length).head? = some 46
        · have hg : (getNumber s).1 > 65535 := by
            obtain ⟨u, hu⟩ : ∃ u, rest s2 = 46 :: u := by
              rw [hr2]
              cases hh : t'.drop (digitsAt 10 t').length with
              | nil => rw [hh] at hdot; cases hdot
              | cons x u => rw [hh] at hdot; cases hdot; exact ⟨u, rfl⟩
            unfold getNumber getDec
            simp only [e36, hs1, h, expect_plain_true hu, Bool.false_eq_true, if_false, if_true]
            rw [if_neg (by omega)]; exact Nat.lt_succ_self _
          rw [if_pos (Or.inr hdot)]
          exact ⟨fun v n h1 => (nomatch h1), fun _ => hg⟩
        · have e46 : s2.expect 46 = (false, s2) := expect_plain_false rfl (by rw [hr2]; exact hdot)
          have hg : (getNumber s).1 = (if c = 45 then 65536 - numeral 10 (digitsAt 10 t') else numeral 10 (digitsAt 10 t')) ∧
              (getNumber s).2.pos = s2.pos ∧ (getNumber s).2.procs = s2.procs ∧ (getNumber s).2.procStack = s2.procStack := by
            unfold getNumber getDec
            simp only [e36, hs1, h, e46, Bool.false_eq_true, if_false]
            rw [if_neg (by omega)]
            simp [hsg]
          rw [if_neg (fun h => h.elim hf1 hdot)]
          by_cases h45 : c = 45
          · subst h45
            simp only [if_true] at *
            constructor
            · intro v n h1 h2
              cases h1
              obtain ⟨g1, g2, g3, g4⟩ := hg
              have hz := h2.2.2 (by simp)
              refine ⟨?_, by rw [g2, hp2, hp1]; omega, g3.trans hq2.1, g4.trans hq2.2⟩
              rw [g1]; omega
            · intro h1
              rw [hg.1]
              by_cases hz : numeral 10 (digitsAt 10 t') = 0
              · omega
              · refine absurd ⟨_, _, rfl, ?_⟩ h1
                exact ⟨by omega, by omega, fun _ => by omega⟩
          · simp only [h45, if_false] at hg hp1 ht' ⊢
            constructor
            · intro v n h1 h2
              cases h1
              obtain ⟨g1, g2, g3, g4⟩ := hg
              refine ⟨?_, by rw [g2, hp2, hp1]; omega, g3.trans hq2.1, g4.trans hq2.2⟩
              rw [g1]; omega
            · intro h1
              refine absurd ⟨_, _, rfl, ?_⟩ h1
              exact ⟨by omega, by omega, fun h => absurd (Option.some.inj h) h45⟩
      · rw [if_neg hf] at h
        have hg : (getNumber s).1 > 65535 := by
          unfold getNumber getDec
          simp only [e36, hs1, Bool.false_eq_true, if_false]
          rw [if_pos h]; exact Nat.lt_succ_self _
        refine ⟨fun v n h1 h2 => ?_, fun _ => hg⟩
        split at h1
        · cases h1
        · next hne =>
          exfalso
          apply hf
          refine ⟨fun hh => hne (Or.inl hh), ?_⟩
          obtain ⟨k1, k2, k3⟩ := h2
          split at h1 <;> cases h1 <;> omega

/-! ## The property -/

/-- The word emitted at the end of the code of `s'` is the only change from `s`. -/
def Emitted (s s' : PS) (k : CK) : Prop :=
  s'.procStack = s.procStack ∧ s'.procs = (s.emit k).procs

theorem getAsmWord_no {s : PS} (h : (rest s).head? ≠ some 64) : getAsmWord s = (false, s) := by
  unfold getAsmWord
  rw [expect_plain_false rfl h]
  rfl

theorem getAsmByte_no {s : PS} (h : (rest s).head? ≠ some 64) : getAsmByte s = (false, s) := by
  unfold getAsmByte
  rw [expect_plain_false rfl h]
  rfl

theorem wsLen_append (l r : Str) (h : PS.wsLen l = l.length) : PS.wsLen (l ++ r) = l.length + PS.wsLen r := by
  induction l with
  | nil => simp
  | cons c cs ih =>
    simp only [PS.wsLen] at h
    split at h
    · next hc => simp only [List.cons_append, PS.wsLen, if_pos hc, List.length_cons] at h ⊢; rw [ih (by omega)]; omega
    · simp at h

theorem emit_procs_congr {s s1 : PS} (h1 : s1.procs = s.procs) (h2 : s1.procStack = s.procStack)
    (h3 : s1.linenum = s.linenum) (k : CK) : (s1.emit k).procs = (s.emit k).procs := by
  unfold PS.emit PS.setCode PS.code PS.curProc
  simp only [h1, h2, h3]

/-- **C19**, words (`E_NUMBER_WORD`). At a text (after blanks) that does not start with `@`, the action
succeeds exactly when the text starts with an integer literal of at most 65535 in absolute value, in any
number of digits; then the only thing emitted is a word with exactly that value modulo 65536, and all of the
literal and the blanks after it are consumed. (The value is never negative in the program: `-1` is the word
65535.) -/
theorem C19_word (env : Env) (s : PS) (hat : (rest s.skipws).head? ≠ some 64) :
    (∀ v n, intLiteral (rest s.skipws) = some (v, n) → Fits (rest s.skipws) v →
      ∃ s', action env .NUMBER_WORD s = .ok s' ∧ Emitted s s' (.word (v % 65536).toNat) ∧
        s'.pos = s.skipws.pos + n + PS.wsLen ((rest s.skipws).drop n)) ∧
    ((¬ ∃ v n, intLiteral (rest s.skipws) = some (v, n) ∧ Fits (rest s.skipws) v) →
      ∃ s', action env .NUMBER_WORD s = .fail s') := by
  obtain ⟨h1, h2⟩ := getNumber_spec s.skipws
  have e : action env .NUMBER_WORD s = (if (getNumber s.skipws).1 > 65535 then .fail (getNumber s.skipws).2
      else .ok ((getNumber s.skipws).2.emit (.word (getNumber s.skipws).1)).skipws) := by
    show eNumberWord s = _
    unfold eNumberWord
    rw [getAsmWord_no hat]
    simp
  rw [e]
  constructor
  · intro v n hv hf
    obtain ⟨k1, k2, k3, k4⟩ := h1 v n hv hf
    rw [if_neg (by rw [k1]; omega)]
    refine ⟨_, rfl, ⟨?_, ?_⟩, ?_⟩
    · simpa using k4
    · rw [k1]
      have := emit_procs_congr (s := s) (s1 := (getNumber s.skipws).2) (by simpa using k3) (by simpa using k4)
        (by simp) (.word (v % 65536).toNat)
      rw [← this]
      simp
    · show ((getNumber s.skipws).2.emit (.word _)).pos + PS.wsLen (List.drop ((getNumber s.skipws).2.emit (.word _)).pos
        ((getNumber s.skipws).2.emit (.word _)).str) = _
      rw [emit_pos, emit_str, k2, getNumber_str]
      simp only [rest, List.drop_drop]
  · intro h
    rw [if_pos (h2 h)]
    exact ⟨_, rfl⟩

/-- **C19**, bytes (`E_NUMBER_BYTE`): as `C19_word`, for literals of which the value modulo 65536 is at most
255. -/
theorem C19_byte (env : Env) (s : PS) (hat : (rest s.skipws).head? ≠ some 64) :
    (∀ v n, intLiteral (rest s.skipws) = some (v, n) → Fits (rest s.skipws) v → v % 65536 ≤ 255 →
      ∃ s', action env .NUMBER_BYTE s = .ok s' ∧ Emitted s s' (.byte (v % 65536).toNat) ∧
        s'.pos = s.skipws.pos + n + PS.wsLen ((rest s.skipws).drop n)) ∧
    ((¬ ∃ v n, intLiteral (rest s.skipws) = some (v, n) ∧ Fits (rest s.skipws) v ∧ v % 65536 ≤ 255) →
      ∃ s', action env .NUMBER_BYTE s = .fail s') := by
  obtain ⟨h1, h2⟩ := getNumber_spec s.skipws
  have e : action env .NUMBER_BYTE s = (if (getNumber s.skipws).1 > 255 then .fail (getNumber s.skipws).2
      else .ok ((getNumber s.skipws).2.emit (.byte (getNumber s.skipws).1)).skipws) := by
    show eNumberByte s = _
    unfold eNumberByte
    rw [getAsmByte_no hat]
    simp
  rw [e]
  constructor
  · intro v n hv hf hb
    obtain ⟨k1, k2, k3, k4⟩ := h1 v n hv hf
    rw [if_neg (by rw [k1]; omega)]
    refine ⟨_, rfl, ⟨?_, ?_⟩, ?_⟩
    · simpa using k4
    · rw [k1]
      have := emit_procs_congr (s := s) (s1 := (getNumber s.skipws).2) (by simpa using k3) (by simpa using k4)
        (by simp) (.byte (v % 65536).toNat)
      rw [← this]
      simp
    · show ((getNumber s.skipws).2.emit (.byte _)).pos + PS.wsLen (List.drop ((getNumber s.skipws).2.emit (.byte _)).pos
        ((getNumber s.skipws).2.emit (.byte _)).str) = _
      rw [emit_pos, emit_str, k2, getNumber_str]
      simp only [rest, List.drop_drop]
  · intro h
    by_cases hl : ∃ v n, intLiteral (rest s.skipws) = some (v, n) ∧ Fits (rest s.skipws) v
    · obtain ⟨v, n, hv, hf⟩ := hl
      obtain ⟨k1, -⟩ := h1 v n hv hf
      have : ¬ v % 65536 ≤ 255 := fun hh => h ⟨v, n, hv, hf, hh⟩
      rw [if_pos (by rw [k1]; omega)]
      exact ⟨_, rfl⟩
    · rw [if_pos (by have := h2 hl; omega)]
      exact ⟨_, rfl⟩

/-- The hypotheses and the specification on concrete texts: the largest literal, one more, leading zeros
and a negative one. -/
example : intLiteral (ofS "$00ffFF+") = some (65535, 7) ∧ Fits (ofS "$00ffFF+") 65535 ∧
    intLiteral (ofS "65536") = some (65536, 5) ∧ ¬ Fits (ofS "65536") 65536 ∧
    intLiteral (ofS "-17 ") = some (-17, 3) ∧ Fits (ofS "-17 ") (-17) ∧
    intLiteral (ofS "1.5") = none ∧ intLiteral (ofS "$G") = none ∧
    intLiteral (ofS "-0") = some (0, 2) ∧ ¬ Fits (ofS "-0") 0 := by
  unfold Fits; decide

example : (rest (PS.skipws { str := ofS "  -17 : A", procs := [([], [])] })).head? ≠ some 64 := by decide

end FB.Parse
