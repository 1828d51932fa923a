import Verif.Props.C19
import Verif.Parse.Compile
import Verif.Props.C16

/-!
# C20: string literals, and their text in the listings
-/

namespace FB.Parse

open Frame

/-! ## Specification -/

/-- Characters after which a string literal can not end: `"` and `$` would continue it. -/
def EndsLit (r : Str) : Prop := r.head? ≠ some 34 ∧ r.head? ≠ some 36

/-- The text of a string literal. `StrLit true t b r`: the text `t`, after an opening quote, is a literal with
the bytes `b`, and `r` is the text after it. `StrLit false t b r`: the same after a closing quote, or after
hexadecimal digits. -/
inductive StrLit : Bool → Str → Str → Str → Prop
  /-- Inside of quotes, any character but a quote stands for itself. -/
  | chr {c t b r} : c ≠ 34 → StrLit true t b r → StrLit true (c :: t) (c :: b) r
  /-- Inside of quotes, two quotes stand for one. -/
  | quote {t b r} : StrLit true t b r → StrLit true (34 :: 34 :: t) (34 :: b) r
  /-- A closing quote ends the literal. -/
  | close {r} : EndsLit r → StrLit true (34 :: r) [] r
  /-- A closing quote followed by `$`. -/
  | dollar {t b r} : StrLit false (36 :: t) b r → StrLit true (34 :: 36 :: t) b r
  /-- `$` and hexadecimal digits stand for the byte with that value. -/
  | hex {ds t b r} : ds ≠ [] → (∀ c ∈ ds, isDigit 16 c = true) → numeral 16 ds ≤ 255 →
      (∀ c, t.head? = some c → isDigit 16 c = false) → StrLit false t b r →
      StrLit false (36 :: (ds ++ t)) (numeral 16 ds :: b) r
  /-- A quote after hexadecimal digits opens the string again. -/
  | reopen {t b r} : StrLit true t b r → StrLit false (34 :: t) b r
  /-- The literal can end after hexadecimal digits. -/
  | done {r} : EndsLit r → StrLit false r [] r

/-! ## The program reads exactly the literals of the specification -/

theorem digitsAt_append {ds t : Str} (h : ∀ c ∈ ds, isDigit 16 c = true)
    (ht : ∀ c, t.head? = some c → isDigit 16 c = false) : digitsAt 16 (ds ++ t) = ds := by
  unfold digitsAt
  rw [List.takeWhile_append_of_pos h]
  cases t with
  | nil => simp
  | cons c t => simp [ht c rfl]

/-- The state with another position. -/
def at_ (s : PS) (p : Nat) : PS := { s with pos := p }

theorem adv_at (s : PS) : s.adv = at_ s (s.pos + 1) := rfl

/-- What follows `hexLoop` in `constLoop`. -/
def afterHex (n : Nat) (h : Option Str × PS) : Option Str × PS :=
  match h.1 with
  | none => (none, h.2)
  | some str =>
    let q3 := h.2.expect 34
    if q3.1 then constLoop n q3.2 str else (some str, q3.2)

/-- What follows one number in `hexLoop`. -/
def hexTail (m : Nat) (s : PS) (acc : Str) : Option Str × PS :=
  let r := s.expect 36
  if r.1 then hexLoop m r.2 acc else (some acc, r.2)

theorem constLoop_chr {n : Nat} {s : PS} {acc t : Str} {c : Nat} (h : rest s = c :: t) (hc : c ≠ 34) :
    constLoop (n + 1) s acc = constLoop n s.adv (acc ++ [c]) := by
  rw [constLoop.eq_def (n + 1)]
  simp only
  rw [cur_rest, h]
  have := expect_plain_false (s := s) (c := 34) rfl (by rw [h]; simpa using hc)
  simp [this]

theorem constLoop_quote {n : Nat} {s : PS} {acc t : Str} (h : rest s = 34 :: 34 :: t) :
    constLoop (n + 1) s acc = constLoop n s.adv.adv (acc ++ [34]) := by
  rw [constLoop.eq_def (n + 1)]
  simp only
  rw [cur_rest, h]
  simp [expect_plain_true h, expect_plain_true (rest_adv h)]

theorem constLoop_close {n : Nat} {s : PS} {acc t : Str} (h : rest s = 34 :: t) (h1 : EndsLit t) :
    constLoop (n + 1) s acc = (some acc, s.adv) := by
  rw [constLoop.eq_def (n + 1)]
  simp only
  rw [cur_rest, h]
  have e1 : s.adv.expect 34 = (false, s.adv) := expect_plain_false rfl (by rw [rest_adv h]; exact h1.1)
  have e2 : s.adv.expect 36 = (false, s.adv) := expect_plain_false rfl (by rw [rest_adv h]; exact h1.2)
  simp [expect_plain_true h, e1, e2]

theorem constLoop_dollar {n : Nat} {s : PS} {acc t : Str} (h : rest s = 34 :: 36 :: t) :
    constLoop (n + 1) s acc = afterHex n (hexLoop (s.str.length + 1) s.adv.adv acc) := by
  rw [constLoop.eq_def]
  simp only
  rw [cur_rest, h]
  have e1 : s.adv.expect 34 = (false, s.adv) := expect_plain_false rfl (by rw [rest_adv h]; simp)
  simp only [List.head?_cons, expect_plain_true h, e1, expect_plain_true (rest_adv h), if_true, Bool.false_eq_true,
    if_false, afterHex]
  cases (hexLoop (s.str.length + 1) s.adv.adv acc).1 <;> rfl

theorem hexLoop_step {m : Nat} {s : PS} {acc : Str} :
    hexLoop (m + 1) s acc = if digitsAt 16 (rest s) ≠ [] ∧ numeral 16 (digitsAt 16 (rest s)) ≤ 255 then
      hexTail m (at_ s (s.pos + (digitsAt 16 (rest s)).length)) (acc ++ [numeral 16 (digitsAt 16 (rest s))])
      else (none, (getHex s).2) := by
  have h := getDigits_spec hexVal 16 (by omega) hexVal_eq s
  rw [hexLoop.eq_def (m + 1)]
  by_cases hc : digitsAt 16 (rest s) ≠ [] ∧ numeral 16 (digitsAt 16 (rest s)) ≤ 255
  · rw [if_pos ⟨hc.1, by omega⟩] at h
    rw [if_pos hc]
    simp only
    rw [show getHex s = _ from h]
    simp only
    rw [if_neg (by omega)]
    rfl
  · rw [if_neg hc]
    have : (getHex s).1 > 255 := by
      by_cases h2 : digitsAt 16 (rest s) ≠ [] ∧ numeral 16 (digitsAt 16 (rest s)) ≤ 65535
      · rw [if_pos h2] at h
        rw [show getHex s = _ from h]
        show numeral 16 (digitsAt 16 (rest s)) > 255
        have : ¬ numeral 16 (digitsAt 16 (rest s)) ≤ 255 := fun hh => hc ⟨h2.1, hh⟩
        omega
      · rw [if_neg h2] at h
        have h' : (getHex s).1 > 65535 := h
        omega
    simp only [if_pos this]

theorem StrLit.reads {m : Bool} {t b r : Str} (h : StrLit m t b r) :
    ∀ (s : PS) (n : Nat) (acc : Str), rest s = t → n > t.length →
      if m then ∃ p, constLoop n s acc = (some (acc ++ b), at_ s p) ∧ rest (at_ s p) = r
      else ∀ k, k > t.length →
        ∃ p, afterHex n (hexTail k s acc) = (some (acc ++ b), at_ s p) ∧ rest (at_ s p) = r := by
  induction h with
  | @chr c t b r hc _ ih =>
    intro s n acc hr hn
    obtain ⟨n, rfl⟩ : ∃ k, n = k + 1 := ⟨n - 1, by omega⟩
    rw [if_pos rfl, constLoop_chr hr hc]
    obtain ⟨p, h1, h2⟩ := (if_pos rfl ▸ ih s.adv n (acc ++ [c]) (rest_adv hr) (by simp at hn; omega))
    exact ⟨p, by rw [h1]; simp [adv_at, at_], h2⟩
  | @quote t b r _ ih =>
    intro s n acc hr hn
    obtain ⟨n, rfl⟩ : ∃ k, n = k + 1 := ⟨n - 1, by omega⟩
    rw [if_pos rfl, constLoop_quote hr]
    obtain ⟨p, h1, h2⟩ := (if_pos rfl ▸ ih s.adv.adv n (acc ++ [34]) (rest_adv (rest_adv hr)) (by simp at hn; omega))
    exact ⟨p, by rw [h1]; simp [adv_at, at_], h2⟩
  | @close r he =>
    intro s n acc hr hn
    obtain ⟨n, rfl⟩ : ∃ k, n = k + 1 := ⟨n - 1, by omega⟩
    rw [if_pos rfl, constLoop_close hr he]
    exact ⟨s.pos + 1, by simp [adv_at], rest_adv hr⟩
  | @dollar t b r h1 ih =>
    intro s n acc hr hn
    obtain ⟨n, rfl⟩ : ∃ k, n = k + 1 := ⟨n - 1, by omega⟩
    rw [if_pos rfl, constLoop_dollar hr]
    have hlen : s.str.length + 1 > (36 :: t).length := by
      have := congrArg List.length hr
      simp [rest] at this ⊢; omega
    obtain ⟨p, h2, h3⟩ := (if_neg Bool.false_ne_true ▸ ih s.adv n acc (rest_adv hr) (by simp only [List.length_cons] at hn ⊢; omega)) (s.str.length + 1) hlen
    refine ⟨p, ?_, h3⟩
    unfold hexTail at h2
    rw [expect_plain_true (rest_adv hr)] at h2
    simpa [adv_at, at_] using h2
  | @hex ds t b r hne hd hv ht _ ih =>
    intro s n acc hr hn
    rw [if_neg (by simp)]
    intro k hk
    obtain ⟨k, rfl⟩ : ∃ j, k = j + 1 := ⟨k - 1, by omega⟩
    have hra : rest s.adv = ds ++ t := rest_adv hr
    have hda : digitsAt 16 (rest s.adv) = ds := by rw [hra]; exact digitsAt_append hd ht
    have hrest : rest (at_ s.adv (s.adv.pos + ds.length)) = t := by
      rw [show at_ s.adv (s.adv.pos + ds.length) = { s.adv with pos := s.adv.pos + ds.length } from rfl, rest_move, hra]
      simp
    have e : hexTail (k + 1) s acc = hexTail k (at_ s.adv (s.adv.pos + ds.length)) (acc ++ [numeral 16 ds]) := by
      rw [show hexTail (k + 1) s acc = (if (s.expect 36).1 then hexLoop (k + 1) (s.expect 36).2 acc
        else (some acc, (s.expect 36).2)) from rfl, expect_plain_true hr]
      simp only [if_true]
      rw [hexLoop_step, hda, if_pos ⟨hne, hv⟩]
    rw [e]
    simp only [List.length_cons, List.length_append] at hk hn
    obtain ⟨p, h2, h3⟩ := (if_neg Bool.false_ne_true ▸ ih _ n (acc ++ [numeral 16 ds]) hrest (by omega)) k (by omega)
    exact ⟨p, by rw [h2]; simp [adv_at, at_], h3⟩
  | @reopen t b r _ ih =>
    intro s n acc hr hn
    rw [if_neg (by simp)]
    intro k hk
    unfold hexTail
    rw [expect_plain_false (c := 36) rfl (by rw [hr]; simp)]
    simp only [Bool.false_eq_true, if_false, afterHex]
    rw [expect_plain_true hr]
    simp only [if_true]
    obtain ⟨p, h1, h2⟩ := (if_pos rfl ▸ ih s.adv n acc (rest_adv hr) (by simp at hn; omega))
    exact ⟨p, by rw [h1]; simp [adv_at, at_], h2⟩
  | @done r he =>
    intro s n acc hr hn
    rw [if_neg (by simp)]
    intro k hk
    unfold hexTail
    rw [expect_plain_false (c := 36) rfl (by rw [hr]; exact he.2)]
    simp only [Bool.false_eq_true, if_false, afterHex]
    rw [expect_plain_false (c := 34) rfl (by rw [hr]; exact he.1)]
    exact ⟨s.pos, by simp [at_], hr⟩


/-- What `afterHex` reads. -/
theorem hex_sound : ∀ (k : Nat) (n : Nat) (s : PS) (acc : Str) (x : Str) (s' : PS),
    (∀ (s : PS) (acc x : Str) (s' : PS), constLoop n s acc = (some x, s') →
      ∃ b, x = acc ++ b ∧ StrLit true (rest s) b (rest s')) →
    afterHex n (hexTail k s acc) = (some x, s') →
    ∃ b, x = acc ++ b ∧ StrLit false (rest s) b (rest s') := by
  intro k
  induction k with
  | zero =>
    intro n s acc x s' hc h
    by_cases h36 : (rest s).head? = some 36
    · obtain ⟨t, ht⟩ : ∃ t, rest s = 36 :: t := by
        cases hr : rest s with
        | nil => rw [hr] at h36; cases h36
        | cons c t => rw [hr] at h36; cases h36; exact ⟨t, rfl⟩
      unfold hexTail at h
      rw [expect_plain_true ht] at h
      simp [hexLoop, afterHex] at h
    · exact tail0 h36 hc h
  | succ k ih =>
    intro n s acc x s' hc h
    by_cases h36 : (rest s).head? = some 36
    · obtain ⟨t, ht⟩ : ∃ t, rest s = 36 :: t := by
        cases hr : rest s with
        | nil => rw [hr] at h36; cases h36
        | cons c t => rw [hr] at h36; cases h36; exact ⟨t, rfl⟩
      rw [show hexTail (k + 1) s acc = (if (s.expect 36).1 then hexLoop (k + 1) (s.expect 36).2 acc
        else (some acc, (s.expect 36).2)) from rfl, expect_plain_true ht] at h
      simp only [if_true] at h
      rw [hexLoop_step] at h
      split at h
      · next hd =>
        have hra : rest s.adv = t := rest_adv ht
        rw [hra] at hd h
        obtain ⟨b, hb, hl⟩ := ih n _ _ x s' hc h
        refine ⟨numeral 16 (digitsAt 16 t) :: b, by rw [hb]; simp, ?_⟩
        have hrest : rest (at_ s.adv (s.adv.pos + (digitsAt 16 t).length)) = t.drop (digitsAt 16 t).length := by
          rw [show at_ s.adv (s.adv.pos + (digitsAt 16 t).length) =
            { s.adv with pos := s.adv.pos + (digitsAt 16 t).length } from rfl, rest_move, hra]
        rw [hrest] at hl
        have hsplit : t = digitsAt 16 t ++ t.drop (digitsAt 16 t).length := by
          have := List.takeWhile_append_dropWhile (p := isDigit 16) (l := t)
          have h2 : t.drop (digitsAt 16 t).length = t.dropWhile (isDigit 16) := by
            have h3 := congrArg (List.drop (digitsAt 16 t).length) this
            rw [show t.takeWhile (isDigit 16) = digitsAt 16 t from rfl, List.drop_left] at h3
            exact h3.symm
          rw [h2]; exact this.symm
        rw [ht, hsplit]
        have e : digitsAt 16 (digitsAt 16 t ++ t.drop (digitsAt 16 t).length) = digitsAt 16 t := by rw [← hsplit]
        rw [e]
        refine StrLit.hex hd.1 ?_ hd.2 ?_ hl
        · intro c hc
          exact List.all_eq_true.mp (List.all_takeWhile (p := isDigit 16) (l := t)) c hc
        · intro c hc
          have h2 : t.drop (digitsAt 16 t).length = t.dropWhile (isDigit 16) := by
            have h3 := congrArg (List.drop (digitsAt 16 t).length)
              (List.takeWhile_append_dropWhile (p := isDigit 16) (l := t))
            rw [show t.takeWhile (isDigit 16) = digitsAt 16 t from rfl, List.drop_left] at h3
            exact h3.symm
          rw [h2] at hc
          have := List.head?_dropWhile_not (isDigit 16) t
          rw [hc] at this
          simpa using this
      · simp [afterHex] at h
    · exact tail0 h36 hc h
where
  /-- The case without a `$`. -/
  tail0 {n k : Nat} {s : PS} {acc x : Str} {s' : PS} (h36 : ¬ (rest s).head? = some 36)
    (hc : ∀ (s : PS) (acc x : Str) (s' : PS), constLoop n s acc = (some x, s') →
      ∃ b, x = acc ++ b ∧ StrLit true (rest s) b (rest s'))
    (h : afterHex n (hexTail k s acc) = (some x, s')) :
    ∃ b, x = acc ++ b ∧ StrLit false (rest s) b (rest s') := by
    unfold hexTail at h
    rw [expect_plain_false (c := 36) rfl h36] at h
    simp only [Bool.false_eq_true, if_false, afterHex] at h
    by_cases h34 : (rest s).head? = some 34
    · obtain ⟨t, ht⟩ : ∃ t, rest s = 34 :: t := by
        cases hr : rest s with
        | nil => rw [hr] at h34; cases h34
        | cons c t => rw [hr] at h34; cases h34; exact ⟨t, rfl⟩
      rw [expect_plain_true ht] at h
      simp only [if_true] at h
      obtain ⟨b, hb, hl⟩ := hc _ _ _ _ h
      rw [rest_adv ht] at hl
      exact ⟨b, hb, by rw [ht]; exact .reopen hl⟩
    · rw [expect_plain_false (c := 34) rfl h34] at h
      simp only [Bool.false_eq_true, if_false, Prod.mk.injEq, Option.some.injEq] at h
      obtain ⟨rfl, rfl⟩ := h
      exact ⟨[], by simp, .done ⟨h34, h36⟩⟩

theorem constLoop_sound : ∀ (n : Nat) (s : PS) (acc x : Str) (s' : PS), constLoop n s acc = (some x, s') →
    ∃ b, x = acc ++ b ∧ StrLit true (rest s) b (rest s') := by
  intro n
  induction n with
  | zero => intro s acc x s' h; simp [constLoop] at h
  | succ n ih =>
    intro s acc x s' h
    cases hr : rest s with
    | nil =>
      rw [constLoop.eq_def (n + 1)] at h
      simp only [cur_rest, hr] at h
      simp at h
    | cons c t =>
      by_cases hc : c = 34
      · subst hc
        cases t with
        | nil =>
          rw [constLoop_close hr ⟨by simp, by simp⟩] at h
          simp only [Prod.mk.injEq, Option.some.injEq] at h
          obtain ⟨rfl, rfl⟩ := h
          rw [rest_adv hr]
          exact ⟨[], by simp, .close ⟨by simp, by simp⟩⟩
        | cons d t =>
          by_cases hd : d = 34
          · subst hd
            rw [constLoop_quote hr] at h
            obtain ⟨b, hb, hl⟩ := ih _ _ _ _ h
            rw [rest_adv (rest_adv hr)] at hl
            exact ⟨34 :: b, by rw [hb]; simp, .quote hl⟩
          · by_cases hd2 : d = 36
            · subst hd2
              rw [constLoop_dollar hr] at h
              have e : hexTail (s.str.length + 1) s.adv acc = hexLoop (s.str.length + 1) s.adv.adv acc := by
                unfold hexTail
                rw [expect_plain_true (rest_adv hr)]
                rfl
              rw [← e] at h
              obtain ⟨b, hb, hl⟩ := hex_sound _ _ _ _ _ _ ih h
              rw [rest_adv hr] at hl
              exact ⟨b, hb, .dollar hl⟩
            · have he : EndsLit (d :: t) := ⟨by simpa using hd, by simpa using hd2⟩
              rw [constLoop_close hr he] at h
              simp only [Prod.mk.injEq, Option.some.injEq] at h
              obtain ⟨rfl, rfl⟩ := h
              rw [rest_adv hr]
              exact ⟨[], by simp, .close he⟩
      · rw [constLoop_chr hr hc] at h
        obtain ⟨b, hb, hl⟩ := ih _ _ _ _ h
        rw [rest_adv hr] at hl
        exact ⟨c :: b, by rw [hb]; simp, .chr hc hl⟩

/-! ## The listing -/

/-- Text that can follow a string literal in a listing: it does not continue the literal. -/
def Follows (r : Str) : Prop := EndsLit r ∧ ∀ c, r.head? = some c → isDigit 16 c = false

theorem hexd_value (c : Nat) (h : c < 256) : numeral 16 [PS.hexd (c / 16), PS.hexd c] = c := by
  have : ∀ c : Fin 256, numeral 16 [PS.hexd (c.1 / 16), PS.hexd c.1] = c.1 := by decide +kernel
  exact this ⟨c, h⟩

theorem hexd_digit (n : Nat) : isDigit 16 (PS.hexd n) = true := by
  have : ∀ c : Fin 16, isDigit 16 (PS.hexd c.1) = true := by decide
  have h := this ⟨n % 16, Nat.mod_lt _ (by omega)⟩
  have e : PS.hexd (n % 16) = PS.hexd n := by unfold PS.hexd; rw [Nat.mod_mod]
  rw [← e]; exact h

theorem tStr_lit (r : Str) (hr : Follows r) : ∀ (b : Str), (∀ c ∈ b, c < 256) →
    StrLit true (PS.tStr true b ++ r) b r ∧ StrLit false (PS.tStr false b ++ r) b r ∧
      ∀ c, (PS.tStr false b ++ r).head? = some c → isDigit 16 c = false := by
  intro b
  induction b with
  | nil =>
    intro _
    exact ⟨.close hr.1, .done hr.1, hr.2⟩
  | cons c b ih =>
    intro hb
    have hc := hb c (by simp)
    obtain ⟨h1, h2, h3⟩ := ih (fun x hx => hb x (by simp [hx]))
    have hx : StrLit false (36 :: (PS.hexd (c / 16) :: PS.hexd c :: (PS.tStr false b ++ r))) (c :: b) r := by
      have := StrLit.hex (ds := [PS.hexd (c / 16), PS.hexd c]) (by simp)
        (by intro x hx; simp only [List.mem_cons, List.not_mem_nil, or_false] at hx
            rcases hx with rfl | rfl <;> exact hexd_digit _)
        (by rw [hexd_value c hc]; omega) h3 h2
      rw [hexd_value c hc] at this
      exact this
    refine ⟨?_, ?_, ?_⟩
    · simp only [PS.tStr]
      split
      · next h => subst h; exact .quote h1
      · next h =>
        split
        · exact .dollar hx
        · exact .chr h h1
    · simp only [PS.tStr]
      split
      · exact hx
      · next h => exact .reopen (.chr (fun hh => h (.inr (.inr hh))) h1)
    · intro x
      simp only [PS.tStr]
      split <;> (intro hx; simp at hx; subst hx; decide)

theorem StrLit.bytes {m : Bool} {t b r : Str} (h : StrLit m t b r) (ht : ∀ c ∈ t, c < 256) : ∀ c ∈ b, c < 256 := by
  induction h with
  | chr _ _ ih =>
    intro x hx
    simp only [List.mem_cons] at hx
    rcases hx with rfl | hx
    · exact ht _ (by simp)
    · exact ih (fun y hy => ht y (by simp [hy])) x hx
  | quote _ ih =>
    intro x hx
    simp only [List.mem_cons] at hx
    rcases hx with rfl | hx
    · omega
    · exact ih (fun y hy => ht y (by simp [hy])) x hx
  | close => simp
  | dollar _ ih => exact ih (fun y hy => ht y (List.mem_cons_of_mem _ hy))
  | hex _ _ hv _ _ ih =>
    intro x hx
    simp only [List.mem_cons] at hx
    rcases hx with rfl | hx
    · omega
    · exact ih (fun y hy => ht y (by simp [hy])) x hx
  | reopen _ ih => exact ih (fun y hy => ht y (by simp [hy]))
  | done => simp

/-! ## Properties -/

/-- **C20**, literals. After an opening quote, `E_CONST_STRING` succeeds exactly when the text is a string
literal; then the only thing emitted is a string constant with the bytes of the literal, and exactly the
literal is consumed. Any length, any adjacency of quotes, `$` and digits. -/
theorem C20_literal (env : Env) (s : PS) :
    (∀ b r, StrLit true (rest s) b r →
      ∃ s', action env .CONST_STRING s = .ok s' ∧ Emitted s s' (.str b) ∧ rest s' = r) ∧
    ((¬ ∃ b r, StrLit true (rest s) b r) → ∃ s', action env .CONST_STRING s = .fail s') := by
  constructor
  · intro b r h
    obtain ⟨p, h1, h2⟩ := (if_pos rfl ▸ h.reads s (s.str.length + 1) [] rfl (by simp [rest]; omega))
    refine ⟨((((at_ s p).addTextStr b).addSStr b).emit (.str b)), ?_, ⟨?_, ?_⟩, ?_⟩
    · show eConstString s = _
      unfold eConstString getConstString
      rw [h1]
      rfl
    · simp [at_]
    · exact emit_procs_congr (by simp [at_]) (by simp [at_]) (by simp [at_]) _
    · rw [← h2]
      simp [rest]
  · intro h
    show ∃ s', eConstString s = .fail s'
    unfold eConstString getConstString
    cases hc : (constLoop (s.str.length + 1) s []).1 with
    | none => exact ⟨(constLoop (s.str.length + 1) s []).2, by simp [hc]⟩
    | some x =>
      exfalso
      obtain ⟨b, _, hl⟩ := constLoop_sound _ s [] x (constLoop (s.str.length + 1) s []).2 (by rw [← hc])
      exact h ⟨b, _, hl⟩

/-- A literal stands for one string only. -/
theorem StrLit.unique {t b r b' r' : Str} (h : StrLit true t b r) (h' : StrLit true t b' r') : b = b' ∧ r = r' := by
  have e : rest { str := t } = t := by simp [rest]
  obtain ⟨p, h1, h2⟩ := (if_pos rfl ▸ h.reads { str := t } (t.length + 1) [] e (by omega))
  obtain ⟨p', h1', h2'⟩ := (if_pos rfl ▸ h'.reads { str := t } (t.length + 1) [] e (by omega))
  rw [h1] at h1'
  simp only [List.nil_append, Prod.mk.injEq, Option.some.injEq] at h1'
  obtain ⟨rfl, h3⟩ := h1'
  rw [← h2, ← h2', h3]
  exact ⟨rfl, rfl⟩

/-- **C20**, round trip. If `E_CONST_STRING` succeeds on a text of bytes, the text it adds to the listing is
again a string literal with the same bytes, whatever (not continuing) text follows it. -/
theorem C20_listing (env : Env) (s s' : PS) (hb : ∀ c ∈ s.str, c < 256) (b r : Str)
    (hl : StrLit true (rest s) b r) (h : action env .CONST_STRING s = .ok s') :
    ∃ u, s'.expand.text = s.expand.text ++ u ∧ ∀ r, Follows r → StrLit true (u ++ r) b r := by
  obtain ⟨p, h1, h2⟩ := (if_pos rfl ▸ hl.reads s (s.str.length + 1) [] rfl (by simp [rest]; omega))
  have e : action env .CONST_STRING s = .ok ((((at_ s p).addTextStr b).addSStr b).emit (.str b)) := by
    show eConstString s = _
    unfold eConstString getConstString
    rw [h1]
    rfl
  rw [e] at h
  cases h
  refine ⟨PS.tStr true b, by simp [PS.addTextStr, PS.addSStr, PS.emit, PS.setCode, at_], ?_⟩
  intro r hr
  exact (tStr_lit r hr b (hl.bytes (fun c hc => hb c (List.mem_of_mem_drop hc)))).1

/-- A literal ends in a quote or a hexadecimal digit. -/
theorem tStr_last (x b : Str) : ∃ l, (x ++ PS.tStr true b).getLast? = some l ∧ (l = 34 ∨ isDigit 16 l = true) := by
  suffices h : ∀ b x, (∃ l, (x ++ PS.tStr true b).getLast? = some l ∧ (l = 34 ∨ isDigit 16 l = true)) ∧
      ∀ l, x.getLast? = some l → isDigit 16 l = true →
        ∃ l, (x ++ PS.tStr false b).getLast? = some l ∧ (l = 34 ∨ isDigit 16 l = true) from (h b x).1
  intro b
  induction b with
  | nil => intro x; exact ⟨⟨34, by simp [PS.tStr], .inl rfl⟩, fun l h1 h2 => ⟨l, by simpa [PS.tStr] using h1, .inr h2⟩⟩
  | cons c b ih =>
    intro x
    have e : ∀ (y : Str) (z : Str), x ++ (y ++ z) = (x ++ y) ++ z := fun _ _ => (List.append_assoc _ _ _).symm
    refine ⟨?_, ?_⟩
    · simp only [PS.tStr]
      split
      · rw [show (34 :: 34 :: PS.tStr true b : Str) = [34, 34] ++ PS.tStr true b from rfl, e]; exact (ih _).1
      · split
        · rw [show (34 :: 36 :: PS.hexd (c / 16) :: PS.hexd c :: PS.tStr false b : Str) =
            [34, 36, PS.hexd (c / 16), PS.hexd c] ++ PS.tStr false b from rfl, e]
          exact (ih _).2 (PS.hexd c) (by simp) (hexd_digit c)
        · rw [show (c :: PS.tStr true b : Str) = [c] ++ PS.tStr true b from rfl, e]; exact (ih _).1
    · intro l hl1 hl2
      simp only [PS.tStr]
      split
      · rw [show (36 :: PS.hexd (c / 16) :: PS.hexd c :: PS.tStr false b : Str) =
            [36, PS.hexd (c / 16), PS.hexd c] ++ PS.tStr false b from rfl, e]
        exact (ih _).2 (PS.hexd c) (by simp) (hexd_digit c)
      · rw [show (34 :: c :: PS.tStr true b : Str) = [34, c] ++ PS.tStr true b from rfl, e]; exact (ih _).1

/-- **C20**, round trip, the rest of the listing. Whatever token (except a `$` alone, which is only the suffix
of a name) is added to the listing after a string literal, the added text does not continue the literal. -/
theorem C20_follows (s : PS) (b : Str) (t : Str) (ht : t ≠ []) (hd : t ≠ [36])
    (hlast : ∃ x, s.expand.text = x ++ PS.tStr true b) :
    ∃ u, (s.addText t).expand.text = s.expand.text ++ u ∧ Follows u := by
  obtain ⟨x, hx⟩ := hlast
  obtain ⟨l, hl, hl2⟩ := tStr_last x b
  cases t with
  | nil => exact absurd rfl ht
  | cons c t =>
    have hlast : s.expand.text.getLast?.getD 0 = l := by rw [hx, hl]; rfl
    by_cases hn : PS.needSpace l c (c :: t).length = true
    · refine ⟨32 :: c :: t, ?_, ⟨by simp, by simp⟩, by intro c hc; simp at hc; subst hc; decide⟩
      simp only [PS.addText, hlast, if_pos hn]
      simp
    · refine ⟨c :: t, by simp only [PS.addText, hlast, if_neg hn], ?_⟩
      have hne : ¬ (c = 36 ∧ ¬ (c :: t).length > 1) := by
        rintro ⟨rfl, h2⟩
        apply hd
        cases t with
        | nil => rfl
        | cons => simp at h2
      have hl3 : l ≠ 0 ∧ l ≠ 32 ∧ l ≠ 40 ∧ l ≠ 91 ∧ l ≠ 35 := by
        rcases hl2 with rfl | hl2
        · decide
        · refine ⟨?_, ?_, ?_, ?_, ?_⟩ <;> (rintro rfl; revert hl2; decide)
      unfold PS.needSpace at hn
      rw [if_neg (by omega)] at hn
      have hcc : c = 91 ∨ c = 40 ∨ c = 37 ∨ c = 44 ∨ c = 41 ∨ c = 93 := by
        split at hn
        · next h =>
          rcases h with h | h
          · exact absurd h hne
          · omega
        · split at hn
          · next h => omega
          · exact absurd rfl hn
      refine ⟨⟨?_, ?_⟩, ?_⟩
      · intro h; simp at h; omega
      · intro h; simp at h; omega
      · intro d h
        simp only [List.head?_cons, Option.some.injEq] at h
        subst h
        rcases hcc with rfl | rfl | rfl | rfl | rfl | rfl <;> decide
/-! ## The short listing

`add_s_str` writes a literal that is right by itself, but the text after it can continue it. -/

theorem sStr_lit (r : Str) (hr : EndsLit r) (b : Str) : StrLit true (PS.sStr b ++ r) b r := by
  induction b with
  | nil => exact .close hr
  | cons c b ih =>
    simp only [PS.sStr]
    split
    · next h => subst h; exact .quote ih
    · next h => exact .chr h ih

/-- The literal of the short listing alone is right for every byte string. -/
theorem C20_short_partial (env : Env) (s s' : PS) (b r : Str)
    (hl : StrLit true (rest s) b r) (h : action env .CONST_STRING s = .ok s') :
    ∃ u, s'.expand.stext = s.expand.stext ++ u ∧ ∀ r, EndsLit r → StrLit true (u ++ r) b r := by
  obtain ⟨p, h1, h2⟩ := (if_pos rfl ▸ hl.reads s (s.str.length + 1) [] rfl (by simp [rest]; omega))
  have e : action env .CONST_STRING s = .ok ((((at_ s p).addTextStr b).addSStr b).emit (.str b)) := by
    show eConstString s = _
    unfold eConstString getConstString
    rw [h1]
    rfl
  rw [e] at h
  cases h
  refine ⟨PS.sStr b, by simp [PS.addTextStr, PS.addSStr, PS.emit, PS.setCode, at_], ?_⟩
  exact fun r hr => sStr_lit r hr b

/-- The short listing of the last statement and the string constants of the main program. -/
def shortAndStrings (r : CRes) : Option (Str × List Str) :=
  match r with
  | .ok s => some (s.expand.stext, ((codeOf s []).reverse.filterMap fun c => match c.k with | .str t => some t | _ => none))
  | .err _ => none

/-- **C20 is false for the short listing** (option `-s`): in the shipped grammar two strings can follow each
other in `PRINT`; `?"a" "b"` has the short listing `?"a""b"`, which prints one string, `a"b`. -/
theorem C20_short_refuted :
    shortAndStrings (compile (fpStart noEnv) (ofS "?\"a\" \"b\"")) = some (ofS "?\"a\"\"b\"", [ofS "a", ofS "b"]) ∧
    shortAndStrings (compile (fpStart noEnv) (ofS "?\"a\"\"b\"")) = some (ofS "?\"a\"\"b\"", [ofS "a\"b"]) := by
  decide +kernel

/-! ## Examples -/

/-- A literal with all forms: `ab""` `"$0D$7"c"`, then a comma. -/
example : StrLit true (ofS "a\"\"\"$0D$7\"c\",1") [97, 34, 13, 7, 99] (ofS ",1") := by
  refine .chr (by decide) (.quote (.dollar (.hex (ds := [48, 68]) (t := ofS "$7\"c\",1") ?_ ?_ ?_ ?_
    (.hex (ds := [55]) (t := ofS "\"c\",1") ?_ ?_ ?_ ?_ (.reopen (.chr (by decide) (.close ⟨by decide, by decide⟩)))))))
  all_goals decide

/-- The bytes `"`, 155, 65, and 1 in the listing. -/
example : PS.tStr true [34, 155, 65, 1] = ofS "\"\"\"$9B\"A\"$01" ∧ Follows (ofS " +") ∧ Follows [] := by
  refine ⟨by decide, ⟨⟨by decide, by decide⟩, ?_⟩, ⟨⟨by decide, by decide⟩, ?_⟩⟩
  · intro c h; cases h; decide
  · intro c h; cases h

/-- `C20_follows`: a listing ending in a literal (its last byte in hexadecimal) and a following `ABS`. -/
example : ∃ u, (PS.addText { expand := { text := ofS "? \"" ++ PS.tStr true [1] } } (ofS "ABS")).expand.text =
    ofS "? \"" ++ PS.tStr true [1] ++ u ∧ Follows u :=
  C20_follows { expand := { text := ofS "? \"" ++ PS.tStr true [1] } } [1] (ofS "ABS") (by decide) (by decide)
    ⟨_, rfl⟩

end FB.Parse
