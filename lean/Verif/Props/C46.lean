import Verif.Eng.KLit
import Verif.Props.C45
/-!
# C46: the constants of the program in the native compiler, as 6502 code

The routines of `/repo/src/actions.asm:164-300` accept exactly the literals of the specification, and emit their values; with the text in capital letters (as the editor of lines leaves it) they
agree with the cross compiler (C19, C20), but for the exceptions that are stated here.
-/
namespace FB.Eng
open FB.Rt
open FB.Parse (Str intLiteral digitsAt isDigit numeral StrLit EndsLit rest PS Emitted action ofS)

section
variable (err : B) {m : M} {k : Code} {st : List Slot}
local notation "Q" => kCode err

/-! ## Numbers -/

/-- **C46**, words. In the line there are `n` blanks, then the text `t` to the end of the line. `E_NUMBER_WORD` (of the compiler with floating point or without it) accepts exactly when the text starts
with an integer literal of the specification and its value has at most 16 bits; then the two bytes of the value are the only thing emitted, and the position in the line is after the literal; if there
is no space in the code, the compiler ends with an error. -/
theorem C46_word (hs : m.stk = .ret k :: st) (fp : Bool) {n : Nat} {t : List B} (h : LineAt m n t) :
    (∀ v j, nativeInt fp (strOf t) = some (v, j) → v.natAbs < 65536 →
      if m.kv.op.toNat + 2 ≤ 255 then KEmits err (nwEntry err fp) m k st (n + j) [lo (BitVec.ofInt 16 v), hi (BitVec.ofInt 16 v)] [] else KErrs err (nwEntry err fp) m) ∧
    ((¬ ∃ v j, nativeInt fp (strOf t) = some (v, j) ∧ v.natAbs < 65536) → KRejects err (nwEntry err fp) m k st) :=
  number_word err hs fp h

/-- **C46**, bytes (`E_NUMBER_BYTE`): only values that modulo 65536 are at most 255; space for two bytes is needed, though the second one is taken back. -/
theorem C46_byte (hs : m.stk = .ret k :: st) (fp : Bool) {n : Nat} {t : List B} (h : LineAt m n t) :
    (∀ v j, nativeInt fp (strOf t) = some (v, j) → v.natAbs < 65536 →
      if 255 < m.kv.op.toNat + 2 then KErrs err (nbEntry err fp) m
      else if v % 65536 ≤ 255 then KEmits err (nbEntry err fp) m k st (n + j) [BitVec.ofInt 8 v] [0#8]
      else KRejects err (nbEntry err fp) m k st) ∧
    ((¬ ∃ v j, nativeInt fp (strOf t) = some (v, j) ∧ v.natAbs < 65536) → KRejects err (nbEntry err fp) m k st) :=
  number_byte err hs fp h

/-! ## Strings -/

/-- **C46**, strings. The line, after an opening quote, has the text `t`. `E_CONST_STRING` accepts exactly the literals of the specification, if there is space in the code; then the length and the bytes
of the literal are the only things emitted, and exactly the literal is consumed. A text that is no literal is not accepted, or the compiler ends with an error (its bytes before the place where
it is wrong do not fit). -/
theorem C46_string (hs : m.stk = .ret k :: st) {t : List B} (h : StrAt m t) :
    (∀ b r n, NatLit true (strOf t) b r n →
      if m.kv.op.toNat + 1 + n ≤ 255 then ∃ over, b.length + over.length ≤ n ∧
        KEmits err (kCode.E_CONST_STRING err) m k st (t.length - r.length) (BitVec.ofNat 8 b.length :: b.map (BitVec.ofNat 8)) over
      else KErrs err (kCode.E_CONST_STRING err) m) ∧
    ((¬ ∃ b r n, NatLit true (strOf t) b r n) → KRejects err (kCode.E_CONST_STRING err) m k st ∨ KErrs err (kCode.E_CONST_STRING err) m) :=
  const_string hs h

/-! ## Against the cross compiler: numbers -/

theorem capDigit_eq {base c : Nat} (h : c < 97 ∨ 122 < c) : capDigit base c = isDigit base c := by
  unfold capDigit
  rcases h with h | h
  · simp [h]
  · have : isDigit base c = false := by
      unfold isDigit
      rw [FB.Parse.digitOf_none (by omega) (by omega) (by omega)]
    rw [this]; rfl

theorem capDigits_eq {base : Nat} : ∀ {t : Str}, (∀ c ∈ t, c < 97 ∨ 122 < c) → t.takeWhile (capDigit base) = digitsAt base t := by
  intro t
  induction t with
  | nil => intro _; rfl
  | cons c t ih =>
    intro h
    unfold digitsAt at ih ⊢
    rw [List.takeWhile_cons, List.takeWhile_cons, capDigit_eq (h c (List.mem_cons_self ..)), ih (fun x hx => h x (List.mem_cons_of_mem _ hx))]

/-- **C46**: in a text without small letters the integer literals of both compilers are the same, but for those that start with `+`. -/
theorem C46_int_literal {t : Str} (hc : ∀ c ∈ t, c < 97 ∨ 122 < c) (hp : t.head? ≠ some 43) : nativeInt true t = intLiteral t := by
  cases t with
  | nil => rfl
  | cons c t =>
    have h1 : c ≠ 43 := fun h => hp (by rw [h]; rfl)
    have ht : ∀ x ∈ t, x < 97 ∨ 122 < x := fun x hx => hc x (List.mem_cons_of_mem _ hx)
    unfold nativeInt intLiteral
    by_cases h36 : c = 36
    · simp only [h36, if_true, capDigits_eq ht]
    · simp only [h36, if_false, h1, or_false, true_and]
      by_cases h45 : c = 45
      · simp only [h45, if_true, capDigits_eq ht]
      · simp only [h45, if_false, capDigits_eq hc, Nat.zero_add]

/-- **C46**: the same line in both compilers. `t`, in capital letters and not after `+`, is in the line of the native compiler after `n` blanks, and in the line of the cross compiler at the next character
that is no blank. If the cross compiler accepts it, the native compiler does, if there is space, and emits the two bytes of the same word; if the cross compiler does not, the native one does
not either, but for `-0`. -/
theorem C46_same_word (env : FB.Parse.Env) (s : PS) (hs : m.stk = .ret k :: st) {n : Nat} {t : List B} (h : LineAt m n t) (hr : rest s.skipws = strOf t)
    (hc : ∀ c ∈ strOf t, c < 97 ∨ 122 < c) (hp : t.head? ≠ some 43#8) (hat : t.head? ≠ some 64#8) :
    (∀ s', action env .NUMBER_WORD s = .ok s' → ∃ w : W, ∃ j, Emitted s s' (.word w.toNat) ∧ s'.pos = s.skipws.pos + j + PS.wsLen ((strOf t).drop j) ∧
      if m.kv.op.toNat + 2 ≤ 255 then KEmits err (kCode.E_NUMBER_WORD err) m k st (n + j) [lo w, hi w] [] else KErrs err (kCode.E_NUMBER_WORD err) m) ∧
    ((∀ s', action env .NUMBER_WORD s ≠ .ok s') → (∀ j, intLiteral (strOf t) = some (0, j) → t.head? ≠ some 45#8) → KRejects err (kCode.E_NUMBER_WORD err) m k st) := by
  have hd : ∀ x : B, t.head? ≠ some x → (strOf t).head? ≠ some x.toNat := by
    intro x hx
    cases t with
    | nil => simp [strOf]
    | cons c t =>
      intro he
      refine hx ?_
      have : c.toNat = x.toNat := by simpa [strOf] using he
      rw [BitVec.eq_of_toNat_eq this]; rfl
  have e := C46_int_literal hc (hd _ hp)
  obtain ⟨c1, c2⟩ := FB.Parse.C19_word env s (by rw [hr]; exact hd _ hat)
  rw [hr] at c1 c2
  obtain ⟨n1, n2⟩ := C46_word err hs true h
  rw [e] at n1 n2
  by_cases hx : ∃ v j, intLiteral (strOf t) = some (v, j) ∧ FB.Parse.Fits (strOf t) v
  · obtain ⟨v, j, hl, hf⟩ := hx
    obtain ⟨s1, a1, em, ps⟩ := c1 v j hl hf
    constructor
    · intro s' hs'
      rw [a1] at hs'
      cases hs'
      have key := n1 v j hl (by have h1 := hf.1; have h2 := hf.2.1; omega)
      exact ⟨BitVec.ofInt 16 v, j, by rw [BitVec.toNat_ofInt]; exact em, ps, key⟩
    · intro hno
      exact absurd a1 (hno s1)
  · obtain ⟨s1, a1⟩ := c2 hx
    constructor
    · intro s' hs'
      rw [a1] at hs'
      cases hs'
    · intro _ h0
      refine n2 fun ⟨v, j, hl, hv⟩ => hx ⟨v, j, hl, by omega, by omega, fun h45 hv0 => ?_⟩
      subst hv0
      refine h0 j hl ?_
      cases t with
      | nil => simp [strOf] at h45
      | cons c t =>
        have : c.toNat = 45 := by simpa [strOf] using h45
        have : c = 45#8 := BitVec.eq_of_toNat_eq this
        rw [this]; rfl

/-- **C46 is false without the exceptions**: the native compiler accepts `+5` and `-0`, that are no literals of the cross compiler. -/
theorem C46_number_refuted : nativeInt true (ofS "+5") = some (5, 2) ∧ intLiteral (ofS "+5") = none ∧ nativeInt true (ofS "-0") = some (0, 2) ∧ ¬ FB.Parse.Fits (ofS "-0") 0 := by
  refine ⟨by decide +kernel, by decide +kernel, by decide +kernel, fun h => h.2.2 (by decide) rfl⟩

/-! ## Against the cross compiler: strings -/

/-- The text has no small letters outside of quotes; `q` says if the text starts inside of them. -/
def capsOut : Bool → Str → Prop
  | _, [] => True
  | true, c :: t => if c = 34 then capsOut false t else capsOut true t
  | false, c :: t => if c = 34 then capsOut true t else (c < 97 ∨ 122 < c) ∧ capsOut false t

theorem capsOut_digits {ds t : Str} (hd : ∀ c ∈ ds, isDigit 16 c = true) (h : capsOut false (ds ++ t)) : (∀ c ∈ ds, c < 97 ∨ 122 < c) ∧ capsOut false t := by
  induction ds with
  | nil => exact ⟨by simp, h⟩
  | cons c ds ih =>
    have hc : c ≠ 34 := by intro e; have := hd c (List.mem_cons_self ..); rw [e] at this; exact absurd this (by decide)
    simp only [List.cons_append, capsOut, if_neg hc] at h
    obtain ⟨a, b⟩ := ih (fun x hx => hd x (List.mem_cons_of_mem _ hx)) h.2
    refine ⟨fun x hx => ?_, b⟩
    rcases List.mem_cons.1 hx with rfl | hx
    · exact h.1
    · exact a x hx

theorem capsOut_head {t : Str} (h : capsOut false t) : ∀ c, t.head? = some c → capDigit 16 c = isDigit 16 c := by
  intro c hc
  cases t with
  | nil => cases hc
  | cons d t =>
    obtain rfl : d = c := by simpa using hc
    by_cases h34 : d = 34
    · rw [h34]; decide
    · simp only [capsOut, if_neg h34] at h
      exact capDigit_eq h.1

/-- **C46**: a string literal of the cross compiler, without small letters outside of quotes, is a literal of the native compiler with the same bytes, that needs space for at most one byte more. -/
theorem C46_string_literal {q : Bool} {t b r : Str} (h : StrLit q t b r) (hc : capsOut q t) : ∃ n, n ≤ b.length + 1 ∧ NatLit q t b r n := by
  induction h with
  | chr hne _ ih =>
    simp only [capsOut, if_neg hne] at hc
    obtain ⟨n, h1, h2⟩ := ih hc
    exact ⟨_, by simp; omega, .chr hne h2⟩
  | quote _ ih =>
    simp only [capsOut, if_true] at hc
    obtain ⟨n, h1, h2⟩ := ih hc
    exact ⟨_, by simp; omega, .quote h2⟩
  | close he => exact ⟨0, by simp, .close he⟩
  | dollar _ ih =>
    simp only [capsOut, if_true] at hc
    obtain ⟨n, h1, h2⟩ := ih hc
    exact ⟨n, h1, .dollar h2⟩
  | @hex ds t b r hne hd hv ht _ ih =>
    have hc' : capsOut false (ds ++ t) := by
      simp only [capsOut, show ¬ ((36 : Nat) = 34) by decide, if_false] at hc
      exact hc.2
    obtain ⟨h1, h2⟩ := capsOut_digits hd hc'
    obtain ⟨n, h3, h4⟩ := ih h2
    have key := NatLit.hex (ds := ds) hne (fun c hc => (capDigit_eq (h1 c hc)).trans (hd c hc)) (by omega) (fun c hc => (capsOut_head h2 c hc).trans (ht c hc)) h4
    rw [Nat.mod_eq_of_lt (by omega)] at key
    exact ⟨_, by simp; omega, key⟩
  | reopen _ ih =>
    simp only [capsOut, if_true] at hc
    obtain ⟨n, h1, h2⟩ := ih hc
    exact ⟨n, h1, .reopen h2⟩
  | done he => exact ⟨0, by simp, .done he⟩

/-- **C46**: conversely, a literal of the native compiler without small letters outside of quotes is one of the cross compiler, with the same bytes, or it has a `$` with a value over 255. -/
theorem C46_string_cross {q : Bool} {t b r : Str} {n : Nat} (h : NatLit q t b r n) (hc : capsOut q t) :
    StrLit q t b r ∨ ∃ x ds y, t = x ++ 36 :: (ds ++ y) ∧ (∀ c ∈ ds, isDigit 16 c = true) ∧ 255 < numeral 16 ds := by
  induction h with
  | @chr c _ _ _ _ hne _ ih =>
    simp only [capsOut, if_neg hne] at hc
    rcases ih hc with h | ⟨x, ds, y, rfl, h⟩
    · exact .inl (.chr hne h)
    · exact .inr ⟨c :: x, ds, y, rfl, h⟩
  | quote _ ih =>
    simp only [capsOut, if_true] at hc
    rcases ih hc with h | ⟨x, ds, y, rfl, h⟩
    · exact .inl (.quote h)
    · exact .inr ⟨34 :: 34 :: x, ds, y, rfl, h⟩
  | close he => exact .inl (.close he)
  | dollar _ ih =>
    simp only [capsOut, if_true] at hc
    rcases ih hc with h | ⟨x, ds, y, e, h⟩
    · exact .inl (.dollar h)
    · exact .inr ⟨34 :: x, ds, y, by rw [e]; rfl, h⟩
  | @hex ds t b r n hne hd hv ht _ ih =>
    have hd' : ∀ c ∈ ds, isDigit 16 c = true := fun c hc => by
      have := hd c hc
      simp only [capDigit, Bool.and_eq_true] at this
      exact this.1
    by_cases h255 : 255 < numeral 16 ds
    · exact .inr ⟨[], ds, t, rfl, hd', h255⟩
    · have hc' : capsOut false (ds ++ t) := by
        simp only [capsOut, show ¬ ((36 : Nat) = 34) by decide, if_false] at hc
        exact hc.2
      obtain ⟨h1, h2⟩ := capsOut_digits hd' hc'
      rcases ih h2 with h | ⟨x, ds', y, rfl, h⟩
      · rw [Nat.mod_eq_of_lt (by omega)]
        exact .inl (.hex hne hd' (by omega) (fun c hc => (capsOut_head h2 c hc).symm.trans (ht c hc)) h)
      · exact .inr ⟨36 :: (ds ++ x), ds', y, by simp, h⟩
  | reopen _ ih =>
    simp only [capsOut, if_true] at hc
    rcases ih hc with h | ⟨x, ds, y, rfl, h⟩
    · exact .inl (.reopen h)
    · exact .inr ⟨34 :: x, ds, y, rfl, h⟩
  | done he => exact .inl (.done he)

/-- **C46**: the same line in both compilers, without small letters outside of quotes. If the cross compiler accepts the string, and its length and two bytes more fit in the code, the native compiler
emits the same bytes, after the length, and consumes the same text. -/
theorem C46_same_string (env : FB.Parse.Env) (s s' : PS) (hs : m.stk = .ret k :: st) {t : List B} (h : StrAt m t) (hr : rest s = strOf t) (hc : capsOut true (strOf t))
    (ha : action env .CONST_STRING s = .ok s') : ∃ b, Emitted s s' (.str b) ∧
      (m.kv.op.toNat + b.length + 2 ≤ 255 → ∃ over, over.length ≤ 1 ∧
        KEmits err (kCode.E_CONST_STRING err) m k st (t.length - (rest s').length) (BitVec.ofNat 8 b.length :: b.map (BitVec.ofNat 8)) over) := by
  obtain ⟨c1, c2⟩ := FB.Parse.C20_literal env s
  by_cases hx : ∃ b r, StrLit true (rest s) b r
  · obtain ⟨b, r, hl⟩ := hx
    obtain ⟨s1, a1, em, hr1⟩ := c1 b r hl
    rw [a1] at ha
    cases ha
    rw [hr] at hl
    obtain ⟨n, hn, hl'⟩ := C46_string_literal hl hc
    refine ⟨b, em, fun ho => ?_⟩
    have key := (C46_string err hs h).1 b r n hl'
    rw [if_pos (by omega)] at key
    obtain ⟨over, h1, h2⟩ := key
    rw [hr1]
    exact ⟨over, by omega, h2⟩
  · obtain ⟨s1, a1⟩ := c2 hx
    rw [a1] at ha
    cases ha

/-- **C46 is false for values over 255**: after the opening quote, `A"$1234` is a literal of the native compiler, with the bytes `$41` and `$34`; it is none of the cross compiler. -/
theorem C46_string_refuted : NatLit true (ofS "A\"$1234") [0x41, 0x34] [] 3 ∧ ¬ ∃ b r, StrLit true (ofS "A\"$1234") b r := by
  constructor
  · exact .chr (by decide) (.dollar (.hex (ds := [49, 50, 51, 52]) (t := []) (by decide) (by decide) (by decide) (by simp) (.done ⟨by simp, by simp⟩)))
  · rintro ⟨b, r, h⟩
    generalize ht : ofS "A\"$1234" = t at h
    have e : ofS "A\"$1234" = [65, 34, 36, 49, 50, 51, 52] := by decide
    rw [e] at ht
    subst ht
    cases h with
    | chr _ h =>
      cases h with
      | chr h => exact h rfl
      | close h => exact h.2 rfl
      | dollar h =>
        generalize hw : ([36, 49, 50, 51, 52] : Str) = w at h
        cases h with
        | @hex ds t _ _ h1 h2 h3 h4 _ =>
          have hu : [49, 50, 51, 52] = ds ++ t := by simpa using hw
          have := FB.Parse.digitsAt_append h2 h4
          rw [← hu] at this
          rw [← this] at h3
          exact absurd h3 (by decide)
        | reopen => simp at hw
        | done h => subst hw; exact h.2 rfl

end

/-! ## Examples -/

/-- The line ` $1F2,"` at `$580`, from position 3; the code is at `$2100`, with 5 bytes. -/
def exM46 (t : List B) : M :=
  { exM45 with ram := writeAt (fun _ => 0) 0x583 (t ++ [155#8]), zp := { exM45.zp with inb := 0x80, inbh := 0x05, cix := 3, opos := 5, prgp := 0, prgph := 0x21 } }

theorem exLine46 : LineAt (exM46 [32, 36, 49, 70, 50, 44]) 1 [36, 49, 70, 50, 44] := by
  refine ⟨?_, by decide, by decide⟩
  intro i hi
  have hi' : i < 7 := hi
  rcases (by omega : i = 0 ∨ i = 1 ∨ i = 2 ∨ i = 3 ∨ i = 4 ∨ i = 5 ∨ i = 6) with rfl | rfl | rfl | rfl | rfl | rfl | rfl <;> rfl

/-- ` $1F2,`: the word `$01F2`; the position is that of the comma. -/
example : ∃ m', Reach (kCode 9) (kCode.E_NUMBER_WORD 9) (exM46 [32, 36, 49, 70, 50, 44]) [] m' ∧ m'.c = false ∧ m'.zp.opos = 7 ∧ m'.zp.cix = 8 ∧ m'.ram 0x2105 = 0xF2 ∧ m'.ram 0x2106 = 0x01 := by
  obtain ⟨m', r, c, v⟩ := (C46_word 9 (k := []) (st := [.byte 7]) rfl true exLine46).1 0x1F2 4 (by decide +kernel) (by decide)
  exact ⟨m', r, c, congrArg KV.op v, congrArg KV.ci v, congrFun (congrArg KV.ram v) 0x2105, congrFun (congrArg KV.ram v) 0x2106⟩

/-- It is no byte. -/
example : KRejects 9 (kCode.E_NUMBER_BYTE 9) (exM46 [32, 36, 49, 70, 50, 44]) [] [.byte 7] :=
  (C46_byte 9 (k := []) (st := [.byte 7]) rfl true exLine46).1 0x1F2 4 (by decide +kernel) (by decide)

/-- The cross compiler with the same text. -/
example (s : PS) (h : rest s.skipws = ofS "$1F2,") (env : FB.Parse.Env) : ∃ s', action env .NUMBER_WORD s = .ok s' := by
  obtain ⟨s', h1, -⟩ := (FB.Parse.C19_word env s (by rw [h]; decide)).1 0x1F2 4 (by rw [h]; decide +kernel) (by rw [h]; exact ⟨by decide, by decide, by decide⟩)
  exact ⟨s', h1⟩

theorem exStr46 : StrAt (exM46 [97, 34, 36, 48, 68, 34, 34, 44]) [97, 34, 36, 48, 68, 34, 34, 44] := by
  refine ⟨?_, by decide, ?_, by decide⟩
  · intro i hi
    have hi' : i < 9 := hi
    rcases (by omega : i = 0 ∨ i = 1 ∨ i = 2 ∨ i = 3 ∨ i = 4 ∨ i = 5 ∨ i = 6 ∨ i = 7 ∨ i = 8) with rfl | rfl | rfl | rfl | rfl | rfl | rfl | rfl | rfl <;> rfl
  · intro i hi
    have hi' : i < 9 := by have : i ≤ 8 := hi; omega
    rcases (by omega : i = 0 ∨ i = 1 ∨ i = 2 ∨ i = 3 ∨ i = 4 ∨ i = 5 ∨ i = 6 ∨ i = 7 ∨ i = 8) with rfl | rfl | rfl | rfl | rfl | rfl | rfl | rfl | rfl <;> decide

theorem exLit46 : StrLit true [97, 34, 36, 48, 68, 34, 34, 44] [97, 13] [44] :=
  .chr (by decide) (.dollar (.hex (ds := [48, 68]) (t := [34, 34, 44]) (by decide) (by decide) (by decide) (by decide) (.reopen (.close ⟨by decide, by decide⟩))))

/-- `a"$0D"",`: the length 2, then `a` and 13; the position is that of the comma. -/
example : ∃ m', Reach (kCode 9) (kCode.E_CONST_STRING 9) (exM46 [97, 34, 36, 48, 68, 34, 34, 44]) [] m' ∧ m'.c = false ∧ m'.zp.opos = 8 ∧ m'.zp.cix = 10 ∧
    m'.ram 0x2105 = 2 ∧ m'.ram 0x2106 = 97 ∧ m'.ram 0x2107 = 13 := by
  obtain ⟨n, hn, hl⟩ := C46_string_literal exLit46 (by simp [capsOut])
  have key := (C46_string 9 (k := []) (st := [.byte 7]) rfl exStr46).1 _ _ n hl
  rw [if_pos (by have : (exM46 [97, 34, 36, 48, 68, 34, 34, 44]).kv.op.toNat = 5 := rfl; simp at hn; omega)] at key
  obtain ⟨over, h1, m', r, c, v⟩ := key
  exact ⟨m', r, c, congrArg KV.op v, congrArg KV.ci v, congrFun (congrArg KV.ram v) 0x2105, congrFun (congrArg KV.ram v) 0x2106, congrFun (congrArg KV.ram v) 0x2107⟩

end FB.Eng
