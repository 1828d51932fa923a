import Verif.Props.C35

/-!
# C36: the text of a floating point constant denotes exactly its value, and re-reads to the same bytes
-/

namespace FB.Parse

theorem decNum_foldl (b : Str) (n : Nat) : b.foldl (fun n c => n * 10 + (c - 48)) n = n * 10 ^ b.length + decNum b := by
  unfold decNum
  induction b generalizing n with
  | nil => simp
  | cons c b ih =>
    simp only [List.foldl_cons, List.length_cons]
    rw [ih, ih (0 * 10 + (c - 48)), pow_succ]
    ring

theorem decNum_append (a b : Str) : decNum (a ++ b) = decNum a * 10 ^ b.length + decNum b := by
  rw [decNum, List.foldl_append, decNum_foldl]
  rfl

theorem decNum_lt {a : Str} (h : Digits a) : decNum a < 10 ^ a.length := by
  induction a with
  | nil => simp [decNum]
  | cons c a ih =>
    have hc := h c (List.mem_cons_self ..)
    have := ih fun d hd => h d (List.mem_cons_of_mem _ hd)
    have e := decNum_append [c] a
    rw [List.singleton_append] at e
    rw [e, List.length_cons, pow_succ, show decNum [c] = c - 48 by simp [decNum]]
    have : (c - 48) * 10 ^ a.length ≤ 9 * 10 ^ a.length := Nat.mul_le_mul_right _ (by omega)
    omega

theorem decNum_zeros (d : Str) (j : Nat) : decNum (d ++ List.replicate j 48) = decNum d * 10 ^ j := by
  rw [decNum_append, List.length_replicate]
  have : decNum (List.replicate j 48) = 0 := by
    induction j with
    | zero => rfl
    | succ j ih =>
      rw [List.replicate_succ', decNum_append, ih]
      rfl
  rw [this]
  rfl

theorem decNum_zero (d : Str) : decNum (48 :: d) = decNum d := by
  have e := decNum_append [48] d
  rw [List.singleton_append] at e
  rw [e, show decNum [48] = 0 from rfl]
  omega

theorem fpStrip_spec (r : Str) (e : Int) : ∃ j : Nat, r = List.replicate j 48 ++ (fpStrip r e).1 ∧ (fpStrip r e).2 = e + j ∧
    (r ≠ [] → (fpStrip r e).1 ≠ []) := by
  induction r generalizing e with
  | nil => exact ⟨0, rfl, by simp [fpStrip], fun h => h⟩
  | cons c r ih =>
    cases r with
    | nil => exact ⟨0, rfl, by simp [fpStrip], fun h => h⟩
    | cons d cs =>
      unfold fpStrip
      split
      · next h =>
        subst h
        obtain ⟨j, h1, h2, h3⟩ := ih (e + 1)
        refine ⟨j + 1, ?_, by rw [h2]; push_cast; ring, fun _ => h3 (by simp)⟩
        rw [List.replicate_succ, List.cons_append, ← h1]
      · exact ⟨0, rfl, by simp, fun h => h⟩

theorem fpExp2_spec {n : Nat} (h : n ≤ 99) : Digits (fpExp2 n) ∧ ((fpExp2 n).length = 1 ∨ (fpExp2 n).length = 2) ∧
    decNum (fpExp2 n) = n := by
  unfold fpExp2
  split
  · refine ⟨fun c hc => ?_, .inr rfl, ?_⟩
    · simp only [List.cons_append, List.nil_append, List.mem_cons, List.not_mem_nil, or_false] at hc
      omega
    · simp only [decNum, List.cons_append, List.nil_append, List.foldl_cons, List.foldl_nil]
      omega
  · refine ⟨fun c hc => ?_, .inl rfl, ?_⟩
    · simp only [List.nil_append, List.mem_cons, List.not_mem_nil, or_false] at hc
      omega
    · simp only [decNum, List.nil_append, List.foldl_cons, List.foldl_nil]
      omega

theorem Digits.take {d : Str} (h : Digits d) (n : Nat) : Digits (d.take n) := fun c hc => h c (List.mem_of_mem_take hc)

theorem Digits.drop {d : Str} (h : Digits d) (n : Nat) : Digits (d.drop n) := fun c hc => h c (List.mem_of_mem_drop hc)

theorem Digits.append {d e : Str} (h : Digits d) (h' : Digits e) : Digits (d ++ e) := fun c hc =>
  (List.mem_append.1 hc).elim (h c) (h' c)

/-- The text after the sign is a literal with the value of the digits and the exponent. -/
theorem fpBody_lit (neg : Bool) {d : Str} {iexp : Int} (hd : Digits d) (hne : d ≠ []) (h10 : d.length ≤ 10) (hi : iexp ≤ 99)
    (hlow : (10 : ℚ) ^ (-99 : ℤ) ≤ decNum d * 10 ^ iexp) :
    ∃ l : Lit, l.Ok ∧ l.neg = neg ∧ fpBody d iexp = l.digs ++ l.exText ∧ l.mag = decNum d * 10 ^ iexp := by
  have hlen : 0 < d.length := List.length_pos_iff.2 hne
  have z : Digits [] := fun c hc => by cases hc
  have z0 : Digits [48] := fun c hc => by simp at hc; omega
  unfold fpBody
  simp only
  split
  · next h =>
    refine ⟨⟨neg, d.take (iexp + (d.length - 1) + 1).toNat, true, d.drop (iexp + (d.length - 1) + 1).toNat, none⟩,
      ⟨hd.take _, hd.drop _, nofun, by simpa using hne, nofun⟩, rfl, by simp [Lit.digs, Lit.exText], ?_⟩
    simp only [Lit.mag, List.take_append_drop, Lit.exp, List.length_drop]
    congr 2
    omega
  · split
    · next h =>
      refine ⟨⟨neg, [], true, 48 :: d, none⟩, ⟨z, z0.append hd, nofun, by simp, nofun⟩, rfl,
        by simp [Lit.digs, Lit.exText], ?_⟩
      simp only [Lit.mag, List.nil_append, decNum_zero, Lit.exp, List.length_cons]
      congr 2
      omega
    · split
      · next h =>
        subst h
        exact ⟨⟨neg, d, false, [], none⟩, ⟨hd, z, fun _ => rfl, by simpa using hne, nofun⟩, rfl,
          by simp [Lit.digs, Lit.exText], by simp [Lit.mag, Lit.exp]⟩
      · split
        · next h =>
          subst h
          refine ⟨⟨neg, d ++ [48], false, [], none⟩, ⟨hd.append z0, z, fun _ => rfl, by simp, nofun⟩,
            rfl, by simp [Lit.digs, Lit.exText], ?_⟩
          have := decNum_zeros d 1
          simp only [List.replicate_one] at this
          simp [Lit.mag, Lit.exp, this]
        · split
          · next h =>
            subst h
            refine ⟨⟨neg, d ++ [48, 48], false, [], none⟩,
              ⟨hd.append (z0.append z0), z, fun _ => rfl, by simp, nofun⟩, rfl, by simp [Lit.digs, Lit.exText], ?_⟩
            have := decNum_zeros d 2
            rw [show List.replicate 2 48 = [48, 48] from rfl] at this
            simp only [Lit.mag, Lit.exp, this, List.append_nil]
            norm_num
          · split
            · next h =>
              have hb : -iexp - (d.length - 1) ≤ 99 := by
                by_contra hc
                have h1 : ((decNum d : Nat) : ℚ) ≤ 10 ^ d.length - 1 := by
                  have := decNum_lt hd
                  have : (decNum d : ℚ) + 1 ≤ 10 ^ d.length := by exact_mod_cast this
                  linarith
                have h2 : (decNum d : ℚ) * 10 ^ iexp < 10 ^ d.length * 10 ^ iexp :=
                  mul_lt_mul_of_pos_right (by linarith) (zpow_pos (by norm_num) _)
                rw [← zpow_natCast, ← zpow_add₀ (by norm_num)] at h2
                have h3 : (10 : ℚ) ^ ((d.length : ℤ) + iexp) ≤ 10 ^ (-99 : ℤ) := zpow_le_zpow_right₀ (by norm_num) (by omega)
                linarith
              have he := fpExp2_spec (n := (-iexp - (d.length - 1)).toNat) (by omega)
              refine ⟨⟨neg, d.take 1, true, d.drop 1, some ([45], fpExp2 (-iexp - (d.length - 1)).toNat)⟩,
                ⟨hd.take _, hd.drop _, nofun, by rw [List.take_append_drop]; exact hne, ?_⟩, rfl, ?_, ?_⟩
              · rintro _ _ ⟨⟩
                exact ⟨.inr (.inr rfl), he.1, he.2.1⟩
              · have : (if (d.length : ℤ) - 1 > 0 then d.drop 1 else []) = d.drop 1 := by
                  split
                  · rfl
                  · rw [List.drop_of_length_le (by omega)]
                rw [this]
                simp [Lit.digs, Lit.exText]
              · simp only [Lit.mag, List.take_append_drop, Lit.exp, he.2.2, if_true, List.length_drop]
                congr 2
                omega
            · next h =>
              have he := fpExp2_spec (n := iexp.natAbs) (by omega)
              refine ⟨⟨neg, d, false, [], some (if iexp < 0 then [45] else [], fpExp2 iexp.natAbs)⟩,
                ⟨hd, z, fun _ => rfl, by simpa using hne, ?_⟩, rfl, ?_, ?_⟩
              · rintro _ _ ⟨⟩
                refine ⟨?_, he.1, he.2.1⟩
                split
                · exact .inr (.inr rfl)
                · exact .inl rfl
              · simp [Lit.digs, Lit.exText]
              · simp only [Lit.mag, List.append_nil, Lit.exp, he.2.2, List.length_nil]
                congr 2
                split
                · rw [if_pos rfl]; omega
                · rw [if_neg nofun]; omega

theorem fpDigs_spec {m0 m1 m2 m3 m4 : Nat} (h0 : Bcd m0) (h1 : Bcd m1) (h2 : Bcd m2) (h3 : Bcd m3) (h4 : Bcd m4) :
    Digits (fpDigs [m0, m1, m2, m3, m4]) ∧ (fpDigs [m0, m1, m2, m3, m4]).length = 10 ∧
      decNum (fpDigs [m0, m1, m2, m3, m4]) = mantVal [m0, m1, m2, m3, m4] := by
  unfold Bcd at *
  refine ⟨fun c hc => ?_, rfl, ?_⟩
  · simp only [fpDigs, List.flatMap_cons, List.flatMap_nil, List.append_nil, List.cons_append, List.nil_append, List.mem_cons,
      List.not_mem_nil, or_false] at hc
    omega
  · simp only [fpDigs, List.flatMap_cons, List.flatMap_nil, List.append_nil, List.cons_append, List.nil_append, decNum, mantVal,
      List.foldl_cons, List.foldl_nil, bcdVal, Nat.add_sub_cancel_left]
    omega

/-- **C36**: for all normalized numbers that the compiler can encode (from `10⁻⁹⁹`, with an exponent byte up to `$71`), the text is
a literal with exactly the value of the number. -/
theorem C36_text {e : Nat} {mant : List Nat} (hb : Normal (e :: mant)) (hlow : (10 : ℚ) ^ (-99 : ℤ) ≤ |fpVal (e :: mant)|)
    (he : e % 128 ≤ 113) :
    ∃ l : Lit, l.Ok ∧ fpText (e :: mant) = l.text ∧ (if l.neg then -l.mag else l.mag) = fpVal (e :: mant) ∧
      (l.neg = true ↔ e ≥ 128) ∧ l.mag = |fpVal (e :: mant)| := by
  obtain ⟨e', m0, m1, m2, m3, m4, h, -, h0, h1, h2, h3, h4, hz⟩ := hb
  simp only [List.cons.injEq] at h
  obtain ⟨rfl, rfl⟩ := h
  obtain ⟨d1, d2, d3⟩ := fpDigs_spec h0 h1 h2 h3 h4
  have habs : |fpVal (e :: [m0, m1, m2, m3, m4])| = mantVal [m0, m1, m2, m3, m4] * 100 ^ ((e % 128 : Nat) - 68 : ℤ) := by
    have p : (0 : ℚ) ≤ mantVal [m0, m1, m2, m3, m4] * 100 ^ ((e % 128 : Nat) - 68 : ℤ) :=
      mul_nonneg (Nat.cast_nonneg _) (zpow_pos (by norm_num) _).le
    simp only [fpVal]
    split
    · rw [mul_assoc, neg_one_mul, abs_neg, abs_of_nonneg p]
    · rw [mul_assoc, one_mul, abs_of_nonneg p]
  have pw : ∀ z : ℤ, (100 : ℚ) ^ z = 10 ^ (2 * z) := fun z => by
    rw [zpow_mul]; norm_num
  have e0 : e % 128 ≠ 0 := by
    intro h0
    have : (mantVal [m0, m1, m2, m3, m4] : ℚ) < 10 ^ 10 := by
      rw [← d3]
      have := decNum_lt d1
      rw [d2] at this
      exact_mod_cast this
    rw [habs, h0] at hlow
    norm_num at hlow
    norm_num only at this
    linarith
  simp only [fpText]
  rw [if_neg e0]
  obtain ⟨j, s1, s2, s3⟩ := fpStrip_spec (fpDigs [m0, m1, m2, m3, m4]).reverse (e % 128 * 2 - 136)
  generalize fpStrip (fpDigs [m0, m1, m2, m3, m4]).reverse (e % 128 * 2 - 136) = r at *
  obtain ⟨r, iexp⟩ := r
  simp only at s1 s2 s3
  have s1' : fpDigs [m0, m1, m2, m3, m4] = r.reverse ++ List.replicate j 48 := by
    have := congrArg List.reverse s1
    simpa using this
  have dr : Digits r.reverse := fun c hc => d1 c (by rw [s1']; exact List.mem_append_left _ hc)
  have lr : r.length + j = 10 := by
    have := congrArg List.length s1'
    rw [d2] at this
    simpa using this.symm
  have vr : (decNum r.reverse : ℚ) * 10 ^ iexp = |fpVal (e :: [m0, m1, m2, m3, m4])| := by
    rw [habs, ← d3, s1', decNum_zeros, pw, s2]
    push_cast
    rw [mul_assoc, ← zpow_natCast, ← zpow_add₀ (by norm_num)]
    congr 2
    push_cast
    ring
  obtain ⟨d, hd, hdd, hdl, hdv⟩ : ∃ d, (if r.reverse.head? = some 48 then r.reverse.tail else r.reverse) = d ∧ Digits d ∧
      d.length ≤ 10 ∧ decNum d = decNum r.reverse := by
    refine ⟨_, rfl, ?_, ?_, ?_⟩
    · split
      · exact fun c hc => dr c (List.mem_of_mem_tail hc)
      · exact dr
    · split
      · rw [List.length_tail, List.length_reverse]; omega
      · rw [List.length_reverse]; omega
    · split
      · next h =>
        cases hr : r.reverse with
        | nil => rfl
        | cons c t =>
          rw [hr] at h
          simp only [List.head?_cons, Option.some.injEq] at h
          subst h
          rw [List.tail_cons, decNum_zero]
      · rfl
  rw [hd]
  rw [← hdv] at vr
  have hne : d ≠ [] := by
    rintro rfl
    rw [← vr] at hlow
    simp [decNum] at hlow
    norm_num at hlow
  have hr1 : 0 < r.length := by
    have : r ≠ [] := s3 (by rw [← List.length_pos_iff, List.length_reverse, d2]; decide)
    exact List.length_pos_iff.2 this
  obtain ⟨l, l1, l2, l3, l4⟩ := fpBody_lit (iexp := iexp) (decide (e ≥ 128)) hdd hne hdl (by omega) (by rw [vr]; exact hlow)
  rw [vr] at l4
  refine ⟨l, l1, ?_, ?_, ?_, l4⟩
  · rw [l3, Lit.text, l2]
    simp
  · rw [l4, l2, habs]
    simp only [fpVal]
    by_cases h : e ≥ 128 <;> simp [h]
  · rw [l2]; simp

/-- The encoding of a value that can be represented. -/
theorem fpUpdate_exact {e : Nat} {mant : List Nat} (hb : Normal (e :: mant)) {m : Nat} {k : ℤ}
    (hv : (m : ℚ) * 10 ^ k = |fpVal (e :: mant)|) (hlow : (10 : ℚ) ^ (-99 : ℤ) ≤ |fpVal (e :: mant)|)
    (hup : |fpVal (e :: mant)| < 10 ^ (98 : ℤ)) : fpUpdate (decide (e ≥ 128)) m k = e :: mant := by
  rw [← hv] at hlow hup
  obtain ⟨j, hj, h1, h2, hu⟩ := fpUpdate_range (decide (e ≥ 128)) hlow hup
  obtain ⟨e', m0, m1, m2, m3, m4, h, he, b0, b1, b2, b3, b4, hz⟩ := hb
  simp only [List.cons.injEq] at h
  obtain ⟨rfl, rfl⟩ := h
  have habs : |fpVal (e :: [m0, m1, m2, m3, m4])| = mantVal [m0, m1, m2, m3, m4] * 100 ^ ((e % 128 : Nat) - 68 : ℤ) := by
    have p : (0 : ℚ) ≤ mantVal [m0, m1, m2, m3, m4] * 100 ^ ((e % 128 : Nat) - 68 : ℤ) :=
      mul_nonneg (Nat.cast_nonneg _) (zpow_pos (by norm_num) _).le
    simp only [fpVal]
    split
    · rw [mul_assoc, neg_one_mul, abs_neg, abs_of_nonneg p]
    · rw [mul_assoc, one_mul, abs_of_nonneg p]
  rw [habs] at hv
  have pw : ∀ z : ℤ, (100 : ℚ) ^ z = 10 ^ (2 * z) := fun z => by
    rw [zpow_mul]; norm_num
  have hN : mantVal [m0, m1, m2, m3, m4] =
      ((((bcdVal m0) * 100 + bcdVal m1) * 100 + bcdVal m2) * 100 + bcdVal m3) * 100 + bcdVal m4 := by
    simp [mantVal]
  have hv0 : ∀ b, Bcd b → bcdVal b < 100 ∧ tobcd (bcdVal b) = b := by
    intro b hb
    unfold Bcd at hb
    unfold bcdVal tobcd
    have h1 : (b / 16 * 10 + b % 16) / 10 = b / 16 := by omega
    have h2 : (b / 16 * 10 + b % 16) % 10 = b % 16 := by omega
    rw [h1, h2]
    omega
  have b0' : 1 ≤ bcdVal m0 := by
    unfold bcdVal
    omega
  obtain ⟨a0, t0⟩ := hv0 _ b0
  obtain ⟨a1, t1⟩ := hv0 _ b1
  obtain ⟨a2, t2⟩ := hv0 _ b2
  obtain ⟨a3, t3⟩ := hv0 _ b3
  obtain ⟨a4, t4⟩ := hv0 _ b4
  have hmant : fpMant (mantVal [m0, m1, m2, m3, m4]) = [m0, m1, m2, m3, m4] := by
    unfold fpMant
    rw [show mantVal [m0, m1, m2, m3, m4] / 100 / 100 / 100 / 100 = bcdVal m0 by omega,
      show mantVal [m0, m1, m2, m3, m4] / 100 / 100 / 100 % 100 = bcdVal m1 by omega,
      show mantVal [m0, m1, m2, m3, m4] / 100 / 100 % 100 = bcdVal m2 by omega,
      show mantVal [m0, m1, m2, m3, m4] / 100 % 100 = bcdVal m3 by omega,
      show mantVal [m0, m1, m2, m3, m4] % 100 = bcdVal m4 by omega, t0, t1, t2, t3, t4]
  have n8 : (10 : ℚ) ^ (8 : ℤ) ≤ mantVal [m0, m1, m2, m3, m4] := by
    have : 10 ^ 8 ≤ mantVal [m0, m1, m2, m3, m4] := by omega
    exact_mod_cast this
  have n10 : (mantVal [m0, m1, m2, m3, m4] : ℚ) < 10 ^ (10 : ℤ) := by
    have : mantVal [m0, m1, m2, m3, m4] < 10 ^ 10 := by omega
    exact_mod_cast this
  generalize mantVal [m0, m1, m2, m3, m4] = N at *
  have pp : (0 : ℚ) < 10 ^ (2 * ((e % 128 : Nat) - 68) : ℤ) := zpow_pos (by norm_num) _
  have q1 : (10 : ℚ) ^ (8 + 2 * ((e % 128 : Nat) - 68) : ℤ) ≤ m * 10 ^ k := by
    rw [hv, pw, zpow_add₀ (by norm_num)]
    exact mul_le_mul_of_nonneg_right n8 pp.le
  have q2 : (m : ℚ) * 10 ^ k < 10 ^ (10 + 2 * ((e % 128 : Nat) - 68) : ℤ) := by
    rw [hv, pw, zpow_add₀ (by norm_num)]
    exact mul_lt_mul_of_pos_right n10 pp
  have r1 := (zpow_lt_zpow_iff_right₀ (a := (10 : ℚ)) (by norm_num)).1 (lt_of_le_of_lt q1 h1)
  have r2 := (zpow_lt_zpow_iff_right₀ (a := (10 : ℚ)) (by norm_num)).1 (lt_of_le_of_lt h2 q2)
  have hej : e % 128 = 14 + j := by omega
  have hr : rint m (k + 10 - (2 * j - 98)) = N := by
    have hn := rint_nearest m (k + 10 - (2 * j - 98))
    have hq : (m : ℚ) * 10 ^ (k + 10 - (2 * j - 98)) = N := by
      rw [show k + 10 - (2 * j - 98) = k + (108 - 2 * j) by ring, zpow_add₀ (by norm_num), ← mul_assoc, hv, pw, hej, mul_assoc,
        ← zpow_add₀ (by norm_num), show (2 * ((14 + j : Nat) - 68) + (108 - 2 * j) : ℤ) = 0 by push_cast; ring, zpow_zero, mul_one]
    rw [hq] at hn
    exact hn.eq
  rw [hu, hr, hmant]
  congr 1
  by_cases h : e ≥ 128 <;> simp [h] <;> omega

/-- **C36**, reading back: wherever the text of a number appears in the source, the action that reads numbers consumes it and emits
the same six bytes. -/
theorem C36_reread {file : Str → Option (List Nat)} {e : Nat} {mant : List Nat} (hb : Normal (e :: mant))
    (hlow : (10 : ℚ) ^ (-99 : ℤ) ≤ |fpVal (e :: mant)|) (hup : |fpVal (e :: mant)| < 10 ^ (98 : ℤ)) (he : e % 128 ≤ 113)
    {s : PS} {rest : Str} (h : s.str.drop s.pos = fpText (e :: mant) ++ rest) (ha : After rest) :
    ∃ s', eNumberFp ⟨file, fpOf⟩ s = .ok s' ∧ s'.pos = s.pos + (fpText (e :: mant)).length + PS.wsLen rest ∧
      s'.code = ⟨.fp (e :: mant), s.linenum⟩ :: s.code := by
  obtain ⟨l, l1, l2, -, l4, l5⟩ := C36_text hb hlow he
  have hneg : l.neg = decide (e ≥ 128) := by
    rw [Bool.eq_iff_iff, l4]; simp
  have hf : fpOf l.neg l.digs l.exp = some (e :: mant, fpText (e :: mant)) := by
    unfold fpOf
    rw [fpNum_digs l1, fpDot_digs l1, if_pos ((fpValid_iff ..).2 (by rw [← Lit.mag, l5]; exact hup.le)), hneg,
      fpUpdate_exact hb l5 hlow hup]
  rw [l2] at h ⊢
  obtain ⟨s', g1, -, g3, g4⟩ := eNumberFp_lit (env := ⟨file, fpOf⟩) h l1 ha hf
  exact ⟨s', g1, g3, g4⟩

/-- The text of zero. -/
theorem C36_zero (mant : List Nat) (e : Nat) (h : e % 128 = 0) : fpText (e :: mant) = ofS "0" := by
  simp only [fpText]
  rw [if_pos h]
  rfl

/-! ## Examples -/

/-- `-1.234567891E-99` meets the hypotheses. -/
example : Normal [142, 0x12, 0x34, 0x56, 0x78, 0x91] ∧ (10 : ℚ) ^ (-99 : ℤ) ≤ |fpVal [142, 0x12, 0x34, 0x56, 0x78, 0x91]| ∧
    |fpVal [142, 0x12, 0x34, 0x56, 0x78, 0x91]| < 10 ^ (98 : ℤ) ∧
    fpText [142, 0x12, 0x34, 0x56, 0x78, 0x91] = ofS "-1.234567891E-99" := by
  refine ⟨⟨_, _, _, _, _, _, rfl, by decide, ?_, ?_, ?_, ?_, ?_, by decide⟩, ?_, ?_, by decide +kernel⟩ <;>
    first | (unfold Bcd; omega) | skip
  all_goals
    norm_num [fpVal, mantVal, bcdVal, abs_mul]

example : fpText [63, 0x01, 0, 0, 0, 0] = ofS ".01" ∧ fpText [66, 0x01, 0x20, 0, 0, 0] = ofS "12E3" := by decide +kernel

end FB.Parse
