import Verif.Rt.NumVal8
/-!
# C37: integers to text and back

`STR$` of the Atari 5200 (`a5200/str.asm`) writes the decimal representation of every 16-bit integer.  `VAL` of the Atari 8-bit computers
(`a800/val.asm`) reads it back for every integer.  `VAL` of the Atari 5200 (`a5200/val.asm`) does so only for integers of two
or more digits: for one digit it stores the error code 18 and forgets the sign, so the property is false there.
Not proved: `STR$` of the Atari 8-bit computers, as the conversion is done by the ROM of the computer (`IFP`, `FASC`), which is not
in the repository.
-/
namespace FB.Rt

/-- The text of an integer, stated with natural numbers: an optional minus sign, then digits without zeroes in front. -/
structure TextOf (n : Int) (t : List B) : Prop where
  text : ∃ d, t = (if n < 0 then [45#8] else []) ++ d ∧ d ≠ [] ∧ (∀ c ∈ d, 48 ≤ c.toNat ∧ c.toNat ≤ 57) ∧
    d.foldl (fun v c => v * 10 + (c.toNat - 48)) 0 = n.natAbs ∧ (1 < d.length → d.head? ≠ some 48#8)

theorem TextOf.of {n : Int} {t : List B} (h : decText n t) : TextOf n t := by
  obtain ⟨d, h, rfl⟩ := h
  exact ⟨d, rfl, h.ne, h.dig, h.val, h.lead⟩

theorem writeAt_out (l : List B) : ∀ (r : W → B) (p a : W), (∀ i < l.length, a ≠ p + BitVec.ofNat 16 i) → writeAt r p l a = r a := by
  induction l with
  | nil => intro r p a _; rfl
  | cons b l ih =>
    intro r p a h
    have h0 := h 0 (by simp)
    rw [off_zero] at h0
    rw [writeAt, upd, if_neg h0]
    exact ih _ _ _ fun i hi => by rw [off_one]; exact h (i + 1) (by simp; omega)

theorem writeAt_in (l : List B) : ∀ (r : W → B) (p : W) (i : Nat) (hi : i < l.length), l.length ≤ 65536 →
    writeAt r p l (p + BitVec.ofNat 16 i) = l[i] := by
  induction l with
  | nil => intro r p i hi; exact absurd hi (by simp)
  | cons b l ih =>
    intro r p i hi hl
    rw [writeAt, upd]
    cases i with
    | zero => rw [off_zero, if_pos rfl]; rfl
    | succ i =>
      simp at hi hl
      rw [if_neg (off_ne' (i + 1) 0 rfl (off_zero p).symm (by omega) (by omega) (by omega)), ← off_one, ih _ _ _ hi (by omega)]
      rfl

theorem strAt_write (r : W → B) (p : W) (t : List B) (h : t.length ≤ 255) : strAt (writeAt r p (BitVec.ofNat 8 t.length :: t)) p = t := by
  have h0 : writeAt r p (BitVec.ofNat 8 t.length :: t) p = BitVec.ofNat 8 t.length := by
    have := writeAt_in (BitVec.ofNat 8 t.length :: t) r p 0 (by simp) (by simp; omega)
    rwa [off_zero] at this
  apply List.ext_getElem
  · rw [strAt_length, h0, BitVec.toNat_ofNat]; omega
  · intro i h1 h2
    rw [strAt_get, writeAt_in _ _ _ _ (by simp; omega) (by simp; omega)]
    rfl

/-- **C37, text.**  In the Atari 5200, `STR$` of any integer gives a string with its decimal representation, in the 8 bytes of
`line_buf`; the rest of the memory, the stacks and the pointers stay the same. -/
theorem C37_str (m : M) : ∃ m', Halts strCode strCode.EXE_INT_STR m m' ∧ TextOf m.ax.toInt (strAt m'.ram m'.ax) ∧
    (∀ a : W, 8 ≤ (a - LB5).toNat → m'.ram a = m.ram a) ∧
    m'.stk = m.stk ∧ m'.sl = m.sl ∧ m'.sh = m.sh ∧ m'.zp.sptr = m.zp.sptr ∧ m'.zp.saddr = m.zp.saddr ∧ m'.zp.saddrh = m.zp.saddrh ∧
    m'.zp.arr = m.zp.arr ∧ m'.zp.arrh = m.zp.arrh ∧ m'.zp.mins = m.zp.mins := by
  obtain ⟨m', t, h1, h2, h3, h4, h5, h6⟩ := str_correct m
  refine ⟨m', h1, ?_, ?_, h6⟩
  · rw [h5, strAt_write _ _ _ (by omega)]; exact .of h2
  · intro a ha
    rw [h5, h4]
    apply writeAt_out
    intro i hi e
    rw [e, off_add] at ha
    simp at hi
    rw [BitVec.add_comm, BitVec.add_sub_cancel, BitVec.toNat_ofNat] at ha
    omega

/-- The digits of a text. -/
theorem TextOf.parts {n : Int} {t : List B} (h : TextOf n t) : ∃ sg d, t = List.replicate 0 32#8 ++ (sg ++ (d ++ [])) ∧ (sg = [] ∨ sg = [43#8] ∨ sg = [45#8]) ∧
    (sg = [45#8] ↔ n < 0) ∧ (∀ c ∈ d, IsDig c) ∧ numVal 0 d = n.natAbs ∧ d ≠ [] ∧
    (sg = [] → ∃ c, (d ++ ([] : List B)).head? = some c ∧ c ≠ 32#8 ∧ c ≠ 43#8 ∧ c ≠ 45#8) ∧ (1 < d.length ↔ 10 ≤ n.natAbs) := by
  obtain ⟨d, rfl, hne, hd, hv, hl⟩ := h.text
  refine ⟨if n < 0 then [45#8] else [], d, by simp, by split <;> simp, by split <;> simp_all, hd, hv, hne, fun _ => ?_, ?_⟩
  · cases d with
    | nil => exact absurd rfl hne
    | cons c d =>
      have := hd c (by simp)
      refine ⟨c, rfl, ?_, ?_, ?_⟩ <;> (rintro rfl; simp at this)
  · cases d with
    | nil => exact absurd rfl hne
    | cons c d =>
      have hc := hd c (by simp)
      cases d with
      | nil => simp at hv ⊢; omega
      | cons c' d =>
        have h48 := hl (by simp)
        simp only [List.head?_cons, ne_eq, Option.some.injEq] at h48
        have h1 : 1 ≤ c.toNat - 48 := by
          have : c.toNat ≠ 48 := fun e => h48 (BitVec.eq_of_toNat_eq e)
          omega
        have h2 := numVal_ge d (numVal 0 [c, c'])
        have h3 : numVal 0 (c :: c' :: d) = numVal (numVal 0 [c, c']) d := rfl
        have h4 : numVal 0 (c :: c' :: d) = n.natAbs := hv
        have h5 : numVal 0 [c, c'] = (0 * 10 + (c.toNat - 48)) * 10 + (c'.toNat - 48) := rfl
        simp
        omega

theorem of_natAbs (w : W) (n : Int) (h : n = w.toInt) : (if n < 0 then - BitVec.ofNat 16 n.natAbs else BitVec.ofNat 16 n.natAbs) = w := by
  have := w.isLt
  rw [toInt16] at h
  apply BitVec.eq_of_toNat_eq
  split
  · rw [BitVec.toNat_neg, BitVec.toNat_ofNat]
    split at h <;> omega
  · rw [BitVec.toNat_ofNat]
    split at h <;> omega

theorem natAbs16 (w : W) : w.toInt.natAbs < 65536 := by
  have := w.isLt
  rw [toInt16]; split <;> omega

/-- **C37, value.**  In the Atari 8-bit computers, `VAL` of a string that has the decimal representation of an integer gives the
integer, without error.  The string must not start inside of `LBUFF`, where it is copied to. -/
theorem C37_val (m : M) (w : W) (ht : TextOf w.toInt (strAt m.ram m.ax)) (hp : 128 ≤ (m.ax - LB8).toNat) (hl : (strAt m.ram m.ax).length ≤ 127) :
    ∃ m', Halts val8Code val8Code.EXE_VAL m m' ∧ m'.ax = w ∧ m'.zp.ioerr = m.zp.ioerr ∧
      (∀ a : W, 128 ≤ (a - LB8).toNat → m'.ram a = m.ram a) ∧
      m'.stk = m.stk ∧ m'.sl = m.sl ∧ m'.sh = m.sh ∧ m'.zp.sptr = m.zp.sptr ∧ m'.zp.saddr = m.zp.saddr ∧ m'.zp.saddrh = m.zp.saddrh ∧
      m'.zp.arr = m.zp.arr ∧ m'.zp.arrh = m.zp.arrh ∧ m'.zp.mins = m.zp.mins := by
  obtain ⟨sg, d, e, h1, h2, h3, h4, h5, h6, h7⟩ := ht.parts
  obtain ⟨m', g1, g2, g3, g4⟩ := val8_correct m hp 0 sg d [] (by rw [List.take_of_length_le hl]; exact e) h1 h3 (by simp)
    (fun hs c hc => by obtain ⟨c', q1, q2⟩ := h6 hs; rw [q1] at hc; injection hc with hc; subst hc; exact q2)
  have := natAbs16 w
  rw [h4, if_neg (by rintro (h | h); · omega
                     · exact h5 h)] at g4
  refine ⟨m', g1, ?_, g4.1, g3, g2⟩
  refine g4.2.trans (Eq.trans ?_ (of_natAbs w _ rfl))
  by_cases hn : w.toInt < 0
  · rw [if_pos hn, if_pos (h2.2 hn)]
  · rw [if_neg hn, if_neg (fun h => hn (h2.1 h))]

/-- **C37, errors of `VAL`.**  In the Atari 8-bit computers, a text that starts with a number over 65535, or with no number, gives error 18. -/
theorem C37_val_error (m : M) (hp : 128 ≤ (m.ax - LB8).toNat) (n : Nat) (sg ds rest : List B)
    (hs : strAt m.ram m.ax = List.replicate n 32#8 ++ (sg ++ (ds ++ rest))) (hl : (strAt m.ram m.ax).length ≤ 127)
    (hsg : sg = [] ∨ sg = [43#8] ∨ sg = [45#8]) (hd : ∀ c ∈ ds, IsDig c) (hr : ∀ c, rest.head? = some c → ¬ IsDig c)
    (h0 : sg = [] → ∀ c, (ds ++ rest).head? = some c → c ≠ 32#8 ∧ c ≠ 43#8 ∧ c ≠ 45#8)
    (he : 65536 ≤ numVal 0 ds ∨ ds = []) : ∃ m', Halts val8Code val8Code.EXE_VAL m m' ∧ m'.zp.ioerr = 18 := by
  obtain ⟨m', g1, g2, g3, g4⟩ := val8_correct m hp n sg ds rest (by rw [List.take_of_length_le hl]; exact hs) hsg hd hr h0
  rw [if_pos he] at g4
  exact ⟨m', g1, g4⟩

/-- **C37, Atari 5200, two or more digits.**  `VAL(STR$(n))` is `n`, without error.  Missing for C37: numbers of one digit, where it
is false (see `C37_digit_refuted`). -/
theorem C37_round_partial (m : M) (h : 10 ≤ m.ax.toInt.natAbs) : ∃ m1 m2, Halts strCode strCode.EXE_INT_STR m m1 ∧
    Halts val5Code val5Code.EXE_VAL m1 m2 ∧ m2.ax = m.ax ∧ m2.zp.ioerr = 0 := by
  obtain ⟨m1, g1, ht, -⟩ := C37_str m
  obtain ⟨sg, d, e, h1, h2, h3, h4, h5, h6, h7⟩ := ht.parts
  obtain ⟨m2, k1, -, k3⟩ := val5_correct m1 0 sg d [] e h1 h3 (by simp) h6
  have := natAbs16 m.ax
  have h8 := h7.2 h
  rw [h4, if_neg (by omega), if_neg (by simp; omega)] at k3
  refine ⟨m1, m2, g1, k1, ?_, k3.1⟩
  refine k3.2.trans (Eq.trans ?_ (of_natAbs m.ax _ rfl))
  by_cases hn : m.ax.toInt < 0
  · rw [if_pos hn, if_pos (h2.2 hn)]
  · rw [if_neg hn, if_neg (fun h => hn (h2.1 h))]

/-- **C37 is false** in the Atari 5200: for every number of one digit, `VAL(STR$(n))` stores error 18, and the result is the number
without its sign. -/
theorem C37_digit_refuted (m : M) (h : m.ax.toInt.natAbs < 10) : ∃ m1 m2, Halts strCode strCode.EXE_INT_STR m m1 ∧
    Halts val5Code val5Code.EXE_VAL m1 m2 ∧ m2.ax = BitVec.ofNat 16 m.ax.toInt.natAbs ∧ m2.zp.ioerr = 18 := by
  obtain ⟨m1, g1, ht, -⟩ := C37_str m
  obtain ⟨sg, d, e, h1, h2, h3, h4, h5, h6, h7⟩ := ht.parts
  obtain ⟨m2, k1, -, k3⟩ := val5_correct m1 0 sg d [] e h1 h3 (by simp) h6
  have h8 : ¬ 1 < d.length := fun h' => by have := h7.1 h'; omega
  have h9 : d.length ≠ 0 := fun h' => h5 (List.eq_nil_of_length_eq_zero h')
  rw [h4, if_neg (by omega), if_pos (by simp; omega)] at k3
  exact ⟨m1, m2, g1, k1, k3.2, k3.1⟩

/-! Cases: the text of -305, of 0 and of -32768. -/

example : TextOf (-305) [45, 51, 48, 53] := ⟨[51, 48, 53], rfl, by simp, by decide, by decide, by decide⟩
example : TextOf 0 [48] := ⟨[48], rfl, by simp, by decide, by decide, by decide⟩
example : TextOf (-32768) [45, 51, 50, 55, 54, 56] := ⟨[51, 50, 55, 54, 56], rfl, by simp, by decide, by decide, by decide⟩

/-- A state with a number in the accumulator and, at $4000, its text. -/
def valExample (n : W) (t : List B) : M :=
  { a := lo n, x := hi n, y := 0x20, c := false, z := false, n := false, v := false, stk := [],
    zp := { tmp1 := 0, tmp1h := 0, tmp2 := 0, tmp2h := 0, tmp3 := 0, tmp3h := 0, dsign := 0, sptr := 0x20, saddr := 0, saddrh := 0,
            msrc := 0, msrch := 0, mdst := 0, mdsth := 0, mins := 0x88, arr := 0, arrh := 0x50, op1 := 0, op2 := 0, op3 := 0, tmp4 := 0,
            ioerr := 0, inb := 0, inbh := 0, cix := 0 }
    sl := fun _ => 0, sh := fun _ => 0
    ram := writeAt (fun _ => 0) 0x4000 (BitVec.ofNat 8 t.length :: t) }

/-- A case for the rules of `VAL`: the text is at $4000. -/
example : strAt (valExample 0x4000 [45, 51, 48, 53]).ram (valExample 0x4000 [45, 51, 48, 53]).ax = [45, 51, 48, 53] ∧
    128 ≤ ((valExample 0x4000 [45, 51, 48, 53]).ax - LB8).toNat := by decide +kernel

/-- Cases for the round trip: -305 has more digits, -7 only one. -/
example : 10 ≤ (valExample (-305) []).ax.toInt.natAbs ∧ (valExample (-7) []).ax.toInt.natAbs < 10 := by decide +kernel

end FB.Rt
