import Verif.Eng.KNum
import Verif.Props.C19
/-!
# The constants in the native compiler: numbers
-/
namespace FB.Rt
open Ins Opd
open FB.Parse (Str isDigit digitOf numeral)

/-! ## Specification -/

/-- The text as numbers, like in the specification of the cross compiler. -/
def strOf (t : List B) : Str := t.map BitVec.toNat

/-- A digit, without small letters. -/
def capDigit (base c : Nat) : Bool := isDigit base c && decide (c < 97)

/-- The integer literal that a text starts with, and the number of characters it has: `$` and hexadecimal digits, or decimal digits, maybe after a sign; in the compiler with floating point, decimal
digits followed by a dot are not an integer. -/
def nativeInt (fp : Bool) : Str → Option (Int × Nat)
  | [] => none
  | c :: t =>
    if c = 36 then
      let ds := t.takeWhile (capDigit 16)
      if ds = [] then none else some (numeral 16 ds, 1 + ds.length)
    else
      let t' := if c = 45 ∨ c = 43 then t else c :: t
      let ds := t'.takeWhile (capDigit 10)
      if ds = [] ∨ (fp = true ∧ (t'.drop ds.length).head? = some 46) then none
      else some (if c = 45 then -(numeral 10 ds : Int) else numeral 10 ds, (if c = 45 ∨ c = 43 then 1 else 0) + ds.length)

/-! ## Digits -/

theorem capDigit_hex : ∀ c : B, capDigit 16 c.toNat = true ↔ IsHex c := by decide +kernel
theorem digitOf_hex : ∀ c : B, IsHex c → (digitOf c.toNat).getD 0 = hexd c := by decide +kernel

instance (c : B) : Decidable (IsDig c) := by unfold IsDig; infer_instance

theorem capDigit_dec : ∀ c : B, capDigit 10 c.toNat = true ↔ IsDig c := by decide +kernel
theorem digitOf_digit : ∀ c : B, IsDig c → (digitOf c.toNat).getD 0 = c.toNat - 48 := by decide +kernel

theorem hexNum_eq (ds : List B) : ∀ t, (∀ c ∈ ds, IsHex c) → (strOf ds).foldl (fun n c => n * 16 + (digitOf c).getD 0) t = hexNum t ds := by
  induction ds with
  | nil => intro t _; rfl
  | cons d ds ih =>
    intro t h
    show (strOf ds).foldl _ (t * 16 + (digitOf d.toNat).getD 0) = _
    rw [ih _ (fun c hc => h c (List.mem_cons_of_mem _ hc)), digitOf_hex d (h d (List.mem_cons_self ..))]
    rfl

theorem numVal_eq (ds : List B) : ∀ t, (∀ c ∈ ds, IsDig c) → (strOf ds).foldl (fun n c => n * 10 + (digitOf c).getD 0) t = numVal t ds := by
  induction ds with
  | nil => intro t _; rfl
  | cons d ds ih =>
    intro t h
    show (strOf ds).foldl _ (t * 10 + (digitOf d.toNat).getD 0) = _
    rw [ih _ (fun c hc => h c (List.mem_cons_of_mem _ hc)), digitOf_digit d (h d (List.mem_cons_self ..))]
    rfl

/-- The digits at the start of a text with an end of line after it. -/
theorem digits_split (p : Nat → Bool) (h9 : p 155 = false) (t : List B) : ∃ ds e l, t ++ [155#8] = ds ++ e :: l ∧ (∀ c ∈ ds, p c.toNat = true) ∧ p e.toNat = false ∧ ds.length ≤ t.length ∧
    (strOf t).takeWhile p = strOf ds ∧ ∀ x : Nat, x ≠ 155 → (((strOf t).drop ds.length).head? = some x ↔ e.toNat = x) := by
  induction t with
  | nil => exact ⟨[], 155#8, [], rfl, by simp, h9, by simp, rfl, by intro x hx; simp [strOf]; omega⟩
  | cons c t ih =>
    cases hc : p c.toNat with
    | false =>
      refine ⟨[], c, t ++ [155#8], rfl, by simp, hc, by simp, by simp [strOf, hc], ?_⟩
      intro x _
      simp [strOf]
    | true =>
      obtain ⟨ds, e, l, h1, h2, h3, h4, h5, h6⟩ := ih
      refine ⟨c :: ds, e, l, by simp [h1], ?_, h3, by simp; omega, ?_, ?_⟩
      · intro x hx
        rcases List.mem_cons.1 hx with rfl | hx
        · exact hc
        · exact h2 x hx
      · rw [show strOf (c :: t) = c.toNat :: strOf t from rfl, List.takeWhile_cons, if_pos hc, h5]; rfl
      · intro x hx
        exact h6 x hx

/-! ## Up to the emission -/

section
variable (err : B)
local notation "Q" => kCode err

/-- The routine returns with the carry set: the text is not accepted. Only the position in the line changed. -/
def KFails (k0 : Code) (m : M) (k : Code) (st : List Slot) : Prop :=
  ∃ m', Reach Q k0 m k m' ∧ m'.kv = { m.kv with stk := st, ci := m'.zp.cix } ∧ m'.c = true

/-- The routine for words, with floating point or without. -/
def nwEntry (fp : Bool) : Code := if fp then kCode.E_NUMBER_WORD err else kCode.EI_NUMBER_WORD err

variable {m : M} {k : Code} {st : List Slot} (hs : m.stk = .ret k :: st)

/-- After the blanks. -/
def nwMid (fp : Bool) : Code := if fp then kCode.nw_1 err else kCode.ni_1 err

include hs in
theorem nw_blanks (fp : Bool) (n : Nat) (c : B) (l : List B) (hn : m.zp.cix.toNat + n < 256) (ht : TextAt m.ram (idx m.kv.bp m.kv.ci) (List.replicate n 32#8 ++ c :: l)) (hc : c ≠ 32#8) :
    ∃ m', Reach Q (nwEntry err fp) m (nwMid err fp) m' ∧ m'.kv = { m.kv with ci := m'.zp.cix } ∧ m'.y = m'.zp.cix ∧ m'.zp.cix.toNat = m.zp.cix.toNat + n := by
  cases fp with
  | true =>
    have R1 : Reach Q (kCode.E_NUMBER_WORD err) m (kCode.SKBLANK err) { m with stk := .ret (.lb "nw_1" :: kCode.nw_1 err) :: m.stk } := ⟨1, by rt_exec [kCode.E_NUMBER_WORD.eq]⟩
    obtain ⟨m1, r1, v1, y1, c1⟩ := k_skb err { m with stk := .ret (.lb "nw_1" :: kCode.nw_1 err) :: m.stk } rfl n c l hn ht hc
    exact ⟨m1, (R1.trans r1).trans ⟨1, rfl⟩, v1, y1, c1⟩
  | false =>
    have R1 : Reach Q (kCode.EI_NUMBER_WORD err) m (kCode.SKBLANK err) { m with stk := .ret (.lb "ni_1" :: kCode.ni_1 err) :: m.stk } := ⟨1, by rt_exec [kCode.EI_NUMBER_WORD.eq]⟩
    obtain ⟨m1, r1, v1, y1, c1⟩ := k_skb err { m with stk := .ret (.lb "ni_1" :: kCode.ni_1 err) :: m.stk } rfl n c l hn ht hc
    exact ⟨m1, (R1.trans r1).trans ⟨1, rfl⟩, v1, y1, c1⟩

/-- The literal is read: the machine is at `xit_emit`, with the value in `AX` and the position after the literal in `Y`. -/
def AtEmit (k0 : Code) (m : M) (w : W) (j : Nat) : Prop :=
  ∃ m', Reach Q k0 m (kCode.xit_emit err) m' ∧ m'.kv = { m.kv with ci := m'.zp.cix } ∧ m'.a = lo w ∧ m'.x = hi w ∧ m'.y.toNat = m.zp.cix.toNat + j

theorem lo_hi_nat {a x : B} {w : W} (h : a.toNat + 256 * x.toNat = w.toNat) : a = lo w ∧ x = hi w := by
  have := a.isLt; have := x.isLt
  constructor <;> (apply BitVec.eq_of_toNat_eq; simp [lo, hi]; omega)

include hs in
/-- Hexadecimal. -/
theorem nw_hex (fp : Bool) (t : List B) (hy : m.y = m.zp.cix) (hn : m.zp.cix.toNat + t.length + 1 < 256) (ht : TextAt m.ram (idx m.kv.bp m.kv.ci) (36#8 :: (t ++ [155#8]))) :
    let ds := (strOf t).takeWhile (capDigit 16)
    if ds ≠ [] ∧ numeral 16 ds < 65536 then AtEmit err (nwMid err fp) m (BitVec.ofNat 16 (numeral 16 ds)) (1 + ds.length) else KFails err (nwMid err fp) m k st := by
  intro ds
  obtain ⟨bs, e, l, h1, h2, h3, h4, h5, h6⟩ := digits_split (capDigit 16) (by decide) t
  have h2' : ∀ c ∈ bs, IsHex c := fun c hc => (capDigit_hex c).1 (h2 c hc)
  have h3' : ¬ IsHex e := fun h => by rw [(capDigit_hex e).2 h] at h3; cases h3
  have hds : ds = strOf bs := h5
  have hnum : numeral 16 ds = hexNum 0 bs := by rw [hds]; exact hexNum_eq bs 0 h2'
  have hnil : ds = [] ↔ bs = [] := by rw [hds]; simp [strOf]
  have hlen : ds.length = bs.length := by rw [hds]; simp [strOf]
  have hc : m.ram (idx (word m.zp.inb m.zp.inbh) m.y) = 36#8 := by rw [hy]; exact ht.head
  obtain ⟨m1, r1, v1, a1, y1⟩ : ∃ m1, Reach Q (nwMid err fp) m (kCode.read_hex err) m1 ∧ m1.kv = m.kv ∧ m1.a = 0#8 ∧ m1.y = m.y := by
    cases fp with
    | true =>
      refine ⟨?_, ⟨3, ?_⟩, ?_⟩
      rotate_left
      · show run Q 3 (kCode.nw_1 err) m = _
        rt_exec [kCode.nw_1.eq, hc]
        rfl
      · exact ⟨rfl, rfl, rfl⟩
    | false =>
      refine ⟨?_, ⟨3, ?_⟩, ?_⟩
      rotate_left
      · show run Q 3 (kCode.ni_1 err) m = _
        rt_exec [kCode.ni_1.eq, hc]
        rfl
      · exact ⟨rfl, rfl, rfl⟩
  have ht1 : TextAt m1.ram (idx m1.kv.bp (m1.y + 1#8)) (bs ++ e :: l) := by
    rw [show m1.ram = m.ram from congrArg KV.ram v1, v1, y1, hy, idx_succ _ _ (by omega), ← h1]
    exact ht.tail
  have key := k_hex err m1 bs e l a1 (by rw [y1, hy]; omega) ht1 h2' h3'
  rw [← hnum] at key
  by_cases hq : bs ≠ [] ∧ numeral 16 ds < 65536
  · rw [if_pos hq] at key
    rw [if_pos ⟨fun h => hq.1 (hnil.1 h), hq.2⟩]
    obtain ⟨m2, r2, v2, y2, ax2, -, -⟩ := key
    obtain ⟨la, lx⟩ := lo_hi_nat (w := BitVec.ofNat 16 (numeral 16 ds)) (by rw [ax2, BitVec.toNat_ofNat]; omega)
    have e2 : m2.zp.cix = m.kv.ci := congrArg KV.ci (v2.trans v1)
    refine ⟨m2, r1.trans r2, ?_, la, lx, ?_⟩
    · rw [e2, v2, v1]
    · rw [y2, y1, hy, hlen]; omega
  · rw [if_neg hq] at key
    rw [if_neg (fun h => hq ⟨fun h' => h.1 (hnil.2 h'), h.2⟩)]
    obtain ⟨m2, r2, v2⟩ := key
    obtain ⟨m3, r3, v3, c3⟩ := k_fail err (m := m2) ((congrArg KV.stk (v2.trans v1)).trans hs)
    have e3 : m3.zp.cix = m.kv.ci := by rw [show m3.zp.cix = m3.kv.ci from rfl, v3]; show m2.kv.ci = m.kv.ci; rw [v2, v1]
    refine ⟨m3, (r1.trans r2).trans r3, ?_, c3⟩
    rw [v3, e3, v2, v1]

/-- A dot after the number. -/
theorem nw_dot {m2 : M} (c2 : m2.c = false) (he : m2.ram (idx (word m2.zp.inb m2.zp.inbh) m2.y) = 46#8) (s2 : m2.stk = .ret k :: st) :
    ∃ m', Reach Q (.lb "nw_2" :: kCode.nw_2 err) m2 k m' ∧ m'.kv = { m2.kv with stk := st } ∧ m'.c = true := by
  refine ⟨?_, ⟨9, ?_⟩, ?_⟩
  rotate_left
  · rt_exec [kCode.nw_2.eq, kCode.k_xit.eq, kCode.k_ret.eq, c2, s2, he]
    rfl
  · exact ⟨rfl, rfl⟩

theorem nw_nodot {m2 : M} {e : B} (c2 : m2.c = false) (he : m2.ram (idx (word m2.zp.inb m2.zp.inbh) m2.y) = e) (he' : ¬ e = 46#8) :
    ∃ m', Reach Q (.lb "nw_2" :: kCode.nw_2 err) m2 (kCode.xit_emit err) m' ∧ m'.kv = m2.kv ∧ m'.a = m2.a ∧ m'.x = m2.x ∧ m'.y = m2.y := by
  have he2 : ¬ e - 46#8 = 0#8 := (show ∀ e : B, ¬ e = 46#8 → ¬ e - 46#8 = 0#8 by decide +kernel) e he'
  refine ⟨?_, ⟨8, ?_⟩, ?_⟩
  rotate_left
  · rt_exec [kCode.nw_2.eq, c2, he, he2]
    rfl
  · exact ⟨rfl, rfl, rfl, rfl⟩

include hs in
/-- Decimal, the code: a sign, digits and something else. -/
theorem nw_code (fp : Bool) (c : B) (q bs : List B) (e : B) (l : List B) (hy : m.y = m.zp.cix) (hn : m.zp.cix.toNat + (if c = 45 ∨ c = 43 then 1 else 0) + bs.length < 256)
    (ht : TextAt m.ram (idx m.kv.bp m.kv.ci) (c :: q)) (h36 : c ≠ 36#8) (h32 : c ≠ 32#8)
    (hq : if c = 45 ∨ c = 43 then q = bs ++ e :: l else c :: q = bs ++ e :: l) (h2' : ∀ c ∈ bs, IsDig c) (h3' : ¬ IsDig e) :
    if (65536 ≤ numVal 0 bs ∨ bs = []) ∨ (fp = true ∧ e = 46#8) then KFails err (nwMid err fp) m k st
    else AtEmit err (nwMid err fp) m (if c = 45#8 then - BitVec.ofNat 16 (numVal 0 bs) else BitVec.ofNat 16 (numVal 0 bs)) ((if c = 45#8 ∨ c = 43#8 then 1 else 0) + bs.length) := by
  have hc : m.ram (idx (word m.zp.inb m.zp.inbh) m.y) = c := by rw [hy]; exact ht.head
  have hc' : ¬ c ^^^ 36#8 = 0#8 := by
    intro h
    exact h36 ((show ∀ c : B, c ^^^ 36#8 = 0#8 → c = 36#8 by decide +kernel) c h)
  obtain ⟨m1, r1, e1⟩ : ∃ m1, Reach Q (nwMid err fp) m (kCode.read_word err) m1 ∧ m1.zp = m.zp ∧ m1.kv = { m.kv with stk := .ret (if fp then .lb "nw_2" :: kCode.nw_2 err else .lb "ni_2" :: kCode.ni_2 err) :: m.stk } := by
    cases fp with
    | true =>
      refine ⟨?_, ⟨4, ?_⟩, ?_⟩
      rotate_left
      · show run Q 4 (kCode.nw_1 err) m = _
        rt_exec [kCode.nw_1.eq, hc, hc']
        rfl
      · exact ⟨rfl, rfl⟩
    | false =>
      refine ⟨?_, ⟨4, ?_⟩, ?_⟩
      rotate_left
      · show run Q 4 (kCode.ni_1 err) m = _
        rt_exec [kCode.ni_1.eq, hc, hc']
        rfl
      · exact ⟨rfl, rfl⟩
  obtain ⟨z1, v1⟩ := e1
  have ht1 : TextAt m1.ram (idx m1.kv.bp m1.kv.ci) (c :: q) := by
    rw [show m1.ram = m.ram from congrArg KV.ram v1, v1]; exact ht
  obtain ⟨m2, r2, v2, w2⟩ := k_rw err m1 (congrArg KV.stk v1) c q bs e l (by rw [z1]; exact hn) ht1 h32 hq h2' h3'
  have kv2 : m2.kv = { m.kv with ci := m2.zp.cix } := by
    rw [v2, v1]; rfl
  have s2 : m2.stk = .ret k :: st := (congrArg KV.stk kv2).trans hs
  have R := r1.trans r2
  by_cases hv : 65536 ≤ numVal 0 bs ∨ bs = []
  · rw [if_pos hv] at w2
    rw [if_pos (.inl hv)]
    cases fp with
    | true =>
      refine ⟨?_, R.trans ⟨3, ?_⟩, ?_⟩
      rotate_left
      · show run Q 3 (.lb "nw_2" :: kCode.nw_2 err) m2 = _
        rt_exec [kCode.nw_2.eq, kCode.k_ret.eq, w2, s2]
        rfl
      · exact ⟨congrArg (fun v : KV => { v with stk := st }) kv2, rfl⟩
    | false =>
      refine ⟨?_, R.trans ⟨3, ?_⟩, ?_⟩
      rotate_left
      · show run Q 3 (.lb "ni_2" :: kCode.ni_2 err) m2 = _
        rt_exec [kCode.ni_2.eq, kCode.k_ret.eq, w2, s2]
        rfl
      · exact ⟨congrArg (fun v : KV => { v with stk := st }) kv2, rfl⟩
  · rw [if_neg hv, z1] at w2
    obtain ⟨c2, ax2, y2⟩ := w2
    have he : m2.ram (idx (word m2.zp.inb m2.zp.inbh) m2.y) = e := by
      have hall : TextAt m.ram (idx m.kv.bp m.kv.ci) ((if c = 45#8 ∨ c = 43#8 then [c] else []) ++ (bs ++ e :: l)) := by
        change if c = 45#8 ∨ c = 43#8 then _ else _ at hq
        by_cases h : c = 45#8 ∨ c = 43#8
        · rw [if_pos h] at hq ⊢; rw [← hq]; exact ht
        · rw [if_neg h] at hq ⊢; rw [← hq]; exact ht
      change m.zp.cix.toNat + (if c = 45#8 ∨ c = 43#8 then 1 else 0) + _ < _ at hn
      rw [← List.append_assoc] at hall
      have h := hall ((if c = 45#8 ∨ c = 43#8 then [c] else []) ++ bs).length (by simp)
      rw [List.getElem_append_right (by simp)] at h
      simp only [Nat.sub_self, List.getElem_cons_zero] at h
      rw [show m2.ram = m.ram from congrArg KV.ram kv2, show word m2.zp.inb m2.zp.inbh = m.kv.bp from congrArg KV.bp kv2, ← h]
      congr 1
      unfold idx
      rw [y2, BitVec.add_assoc]
      congr 1
      apply BitVec.eq_of_toNat_eq
      rw [BitVec.toNat_add]
      simp only [BitVec.toNat_ofNat, List.length_append]
      show (m.zp.cix.toNat + (if c = 45#8 ∨ c = 43#8 then 1 else 0) + bs.length) % 2 ^ 16 = (m.zp.cix.toNat % 2 ^ 16 + _) % 2 ^ 16
      split <;> simp <;> omega
    have hax : m2.a = lo m2.ax ∧ m2.x = hi m2.ax := lo_hi_nat (by
      have := m2.a.isLt; have := m2.x.isLt
      simp [M.ax, mkW])
    by_cases hd : fp = true ∧ e = 46#8
    · rw [if_pos (.inr hd)]
      obtain ⟨rfl, he'⟩ := hd
      rw [he'] at he
      obtain ⟨m3, r3, v3, c3⟩ := nw_dot err c2 he s2
      exact ⟨m3, R.trans r3, by rw [show m3.zp.cix = m3.kv.ci from rfl, v3, kv2], c3⟩
    · rw [if_neg (fun h => h.elim hv hd)]
      show AtEmit err (nwMid err fp) m (if c = 45 then _ else _) _
      rw [← ax2]
      cases fp with
      | true =>
        have he' : ¬ e = 46#8 := fun h => hd ⟨rfl, h⟩
        obtain ⟨m3, r3, v3, a3, x3, y3⟩ := nw_nodot err c2 he he'
        exact ⟨m3, R.trans r3, by rw [show m3.zp.cix = m3.kv.ci from rfl, v3]; exact kv2, a3.trans hax.1, x3.trans hax.2, by rw [y3]; exact y2.trans (Nat.add_assoc ..)⟩
      | false =>
        refine ⟨?_, R.trans ⟨3, ?_⟩, ?_⟩
        rotate_left
        · show run Q 3 (.lb "ni_2" :: kCode.ni_2 err) m2 = _
          rt_exec [kCode.ni_2.eq, c2]
          rfl
        · exact ⟨kv2, hax.1, hax.2, y2.trans (Nat.add_assoc ..)⟩

include hs in
/-- Decimal. -/
theorem nw_dec (fp : Bool) (c : B) (t : List B) (hy : m.y = m.zp.cix) (hn : m.zp.cix.toNat + t.length + 1 < 256) (ht : TextAt m.ram (idx m.kv.bp m.kv.ci) (c :: (t ++ [155#8]))) (h36 : c ≠ 36#8) (h32 : c ≠ 32#8) :
    let t' := if c = 45#8 ∨ c = 43#8 then t else c :: t
    let ds := (strOf t').takeWhile (capDigit 10)
    if (65536 ≤ numeral 10 ds ∨ ds = []) ∨ (fp = true ∧ ((strOf t').drop ds.length).head? = some 46) then KFails err (nwMid err fp) m k st
    else AtEmit err (nwMid err fp) m (if c = 45#8 then - BitVec.ofNat 16 (numeral 10 ds) else BitVec.ofNat 16 (numeral 10 ds)) ((if c = 45#8 ∨ c = 43#8 then 1 else 0) + ds.length) := by
  intro t' ds
  obtain ⟨bs, e, l, h1, h2, h3, h4, h5, h6⟩ := digits_split (capDigit 10) (by decide) t'
  have h2' : ∀ c ∈ bs, IsDig c := fun c hc => (capDigit_dec c).1 (h2 c hc)
  have h3' : ¬ IsDig e := fun h => by rw [(capDigit_dec e).2 h] at h3; cases h3
  have hds : ds = strOf bs := h5
  have hnum : numeral 10 ds = numVal 0 bs := by rw [hds]; exact numVal_eq bs 0 h2'
  have hnil : ds = [] ↔ bs = [] := by rw [hds]; simp [strOf]
  have hlen : ds.length = bs.length := by rw [hds]; simp [strOf]
  have hdot : ((strOf t').drop ds.length).head? = some 46 ↔ e = 46#8 := by
    rw [hlen, h6 46 (by omega)]
    exact ⟨fun h => BitVec.eq_of_toNat_eq h, fun h => by rw [h]; rfl⟩
  have key := nw_code err hs fp c (t ++ [155#8]) bs e l hy (by
      show m.zp.cix.toNat + (if c = 45#8 ∨ c = 43#8 then 1 else 0) + _ < _
      change bs.length ≤ (if c = 45#8 ∨ c = 43#8 then t else c :: t).length at h4
      by_cases h : c = 45#8 ∨ c = 43#8
      · rw [if_pos h] at h4 ⊢; omega
      · rw [if_neg h] at h4 ⊢; simp only [List.length_cons] at h4; omega) ht h36 h32 (by
      rw [← h1]
      show if c = 45#8 ∨ c = 43#8 then _ else _
      by_cases h : c = 45#8 ∨ c = 43#8
      · rw [if_pos h]; show _ = (if c = 45#8 ∨ c = 43#8 then t else c :: t) ++ _; rw [if_pos h]
      · rw [if_neg h]; show _ = (if c = 45#8 ∨ c = 43#8 then t else c :: t) ++ _; rw [if_neg h]; rfl) h2' h3'
  by_cases hx : (65536 ≤ numVal 0 bs ∨ bs = []) ∨ (fp = true ∧ e = 46#8)
  · rw [if_pos hx] at key
    rw [if_pos (by rw [hnum, hnil, hdot]; exact hx)]; exact key
  · rw [if_neg hx] at key
    rw [if_neg (by rw [hnum, hnil, hdot]; exact hx), hnum, hlen]; exact key

theorem ofInt_neg_nat (n : Nat) : - BitVec.ofNat 16 n = BitVec.ofInt 16 (-(n : Int)) := by
  rw [BitVec.ofInt_neg, BitVec.ofInt_natCast]

include hs in
/-- **Words**: the literal of the specification. -/
theorem nw_lit (fp : Bool) (t : List B) (hy : m.y = m.zp.cix) (hn : m.zp.cix.toNat + t.length < 256) (ht : TextAt m.ram (idx m.kv.bp m.kv.ci) (t ++ [155#8])) (h32 : t.head? ≠ some 32#8) :
    (∀ v j, nativeInt fp (strOf t) = some (v, j) → v.natAbs < 65536 → AtEmit err (nwMid err fp) m (BitVec.ofInt 16 v) j) ∧
    ((¬ ∃ v j, nativeInt fp (strOf t) = some (v, j) ∧ v.natAbs < 65536) → KFails err (nwMid err fp) m k st) := by
  cases t with
  | nil =>
    refine ⟨fun v j h => (nomatch h), fun _ => ?_⟩
    have := nw_code err hs fp 155#8 [] [] 155#8 [] hy (by simp; omega) ht (by decide) (by decide) (by simp) (by simp) (by decide)
    rw [if_pos (.inl (.inr rfl))] at this
    exact this
  | cons c t =>
    have h32 : c ≠ 32#8 := fun h => h32 (by rw [h]; rfl)
    simp only [List.length_cons] at hn
    have e36 : c.toNat = 36 ↔ c = 36#8 := ⟨fun h => BitVec.eq_of_toNat_eq h, fun h => by rw [h]; rfl⟩
    have e45 : c.toNat = 45 ↔ c = 45#8 := ⟨fun h => BitVec.eq_of_toNat_eq h, fun h => by rw [h]; rfl⟩
    have e43 : c.toNat = 43 ↔ c = 43#8 := ⟨fun h => BitVec.eq_of_toNat_eq h, fun h => by rw [h]; rfl⟩
    by_cases h36 : c = 36#8
    · subst h36
      have key := nw_hex err hs fp t hy (by omega) ht
      have e : nativeInt fp (strOf (36#8 :: t)) = if (strOf t).takeWhile (capDigit 16) = [] then none
        else some ((numeral 16 ((strOf t).takeWhile (capDigit 16)) : Int), 1 + ((strOf t).takeWhile (capDigit 16)).length) := rfl
      rw [e]
      generalize (strOf t).takeWhile (capDigit 16) = ds at *
      dsimp only at key
      by_cases hd : ds = []
      · rw [if_neg (fun h => h.1 hd)] at key
        rw [if_pos hd]
        exact ⟨fun v j h => (nomatch h), fun _ => key⟩
      · rw [if_neg hd]
        by_cases hv : numeral 16 ds < 65536
        · rw [if_pos ⟨hd, hv⟩] at key
          refine ⟨fun v j h _ => ?_, fun h => absurd ⟨_, _, rfl, by simpa using hv⟩ h⟩
          cases h
          rw [BitVec.ofInt_natCast]; exact key
        · rw [if_neg (fun h => hv h.2)] at key
          refine ⟨fun v j h hv' => ?_, fun _ => key⟩
          cases h
          exact absurd (by simpa using hv') hv
    · have key := nw_dec err hs fp c t hy (by omega) ht h36 h32
      have e : nativeInt fp (strOf (c :: t)) =
          (let t' := if c = 45#8 ∨ c = 43#8 then t else c :: t
           let ds := (strOf t').takeWhile (capDigit 10)
           if ds = [] ∨ (fp = true ∧ ((strOf t').drop ds.length).head? = some 46) then none
           else some (if c = 45#8 then -(numeral 10 ds : Int) else numeral 10 ds, (if c = 45#8 ∨ c = 43#8 then 1 else 0) + ds.length)) := by
        show (if c.toNat = 36 then _ else _) = _
        rw [if_neg (fun h => h36 (e36.1 h))]
        simp only [e45, e43]
        by_cases h : c = 45#8 ∨ c = 43#8
        · simp only [if_pos h]; rfl
        · simp only [if_neg h]; rfl
      rw [e]
      dsimp only at key ⊢
      generalize (if c = 45#8 ∨ c = 43#8 then t else c :: t) = t' at *
      generalize (strOf t').takeWhile (capDigit 10) = ds at *
      by_cases hx : ds = [] ∨ (fp = true ∧ ((strOf t').drop ds.length).head? = some 46)
      · rw [if_pos (by rcases hx with h | h
                       · exact .inl (.inr h)
                       · exact .inr h)] at key
        rw [if_pos hx]
        exact ⟨fun v j h => (nomatch h), fun _ => key⟩
      · rw [if_neg hx]
        have ev : (if c = 45#8 then -(numeral 10 ds : Int) else numeral 10 ds).natAbs = numeral 10 ds := by split <;> simp
        by_cases hv : numeral 10 ds < 65536
        · rw [if_neg (by rintro ((h | h) | h)
                         · omega
                         · exact hx (.inl h)
                         · exact hx (.inr h))] at key
          refine ⟨fun v j h _ => ?_, fun h => absurd ⟨_, _, rfl, by rw [ev]; exact hv⟩ h⟩
          cases h
          have : BitVec.ofInt 16 (if c = 45#8 then -(numeral 10 ds : Int) else numeral 10 ds) = if c = 45#8 then - BitVec.ofNat 16 (numeral 10 ds) else BitVec.ofNat 16 (numeral 10 ds) := by
            split
            · rw [ofInt_neg_nat]
            · rw [BitVec.ofInt_natCast]
          rw [this]; exact key
        · rw [if_pos (.inl (.inl (by omega)))] at key
          refine ⟨fun v j h hv' => ?_, fun _ => key⟩
          cases h
          rw [ev] at hv'
          exact absurd hv' hv

/-! ## Emission -/

/-- The literal is accepted: `j` characters are read, `bs` is added to the code (and `over` is written after it, where nothing is yet), and nothing else changes. -/
def KEmits (k0 : Code) (m : M) (k : Code) (st : List Slot) (j : Nat) (bs over : List B) : Prop :=
  ∃ m', Reach Q k0 m k m' ∧ m'.c = false ∧
    m'.kv = { m.kv with stk := st, op := m.kv.op + BitVec.ofNat 8 bs.length, ci := m.kv.ci + BitVec.ofNat 8 j, ram := writeAt m.ram (idx m.kv.prog m.kv.op) (bs ++ over) }

/-- The literal is not accepted: the routine returns with the carry set. The compiler will restore the positions in the line and in the code; only bytes after the end of the code are changed, in the
256 bytes from `prog_ptr`. -/
def KRejects (k0 : Code) (m : M) (k : Code) (st : List Slot) : Prop :=
  ∃ m' bs, Reach Q k0 m k m' ∧ m'.c = true ∧ m.kv.op.toNat + bs.length ≤ 256 ∧
    m'.kv = { m.kv with stk := st, op := m'.zp.opos, ci := m'.zp.cix, ram := writeAt m.ram (idx m.kv.prog m.kv.op) bs }

theorem KFails.rejects {err : B} {k0 : Code} {m : M} (h : KFails err k0 m k st) : KRejects err k0 m k st := by
  obtain ⟨m', r, v, c⟩ := h
  have := m.kv.op.isLt
  refine ⟨m', [], r, c, by simp; omega, ?_⟩
  have : m'.zp.opos = m.kv.op := congrArg KV.op v
  rw [this]
  exact v

theorem writeAt_snoc (t : List B) : ∀ (r : W → B) (a : W) (d : B), t.length < 65536 → writeAt r a (t ++ [d]) = upd (writeAt r a t) (a + BitVec.ofNat 16 t.length) d := by
  induction t with
  | nil => intro r a d _; simp [writeAt]
  | cons b t ih =>
    intro r a d h
    simp only [List.length_cons] at h
    show upd (writeAt r (a + 1) (t ++ [d])) a b = upd (upd (writeAt r (a + 1) t) a b) _ d
    rw [ih _ _ _ (by omega)]
    have e : a + 1 + BitVec.ofNat 16 t.length = a + BitVec.ofNat 16 (b :: t).length := by
      rw [BitVec.add_assoc]; congr 1
      apply BitVec.eq_of_toNat_eq; rw [BitVec.toNat_add]; simp; omega
    have hne : a ≠ a + BitVec.ofNat 16 (b :: t).length := by
      intro h'
      have h2 := congrArg BitVec.toNat h'
      rw [BitVec.toNat_add] at h2
      simp only [BitVec.toNat_ofNat, List.length_cons] at h2
      have := a.isLt
      omega
    rw [e]
    exact (upd_comm hne).symm

/-- `xit_emit`. -/
theorem emitAX_spec {m1 : M} (hs : m1.stk = .ret k :: st) (w : W) (ha : m1.a = lo w) (hx : m1.x = hi w) :
    if m1.kv.op.toNat + 2 ≤ 255 then ∃ m', Reach Q (kCode.xit_emit err) m1 k m' ∧ m'.c = false ∧ m'.x = hi w ∧ m'.zp.tmp2 = m1.zp.tmp2 ∧ m'.zp.tmp2h = m1.zp.tmp2h ∧
        m'.kv = { m1.kv with stk := st, op := m1.kv.op + 2#8, ci := m1.y, ram := writeAt m1.ram (idx m1.kv.prog m1.kv.op) [lo w, hi w] }
    else KErrs err (kCode.xit_emit err) m1 := by
  have ho := m1.zp.opos.isLt
  have e1 : (m1.zp.opos + 1#8 = 0#8) ↔ m1.kv.op.toNat = 255 := by
    show _ ↔ m1.zp.opos.toNat = 255
    constructor
    · intro h; have := congrArg BitVec.toNat h; rw [BitVec.toNat_add] at this; simp at this; omega
    · intro h; apply BitVec.eq_of_toNat_eq; rw [BitVec.toNat_add, h]; rfl
  have e2 : (m1.zp.opos + 1#8 + 1#8 = 0#8) ↔ m1.kv.op.toNat = 254 := by
    show _ ↔ m1.zp.opos.toNat = 254
    constructor
    · intro h; have := congrArg BitVec.toNat h; rw [BitVec.toNat_add, BitVec.toNat_add] at this; simp at this; omega
    · intro h; apply BitVec.eq_of_toNat_eq; rw [BitVec.toNat_add, BitVec.toNat_add, h]; rfl
  by_cases h : m1.kv.op.toNat + 2 ≤ 255
  · rw [if_pos h]
    obtain ⟨m', r, v, x, c, t, th⟩ := k_emitAX err hs (by rw [e1]; omega) (by rw [e2]; omega)
    refine ⟨m', r, c, x.trans hx, t, th, ?_⟩
    rw [v, ha, hx]
    have e3 : m1.kv.op + 1 + 1 = m1.kv.op + 2#8 := by rw [BitVec.add_assoc]; rfl
    have e4 : writeAt m1.ram (idx m1.kv.prog m1.kv.op) [lo w, hi w] = upd (upd m1.ram (idx m1.kv.prog m1.kv.op) (lo w)) (idx m1.kv.prog (m1.kv.op + 1)) (hi w) := by
      rw [show m1.kv.op + 1 = m1.kv.op + 1#8 from rfl, idx_succ _ _ (by omega)]
      exact writeAt_snoc [lo w] m1.ram _ (hi w) (by simp)
    rw [e3, e4]
  · rw [if_neg h]
    exact k_emitAX_long err (by rw [e1, e2]; have := m1.kv.op.isLt; omega)

/-- The text from the current position: `n` blanks, then `t`, then the end of the line. -/
structure LineAt (m : M) (n : Nat) (t : List B) : Prop where
  text : TextAt m.ram (idx m.kv.bp m.kv.ci) (List.replicate n 32#8 ++ (t ++ [155#8]))
  fits : m.kv.ci.toNat + n + t.length < 256
  first : t.head? ≠ some 32#8

theorem TextAt.drop {r : W → B} {p : W} (a : List B) : ∀ {p : W} {b : List B}, TextAt r p (a ++ b) → TextAt r (p + BitVec.ofNat 16 a.length) b := by
  induction a with
  | nil => intro p b h; simpa using h
  | cons x a ih =>
    intro p b h
    have h2 := ih (TextAt.tail h)
    rw [BitVec.add_assoc] at h2
    rw [show BitVec.ofNat 16 (x :: a).length = 1 + BitVec.ofNat 16 a.length by
      apply BitVec.eq_of_toNat_eq; rw [BitVec.toNat_add]; simp; omega]
    exact h2

theorem idx_add (w : W) (b c : B) (n : Nat) (h : c.toNat = b.toNat + n) : idx w c = idx w b + BitVec.ofNat 16 n := by
  unfold idx
  rw [h, BitVec.add_assoc]
  congr 1
  apply BitVec.eq_of_toNat_eq
  rw [BitVec.toNat_add]; simp

include hs in
/-- After the blanks, the text of the literal. -/
theorem nw_start (fp : Bool) {n : Nat} {t : List B} (h : LineAt m n t) :
    ∃ m', Reach Q (nwEntry err fp) m (nwMid err fp) m' ∧ m'.kv = { m.kv with ci := m'.zp.cix } ∧ m'.y = m'.zp.cix ∧ m'.zp.cix.toNat = m.zp.cix.toNat + n ∧
      TextAt m'.ram (idx m'.kv.bp m'.kv.ci) (t ++ [155#8]) := by
  have hf : m.zp.cix.toNat + n + t.length < 256 := h.fits
  obtain ⟨c, l, he, hc⟩ : ∃ c l, t ++ [155#8] = c :: l ∧ c ≠ 32#8 := by
    cases t with
    | nil => exact ⟨155#8, [], rfl, by decide⟩
    | cons c t => exact ⟨c, t ++ [155#8], rfl, fun h' => h.first (by rw [h']; rfl)⟩
  obtain ⟨m1, r1, v1, y1, c1⟩ := nw_blanks err hs fp n c l (by omega) (by rw [← he]; exact h.text) hc
  refine ⟨m1, r1, v1, y1, c1, ?_⟩
  rw [show m1.ram = m.ram from congrArg KV.ram v1, show m1.kv.bp = m.kv.bp by rw [v1]; rfl, show m1.kv.ci = m1.zp.cix from rfl, idx_add _ m.kv.ci _ n c1]
  have := h.text.drop (r := m.ram) (p := 0) (List.replicate n 32#8)
  rw [List.length_replicate] at this
  exact this

include hs in
/-- `E_NUMBER_WORD`, with the high byte in `X`. -/
theorem number_word_x (fp : Bool) {n : Nat} {t : List B} (h : LineAt m n t) :
    (∀ v j, nativeInt fp (strOf t) = some (v, j) → v.natAbs < 65536 →
      if m.kv.op.toNat + 2 ≤ 255 then ∃ m', Reach Q (nwEntry err fp) m k m' ∧ m'.c = false ∧ m'.x = hi (BitVec.ofInt 16 v) ∧
        m'.kv = { m.kv with stk := st, op := m.kv.op + 2#8, ci := m.kv.ci + BitVec.ofNat 8 (n + j), ram := writeAt m.ram (idx m.kv.prog m.kv.op) [lo (BitVec.ofInt 16 v), hi (BitVec.ofInt 16 v)] }
      else KErrs err (nwEntry err fp) m) ∧
    ((¬ ∃ v j, nativeInt fp (strOf t) = some (v, j) ∧ v.natAbs < 65536) → KFails err (nwEntry err fp) m k st) := by
  have hf : m.zp.cix.toNat + n + t.length < 256 := h.fits
  obtain ⟨m1, r1, v1, y1, c1, t1⟩ := nw_start err hs fp h
  have s1 : m1.stk = .ret k :: st := (congrArg KV.stk v1).trans hs
  obtain ⟨ha, hb⟩ := nw_lit err s1 fp t y1 (by rw [c1]; exact hf) t1 h.first
  constructor
  · intro v j hl hv
    obtain ⟨m2, r2, v2, a2, x2, y2⟩ := ha v j hl hv
    have kv2 : m2.kv = { m.kv with ci := m2.zp.cix } := by rw [v2, v1]
    have s2 : m2.stk = .ret k :: st := (congrArg KV.stk v2).trans s1
    have key := emitAX_spec err s2 _ a2 x2
    rw [show m2.kv.op = m.kv.op by rw [kv2], show m2.kv.prog = m.kv.prog by rw [kv2]; rfl, show m2.ram = m.ram from congrArg KV.ram kv2] at key
    split at key
    · next hq =>
      obtain ⟨m3, r3, c3, x3, -, -, v3⟩ := key
      rw [if_pos hq]
      refine ⟨m3, (r1.trans r2).trans r3, c3, x3, ?_⟩
      rw [v3, kv2]
      have : m2.y = m.kv.ci + BitVec.ofNat 8 (n + j) := by
        apply BitVec.eq_of_toNat_eq
        rw [BitVec.toNat_add, y2, c1]
        have := m2.y.isLt
        rw [y2, c1] at this
        show _ = (m.zp.cix.toNat + _) % _
        simp only [BitVec.toNat_ofNat]; omega
      rw [this]
    · next hq =>
      rw [if_neg hq]
      exact (r1.trans r2).kerrs key
  · intro hl
    obtain ⟨m2, r2, v2, c2⟩ := hb hl
    refine ⟨m2, r1.trans r2, ?_, c2⟩
    rw [v2, v1]

/-- The routine for bytes, with floating point or without. -/
def nbEntry (fp : Bool) : Code := if fp then kCode.E_NUMBER_BYTE err else kCode.EI_NUMBER_BYTE err

/-- After the call: the high byte is in `X`. -/
theorem nb_tail {m1 : M} (hs1 : m1.stk = .ret k :: st) (hc : m1.c = false) :
    ∃ m', Reach Q (kCode.nb_1 err) m1 k m' ∧ m'.c = decide (m1.x ≠ 0#8) ∧ m'.kv = { m1.kv with stk := st, op := m1.kv.op - 1#8 } := by
  have hx : addC m1.x 254#8 true = decide (m1.x ≠ 0#8) := (show ∀ x : B, addC x 254#8 true = decide (x ≠ 0#8) by decide +kernel) m1.x
  refine ⟨?_, ⟨5, ?_⟩, ?_⟩
  rotate_left
  · rt_exec [kCode.nb_1.eq, kCode.nb_xit.eq, hc, hs1]
    rfl
  · exact ⟨hx, rfl⟩

theorem nb_fail {m1 : M} (hs1 : m1.stk = .ret k :: st) (hc : m1.c = true) :
    ∃ m', Reach Q (kCode.nb_1 err) m1 k m' ∧ m'.c = true ∧ m'.kv = { m1.kv with stk := st } := by
  refine ⟨?_, ⟨2, ?_⟩, ?_⟩
  rotate_left
  · rt_exec [kCode.nb_1.eq, kCode.nb_xit.eq, hc, hs1]
    rfl
  · exact ⟨rfl, rfl⟩

include hs in
/-- **E_NUMBER_WORD**. -/
theorem number_word (fp : Bool) {n : Nat} {t : List B} (h : LineAt m n t) :
    (∀ v j, nativeInt fp (strOf t) = some (v, j) → v.natAbs < 65536 →
      if m.kv.op.toNat + 2 ≤ 255 then KEmits err (nwEntry err fp) m k st (n + j) [lo (BitVec.ofInt 16 v), hi (BitVec.ofInt 16 v)] [] else KErrs err (nwEntry err fp) m) ∧
    ((¬ ∃ v j, nativeInt fp (strOf t) = some (v, j) ∧ v.natAbs < 65536) → KRejects err (nwEntry err fp) m k st) := by
  obtain ⟨ha, hb⟩ := number_word_x err hs fp h
  refine ⟨fun v j hl hv => ?_, fun hl => (hb hl).rejects⟩
  have key := ha v j hl hv
  split at key
  · next hq =>
    obtain ⟨m', r, c, -, v'⟩ := key
    rw [if_pos hq]
    exact ⟨m', r, c, v'⟩
  · next hq => rw [if_neg hq]; exact key

include hs in
/-- **E_NUMBER_BYTE**. -/
theorem number_byte (fp : Bool) {n : Nat} {t : List B} (h : LineAt m n t) :
    (∀ v j, nativeInt fp (strOf t) = some (v, j) → v.natAbs < 65536 →
      if 255 < m.kv.op.toNat + 2 then KErrs err (nbEntry err fp) m
      else if v % 65536 ≤ 255 then KEmits err (nbEntry err fp) m k st (n + j) [BitVec.ofInt 8 v] [0#8]
      else KRejects err (nbEntry err fp) m k st) ∧
    ((¬ ∃ v j, nativeInt fp (strOf t) = some (v, j) ∧ v.natAbs < 65536) → KRejects err (nbEntry err fp) m k st) := by
  obtain ⟨kr, m0, r0, e0, hk⟩ : ∃ kr m0, Reach Q (nbEntry err fp) m (nwEntry err fp) m0 ∧ m0 = { m with stk := .ret kr :: m.stk } ∧ ∀ m1, Reach Q kr m1 (kCode.nb_1 err) m1 := by
    cases fp with
    | true => exact ⟨.lb "nb_1" :: kCode.nb_1 err, _, ⟨1, by show run Q 1 (kCode.E_NUMBER_BYTE err) m = _; rt_exec [kCode.E_NUMBER_BYTE.eq]; rfl⟩, rfl, fun m1 => ⟨1, rfl⟩⟩
    | false => exact ⟨.lb "nb_2" :: kCode.nb_2 err, _, ⟨1, by show run Q 1 (kCode.EI_NUMBER_BYTE err) m = _; rt_exec [kCode.EI_NUMBER_BYTE.eq]; rfl⟩, rfl, fun m1 => ⟨2, by rt_exec [kCode.nb_2.eq]⟩⟩
  subst e0
  obtain ⟨ha, hb⟩ := number_word_x err (m := { m with stk := .ret kr :: m.stk }) rfl fp (n := n) (t := t) ⟨h.text, h.fits, h.first⟩
  constructor
  · intro v j hl hv
    have key := ha v j hl hv
    change if m.kv.op.toNat + 2 ≤ 255 then _ else _ at key
    by_cases hq : m.kv.op.toNat + 2 ≤ 255
    · rw [if_pos hq] at key
      rw [if_neg (by omega)]
      obtain ⟨m1, r1, c1, x1, v1⟩ := key
      have s1 : m1.stk = .ret k :: st := (congrArg KV.stk v1).trans hs
      obtain ⟨m2, r2, c2, v2⟩ := nb_tail err s1 c1
      have hx : hi (BitVec.ofInt 16 v) = 0#8 ↔ v % 65536 ≤ 255 := by
        rw [← BitVec.toNat_inj]
        have : (v % 65536).toNat < 65536 := by omega
        simp only [hi, BitVec.toNat_setWidth, BitVec.toNat_ushiftRight, BitVec.toNat_ofInt, BitVec.toNat_ofNat, Nat.shiftRight_eq_div_pow, Nat.reducePow]
        rw [show ((65536 : Nat) : Int) = 65536 from rfl]
        omega
      rw [x1] at c2
      have hop : m1.kv.op - 1#8 = m.kv.op + 1#8 := by
        rw [v1]
        show m.kv.op + 2#8 - 1#8 = _
        bv_omega
      by_cases hb' : v % 65536 ≤ 255
      · rw [if_pos hb']
        have h0 := hx.2 hb'
        refine ⟨m2, ((r0.trans r1).trans (hk m1)).trans r2, by rw [c2, h0]; rfl, ?_⟩
        rw [v2, hop, v1, h0]
        have : lo (BitVec.ofInt 16 v) = BitVec.ofInt 8 v := by
          apply BitVec.eq_of_toNat_eq
          simp only [lo, BitVec.toNat_setWidth, BitVec.toNat_ofInt, Nat.reducePow]
          rw [show ((65536 : Nat) : Int) = 65536 from rfl, show ((256 : Nat) : Int) = 256 from rfl]
          omega
        rw [this]
        rfl
      · rw [if_neg hb']
        refine ⟨m2, [lo (BitVec.ofInt 16 v), hi (BitVec.ofInt 16 v)], ((r0.trans r1).trans (hk m1)).trans r2, by rw [c2]; simpa [hx] using hb', by simp; omega, ?_⟩
        have e1 : m2.zp.opos = m1.kv.op - 1#8 := congrArg KV.op v2
        have e2 : m2.zp.cix = m1.kv.ci := congrArg KV.ci v2
        rw [e1, e2, v2, v1]
        rfl
    · rw [if_neg hq] at key
      rw [if_pos (by omega)]
      exact r0.kerrs key
  · intro hl
    obtain ⟨m1, r1, v1, c1⟩ := hb hl
    have s1 : m1.stk = .ret k :: st := (congrArg KV.stk v1).trans hs
    obtain ⟨m2, r2, c2, v2⟩ := nb_fail err s1 c1
    refine KFails.rejects ⟨m2, ((r0.trans r1).trans (hk m1)).trans r2, ?_, c2⟩
    have : m2.zp.cix = m1.zp.cix := by rw [show m2.zp.cix = m2.kv.ci from rfl, v2]; rfl
    rw [v2, v1, this]
    rfl

end
end FB.Rt
