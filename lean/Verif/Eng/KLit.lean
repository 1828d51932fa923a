import Verif.Eng.KStr
import Verif.Props.C20
import Verif.Props.C37
/-!
# The constants in the native compiler: strings
-/
namespace FB.Rt
open Ins Opd
open FB.Parse (Str isDigit digitOf numeral EndsLit)

/-! ## Specification -/

/-- The text of a string literal in the native compiler, as `StrLit` for the cross compiler. `NatLit true t b r n`: the text `t`, after an opening quote, is a literal with the bytes `b`, `r` is the text
after it, and `n` is the space in the code that the compiler needs for the bytes. `NatLit false t b r n`: the same after a closing quote, or after hexadecimal digits. -/
inductive NatLit : Bool → Str → Str → Str → Nat → Prop
  /-- Inside of quotes, any character but a quote stands for itself. -/
  | chr {c t b r n} : c ≠ 34 → NatLit true t b r n → NatLit true (c :: t) (c :: b) r (1 + n)
  /-- Inside of quotes, two quotes stand for one. -/
  | quote {t b r n} : NatLit true t b r n → NatLit true (34 :: 34 :: t) (34 :: b) r (1 + n)
  /-- A closing quote ends the literal. -/
  | close {r} : EndsLit r → NatLit true (34 :: r) [] r 0
  /-- A closing quote followed by `$`. -/
  | dollar {t b r n} : NatLit false (36 :: t) b r n → NatLit true (34 :: 36 :: t) b r n
  /-- `$` and hexadecimal digits stand for the low byte of that value; there must be space for two bytes. -/
  | hex {ds t b r n} : ds ≠ [] → (∀ c ∈ ds, capDigit 16 c = true) → numeral 16 ds ≤ 65535 →
      (∀ c, t.head? = some c → capDigit 16 c = false) → NatLit false t b r n →
      NatLit false (36 :: (ds ++ t)) (numeral 16 ds % 256 :: b) r (max 2 (1 + n))
  /-- A quote after hexadecimal digits opens the string again. -/
  | reopen {t b r n} : NatLit true t b r n → NatLit false (34 :: t) b r n
  /-- The literal can end after hexadecimal digits. -/
  | done {r} : EndsLit r → NatLit false r [] r 0

/-! ## Proofs -/

theorem NatLit.suffix {q : Bool} {t b r : Str} {n : Nat} (h : NatLit q t b r n) : r.length ≤ t.length ∧ b.length ≤ n ∧ (∀ x ∈ r, x ∈ t) := by
  induction h with
  | chr _ _ ih => exact ⟨by simp; omega, by simp; omega, fun x hx => List.mem_cons_of_mem _ (ih.2.2 x hx)⟩
  | quote _ ih => exact ⟨by simp; omega, by simp; omega, fun x hx => List.mem_cons_of_mem _ (List.mem_cons_of_mem _ (ih.2.2 x hx))⟩
  | close => exact ⟨by simp, by simp, fun x hx => List.mem_cons_of_mem _ hx⟩
  | dollar _ ih => exact ⟨by simp at ih ⊢; omega, ih.2.1, fun x hx => List.mem_cons_of_mem _ (ih.2.2 x hx)⟩
  | hex _ _ _ _ _ ih => exact ⟨by simp; omega, by simp; omega, fun x hx => List.mem_cons_of_mem _ (List.mem_append_right _ (ih.2.2 x hx))⟩
  | reopen _ ih => exact ⟨by simp; omega, ih.2.1, fun x hx => List.mem_cons_of_mem _ (ih.2.2 x hx)⟩
  | done => exact ⟨by simp, by simp, fun x hx => hx⟩

/-- The digits are all the digits. -/
theorem takeWhile_of {p : Nat → Bool} {ds t : Str} (h : ∀ c ∈ ds, p c = true) (ht : ∀ c, t.head? = some c → p c = false) : (ds ++ t).takeWhile p = ds := by
  rw [List.takeWhile_append_of_pos h]
  cases t with
  | nil => simp
  | cons c t => simp [ht c rfl]

/-! ### The forms of a literal -/

theorem NatLit.inv_chr {c : Nat} {t b r : Str} {n : Nat} (h : NatLit true (c :: t) b r n) (hc : c ≠ 34) : ∃ b' n', b = c :: b' ∧ n = 1 + n' ∧ NatLit true t b' r n' := by
  cases h with
  | chr _ h => exact ⟨_, _, rfl, rfl, h⟩
  | quote | close | dollar => exact absurd rfl hc

theorem NatLit.inv_quote {t b r : Str} {n : Nat} (h : NatLit true (34 :: 34 :: t) b r n) : ∃ b' n', b = 34 :: b' ∧ n = 1 + n' ∧ NatLit true t b' r n' := by
  cases h with
  | chr h => exact absurd rfl h
  | quote h => exact ⟨_, _, rfl, rfl, h⟩
  | close h => exact absurd rfl h.1

theorem NatLit.inv_dollar {t b r : Str} {n : Nat} (h : NatLit true (34 :: 36 :: t) b r n) : NatLit false (36 :: t) b r n := by
  cases h with
  | chr h => exact absurd rfl h
  | close h => exact absurd rfl h.2
  | dollar h => exact h

theorem NatLit.inv_close {t b r : Str} {n : Nat} (h : NatLit true (34 :: t) b r n) (he : EndsLit t) : b = [] ∧ r = t ∧ n = 0 := by
  cases h with
  | chr h => exact absurd rfl h
  | quote => exact absurd rfl he.1
  | close => exact ⟨rfl, rfl, rfl⟩
  | dollar => exact absurd rfl he.2

theorem NatLit.inv_reopen {t b r : Str} {n : Nat} (h : NatLit false (34 :: t) b r n) : NatLit true t b r n := by
  cases h with
  | reopen h => exact h
  | done h => exact absurd rfl h.1

theorem NatLit.inv_done {t b r : Str} {n : Nat} (h : NatLit false t b r n) (he : EndsLit t) : b = [] ∧ r = t ∧ n = 0 := by
  cases h with
  | hex => exact absurd rfl he.2
  | reopen => exact absurd rfl he.1
  | done => exact ⟨rfl, rfl, rfl⟩

theorem NatLit.inv_hex {u b r : Str} {n : Nat} (h : NatLit false (36 :: u) b r n) {ds t : Str} (hu : u = ds ++ t) (hd : ∀ c ∈ ds, capDigit 16 c = true) (ht : ∀ c, t.head? = some c → capDigit 16 c = false) :
    ds ≠ [] ∧ numeral 16 ds ≤ 65535 ∧ ∃ b' n', b = numeral 16 ds % 256 :: b' ∧ n = max 2 (1 + n') ∧ NatLit false t b' r n' := by
  generalize hw : (36 :: u : Str) = w at h
  cases h with
  | @hex ds' t' b' _ n' h1 h2 h3 h4 h5 =>
    have e : u = ds' ++ t' := by simpa using hw
    have e1 : ds' = ds := by rw [← takeWhile_of h2 h4, ← e, hu, takeWhile_of hd ht]
    subst e1
    have e2 : t' = t := by rw [hu] at e; exact (List.append_cancel_left e).symm
    subst e2
    exact ⟨h1, h3, _, _, rfl, rfl, h5⟩
  | reopen => simp at hw
  | done h => subst hw; exact absurd rfl h.2

section
variable (err : B)
local notation "Q" => kCode err

variable {m : M} {k : Code} {st : List Slot}

/-- In the loop: `j` bytes are read, the position of the length is `o`, and the code is apart from the line, where `t` and the end of the line are. -/
structure CsAt (m : M) (k : Code) (st : List Slot) (o : B) (j : Nat) (t : List B) : Prop where
  stk : m.stk = .ret k :: st
  tmp : m.zp.tmp2 = o
  op : m.kv.op.toNat = o.toNat + 1 + j
  x : m.x.toNat = j
  text : TextAt m.ram (idx m.kv.bp m.kv.ci) (t ++ [155#8])
  fits : m.kv.ci.toNat + t.length < 256
  apart : ∀ i, i ≤ t.length → 256 ≤ (idx m.kv.bp m.kv.ci + BitVec.ofNat 16 i - m.kv.prog).toNat
  line : 155#8 ∉ t

/-- The end: the bytes `b` are emitted, and the length. -/
def CsEnds (k0 : Code) (m : M) (k : Code) (st : List Slot) (o : B) (j : Nat) (l : Nat) (b : List B) (n : Nat) : Prop :=
  ∃ m' over, Reach Q k0 m k m' ∧ m'.c = false ∧ b.length + over.length ≤ n ∧
    m'.kv = { m.kv with
      stk := st, op := m.kv.op + BitVec.ofNat 8 b.length, ci := m.kv.ci + BitVec.ofNat 8 l,
      ram := upd (writeAt m.ram (idx m.kv.prog m.kv.op) (b ++ over)) (idx m.kv.prog o) (BitVec.ofNat 8 (j + b.length)) }

/-- Not a literal. -/
def CsNo (k0 : Code) (m : M) (k : Code) (st : List Slot) : Prop := KRejects err k0 m k st ∨ KErrs err k0 m

/-- What the routine does from here. -/
def CsDoes (k0 : Code) (m : M) (k : Code) (st : List Slot) (o : B) (j : Nat) (q : Bool) (t : List B) : Prop :=
  (∀ b r n, NatLit q (strOf t) b r n → if m.kv.op.toNat + n ≤ 255 then CsEnds err k0 m k st o j (t.length - r.length) (b.map (BitVec.ofNat 8)) n else KErrs err k0 m) ∧
  ((¬ ∃ b r n, NatLit q (strOf t) b r n) → CsNo err k0 m k st)

variable {err}

/-! ## Steps -/

theorem writeAt_upd (y : List B) : ∀ (r : W → B) (p a : W) (v : B), (∀ i, i < y.length → a ≠ p + BitVec.ofNat 16 i) → writeAt (upd r a v) p y = upd (writeAt r p y) a v := by
  induction y with
  | nil => intro r p a v _; rfl
  | cons d y ih =>
    intro r p a v h
    show upd (writeAt (upd r a v) (p + 1) y) p d = upd (upd (writeAt r (p + 1) y) p d) a v
    rw [ih _ _ _ _ (fun i hi => by
      have := h (i + 1) (by simpa using hi)
      rw [BitVec.add_assoc]
      rwa [show (1 : W) + BitVec.ofNat 16 i = BitVec.ofNat 16 (i + 1) by apply BitVec.eq_of_toNat_eq; rw [BitVec.toNat_add]; simp; omega])]
    exact upd_comm (by have := h 0 (by simp); simpa using this)

theorem writeAt_over (r : W → B) (p : W) (h : B) (z : B) (y : List B) (hy : y.length < 65535) : writeAt (upd r p h) p (z :: y) = writeAt r p (z :: y) := by
  show upd (writeAt (upd r p h) (p + 1) y) p z = upd (writeAt r (p + 1) y) p z
  rw [writeAt_upd]
  · funext q; unfold upd; split <;> rfl
  · intro i hi he
    have := congrArg BitVec.toNat he
    rw [BitVec.add_assoc, BitVec.toNat_add, BitVec.toNat_add] at this
    have := p.isLt
    simp at *
    omega

/-- More bytes after a byte `c`, with `x` (at most one byte) written after it. -/
theorem writeAt_more (r : W → B) (p : W) (c : B) (x y : List B) (hx : x.length ≤ 1) (hy : y.length < 65535) :
    writeAt (writeAt r p (c :: x)) (p + 1) y = writeAt r p (c :: (if y = [] then x else y)) := by
  show writeAt (upd (writeAt r (p + 1) x) p c) (p + 1) y = upd (writeAt r (p + 1) _) p c
  rw [writeAt_upd]
  · congr 1
    cases y with
    | nil => rfl
    | cons d y =>
      rw [if_neg (by simp)]
      cases x with
      | nil => rfl
      | cons h x =>
        cases x with
        | cons => simp at hx
        | nil => exact writeAt_over r (p + 1) h d y (by simp at hy; omega)
  · intro i hi he
    have := congrArg BitVec.toNat he
    rw [BitVec.add_assoc, BitVec.toNat_add, BitVec.toNat_add] at this
    have := p.isLt
    simp at *
    omega

/-- The machine goes from `m` to `m1`: `s` characters are read and a byte `c` is emitted, with `x` after it. -/
structure CsStep (m m1 : M) (s : Nat) (c : B) (x : List B) : Prop where
  kv : m1.kv = { m.kv with op := m.kv.op + 1#8, ci := m.kv.ci + BitVec.ofNat 8 s, ram := writeAt m.ram (idx m.kv.prog m.kv.op) (c :: x) }
  tmp : m1.zp.tmp2 = m.zp.tmp2
  reg : m1.x = m.x + 1#8
  over : x.length ≤ 1
  op : m.kv.op.toNat + 1 + x.length ≤ 255

namespace CsStep
variable {m1 : M} {s : Nat} {c : B} {x : List B} {k0 k1 : Code} {o : B} {j : Nat}

theorem op1 (h : CsStep m m1 s c x) : m1.kv.op = m.kv.op + 1#8 := by rw [h.kv]
theorem op1n (h : CsStep m m1 s c x) : m1.kv.op.toNat = m.kv.op.toNat + 1 := by
  have := h.op; rw [h.op1, BitVec.toNat_add]; simp; omega
theorem prog1 (h : CsStep m m1 s c x) : m1.kv.prog = m.kv.prog := by rw [h.kv]; rfl
theorem ram1 (h : CsStep m m1 s c x) : m1.ram = writeAt m.ram (idx m.kv.prog m.kv.op) (c :: x) := congrArg KV.ram h.kv
theorem at1 (h : CsStep m m1 s c x) : idx m1.kv.prog m1.kv.op = idx m.kv.prog m.kv.op + 1 := by
  have := h.op; rw [h.prog1, h.op1, idx_succ _ _ (by omega)]
theorem more (h : CsStep m m1 s c x) (y : List B) (hy : y.length < 65535) :
    writeAt m1.ram (idx m1.kv.prog m1.kv.op) y = writeAt m.ram (idx m.kv.prog m.kv.op) (c :: (if y = [] then x else y)) := by
  rw [h.at1, h.ram1, writeAt_more _ _ _ _ _ h.over hy]

theorem ends (h : CsStep m m1 s c x) (r : Reach Q k0 m k1 m1) {l : Nat} {b : List B} {n n' : Nat} (hn : m1.kv.op.toNat + n ≤ 255) (h1 : 1 + x.length ≤ n') (h2 : 1 + n ≤ n')
    (he : CsEnds err k1 m1 k st o (j + 1) l b n) : CsEnds err k0 m k st o j (s + l) (c :: b) n' := by
  obtain ⟨m', over, r', c', ho, v⟩ := he
  have hm := h.more (b ++ over) (by simp; omega)
  refine ⟨m', if b ++ over = [] then x else over, r.trans r', c', ?_, ?_⟩
  · split
    · next hb => simp at hb; simp [hb]; omega
    · simp; omega
  · rw [v, hm, h.op1, h.prog1, h.kv]
    have e1 : m.kv.op + 1#8 + BitVec.ofNat 8 b.length = m.kv.op + BitVec.ofNat 8 (c :: b).length := by
      rw [BitVec.add_assoc]; congr 1; apply BitVec.eq_of_toNat_eq; rw [BitVec.toNat_add]; simp; omega
    have e2 : m.kv.ci + BitVec.ofNat 8 s + BitVec.ofNat 8 l = m.kv.ci + BitVec.ofNat 8 (s + l) := by
      rw [BitVec.add_assoc]; congr 1; apply BitVec.eq_of_toNat_eq; rw [BitVec.toNat_add]; simp
    have e3 : (c :: if b ++ over = [] then x else b ++ over) = (c :: b) ++ (if b ++ over = [] then x else over) := by
      split
      · next hb => simp at hb; simp [hb]
      · rfl
    have e4 : j + 1 + b.length = j + (c :: b).length := by simp; omega
    simp only [e1, e2, e3, e4]

theorem no (h : CsStep m m1 s c x) (r : Reach Q k0 m k1 m1) (hn : CsNo err k1 m1 k st) : CsNo err k0 m k st := by
  rcases hn with ⟨m', bs, r', c', ho, v⟩ | hn
  · have h1 := h.op; have h2 := h.op1n
    refine .inl ⟨m', c :: (if bs = [] then x else bs), r.trans r', c', ?_, ?_⟩
    · split
      · simp; omega
      · simp; omega
    · rw [v, h.more bs (by omega), h.kv]
  · exact .inr (r.kerrs hn)

/-- A part of the text that is apart from the code does not change. -/
theorem text (h : CsStep m m1 s c x) {p : W} {t : List B} (ht : TextAt m.ram p t) (ha : ∀ i, i < t.length → 256 ≤ (p + BitVec.ofNat 16 i - m.kv.prog).toNat) : TextAt m1.ram p t := by
  intro i hi
  rw [h.ram1, writeAt_out _ _ _ _ ?_]
  · exact ht i hi
  · intro q hq he
    have h1 := ha i hi
    rw [he] at h1
    have h2 := h.op
    simp only [List.length_cons] at hq
    have : idx m.kv.prog m.kv.op + BitVec.ofNat 16 q - m.kv.prog = BitVec.ofNat 16 (m.kv.op.toNat + q) := by
      unfold idx
      rw [BitVec.add_assoc, BitVec.add_comm m.kv.prog, BitVec.add_sub_cancel]
      apply BitVec.eq_of_toNat_eq; rw [BitVec.toNat_add]; simp
    rw [this] at h1
    simp at h1
    omega

end CsStep

theorem CsAt.drop {o : B} {j : Nat} {u t : List B} (h : CsAt m k st o j (u ++ t)) : TextAt m.ram (idx m.kv.bp (m.kv.ci + BitVec.ofNat 8 u.length)) (t ++ [155#8]) ∧
    (m.kv.ci + BitVec.ofNat 8 u.length).toNat = m.kv.ci.toNat + u.length ∧
    ∀ i, i ≤ t.length → 256 ≤ (idx m.kv.bp (m.kv.ci + BitVec.ofNat 8 u.length) + BitVec.ofNat 16 i - m.kv.prog).toNat := by
  have hf := h.fits
  rw [List.length_append] at hf
  have e : (m.kv.ci + BitVec.ofNat 8 u.length).toNat = m.kv.ci.toNat + u.length := by rw [BitVec.toNat_add]; simp; omega
  have e2 := idx_add m.kv.bp m.kv.ci _ _ e
  refine ⟨?_, e, ?_⟩
  · rw [e2]
    have := h.text
    rw [List.append_assoc] at this
    exact this.drop (r := m.ram) (p := 0) u
  · intro i hi
    have := h.apart (u.length + i) (by rw [List.length_append]; omega)
    rw [e2, BitVec.add_assoc, show BitVec.ofNat 16 u.length + BitVec.ofNat 16 i = BitVec.ofNat 16 (u.length + i) by
      apply BitVec.eq_of_toNat_eq; rw [BitVec.toNat_add]; simp]
    exact this

/-- The state after a step. -/
theorem CsAt.step {o : B} {j : Nat} {u t : List B} {m1 : M} {c : B} {x : List B} (h : CsAt m k st o j (u ++ t)) (hs : CsStep m m1 u.length c x) : CsAt m1 k st o (j + 1) t := by
  obtain ⟨h1, h2, h3⟩ := h.drop
  have hf := h.fits
  rw [List.length_append] at hf
  have ho := hs.op
  have eb : m1.kv.bp = m.kv.bp := by rw [hs.kv]; rfl
  have ec : m1.kv.ci = m.kv.ci + BitVec.ofNat 8 u.length := by rw [hs.kv]
  refine ⟨(congrArg KV.stk hs.kv).trans h.stk, hs.tmp.trans h.tmp, ?_, ?_, ?_, ?_, ?_, fun hm => h.line (List.mem_append_right _ hm)⟩
  · rw [hs.op1n, h.op]; omega
  · have := h.op
    rw [hs.reg, BitVec.toNat_add, h.x]; simp; omega
  · rw [eb, ec]
    exact hs.text h1 (fun i hi => h3 i (by simp at hi; omega))
  · rw [ec, h2]; omega
  · rw [eb, ec, hs.prog1]; exact h3


/-- Characters are read, nothing is emitted. -/
structure CsSkip (m m1 : M) (s : Nat) : Prop where
  kv : m1.kv = { m.kv with ci := m.kv.ci + BitVec.ofNat 8 s }
  tmp : m1.zp.tmp2 = m.zp.tmp2
  reg : m1.x = m.x

theorem CsSkip.ends {m1 : M} {s : Nat} {k0 k1 : Code} {o : B} {j l n : Nat} {b : List B} (h : CsSkip m m1 s) (r : Reach Q k0 m k1 m1) (he : CsEnds err k1 m1 k st o j l b n) :
    CsEnds err k0 m k st o j (s + l) b n := by
  obtain ⟨m', over, r', c', ho, v⟩ := he
  have e2 : m.kv.ci + BitVec.ofNat 8 s + BitVec.ofNat 8 l = m.kv.ci + BitVec.ofNat 8 (s + l) := by
    rw [BitVec.add_assoc]; congr 1; apply BitVec.eq_of_toNat_eq; rw [BitVec.toNat_add]; simp
  refine ⟨m', over, r.trans r', c', ho, ?_⟩
  rw [v, show m1.ram = m.ram from congrArg KV.ram h.kv, h.kv]
  simp only [e2]
  rfl

theorem CsSkip.no {m1 : M} {s : Nat} {k0 k1 : Code} (h : CsSkip m m1 s) (r : Reach Q k0 m k1 m1) (hn : CsNo err k1 m1 k st) : CsNo err k0 m k st := by
  rcases hn with ⟨m', bs, r', c', ho, v⟩ | hn
  · rw [show m1.kv.op = m.kv.op by rw [h.kv]] at ho
    refine .inl ⟨m', bs, r.trans r', c', ho, ?_⟩
    rw [v, show m1.ram = m.ram from congrArg KV.ram h.kv, h.kv]
    rfl
  · exact .inr (r.kerrs hn)

theorem CsAt.skip {o : B} {j : Nat} {u t : List B} {m1 : M} (h : CsAt m k st o j (u ++ t)) (hs : CsSkip m m1 u.length) : CsAt m1 k st o j t := by
  obtain ⟨h1, h2, h3⟩ := h.drop
  have hf := h.fits
  rw [List.length_append] at hf
  have eb : m1.kv.bp = m.kv.bp := by rw [hs.kv]; rfl
  have ec : m1.kv.ci = m.kv.ci + BitVec.ofNat 8 u.length := by rw [hs.kv]
  have ep : m1.kv.prog = m.kv.prog := by rw [hs.kv]; rfl
  refine ⟨(congrArg KV.stk hs.kv).trans h.stk, hs.tmp.trans h.tmp, ?_, ?_, ?_, ?_, ?_, fun hm => h.line (List.mem_append_right _ hm)⟩
  · rw [show m1.kv.op = m.kv.op by rw [hs.kv]]; exact h.op
  · rw [hs.reg]; exact h.x
  · rw [eb, ec, show m1.ram = m.ram from congrArg KV.ram hs.kv]; exact h1
  · rw [ec, h2]; omega
  · rw [eb, ec, ep]; exact h3

/-- The literal ends. -/
theorem CsAt.endsHere {o : B} {j : Nat} {t : List B} (h : CsAt m k st o j t) (ha : m.a ≠ 36#8) : CsEnds err (kCode.cs_chk err) m k st o j 0 [] 0 := by
  obtain ⟨m', r, c, v⟩ := cs_end err h.stk ha
  refine ⟨m', [], r, c, by simp, ?_⟩
  have : m.x = BitVec.ofNat 8 (j + 0) := by
    apply BitVec.eq_of_toNat_eq
    have := m.x.isLt
    rw [h.x] at this ⊢
    simp; omega
  rw [v, this, h.tmp]
  simp [writeAt]


theorem CsAt.firstByte {o : B} {j : Nat} {c : B} {t : List B} (h : CsAt m k st o j (c :: t)) : m.ram (idx m.kv.bp m.kv.ci) = c := h.text.head

theorem CsAt.second {o : B} {j : Nat} {c : B} {t : List B} (h : CsAt m k st o j (c :: t)) : m.ram (idx m.kv.bp (m.kv.ci + 1#8)) = (t ++ [155#8]).head (by simp) := by
  have := (CsAt.drop (u := [c]) h).1
  cases t with
  | nil => exact this.head
  | cons d t => exact this.head

/-- A byte is emitted from `cs_store`, after `s` characters. -/
theorem cs_store_step {m1 : M} {s : Nat} {k0 : Code} (hr : Reach Q k0 m (kCode.cs_store err) m1) (hs : CsSkip m m1 s) (ho : m.kv.op.toNat < 255) (hx : m.x.toNat < 255) :
    ∃ m', Reach Q k0 m (kCode.cs_nloop err) m' ∧ CsStep m m' (s + 1) m1.a [] := by
  have ho1 : m1.zp.opos = m.kv.op := congrArg KV.op hs.kv
  obtain ⟨m', r, x', t', v'⟩ := cs_emit err (m := m1) (by rw [ho1]; exact ho) (by rw [hs.reg]; exact hx)
  refine ⟨m', hr.trans r, ?_, t'.trans hs.tmp, by rw [x', hs.reg], by simp, by simp; omega⟩
  rw [v', show m1.ram = m.ram from congrArg KV.ram hs.kv, hs.kv]
  have : m.kv.ci + BitVec.ofNat 8 s + 1#8 = m.kv.ci + BitVec.ofNat 8 (s + 1) := by
    rw [BitVec.add_assoc]; congr 1; apply BitVec.eq_of_toNat_eq; rw [BitVec.toNat_add]; simp
  simp only [this]
  rfl

theorem strOf_len (t : List B) : (strOf t).length = t.length := by simp [strOf]

theorem ofNat_toNat8 (c : B) : BitVec.ofNat 8 c.toNat = c := BitVec.ofNat_toNat _ _ ▸ BitVec.setWidth_eq c

/-- A step with one byte of the text: what the routine does after it and before it. -/
theorem does_char {m1 : M} {s : Nat} {k0 : Code} {o : B} {j : Nat} {c : B} {t u : List B} (hr : Reach Q k0 m (kCode.cs_store err) m1) (hs : CsSkip m m1 s) (ha : m1.a = c)
    (h : CsAt m k st o j (u ++ t)) (hu : u.length = s + 1)
    (ih : ∀ m', CsAt m' k st o (j + 1) t → CsDoes err (kCode.cs_nloop err) m' k st o (j + 1) true t)
    (hi : ∀ b r n, NatLit true (strOf (u ++ t)) b r n → ∃ b' n', b = c.toNat :: b' ∧ n = 1 + n' ∧ NatLit true (strOf t) b' r n')
    (hj : ∀ b r n, NatLit true (strOf t) b r n → ∃ b' r' n', NatLit true (strOf (u ++ t)) b' r' n') :
    CsDoes err k0 m k st o j true (u ++ t) := by
  have hop := h.op
  have ho := m.kv.op.isLt
  by_cases ho' : m.kv.op.toNat < 255
  · obtain ⟨m', r', st'⟩ := cs_store_step hr hs ho' (by rw [h.x]; omega)
    rw [ha, ← hu] at st'
    obtain ⟨d1, d2⟩ := ih m' (h.step st')
    constructor
    · intro b r n hl
      obtain ⟨b', n', rfl, rfl, hl'⟩ := hi b r n hl
      have key := d1 _ _ _ hl'
      have hsuf := hl'.suffix.1
      rw [strOf_len] at hsuf
      split at key
      · next hq =>
        rw [st'.op1n] at hq
        rw [if_pos (by omega)]
        have := st'.ends r' (by rw [st'.op1n]; exact hq) (n' := 1 + n') (by simp) (by omega) key
        rw [show u.length + (t.length - r.length) = (u ++ t).length - r.length by rw [List.length_append]; omega] at this
        rw [List.map_cons, ofNat_toNat8]
        exact this
      · next hq =>
        rw [st'.op1n] at hq
        rw [if_neg (by omega)]
        exact r'.kerrs key
    · intro hl
      exact st'.no r' (d2 (fun ⟨b, r, n, h⟩ => hl (hj b r n h)))
  · have he : KErrs err k0 m := hr.kerrs (cs_emit_long err (by
      rw [show m1.zp.opos = m.kv.op from congrArg KV.op hs.kv]
      apply BitVec.eq_of_toNat_eq
      show m.kv.op.toNat = 255
      omega))
    constructor
    · intro b r n hl
      obtain ⟨b', n', rfl, rfl, hl'⟩ := hi b r n hl
      rw [if_neg (by omega)]
      exact he
    · intro _
      exact .inr he

theorem does_all (L : Nat) : ∀ (t : List B) (m : M) (o : B) (j : Nat), t.length < L →
    (CsAt m k st o j t → CsDoes err (kCode.cs_nloop err) m k st o j true t) ∧
    (CsAt m k st o j (36#8 :: t) → m.a = 0#8 → m.y = m.kv.ci → CsDoes err (kCode.cs_cbyte err) m k st o j false (36#8 :: t)) := by
  induction L with
  | zero => intro t m o j h; exact absurd h (Nat.not_lt_zero _)
  | succ L ih =>
    intro t m o j hL
    constructor
    · intro h
      cases t with
      | nil =>
        obtain ⟨m', r, c, v⟩ := cs_eol err h.stk h.text.head
        refine ⟨fun b r n hl => (nomatch hl), fun _ => .inl (KFails.rejects ⟨m', r, ?_, c⟩)⟩
        rw [show m'.zp.cix = m'.kv.ci from rfl, v]
      | cons c t =>
        by_cases hc : c = 34#8
        · subst hc
          obtain ⟨m1, r1, a1, x1, y1, o1, t1, v1⟩ := cs_quote err _ h.firstByte h.second
          cases t with
          | nil =>
            rw [if_neg (by decide)] at r1
            have sk : CsSkip m m1 [34#8].length := ⟨v1, t1, x1⟩
            have h1 : CsAt m1 k st o j [] := CsAt.skip (u := [34#8]) h sk
            have he := h1.endsHere (err := err) (by rw [a1]; decide)
            refine ⟨fun b r n hl => ?_, fun hl => absurd ⟨[], [], 0, .close ⟨by simp, by simp⟩⟩ hl⟩
            obtain ⟨rfl, rfl, rfl⟩ := hl.inv_close ⟨by simp [strOf], by simp [strOf]⟩
            rw [if_pos (by have := m.kv.op.isLt; omega)]
            exact sk.ends r1 he
          | cons d t =>
            by_cases hd : d = 34#8
            · subst hd
              rw [if_pos (show (34#8 :: t ++ [155#8]).head (by simp) = 34#8 from rfl)] at r1
              refine does_char (u := [34#8, 34#8]) (s := 1) (c := 34#8) r1 ⟨v1, t1, x1⟩ a1 h rfl (fun m' h' => (ih t m' o (j + 1) (by simp at hL; omega)).1 h') ?_ ?_
              · intro b r n hl; exact hl.inv_quote
              · intro b r n hl; exact ⟨_, _, _, hl.quote⟩
            · rw [if_neg (by exact hd)] at r1
              have sk : CsSkip m m1 [34#8].length := ⟨v1, t1, x1⟩
              have h1 : CsAt m1 k st o j (d :: t) := CsAt.skip (u := [34#8]) h sk
              by_cases hd2 : d = 36#8
              · subst hd2
                obtain ⟨m2, r2, a2, x2, y2, z2, v2⟩ := cs_hexa err (m := m1) a1
                have sk2 : CsSkip m m2 [34#8].length := ⟨by rw [v2]; exact v1, by rw [z2]; exact t1, x2.trans x1⟩
                have h2 : CsAt m2 k st o j (36#8 :: t) := CsAt.skip (u := [34#8]) h sk2
                obtain ⟨d1, d2⟩ := (ih t m2 o j (by simp at hL; omega)).2 h2 a2 (by rw [y2, y1, v2, v1])
                refine ⟨fun b r n hl => ?_, fun hl => sk2.no (r1.trans r2) (d2 (fun ⟨b, r, n, h⟩ => hl ⟨b, r, n, .dollar h⟩))⟩
                have hl' := hl.inv_dollar
                have key := d1 b r n hl'
                have hsuf : r.length ≤ t.length + 1 := by have := hl'.suffix.1; simpa using this
                rw [show m2.kv.op = m.kv.op by rw [v2, v1]] at key
                split at key
                · next hq =>
                  rw [if_pos hq]
                  have := sk2.ends (r1.trans r2) key
                  rw [show [34#8].length + ((36#8 :: t).length - r.length) = (34#8 :: 36#8 :: t).length - r.length by simp; omega] at this
                  exact this
                · next hq => rw [if_neg hq]; exact (r1.trans r2).kerrs key
              · have he := h1.endsHere (err := err) (by rw [a1]; exact hd2)
                have hE : EndsLit (strOf (d :: t)) := ⟨fun h' => hd (BitVec.eq_of_toNat_eq (by simpa [strOf] using h')), fun h' => hd2 (BitVec.eq_of_toNat_eq (by simpa [strOf] using h'))⟩
                refine ⟨fun b r n hl => ?_, fun hl => absurd ⟨[], _, 0, .close hE⟩ hl⟩
                obtain ⟨rfl, rfl, rfl⟩ := hl.inv_close hE
                rw [if_pos (by have := m.kv.op.isLt; omega)]
                have := sk.ends r1 he
                rw [show (34#8 :: d :: t).length - (List.map BitVec.toNat (d :: t)).length = [34#8].length + 0 by simp]
                exact this
        · obtain ⟨m1, r1, a1, x1, z1, v1⟩ := cs_char err c h.firstByte hc (fun h' => h.line (by rw [h']; exact List.mem_cons_self ..))
          have hc' : c.toNat ≠ 34 := fun h' => hc (BitVec.eq_of_toNat_eq h')
          refine does_char (u := [c]) (s := 0) (c := c) r1 ⟨by rw [v1]; simp, by rw [z1], x1⟩ a1 h rfl (fun m' h' => (ih t m' o (j + 1) (by simp at hL; omega)).1 h') ?_ ?_
          · intro b r n hl; exact hl.inv_chr hc'
          · intro b r n hl; exact ⟨_, _, _, hl.chr hc'⟩
    · intro h ha hy
      obtain ⟨ds, t2, ht, hd, hnd⟩ : ∃ ds t2 : List B, t = ds ++ t2 ∧ (∀ c ∈ ds, IsHex c) ∧ ∀ c, t2.head? = some c → ¬ IsHex c := by
        refine ⟨t.takeWhile (fun c => decide (IsHex c)), t.dropWhile (fun c => decide (IsHex c)), (List.takeWhile_append_dropWhile).symm, ?_, ?_⟩
        · intro c hc
          have := List.all_eq_true.mp (List.all_takeWhile (p := fun c => decide (IsHex c)) (l := t)) c hc
          simpa using this
        · intro c hc
          have := List.head?_dropWhile_not (fun c => decide (IsHex c)) t
          rw [hc] at this
          simpa using this
      obtain ⟨e, l, he, hnh, hne⟩ : ∃ e l, t2 ++ [155#8] = e :: l ∧ ¬ IsHex e ∧ (t2 = [] ∧ e = 155#8 ∨ ∃ t3, t2 = e :: t3) := by
        cases t2 with
        | nil => exact ⟨155#8, [], rfl, by decide, .inl ⟨rfl, rfl⟩⟩
        | cons e t3 => exact ⟨e, t3 ++ [155#8], rfl, hnd e rfl, .inr ⟨t3, rfl⟩⟩
      subst ht
      have hf := h.fits
      simp only [List.length_cons, List.length_append] at hf
      have hd0 := CsAt.drop (u := [36#8]) h
      have key := cs_number err h.stk ds e l ha hy (by omega) (by have := hd0.1; rw [show (ds.append t2) ++ [155#8] = ds ++ (t2 ++ [155#8]) from List.append_assoc .., he] at this; exact this) hd hnh
      have hdN : ∀ c ∈ strOf ds, capDigit 16 c = true := by
        intro c hc
        obtain ⟨b, hb, rfl⟩ := List.mem_map.1 hc
        exact (capDigit_hex b).2 (hd b hb)
      have htN : ∀ c, (strOf t2).head? = some c → capDigit 16 c = false := by
        intro c hc
        cases t2 with
        | nil => cases hc
        | cons b t3 =>
          cases hc
          cases hq : capDigit 16 b.toNat with
          | false => rfl
          | true => exact absurd ((capDigit_hex b).1 hq) (hnd b rfl)
      have hnum : numeral 16 (strOf ds) = hexNum 0 ds := hexNum_eq ds 0 hd
      have hnil : strOf ds = [] ↔ ds = [] := by simp [strOf]
      have happ : strOf (36#8 :: (ds ++ t2)) = 36 :: (strOf ds ++ strOf t2) := by simp [strOf]
      have inv : ∀ {b r n}, NatLit false (strOf (36#8 :: (ds ++ t2))) b r n → _ := fun {b r n} hl => NatLit.inv_hex (u := strOf ds ++ strOf t2) (happ ▸ hl) rfl hdN htN
      by_cases hq : ds ≠ [] ∧ hexNum 0 ds < 65536
      · rw [if_pos hq] at key
        by_cases ho : m.kv.op.toNat + 2 ≤ 255
        · rw [if_pos ho] at key
          obtain ⟨m1, r1, c1, t1, u1, v1⟩ := key
          have hop := h.op
          -- the next character
          have hci : m.kv.ci + 1#8 + BitVec.ofNat 8 ds.length = m.kv.ci + BitVec.ofNat 8 (36#8 :: ds).length := by
            rw [BitVec.add_assoc]; congr 1; apply BitVec.eq_of_toNat_eq; rw [BitVec.toNat_add]; simp; omega
          have hop2 : m.kv.op + 2#8 - 1#8 = m.kv.op + 1#8 := by bv_omega
          -- as a step, for a state with the same memory
          have hstep : ∀ (m2 : M) (s : Nat), m2.kv = { m.kv with op := m.kv.op + 1#8, ci := m.kv.ci + BitVec.ofNat 8 s, ram := m1.ram } → m2.x = m.x + 1#8 → m2.zp.tmp2 = m1.zp.tmp2 →
              CsStep m m2 s (lo (BitVec.ofNat 16 (hexNum 0 ds))) [hi (BitVec.ofNat 16 (hexNum 0 ds))] := by
            intro m2 s hv hx ht
            refine ⟨?_, ht.trans t1, hx, by simp, by simp; omega⟩
            rw [hv, show m1.ram = _ from congrArg KV.ram v1]
          have hd1 : m1.ram (idx m1.kv.bp m1.kv.ci) = e := by
            obtain ⟨g1, g2, g3⟩ := CsAt.drop (u := 36#8 :: ds) h
            rw [show m1.kv.bp = m.kv.bp by rw [v1]; rfl, show m1.kv.ci = _ from congrArg KV.ci v1, hci, show m1.ram = _ from congrArg KV.ram v1]
            have hst := hstep { m1 with x := m.x + 1#8, zp := { m1.zp with opos := m1.zp.opos - 1#8 } } (36#8 :: ds).length (by
              show ({ m1.kv with op := m1.kv.op - 1#8 } : KV) = _
              rw [show m1.ram = _ from congrArg KV.ram v1, v1]
              show ({ m.kv with op := m.kv.op + 2#8 - 1#8, ci := m.kv.ci + 1#8 + BitVec.ofNat 8 ds.length, ram := _ } : KV) = _
              rw [hop2, hci]) rfl rfl
            have := hst.text g1 (fun i hi => g3 i (by simp at hi; omega))
            rw [he] at this
            rw [← show m1.ram = _ from congrArg KV.ram v1]
            exact this.head
          obtain ⟨m2, r2, x2, t2', w2⟩ := cs_next err e hd1 c1 (by rw [u1, h.x]; omega)
          rw [u1] at x2
          have b8 : ∀ N, BitVec.ofNat 8 (N % 256) = lo (BitVec.ofNat 16 N) := by
            intro N; apply BitVec.eq_of_toNat_eq; simp [lo]
          -- the end, whatever follows
          have fin : ∀ (k2 : Code) (m2 : M) (s lX : Nat), Reach Q (kCode.cs_cbyte err) m k2 m2 → CsStep m m2 s (lo (BitVec.ofNat 16 (hexNum 0 ds))) [hi (BitVec.ofNat 16 (hexNum 0 ds))] →
              s + lX = (36#8 :: (ds ++ t2)).length →
              (∀ b r n, NatLit false (strOf t2) b r n → r.length ≤ lX ∧ if m2.kv.op.toNat + n ≤ 255 then CsEnds err k2 m2 k st o (j + 1) (lX - r.length) (b.map (BitVec.ofNat 8)) n else KErrs err k2 m2) →
              ((¬ ∃ b r n, NatLit false (strOf t2) b r n) → CsNo err k2 m2 k st) → CsDoes err (kCode.cs_cbyte err) m k st o j false (36#8 :: (ds ++ t2)) := by
            intro k2 m2 s lX hr hst hl d1 d2
            constructor
            · intro b r n hlit
              obtain ⟨_, _, b', n', rfl, rfl, hl'⟩ := inv hlit
              obtain ⟨hle, key⟩ := d1 _ _ _ hl'
              rw [hst.op1n] at key
              split at key
              · next hq' =>
                rw [if_pos (by omega)]
                have := hst.ends hr (by rw [hst.op1n]; exact hq') (n' := max 2 (1 + n')) (by simp) (by omega) key
                rw [show s + (lX - r.length) = (36#8 :: (ds ++ t2)).length - r.length by omega] at this
                rw [List.map_cons, hnum, b8]
                exact this
              · next hq' =>
                rw [if_neg (by omega)]
                exact hr.kerrs key
            · intro hno
              refine hst.no hr (d2 (fun ⟨b, r, n, h'⟩ => hno ⟨_, _, _, happ ▸ NatLit.hex (fun h' => hq.1 (hnil.1 h')) hdN (by rw [hnum]; omega) htN h'⟩))
          by_cases h34 : e = 34#8
          · obtain ⟨t3, rfl⟩ : ∃ t3, t2 = e :: t3 := hne.resolve_left (fun h' => by rw [h34] at h'; exact absurd h'.2 (by decide))
            subst h34
            rw [if_pos rfl] at r2 w2
            have hst := hstep m2 ((36#8 :: ds ++ [34#8]).length) (by
              rw [w2, show m1.ram = _ from congrArg KV.ram v1, v1]
              show ({ m.kv with op := m.kv.op + 2#8 - 1#8, ci := m.kv.ci + 1#8 + BitVec.ofNat 8 ds.length + 1#8, ram := _ } : KV) = _
              rw [hop2, hci, BitVec.add_assoc]
              have : BitVec.ofNat 8 (36#8 :: ds).length + 1#8 = BitVec.ofNat 8 (36#8 :: ds ++ [34#8]).length := by
                apply BitVec.eq_of_toNat_eq; rw [BitVec.toNat_add]; simp
              rw [this]) x2 t2'
            have h2 : CsAt m2 k st o (j + 1) t3 := CsAt.step (u := 36#8 :: ds ++ [34#8]) (by simpa using h) hst
            obtain ⟨d1, d2⟩ := (ih t3 m2 o (j + 1) (by simp at hL; omega)).1 h2
            refine fin _ m2 _ t3.length (r1.trans r2) hst (by simp; omega) (fun b r n hl => ?_) (fun hno => d2 (fun ⟨b, r, n, h'⟩ => hno ⟨b, r, n, .reopen h'⟩))
            have hl' : NatLit true (strOf t3) b r n := hl.inv_reopen
            exact ⟨by have := hl'.suffix.1; rwa [strOf_len] at this, d1 b r n hl'⟩
          · rw [if_neg h34] at r2 w2
            obtain ⟨v2, a2, y2⟩ := w2
            have kv2 : m2.kv = { m.kv with op := m.kv.op + 1#8, ci := m.kv.ci + BitVec.ofNat 8 (36#8 :: ds).length, ram := m1.ram } := by
              rw [v2, show m1.ram = _ from congrArg KV.ram v1, v1]
              show ({ m.kv with op := m.kv.op + 2#8 - 1#8, ci := m.kv.ci + 1#8 + BitVec.ofNat 8 ds.length, ram := _ } : KV) = _
              rw [hop2, hci]
            have hst := hstep m2 ((36#8 :: ds).length) kv2 x2 t2'
            have h2 : CsAt m2 k st o (j + 1) t2 := CsAt.step (u := 36#8 :: ds) h hst
            by_cases h36 : e = 36#8
            · obtain ⟨t3, rfl⟩ : ∃ t3, t2 = e :: t3 := hne.resolve_left (fun h' => by rw [h36] at h'; exact absurd h'.2 (by decide))
              subst h36
              obtain ⟨m3, r3, a3, x3, y3, z3, v3⟩ := cs_hexa err (m := m2) a2
              have hst3 := hstep m3 ((36#8 :: ds).length) (v3.trans kv2) (x3.trans x2) (by rw [z3]; exact t2')
              have h3 : CsAt m3 k st o (j + 1) (36#8 :: t3) := CsAt.step (u := 36#8 :: ds) h hst3
              obtain ⟨d1, d2⟩ := (ih t3 m3 o (j + 1) (by simp at hL; omega)).2 h3 a3 (by rw [y3, y2, v3, v2])
              refine fin _ m3 _ (36#8 :: t3).length ((r1.trans r2).trans r3) hst3 (by simp; omega) (fun b r n hl => ?_) d2
              exact ⟨by have := hl.suffix.1; rwa [strOf_len] at this, d1 b r n hl⟩
            · have hE : EndsLit (strOf t2) := by
                rcases hne with ⟨rfl, -⟩ | ⟨t3, rfl⟩
                · exact ⟨by simp [strOf], by simp [strOf]⟩
                · exact ⟨fun h' => h34 (BitVec.eq_of_toNat_eq (by simpa [strOf] using h')), fun h' => h36 (BitVec.eq_of_toNat_eq (by simpa [strOf] using h'))⟩
              refine fin _ m2 _ t2.length (r1.trans r2) hst (by simp; omega) (fun b r n hl => ?_) (fun hno => absurd ⟨[], _, 0, .done hE⟩ hno)
              obtain ⟨rfl, rfl, rfl⟩ := hl.inv_done hE
              rw [strOf_len, Nat.sub_self, if_pos (by have := m2.kv.op.isLt; omega)]
              exact ⟨Nat.le_refl _, h2.endsHere (by rw [a2]; exact h36)⟩
        · rw [if_neg ho] at key
          refine ⟨fun b r n hl => ?_, fun _ => .inr key⟩
          obtain ⟨_, _, b', n', rfl, rfl, hl'⟩ := inv hl
          rw [if_neg (by omega)]
          exact key
      · rw [if_neg hq] at key
        obtain ⟨m', r, c, v⟩ := key
        refine ⟨fun b r n hl => ?_, fun _ => .inl (KFails.rejects ⟨m', r, by rw [show m'.zp.cix = m'.kv.ci from rfl, v], c⟩)⟩
        obtain ⟨h1, h2, -⟩ := inv hl
        exact absurd ⟨fun h' => h1 (hnil.2 h'), by rw [← hnum]; omega⟩ hq
/-! ## The routine -/

/-- The text `t` and the end of the line are in the line, that is apart from the 256 bytes that the code can use. -/
structure StrAt (m : M) (t : List B) : Prop where
  text : TextAt m.ram (idx m.kv.bp m.kv.ci) (t ++ [155#8])
  fits : m.kv.ci.toNat + t.length < 256
  apart : ∀ i, i ≤ t.length → 256 ≤ (idx m.kv.bp m.kv.ci + BitVec.ofNat 16 i - m.kv.prog).toNat
  line : 155#8 ∉ t

theorem const_string (hs : m.stk = .ret k :: st) {t : List B} (h : StrAt m t) :
    (∀ b r n, NatLit true (strOf t) b r n →
      if m.kv.op.toNat + 1 + n ≤ 255 then ∃ over, b.length + over.length ≤ n ∧
        KEmits err (kCode.E_CONST_STRING err) m k st (t.length - r.length) (BitVec.ofNat 8 b.length :: b.map (BitVec.ofNat 8)) over
      else KErrs err (kCode.E_CONST_STRING err) m) ∧
    ((¬ ∃ b r n, NatLit true (strOf t) b r n) → CsNo err (kCode.E_CONST_STRING err) m k st) := by
  have key := cs_start err (m := m)
  by_cases ho : m.kv.op.toNat + 1 ≤ 255
  · rw [if_pos ho] at key
    obtain ⟨m1, r1, x1, t1, v1⟩ := key
    have o1 : m1.kv.op = m.kv.op + 1#8 := by rw [v1]
    have on : m1.kv.op.toNat = m.kv.op.toNat + 1 := by rw [o1, BitVec.toNat_add]; simp; omega
    have b1 : m1.kv.bp = m.kv.bp := by rw [v1]; rfl
    have c1 : m1.kv.ci = m.kv.ci := by rw [v1]
    have p1 : m1.kv.prog = m.kv.prog := by rw [v1]; rfl
    have ram1 : m1.ram = upd m.ram (idx m.kv.prog m.kv.op) m.a := congrArg KV.ram v1
    have ix : idx m1.kv.prog m1.kv.op = idx m.kv.prog m.kv.op + 1 := by rw [p1, o1, idx_succ _ _ (by omega)]
    have ip : (idx m.kv.prog m.kv.op - m.kv.prog).toNat < 256 := by
      unfold idx
      rw [BitVec.add_comm, BitVec.add_sub_cancel]
      have := m.kv.op.isLt
      simp [BitVec.toNat_setWidth]
      omega
    have hat : CsAt m1 k st m.kv.op 0 t := by
      refine ⟨(congrArg KV.stk v1).trans hs, t1, by omega, by rw [x1]; rfl, ?_, by rw [c1]; exact h.fits, by rw [b1, c1, p1]; exact h.apart, h.line⟩
      rw [b1, c1, ram1]
      intro i hi
      have ha := h.apart i (by simp at hi; omega)
      rw [← h.text i hi]
      unfold upd
      rw [if_neg]
      intro he
      rw [he] at ha
      omega
    obtain ⟨d1, d2⟩ := (does_all (err := err) (k := k) (st := st) (t.length + 1) t m1 m.kv.op 0 (by omega)).1 hat
    constructor
    · intro b r n hl
      have key := d1 b r n hl
      rw [on] at key
      split at key
      · next hq =>
        rw [if_pos hq]
        obtain ⟨m', over, r', c', hlen, v'⟩ := key
        rw [List.length_map] at hlen
        refine ⟨over, hlen, m', r1.trans r', c', ?_⟩
        rw [v', ix, ram1, List.length_map, Nat.zero_add]
        have e1 : m1.kv.op + BitVec.ofNat 8 b.length = m.kv.op + BitVec.ofNat 8 (BitVec.ofNat 8 b.length :: b.map (BitVec.ofNat 8)).length := by
          rw [o1, BitVec.add_assoc]; congr 1; apply BitVec.eq_of_toNat_eq; rw [BitVec.toNat_add]; simp; omega
        rw [e1, c1]
        have := writeAt_over m.ram (idx m.kv.prog m.kv.op) m.a (BitVec.ofNat 8 b.length) (b.map (BitVec.ofNat 8) ++ over) (by simp; omega)
        rw [show (BitVec.ofNat 8 b.length :: b.map (BitVec.ofNat 8)) ++ over = BitVec.ofNat 8 b.length :: (b.map (BitVec.ofNat 8) ++ over) from rfl, ← this, p1]
        rw [v1]
        rfl
      · next hq => rw [if_neg hq]; exact r1.kerrs key
    · intro hno
      rcases d2 hno with ⟨m', bs, r', c', hl, v'⟩ | hn
      · refine .inl ⟨m', m.a :: bs, r1.trans r', c', by simp; omega, ?_⟩
        have e : writeAt (upd m.ram (idx m.kv.prog m.kv.op) m.a) (idx m.kv.prog m.kv.op + 1) bs = writeAt m.ram (idx m.kv.prog m.kv.op) (m.a :: bs) := by
          show _ = upd (writeAt m.ram (idx m.kv.prog m.kv.op + 1) bs) (idx m.kv.prog m.kv.op) m.a
          apply writeAt_upd
          intro i hi he
          have := congrArg BitVec.toNat he
          rw [BitVec.add_assoc, BitVec.toNat_add, BitVec.toNat_add] at this
          have := (idx m.kv.prog m.kv.op).isLt
          simp at *
          omega
        rw [v', ix, ram1, e, v1]
      · exact .inr (r1.kerrs hn)
  · rw [if_neg ho] at key
    refine ⟨fun b r n hl => ?_, fun _ => .inr key⟩
    rw [if_neg (by omega)]
    exact key

end
end FB.Rt
