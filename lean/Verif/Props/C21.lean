import Verif.Out.Asm
import Verif.Props.C19

/-!
# C21: the assembly text encodes the intended bytes
-/

namespace FB.Out

open FB.Parse

/-! ## Specification: how the assembler reads a line

Only the part of ca65 that is used here, after its manual and `/repo/cc65/ca65/{scanner,pseudo}.c`:
`.byte` and `.word` with a list of decimal or hexadecimal (`$`) numbers, strings and symbols; the macro `makevar`
defined by the compiler itself (`/repo/src/compiler/compile.cc:310-313`); and labels. Characters in strings are
translated to the character set of the target `atari` (`/repo/cc65/common/target.c:73-90`). -/

/-- An operand of `.byte` or `.word`. -/
inductive Item
  | num (n : Nat)
  | str (s : Str)
  | sym (s : Str)
deriving DecidableEq, Repr

/-- A line of assembly. -/
inductive Line
  | byte (l : List Item)
  | word (l : List Item)
  | makevar (name : Str)
  | label (name : Str)
deriving DecidableEq, Repr

/-- Characters of symbols. -/
def symC (c : Nat) : Bool :=
  (48 ≤ c && c ≤ 57) || (65 ≤ c && c ≤ 90) || (97 ≤ c && c ≤ 122) || c == 95 || c == 64

/-- Text without leading blanks. -/
def blanks (t : Str) : Str := t.dropWhile fun c => c == 32 || c == 9

/-- The text up to a closing quote and what is after it. A string can not contain an end of line. -/
def quoted : Str → Option (Str × Str)
  | [] => none
  | c :: t =>
    if c = 34 then some ([], t)
    else if c = 10 then none
    else (quoted t).map fun r => (c :: r.1, r.2)

/-- One operand at the start of a text and what is after it. -/
def operand (t : Str) : Option (Item × Str) :=
  match t with
  | [] => none
  | c :: u =>
    if c = 34 then (quoted u).map fun r => (.str r.1, r.2)
    else if c = 36 then
      let d := digitsAt 16 u
      if d = [] then none else some (.num (numeral 16 d), u.drop d.length)
    else if isDigit 10 c then
      let d := digitsAt 10 t
      some (.num (numeral 10 d), t.drop d.length)
    else
      let d := t.takeWhile symC
      if d = [] then none else some (.sym d, t.drop d.length)

/-- A list of operands separated by commas, until the end of the text. The first argument bounds their number. -/
def operands : Nat → Str → Option (List Item)
  | 0, _ => none
  | n + 1, t =>
    match operand (blanks t) with
    | none => none
    | some (i, r) =>
      match blanks r with
      | [] => some [i]
      | c :: r => if c = 44 then (operands n r).map (i :: ·) else none

/-- A line of the file. -/
def readAsm (t : Str) : Option Line :=
  let w := (blanks t).takeWhile fun c => c != 32 && c != 9
  let r := blanks ((blanks t).drop w.length)
  if w = ofS ".byte" then (operands (t.length + 1) r).map .byte
  else if w = ofS ".word" then (operands (t.length + 1) r).map .word
  else if w = ofS "makevar" then
    match operand r with
    | some (.str s, []) => some (.makevar s)
    | _ => none
  else
    let d := t.takeWhile symC
    if d ≠ [] ∧ t.drop d.length = [58] then some (.label d) else none

/-- Character set of the target, `/repo/cc65/common/target.c:73-90`. -/
def atascii (c : Nat) : Nat :=
  if c = 7 then 253 else if c = 9 then 127 else if c = 10 then 155 else if c = 12 then 125 else c

/-- The bytes of one operand of `.byte`; a number or symbol out of range is an error. -/
def Item.bytes (σ : Str → Nat) : Item → Option (List Nat)
  | .num n => if n < 256 then some [n] else none
  | .str s => some (s.map atascii)
  | .sym s => if σ s < 256 then some [σ s] else none

/-- The bytes of one operand of `.word`, low byte first. -/
def Item.words (σ : Str → Nat) : Item → Option (List Nat)
  | .num n => if n < 65536 then some [n % 256, n / 256] else none
  | .str _ => none
  | .sym s => if σ s < 65536 then some [σ s % 256, σ s / 256] else none

/-- Concatenation of the parts, if there are no errors. -/
def join : List (Option (List Nat)) → Option (List Nat)
  | [] => some []
  | none :: _ => none
  | some a :: l => (join l).map (a ++ ·)

/-- The bytes that a line adds to the program, with the values `σ` of the symbols. -/
def Line.bytes (σ : Str → Nat) : Line → Option (List Nat)
  | .byte l => join (l.map (Item.bytes σ))
  | .word l => join (l.map (Item.words σ))
  | .makevar name => some [((σ (ofS "fb_var_" ++ name) - σ (ofS "__HEAP_RUN__")) / 2) % 256]
  | .label _ => some []

/-- The bytes of the assembled text of a line. -/
def assemble (σ : Str → Nat) (t : Str) : Option (List Nat) :=
  match readAsm t with
  | some l => l.bytes σ
  | none => none

/-- A symbol: starts with a letter or `_`. -/
def IsSym (s : Str) : Prop := (∃ c t, s = c :: t ∧ isDigit 10 c = false) ∧ ∀ c ∈ s, symC c = true

/-! ## Proofs -/

theorem digitChar_spec (d : Nat) (h : d < 10) : digitOf (Nat.digitChar d).toNat = some d := by
  have : ∀ d : Fin 10, digitOf (Nat.digitChar d.1).toNat = some d.1 := by decide
  exact this ⟨d, h⟩

theorem numeral_append (b : Nat) (x y : Str) :
    numeral b (x ++ y) = y.foldl (fun n c => n * b + (digitOf c).getD 0) (numeral b x) := by
  simp [numeral]

theorem decDigits_spec (n : Nat) : numeral 10 (PS.decDigits n) = n ∧ (∀ c ∈ PS.decDigits n, isDigit 10 c = true) ∧
    PS.decDigits n ≠ [] := by
  induction n using Nat.strongRecOn with
  | _ n ih =>
    unfold PS.decDigits
    by_cases h : n < 10
    · rw [Nat.toDigits_of_lt_base h]
      simp [numeral, digitChar_spec n h, isDigit, h]
    · rw [Nat.toDigits_of_base_le (by omega) (by omega)]
      obtain ⟨h1, h2, h3⟩ := ih (n / 10) (by omega)
      have hd := digitChar_spec (n % 10) (by omega)
      refine ⟨?_, ?_, ?_⟩
      · rw [List.map_append, numeral_append]
        rw [show List.map Char.toNat (Nat.toDigits 10 (n / 10)) = PS.decDigits (n / 10) from rfl, h1]
        simp [hd]; omega
      · intro c hc
        simp only [List.map_append, List.mem_append, List.map_cons, List.map_nil, List.mem_singleton] at hc
        rcases hc with hc | rfl
        · exact h2 c hc
        · simp only [isDigit, hd]; simp; omega
      · simp


theorem takeWhile_all {p : Nat → Bool} {d r : Str} (h : ∀ c ∈ d, p c = true)
    (hr : ∀ c, r.head? = some c → p c = false) : (d ++ r).takeWhile p = d := by
  rw [List.takeWhile_append_of_pos h]
  cases r with
  | nil => simp
  | cons c r => simp [hr c rfl]

/-- The end of an operand: nothing or a comma. -/
def Stop (r : Str) : Prop := r = [] ∨ ∃ u, r = 44 :: u

theorem Stop.notDigit {r : Str} (h : Stop r) (b : Nat) : ∀ c, r.head? = some c → isDigit b c = false := by
  rcases h with rfl | ⟨u, rfl⟩
  · intro c hc; cases hc
  · intro c hc; cases hc
    have : digitOf 44 = none := by decide
    simp [isDigit, this]

theorem isDigit_facts {c : Nat} (h : isDigit 10 c = true) : 48 ≤ c ∧ c ≤ 57 := by
  unfold isDigit at h
  have hc : c < 128 ∨ 128 ≤ c := by omega
  rcases hc with hc | hc
  · have : ∀ c : Fin 128, (match digitOf c.1 with | some d => decide (d < 10) | none => false) = true →
        48 ≤ c.1 ∧ c.1 ≤ 57 := by decide +kernel
    exact this ⟨c, hc⟩ h
  · exfalso
    have : digitOf c = none := by
      have hu : PS.up c = c := by unfold PS.up; rw [if_neg (by omega)]
      unfold digitOf
      rw [hu, List.idxOf?_eq_none_iff]
      intro hm
      have : ∀ x ∈ ofS "0123456789ABCDEF", x < 128 := by decide
      have := this c hm
      omega
    rw [this] at h
    cases h

theorem operand_dec (n : Nat) {r : Str} (h : Stop r) : operand (PS.decDigits n ++ r) = some (.num n, r) := by
  obtain ⟨h1, h2, h3⟩ := decDigits_spec n
  cases hd : PS.decDigits n with
  | nil => exact absurd hd h3
  | cons c t =>
    have hc := h2 c (by rw [hd]; simp)
    have := isDigit_facts hc
    have hw : digitsAt 10 (c :: t ++ r) = c :: t := by
      unfold digitsAt
      exact takeWhile_all (by rw [← hd]; exact h2) (h.notDigit 10)
    unfold operand
    simp only [List.cons_append] at hw ⊢
    rw [if_neg (by omega), if_neg (by omega), if_pos hc, hw]
    rw [← hd, h1, hd]
    simp

theorem blanks_cons {c : Nat} {t : Str} (h1 : c ≠ 32) (h2 : c ≠ 9) : blanks (c :: t) = c :: t := by
  simp [blanks, h1, h2]

theorem blanks_stop {r : Str} (h : Stop r) : blanks r = r := by
  rcases h with rfl | ⟨u, rfl⟩ <;> rfl

theorem blanks_dec (n : Nat) (r : Str) : blanks (PS.decDigits n ++ r) = PS.decDigits n ++ r := by
  obtain ⟨h1, h2, h3⟩ := decDigits_spec n
  cases hd : PS.decDigits n with
  | nil => exact absurd hd h3
  | cons c t =>
    have := isDigit_facts (h2 c (by rw [hd]; simp))
    exact blanks_cons (by omega) (by omega)

theorem quoted_escape (cs : Str) : ∃ p cs', cs = p ++ cs' ∧ (∀ c ∈ p, 32 ≤ c ∧ c ≤ 126 ∧ c ≠ 34) ∧
    quoted (escape true cs) = some (p, escape false cs') := by
  induction cs with
  | nil => exact ⟨[], [], rfl, by simp, rfl⟩
  | cons c cs ih =>
    by_cases h : c < 32 ∨ c = 34 ∨ c > 126
    · refine ⟨[], c :: cs, rfl, by simp, ?_⟩
      simp [escape, h, quoted]
    · obtain ⟨p, cs', rfl, hp, hq⟩ := ih
      refine ⟨c :: p, cs', rfl, ?_, ?_⟩
      · intro x hx
        simp only [List.mem_cons] at hx
        rcases hx with rfl | hx
        · omega
        · exact hp x hx
      · simp only [escape, if_neg h, if_true, List.nil_append, List.cons_append, quoted]
        rw [if_neg (by omega), if_neg (by omega), hq]
        rfl

theorem escape_stop (cs : Str) : Stop (escape false cs) := by
  cases cs with
  | nil => exact .inl rfl
  | cons c cs =>
    simp only [escape]
    split
    · exact .inr ⟨_, rfl⟩
    · exact .inr ⟨_, rfl⟩

theorem map_atascii {p : Str} (hp : ∀ c ∈ p, 32 ≤ c ∧ c ≤ 126 ∧ c ≠ 34) : p.map atascii = p := by
  induction p with
  | nil => rfl
  | cons c p ih =>
    have := hp c (by simp)
    rw [List.map_cons, ih (fun x hx => hp x (by simp [hx]))]
    congr 1
    unfold atascii
    rw [if_neg (by omega), if_neg (by omega), if_neg (by omega), if_neg (by omega)]

/-- After an operand: the rest of the list. -/
theorem operands_step {n : Nat} {t r : Str} {i : Item} {σ : Str → Nat} {b bs : List Nat} (ho : operand (blanks t) = some (i, r))
    (hb : i.bytes σ = some b) (hr : r = escape false bs)
    (hrec : ∀ u, escape false bs = 44 :: u → ∃ l, operands n u = some l ∧ join (l.map (Item.bytes σ)) = some bs) :
    ∃ l, operands (n + 1) t = some l ∧ join (l.map (Item.bytes σ)) = some (b ++ bs) := by
  subst hr
  unfold operands
  rw [ho]
  simp only
  rw [blanks_stop (escape_stop bs)]
  cases bs with
  | nil => exact ⟨[i], rfl, by simp [join, hb]⟩
  | cons c cs =>
    rcases escape_stop (c :: cs) with h | ⟨u, hu⟩
    · simp only [escape] at h; split at h <;> simp at h
    · obtain ⟨l, h1, h2⟩ := hrec u hu
      rw [hu]
      simp only [if_true, h1]
      exact ⟨i :: l, rfl, by simp [join, hb, h2]⟩

theorem operands_escape (σ : Str → Nat) : ∀ (k : Nat) (cs u : Str) (n : Nat), cs.length ≤ k → k ≤ n → (∀ c ∈ cs, c < 256) →
    escape false cs = 44 :: u → ∃ l, operands n u = some l ∧ join (l.map (Item.bytes σ)) = some cs := by
  intro k
  induction k with
  | zero =>
    intro cs u n h _ _ he
    cases cs with
    | nil => simp [escape] at he
    | cons => simp at h
  | succ k ih =>
    intro cs u n h hn hb he
    obtain ⟨n, rfl⟩ : ∃ m, n = m + 1 := ⟨n - 1, by omega⟩
    cases cs with
    | nil => simp [escape] at he
    | cons c cs =>
      simp only [List.length_cons] at h
      have hc := hb c (by simp)
      simp only [escape] at he
      split at he
      · next hs =>
        simp only [Bool.false_eq_true, if_false, List.nil_append, List.cons_append, List.cons.injEq, true_and] at he
        subst he
        rw [Nat.mod_eq_of_lt hc]
        refine operands_step (i := .num c) (b := [c]) (bs := cs) (r := escape false cs) ?_ ?_ rfl ?_
        · rw [show blanks (32 :: (PS.decDigits c ++ escape false cs)) = blanks (PS.decDigits c ++ escape false cs) from rfl,
            blanks_dec, operand_dec c (escape_stop cs)]
        · simp [Item.bytes, hc]
        · intro u hu
          exact ih cs u n (by omega) (by omega) (fun x hx => hb x (by simp [hx])) hu
      · next hs =>
        simp only [Bool.false_eq_true, if_false, List.cons_append, List.nil_append, List.cons.injEq, true_and] at he
        subst he
        obtain ⟨p, cs', rfl, hp, hq⟩ := quoted_escape cs
        refine operands_step (i := .str (c :: p)) (b := c :: p) (bs := cs') (r := escape false cs') ?_ ?_ rfl ?_
        · rw [show blanks (32 :: 34 :: c :: escape true (p ++ cs')) = 34 :: c :: escape true (p ++ cs') from rfl]
          unfold operand
          simp only [if_true, quoted]
          rw [if_neg (by omega), if_neg (by omega), hq]
          rfl
        · simp only [Item.bytes]
          rw [map_atascii]
          intro x hx
          simp only [List.mem_cons] at hx
          rcases hx with rfl | hx
          · omega
          · exact hp x hx
        · intro u hu
          simp only [List.length_append] at h
          exact ih cs' u n (by omega) (by omega) (fun x hx => hb x (by simp [hx])) hu

theorem readAsm_dir (d : Str) (hd : ∀ c ∈ d, c ≠ 32 ∧ c ≠ 9) (hne : d ≠ []) (x : Str) :
    (blanks (9 :: d ++ 9 :: x)).takeWhile (fun c => c != 32 && c != 9) = d ∧
    (blanks (9 :: d ++ 9 :: x)).drop d.length = 9 :: x := by
  have e : blanks (9 :: d ++ 9 :: x) = d ++ 9 :: x := by
    cases d with
    | nil => exact absurd rfl hne
    | cons c d =>
      show blanks (c :: (d ++ 9 :: x)) = _
      have := hd c (by simp)
      exact blanks_cons this.1 this.2
  rw [e]
  refine ⟨takeWhile_all ?_ ?_, by simp⟩
  · intro c hc
    have := hd c hc
    simp [this]
  · intro c hc
    cases hc
    rfl

theorem readAsm_byte (x : Str) : readAsm (9 :: ofS ".byte" ++ 9 :: x) =
    (operands (x.length + 8) (blanks x)).map .byte := by
  obtain ⟨h1, h2⟩ := readAsm_dir (ofS ".byte") (by decide) (by decide) x
  unfold readAsm
  simp only
  rw [h1, h2, if_pos rfl]
  rw [show (9 :: ofS ".byte" ++ 9 :: x).length + 1 = x.length + 8 by simp [ofS]]
  rfl

theorem readAsm_word (x : Str) : readAsm (9 :: ofS ".word" ++ 9 :: x) =
    (operands (x.length + 8) (blanks x)).map .word := by
  obtain ⟨h1, h2⟩ := readAsm_dir (ofS ".word") (by decide) (by decide) x
  unfold readAsm
  simp only
  rw [h1, h2, if_neg (by decide), if_pos rfl]
  rw [show (9 :: ofS ".word" ++ 9 :: x).length + 1 = x.length + 8 by simp [ofS]]
  rfl

theorem blanks_idem (x : Str) : blanks (blanks x) = blanks x := by
  unfold blanks
  induction x with
  | nil => rfl
  | cons c x ih =>
    simp only [List.dropWhile_cons]
    split
    · exact ih
    · next h => simp only [List.dropWhile_cons, if_neg h]

theorem operands_one {n : Nat} {t : Str} {i : Item} (h : operand (blanks t) = some (i, [])) :
    operands (n + 1) t = some [i] := by
  unfold operands
  rw [h]
  rfl

theorem operand_sym {s : Str} (h : IsSym s) : operand (blanks s) = some (.sym s, []) := by
  obtain ⟨⟨c, t, rfl, hc⟩, hs⟩ := h
  have h1 := hs c (by simp)
  have hn : c ≠ 34 ∧ c ≠ 36 ∧ c ≠ 32 ∧ c ≠ 9 := by
    refine ⟨?_, ?_, ?_, ?_⟩ <;> (rintro rfl; revert h1; decide)
  rw [blanks_cons hn.2.2.1 hn.2.2.2]
  have hw : (c :: t).takeWhile symC = c :: t := by
    have := takeWhile_all (r := []) hs (by simp)
    rwa [List.append_nil] at this
  unfold operand
  simp only
  rw [if_neg hn.1, if_neg hn.2.1, hc, hw]
  simp


theorem hexd_lt_cases (n : Nat) : isDigit 16 (PS.hexd n) = true := by
  have : ∀ c : Fin 16, isDigit 16 (PS.hexd c.1) = true := by decide
  have h := this ⟨n % 16, Nat.mod_lt _ (by omega)⟩
  have e : PS.hexd (n % 16) = PS.hexd n := by unfold PS.hexd; rw [Nat.mod_mod]
  rw [← e]; exact h

theorem operand_hex {x : Nat} (hx : x < 256) {r : Str} (h : Stop r) :
    operand (hexByte x ++ r) = some (.num x, r) := by
  have hv : ∀ c : Fin 256, numeral 16 [PS.hexd (c.1 / 16), PS.hexd c.1] = c.1 := by decide +kernel
  have hw : digitsAt 16 ([PS.hexd (x / 16), PS.hexd x] ++ r) = [PS.hexd (x / 16), PS.hexd x] := by
    unfold digitsAt
    refine takeWhile_all ?_ (h.notDigit 16)
    intro c hc
    simp only [List.mem_cons, List.not_mem_nil, or_false] at hc
    rcases hc with rfl | rfl <;> exact hexd_lt_cases _
  unfold operand hexByte
  simp only [List.cons_append, List.nil_append] at hw ⊢
  rw [if_neg (by omega), if_pos trivial, hw, if_neg (by simp), hv ⟨x, hx⟩]
  rfl

theorem operands_fp (σ : Str → Nat) : ∀ (b : List Nat) (n : Nat), b ≠ [] → b.length ≤ n → (∀ c ∈ b, c < 256) →
    ∃ l, operands n (fpAsm b) = some l ∧ operands n (32 :: fpAsm b) = some l ∧ join (l.map (Item.bytes σ)) = some b := by
  intro b
  induction b with
  | nil => intro n h; exact absurd rfl h
  | cons x xs ih =>
    intro n _ hn hb
    obtain ⟨n, rfl⟩ : ∃ m, n = m + 1 := ⟨n - 1, by simp at hn; omega⟩
    have hx := hb x (by simp)
    have key : ∀ r, Stop r → ∀ p, p = [] ∨ p = [32] → operand (blanks (p ++ (hexByte x ++ r))) = some (.num x, r) := by
      intro r hr p hp
      have e : blanks (p ++ (hexByte x ++ r)) = hexByte x ++ r := by rcases hp with rfl | rfl <;> rfl
      rw [e]
      exact operand_hex hx hr
    cases xs with
    | nil =>
      refine ⟨[.num x], operands_one ?_, operands_one ?_, by simp [join, Item.bytes, hx]⟩
      · simpa [fpAsm] using key [] (.inl rfl) [] (.inl rfl)
      · simpa [fpAsm] using key [] (.inl rfl) [32] (.inr rfl)
    | cons y ys =>
      obtain ⟨l, h1, h2, h3⟩ := ih n (by simp) (by simp at hn ⊢; omega) (fun c hc => hb c (by simp [hc]))
      have hs : Stop (44 :: 32 :: fpAsm (y :: ys)) := .inr ⟨_, rfl⟩
      have e : fpAsm (x :: y :: ys) = hexByte x ++ 44 :: 32 :: fpAsm (y :: ys) := by simp [fpAsm]
      refine ⟨.num x :: l, ?_, ?_, by simp [join, Item.bytes, hx, h3]⟩
      · rw [e]
        unfold operands
        rw [show hexByte x ++ 44 :: 32 :: fpAsm (y :: ys) = [] ++ (hexByte x ++ 44 :: 32 :: fpAsm (y :: ys)) from rfl,
          key _ hs [] (.inl rfl)]
        simp only
        rw [blanks_stop hs]
        simp [h2]
      · rw [e]
        unfold operands
        rw [show 32 :: (hexByte x ++ 44 :: 32 :: fpAsm (y :: ys)) = [32] ++ (hexByte x ++ 44 :: 32 :: fpAsm (y :: ys)) from rfl,
          key _ hs [32] (.inr rfl)]
        simp only
        rw [blanks_stop hs]
        simp [h2]

/-! ## Property -/

/-- What an item of the program means: its bytes, given the values of the symbols. `none`: it has no encoding, and
the assembler has to reject it. -/
def encode (σ : Str → Nat) : CK → Option (List Nat)
  | .tok t => if σ (tokName t) < 256 then some [σ (tokName t)] else none
  | .byte v => some [v % 256]
  | .byteStr s => if σ s < 256 then some [σ s] else none
  | .word v => some [v % 256, v / 256 % 256]
  | .wordStr s => if σ s < 65536 then some [σ s % 256, σ s / 256] else none
  | .varn name _ => some [((σ (ofS "fb_var_" ++ name) - σ (ofS "__HEAP_RUN__")) / 2) % 256]
  | .label _ => some []
  | .fp b => some b
  | .str s => if s.length < 256 then some (s.length :: s) else none

/-- Items with the contents that they have in any program: names are symbols of the assembler, strings and floating
point numbers are of bytes, and the latter are not empty. -/
def Writable : CK → Prop
  | .tok t => IsSym (tokName t)
  | .byteStr s | .wordStr s | .label s => IsSym s
  | .varn s _ => ∀ c ∈ s, symC c = true
  | .fp b => b ≠ [] ∧ ∀ c ∈ b, c < 256
  | .str s => ∀ c ∈ s, c < 256
  | _ => True

theorem quoted_name {s : Str} (h : ∀ c ∈ s, symC c = true) : quoted (s ++ [34]) = some (s, []) := by
  induction s with
  | nil => rfl
  | cons c s ih =>
    have h1 := h c (by simp)
    have hn : c ≠ 34 ∧ c ≠ 10 := by constructor <;> (rintro rfl; revert h1; decide)
    simp only [List.cons_append, quoted]
    rw [if_neg hn.1, if_neg hn.2, ih (fun x hx => h x (by simp [hx]))]
    rfl

/-- **C21**. The assembler reads the text written for an item as exactly the bytes of the item; in particular a
string of any bytes is its length and the bytes, and one that is too long for the length byte is an error. -/
theorem C21_encoding (σ : Str → Nat) (c : CK) (h : Writable c) : assemble σ (toAsm c) = encode σ c := by
  unfold assemble
  cases c with
  | tok t =>
    show (match readAsm (9 :: ofS ".byte" ++ 9 :: tokName t) with | some l => Line.bytes σ l | none => none) = _
    rw [readAsm_byte, operands_one (by rw [blanks_idem]; exact operand_sym h)]
    simp only [Option.map_some, Line.bytes, List.map_cons, List.map_nil, Item.bytes, encode]
    split <;> simp [join]
  | byte v =>
    show (match readAsm (9 :: ofS ".byte" ++ 9 :: PS.decDigits (v % 256)) with
      | some l => Line.bytes σ l | none => none) = _
    have e : operand (blanks (blanks (PS.decDigits (v % 256)))) = some (.num (v % 256), []) := by
      have h1 := operand_dec (v % 256) (r := []) (.inl rfl)
      have h2 := blanks_dec (v % 256) []
      rw [List.append_nil] at h1 h2
      rw [h2, h2, h1]
    rw [readAsm_byte, operands_one e]
    have : v % 256 < 256 := Nat.mod_lt _ (by omega)
    simp [Line.bytes, Item.bytes, encode, join, this]
  | byteStr s =>
    show (match readAsm (9 :: ofS ".byte" ++ 9 :: s) with | some l => Line.bytes σ l | none => none) = _
    rw [readAsm_byte, operands_one (by rw [blanks_idem]; exact operand_sym h)]
    simp only [Option.map_some, Line.bytes, List.map_cons, List.map_nil, Item.bytes, encode]
    split <;> simp [join]
  | word v =>
    show (match readAsm (9 :: ofS ".word" ++ 9 :: PS.decDigits (v % 65536)) with
      | some l => Line.bytes σ l | none => none) = _
    have e : operand (blanks (blanks (PS.decDigits (v % 65536)))) = some (.num (v % 65536), []) := by
      have h1 := operand_dec (v % 65536) (r := []) (.inl rfl)
      have h2 := blanks_dec (v % 65536) []
      rw [List.append_nil] at h1 h2
      rw [h2, h2, h1]
    rw [readAsm_word, operands_one e]
    have : v % 65536 < 65536 := Nat.mod_lt _ (by omega)
    simp only [Option.map_some, Line.bytes, List.map_cons, List.map_nil, Item.words, encode, this, if_true, join,
      Option.map_some, List.append_nil]
    congr 2
    · omega
    · congr 1; omega
  | wordStr s =>
    show (match readAsm (9 :: ofS ".word" ++ 9 :: s) with | some l => Line.bytes σ l | none => none) = _
    rw [readAsm_word, operands_one (by rw [blanks_idem]; exact operand_sym h)]
    simp only [Option.map_some, Line.bytes, List.map_cons, List.map_nil, Item.words, encode]
    split <;> simp [join]
  | varn name n =>
    have e : readAsm (9 :: ofS "makevar" ++ 9 :: (34 :: name ++ [34])) = some (.makevar name) := by
      obtain ⟨h1, h2⟩ := readAsm_dir (ofS "makevar") (by decide) (by decide) (34 :: name ++ [34])
      unfold readAsm
      simp only
      rw [h1, h2, if_neg (by decide), if_neg (by decide), if_pos rfl]
      have : operand (blanks (9 :: (34 :: name ++ [34]))) = some (.str name, []) := by
        show operand (34 :: (name ++ [34])) = _
        unfold operand
        simp only [if_true]
        rw [quoted_name h]
        rfl
      rw [this]
    rw [show toAsm (.varn name n) = 9 :: ofS "makevar" ++ 9 :: (34 :: name ++ [34]) by simp [toAsm], e]
    rfl
  | label s =>
    have e : readAsm (s ++ [58]) = some (.label s) := by
      obtain ⟨⟨c, t, rfl, hc⟩, hs⟩ := h
      have h1 := hs c (by simp)
      have hn : c ≠ 46 ∧ c ≠ 32 ∧ c ≠ 9 := by
        refine ⟨?_, ?_, ?_⟩ <;> (rintro rfl; revert h1; decide)
      have hb : blanks (c :: t ++ [58]) = c :: t ++ [58] := blanks_cons hn.2.1 hn.2.2
      have hw : (c :: t ++ [58]).takeWhile (fun c => c != 32 && c != 9) = c :: t ++ [58] := by
        have := takeWhile_all (d := c :: t ++ [58]) (r := []) (p := fun c => c != 32 && c != 9) (by
          intro x hx
          simp only [List.mem_append, List.mem_singleton] at hx
          rcases hx with hx | rfl
          · have h2 := hs x hx
            have hn : x ≠ 32 ∧ x ≠ 9 := by constructor <;> (rintro rfl; revert h2; decide)
            simp [hn]
          · rfl) (by simp)
        rwa [List.append_nil] at this
      have hl : (c :: t ++ [58]).getLast? = some 58 := by rw [List.getLast?_append]; rfl
      unfold readAsm
      simp only
      rw [hb, hw, if_neg (by intro hh; rw [hh] at hl; revert hl; decide),
        if_neg (by intro hh; rw [hh] at hl; revert hl; decide),
        if_neg (by intro hh; rw [hh] at hl; revert hl; decide)]
      have h3 : (c :: t ++ [58]).takeWhile symC = c :: t := takeWhile_all hs (by intro x hx; cases hx; decide)
      rw [h3, if_pos ⟨by simp, by simp⟩]
    rw [show toAsm (.label s) = s ++ [58] from rfl, e]
    rfl
  | fp b =>
    rw [show toAsm (.fp b) = 9 :: ofS ".byte" ++ 9 :: fpAsm b from rfl, readAsm_byte]
    have hl : b.length ≤ (fpAsm b).length := by
      have : ∀ b : List Nat, b.length ≤ (fpAsm b).length := by
        intro b
        induction b with
        | nil => simp
        | cons x xs ih =>
          cases xs with
          | nil => simp [fpAsm, hexByte]
          | cons y ys => simp only [fpAsm, List.length_append, List.length_cons] at ih ⊢; omega
      exact this b
    have hbl : blanks (fpAsm b) = fpAsm b := by
      cases b with
      | nil => rfl
      | cons x xs => cases xs <;> rfl
    obtain ⟨l, h1, -, h3⟩ := operands_fp σ b ((fpAsm b).length + 8) h.1 (by omega) h.2
    rw [hbl, h1]
    exact h3
  | str s =>
    have h' : ∀ c ∈ s, c < 256 := h
    rw [show toAsm (.str s) = 9 :: ofS ".byte" ++ 9 :: (PS.decDigits s.length ++ escape false s) by simp [toAsm],
      readAsm_byte, blanks_dec]
    have hlen : s.length ≤ (PS.decDigits s.length ++ escape false s).length := by
      have : ∀ (q : Bool) (s : Str), s.length ≤ (escape q s).length := by
        intro q s
        induction s generalizing q with
        | nil => simp
        | cons c s ih =>
          have h1 := ih true
          have h2 := ih false
          simp only [escape]
          split <;> simp only [List.length_append, List.length_cons, List.length_nil] <;> omega
      have := this false s
      simp only [List.length_append]; omega
    have ho : operand (blanks (PS.decDigits s.length ++ escape false s)) = some (.num s.length, escape false s) := by
      rw [blanks_dec, operand_dec _ (escape_stop s)]
    by_cases h256 : s.length < 256
    · obtain ⟨l, h1, h2⟩ := operands_step (n := (PS.decDigits s.length ++ escape false s).length + 7) (σ := σ)
        (b := [s.length]) (bs := s) ho (by simp [Item.bytes, h256]) rfl
        (fun u hu => operands_escape σ s.length s u _ (by omega) (by omega) h' hu)
      rw [h1]
      show join (l.map (Item.bytes σ)) = _
      rw [h2]
      simp [encode, h256]
    · have h1 : encode σ (.str s) = none := by simp [encode, h256]
      rw [h1]
      cases hop : operands ((PS.decDigits s.length ++ escape false s).length + 8) (PS.decDigits s.length ++ escape false s) with
      | none => rfl
      | some l =>
        show join (l.map (Item.bytes σ)) = none
        have : l.head? = some (.num s.length) := by
          unfold operands at hop
          rw [ho] at hop
          simp only at hop
          split at hop
          · cases hop; rfl
          · split at hop
            · rw [Option.map_eq_some_iff] at hop
              obtain ⟨l', -, rfl⟩ := hop
              rfl
            · cases hop
        cases l with
        | nil => cases this
        | cons i l =>
          cases this
          simp [Item.bytes, h256, join]

/-- A string with a quote, a character that the assembler would translate (10), and a character above 127, between
others. -/
example : Writable (.str [65, 34, 10, 66, 200]) ∧
    toAsm (.str [65, 34, 10, 66, 200]) = 9 :: ofS ".byte" ++ 9 :: ofS "5, \"A\", 34, 10, \"B\", 200" ∧
    assemble (fun _ => 0) (toAsm (.str [65, 34, 10, 66, 200])) = some [5, 65, 34, 10, 66, 200] := by
  have h : Writable (.str [65, 34, 10, 66, 200]) := by unfold Writable; decide
  exact ⟨h, by decide, C21_encoding _ _ h⟩

/-- The other kinds of items. -/
example : Writable (.tok .VAR_LOAD) ∧ Writable (.wordStr (ofS "jump_lbl_1")) ∧ Writable (.label (ofS "fb_lbl_X")) ∧
    Writable (.varn (ofS "X1") 3) ∧ Writable (.fp [0x40, 1, 0, 0, 0, 0]) := by
  refine ⟨⟨⟨84, _, rfl, by decide⟩, by decide⟩, ⟨⟨106, _, rfl, by decide⟩, by decide⟩, ⟨⟨102, _, rfl, by decide⟩, by decide⟩,
    ?_, ?_, ?_⟩
  · show ∀ c ∈ _, _; decide
  · decide
  · decide

end FB.Out
