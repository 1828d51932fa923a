import Verif.Parse.Actions

/-!
# Floating point literals

Model of `/repo/src/compiler/atarifp.{h,cc}` and of the conversion of literals of
`/repo/src/compiler/parser-actions.cc`.

The `double` of the source is taken as the exact decimal number that it approximates: a sign and `m · 10^k`. This is a
simplification: the rounding of the `double` operations (53 bits, about 16 digits, for a result of 10 digits) is not modelled, nor
is the underflow of numbers below 10⁻³⁰⁸ to zero.
-/

namespace FB.Parse

/-- The comparison `x < 10^e`, for `x = m · 10^k`. -/
def ltPow (m : Nat) (k e : Int) : Bool := m * 10 ^ (k - e).toNat < 10 ^ (e - k).toNat

/-- `std::llrint` of `m · 10^j`: to nearest, ties to even. -/
def rint (m : Nat) (j : Int) : Nat :=
  let a := m * 10 ^ j.toNat
  let b := 10 ^ (-j).toNat
  if 2 * (a % b) < b ∨ 2 * (a % b) = b ∧ a / b % 2 = 0 then a / b else a / b + 1

/-- `atari_fp::tobcd`, `/repo/src/compiler/atarifp.h:44`; the result is stored in 8 bits. -/
def tobcd (n : Nat) : Nat := (n / 10 * 16 + n % 10) % 256

/-- The mantissa from the number of 10 digits, `atarifp.h:63-72`. -/
def fpMant (n : Nat) : List Nat :=
  [tobcd (n / 100 / 100 / 100 / 100), tobcd (n / 100 / 100 / 100 % 100), tobcd (n / 100 / 100 % 100), tobcd (n / 100 % 100),
    tobcd (n % 100)]

/-- The loop of `atari_fp::update`, `atarifp.h:58-76`, from the table index `i` (`expTab[i]` is `10^(2i-98)`,
`/repo/src/compiler/atarifp.cc:23-32`), with the count of entries left. -/
def fpLoop (sg m : Nat) (k : Int) : Nat → Nat → List Nat
  | 0, i => (sg + 14 + i) :: [0, 0, 0, 0, 0]
  | n + 1, i =>
    if ltPow m k (2 * i - 98) then (sg + 14 + i) :: fpMant (rint m (k + 10 - (2 * i - 98)))
    else fpLoop sg m k n (i + 1)

/-- `atari_fp::update`, `atarifp.h:45-77`: the exponent byte and the five bytes of the mantissa, for the number `-m · 10^k` or
`m · 10^k`. -/
def fpUpdate (neg : Bool) (m : Nat) (k : Int) : List Nat :=
  let sg := if neg && m != 0 then 128 else 0
  if ltPow m k (-99) then [sg, 0, 0, 0, 0, 0]
  else if !ltPow m k 98 then [sg + 113, 153, 153, 153, 153, 153]
  else fpLoop sg m k 99 0

/-- `atari_fp::valid`, `atarifp.h:81`. -/
def fpValid (m : Nat) (k : Int) : Bool := m * 10 ^ (k - 98).toNat ≤ 10 ^ (98 - k).toNat

/-- The digits of the mantissa, `atarifp.cc:44-52`. -/
def fpDigs (mant : List Nat) : Str := mant.flatMap fun b => [48 + b / 16, 48 + b % 16]

/-- The removal of zeroes at the end, `atarifp.cc:58-64`, with the last digit first. -/
def fpStrip : Str → Int → Str × Int
  | [], e => ([], e)
  | [c], e => ([c], e)
  | c :: d :: cs, e => if c = 48 then fpStrip (d :: cs) (e + 1) else (c :: d :: cs, e)

/-- The two digits of an exponent, `atarifp.cc:111-113,124-126`. -/
def fpExp2 (n : Nat) : Str := (if n > 9 then [48 + n / 10] else []) ++ [48 + n % 10]

/-- The text after the sign, `atarifp.cc:75-127`, for the digits `d` (the variable `i` is their count minus one) and `iexp`. -/
def fpBody (d : Str) (iexp : Int) : Str :=
  let i : Int := d.length - 1
  if iexp < 0 ∧ iexp ≥ -i - 1 then d.take (iexp + i + 1).toNat ++ 46 :: d.drop (iexp + i + 1).toNat
  else if iexp + 2 = -i then [46, 48] ++ d
  else if iexp = 0 then d
  else if iexp = 1 then d ++ [48]
  else if iexp = 2 then d ++ [48, 48]
  else if iexp < -99 then d.take 1 ++ 46 :: ((if i > 0 then d.drop 1 else []) ++ [69, 45] ++ fpExp2 (-iexp - i).toNat)
  else d ++ 69 :: ((if iexp < 0 then [45] else []) ++ fpExp2 iexp.natAbs)

/-- `atari_fp::to_string`, `atarifp.cc:35-129`, from the bytes of `update`. -/
def fpText : List Nat → Str
  | [] => []
  | e :: mant =>
    if e % 128 = 0 then [48]
    else
      let r := fpStrip (fpDigs mant).reverse (e % 128 * 2 - 136)
      let d := r.1.reverse
      let d := if d.head? = some 48 then d.tail else d
      (if e ≥ 128 then [45] else []) ++ fpBody d r.2

/-- The number of the digits, `parser-actions.cc:541-559`. The division by 1000 of numbers too big is undone by `norm`, and is not
modelled. -/
def fpNum (ds : Str) : Nat := ds.foldl (fun n c => if c = 46 then n else n * 10 + (c - 48)) 0

/-- The count of digits after the last dot, `parser-actions.cc:554-555,565`. -/
def fpDot (ds : Str) : Nat := if 46 ∈ ds then (ds.reverse.takeWhile (· ≠ 46)).length else 0

/-- The conversion in `get_fp_number` and `SMB_E_NUMBER_FP`, `parser-actions.cc:564-584`, to be used as `Env.fp`. -/
def fpOf (neg : Bool) (ds : Str) (e : Int) : Option (List Nat × Str) :=
  if fpValid (fpNum ds) (e - fpDot ds) then
    some (fpUpdate neg (fpNum ds) (e - fpDot ds), fpText (fpUpdate neg (fpNum ds) (e - fpDot ds)))
  else none

end FB.Parse
