import Mathlib.Data.Rat.Floor
import Mathlib.Data.Int.Log
import Verif.Lib.RustNum
/-!
# Library model: IEEE-754 binary64 (`f64`)

A finite double is a sign and an exact non-negative rational magnitude. `roundMag` is
round-to-nearest, ties-to-even, with 53 bits of precision, subnormals and overflow; the
arithmetic operations are the exact operation followed by `roundMag`, as IEEE-754 prescribes.

`parseF64` is `f64::from_str` (grammar of the Rust standard library, correctly rounded result);
`dispF64` is `Display for f64` (shortest digits that parse back to the same double, closest to the
exact value, never in exponent notation).
-/

namespace Osmio

/-- `f64`. -/
inductive F64 where
  | nan
  | inf (neg : Bool)
  | fin (neg : Bool) (mag : ℚ)
  deriving DecidableEq

/-- Round a rational to an integer, ties to even. -/
def roundHalfEven (q : ℚ) : ℤ :=
  let f := ⌊q⌋
  let r := q - f
  if r < 1 / 2 then f
  else if 1 / 2 < r then f + 1
  else if f % 2 = 0 then f else f + 1

/-- Exponent of the unit in the last place for a positive magnitude `q`. -/
def ulpExp (q : ℚ) : ℤ := max (Int.log 2 q - 52) (-1074)

/-- Round a non-negative rational to 53 significant bits (without the overflow check). -/
def roundMag (q : ℚ) : ℚ :=
  if q = 0 then 0 else (roundHalfEven (q / 2 ^ ulpExp q) : ℚ) * 2 ^ ulpExp q

namespace F64

/-- Round an exact magnitude to a double: overflow gives infinity. -/
def ofMag (neg : Bool) (q : ℚ) : F64 :=
  let r := roundMag q
  if r < 2 ^ (1024 : ℤ) then fin neg r else inf neg

/-- The finite or infinite values that are doubles. -/
def Valid : F64 → Prop
  | nan => True
  | inf _ => True
  | fin _ m => 0 ≤ m ∧ roundMag m = m ∧ m < 2 ^ (1024 : ℤ)

/-- Exact real value of a finite double. -/
def val? : F64 → Option ℚ
  | nan => none
  | inf _ => none
  | fin neg m => some (if neg then -m else m)

/-- `i as f64` -/
def ofInt (i : ℤ) : F64 := ofMag (decide (i < 0)) (i.natAbs : ℚ)

/-- IEEE multiplication. -/
def mul : F64 → F64 → F64
  | nan, _ => nan
  | _, nan => nan
  | inf a, inf b => inf (a != b)
  | inf a, fin b m => if m = 0 then nan else inf (a != b)
  | fin a m, inf b => if m = 0 then nan else inf (a != b)
  | fin a m, fin b n => ofMag (a != b) (m * n)

/-- IEEE division. -/
def div : F64 → F64 → F64
  | nan, _ => nan
  | _, nan => nan
  | inf _, inf _ => nan
  | inf a, fin b _ => inf (a != b)
  | fin a _, inf b => fin (a != b) 0
  | fin a m, fin b n =>
    if n = 0 then (if m = 0 then nan else inf (a != b)) else ofMag (a != b) (m / n)

/-- `f64::round`: to the nearest integer, half-way cases away from zero (always exact). -/
def round : F64 → F64
  | fin a m => fin a (⌊m + 1 / 2⌋ : ℤ)
  | x => x

/-- `a < b` on doubles: false if either is NaN. -/
def lt : F64 → F64 → Bool
  | nan, _ => false
  | _, nan => false
  | inf true, inf false => true
  | inf _, inf _ => false
  | inf a, fin _ _ => a
  | fin _ _, inf b => !b
  | fin a m, fin b n => decide ((if a then -m else m) < (if b then -n else n))

/-- `a > b` on doubles. -/
def gt (a b : F64) : Bool := lt b a

/-- `x as i32`: truncation towards zero, saturating, NaN becomes 0. -/
def toI32 : F64 → Int32
  | nan => 0
  | inf true => Int32.ofInt (-2147483648)
  | inf false => Int32.ofInt 2147483647
  | fin a m =>
    let t : ℤ := if a then -⌊m⌋ else ⌊m⌋
    Int32.ofInt (max (-2147483648) (min 2147483647 t))

end F64

/-! ## Parsing -/

/-- The longest prefix of ASCII digits, and the rest. -/
def spanDigits : Str → Str × Str
  | [] => ([], [])
  | c :: cs => if isDigit c then ((c :: (spanDigits cs).1), (spanDigits cs).2) else ([], c :: cs)

/-- Value of a list of digit characters. -/
def digitsNat (s : Str) : Nat := (digitsVal 0 s).getD 0

/-- The optional exponent part `[eE][+-]?[0-9]+`; `none` if malformed or followed by anything. -/
def parseExp : Str → Option ℤ
  | [] => some 0
  | c :: cs =>
    if c = 'e' ∨ c = 'E' then
      match cs with
      | '-' :: r => (parseDigits r).map (fun n => -Int.ofNat n)
      | '+' :: r => (parseDigits r).map Int.ofNat
      | r => (parseDigits r).map Int.ofNat
    else none

/-- The fractional part `.[0-9]*` if there is one: its digits and the rest. -/
def parseFrac : Str → Str × Str
  | '.' :: r => spanDigits r
  | r => ([], r)

/-- An unsigned decimal number: its exact value. -/
def parseDecimal (s : Str) : Option ℚ :=
  let (ip, r1) := spanDigits s
  let (fp, r2) := parseFrac r1
  if ip = [] ∧ fp = [] then none
  else (parseExp r2).map (fun e => (digitsNat (ip ++ fp) : ℚ) * 10 ^ (e - (fp.length : ℤ)))

/-- ASCII lower case. -/
def toLowerAscii (c : Char) : Char :=
  if 65 ≤ c.toNat ∧ c.toNat ≤ 90 then Char.ofNat (c.toNat + 32) else c

/-- An unsigned float: `inf`, `infinity`, `nan` (any case) or a decimal number. -/
def parseUnsignedF64 (neg : Bool) (s : Str) : Option F64 :=
  let l := s.map toLowerAscii
  if l = ['i', 'n', 'f'] ∨ l = ['i', 'n', 'f', 'i', 'n', 'i', 't', 'y'] then some (.inf neg)
  else if l = ['n', 'a', 'n'] then some .nan
  else (parseDecimal s).map (F64.ofMag neg)

/-- `f64::from_str` -/
def parseF64 : Str → Option F64
  | '-' :: r => parseUnsignedF64 true r
  | '+' :: r => parseUnsignedF64 false r
  | r => parseUnsignedF64 false r

/-- `std::num::ParseFloatError` -/
inductive ParseFloatError where
  | empty
  | invalid
  deriving DecidableEq

/-- What `f64::from_str` reports of text it does not read: empty text has an error of its own. -/
def parseFloatError (s : Str) : ParseFloatError := if s = [] then .empty else .invalid

/-- `Display for ParseFloatError` -/
def ParseFloatError.display : ParseFloatError → Str
  | .empty => "cannot parse float from empty string".toList
  | .invalid => "invalid float literal".toList

/-! ## Printing -/

/-- The two `k`-digit decimals around `m`, as (digits, exponent of ten) pairs; those which parse back
to `m`; of these the closest to `m`, the upper one of two that are equally close. -/
def shortestAt (m : ℚ) (k : Nat) : Option (Nat × ℤ) :=
  let t : ℤ := Int.log 10 m - k + 1
  let lo : Nat := ⌊m / 10 ^ t⌋.toNat
  let okLo : Bool := decide (roundMag ((lo : ℚ) * 10 ^ t) = m)
  let okHi : Bool := decide (roundMag (((lo + 1 : Nat) : ℚ) * 10 ^ t) = m)
  match okLo, okHi with
  | true, true =>
    if m / 10 ^ t - lo < 1 / 2 then some (lo, t) else some (lo + 1, t)
  | true, false => some (lo, t)
  | false, true => some (lo + 1, t)
  | false, false => none

/-- Shortest digits for a positive double: fewest significant digits first; 17 always suffice. -/
def shortest (m : ℚ) : Option (Nat × ℤ) :=
  (List.range' 1 17).findSome? (shortestAt m)

/-- Drop trailing `'0'` characters. -/
def stripZeros (s : Str) : Str := (s.reverse.dropWhile (· == '0')).reverse

/-- `n` with leading zeros, `w` digits wide (the low `w` digits). -/
def padNat : Nat → Nat → Str
  | 0, _ => []
  | w + 1, n => padNat w (n / 10) ++ [digitChar (n % 10)]

/-- Plain decimal notation of `d * 10^t`, without trailing zeros after the point. -/
def decimalStr (d : Nat) (t : ℤ) : Str :=
  if 0 ≤ t then natStr (d * 10 ^ t.toNat)
  else
    let w := (-t).toNat
    let frac := stripZeros (padNat w (d % 10 ^ w))
    natStr (d / 10 ^ w) ++ (if frac = [] then [] else '.' :: frac)

/-- `Display for f64` -/
def dispF64 : F64 → Str
  | .nan => ['N', 'a', 'N']
  | .inf neg => (if neg then ['-'] else []) ++ ['i', 'n', 'f']
  | .fin neg m =>
    (if neg then ['-'] else []) ++
      (if m = 0 then ['0'] else
        match shortest m with
        | some (d, t) => decimalStr d t
        | none => [])

end Osmio
