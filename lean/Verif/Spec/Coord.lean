import Verif.Lib.Float64
/-! # Specification of coordinate text -/

namespace Osmio.Spec

/-- The value of one ASCII digit. -/
def digit (c : Char) : Nat := c.toNat - 48

/-- The number written by a list of digits. -/
def number (s : List Char) : Nat := s.foldl (fun a c => 10 * a + digit c) 0

/-- `s` is the plain decimal notation of the number `i / 10^7`: an optional minus sign, an integer
part without superfluous leading zeros, and if needed a point and at most seven decimals of which the
last is not zero; no exponent. -/
structure IsCoordText (s : List Char) (i : Int) : Prop where
  exists_parts : ∃ ip fp : List Char,
    s = (if i < 0 then ['-'] else []) ++ ip ++ (if fp = [] then [] else '.' :: fp) ∧
    ip ≠ [] ∧
    (∀ c ∈ ip, isDigit c = true) ∧ (∀ c ∈ fp, isDigit c = true) ∧
    (ip.head? = some '0' → ip = ['0']) ∧
    fp.length ≤ 7 ∧
    fp.getLast? ≠ some '0' ∧
    number ip * 10 ^ 7 + number fp * 10 ^ (7 - fp.length) = i.natAbs

/-- `s` is `i / 10^7` in exponent notation, for `0 < |i| < 1000`: an optional minus sign, one digit other than zero, if
needed a point and further digits of which the last is not zero, and a negative exponent of one digit. -/
structure IsExponentText (s : List Char) (i : Int) : Prop where
  exists_parts : ∃ (c : Char) (r : List Char) (e : Nat),
    s = (if i < 0 then ['-'] else []) ++ c :: ((if r = [] then [] else '.' :: r) ++ ['e', '-', Char.ofNat (48 + e)]) ∧
    isDigit c = true ∧ c ≠ '0' ∧ (∀ c ∈ r, isDigit c = true) ∧ r.getLast? ≠ some '0' ∧
    5 ≤ e ∧ e ≤ 7 ∧ e + r.length ≤ 7 ∧
    number (c :: r) * 10 ^ (7 - (e + r.length)) = i.natAbs

/-- `z` is the number of units (of 10⁻⁷ degrees) nearest to `v` degrees, half way cases away from
zero. -/
def NearestUnit (v : ℚ) (z : ℤ) : Prop :=
  |(z : ℚ) - v * 10 ^ 7| ≤ 1 / 2 ∧ (|(z : ℚ) - v * 10 ^ 7| = 1 / 2 → |v * 10 ^ 7| < |(z : ℚ)|)

/-- The number that an IEEE-754 binary32 bit pattern stands for; `none` for infinities and NaNs.
The fields are the sign (bit 31), the biased exponent (bits 30–23) and the fraction (bits 22–0). -/
def binary32 (bits : Nat) : Option ℚ :=
  let sign : ℚ := if bits / 2 ^ 31 = 1 then -1 else 1
  let e : Nat := bits / 2 ^ 23 % 256
  let f : ℚ := ((bits % 2 ^ 23 : Nat) : ℚ)
  if e = 255 then none
  else if e = 0 then some (sign * (f / 2 ^ 23) * 2 ^ (-126 : ℤ))
  else some (sign * (1 + f / 2 ^ 23) * 2 ^ ((e : ℤ) - 127))

/-- The digits of the exponent, with their sign: `e` and the number it stands for. -/
inductive ExpText : List Char → ℤ → Prop
  | none : ExpText [] 0
  | some (mark : Char) (sign ds : List Char) :
      mark = 'e' ∨ mark = 'E' → sign = [] ∨ sign = ['+'] ∨ sign = ['-'] →
      ds ≠ [] → (∀ c ∈ ds, isDigit c = true) →
      ExpText (mark :: (sign ++ ds)) (if sign = ['-'] then -(number ds : ℤ) else number ds)

/-- `s` is a decimal number and stands for exactly `v`: an optional sign, digits with an optional point
among them (at least one digit), and an optional exponent. -/
structure IsDecimal (s : List Char) (v : ℚ) : Prop where
  exists_parts : ∃ (sign ip point fp ex : List Char) (e : ℤ),
    s = sign ++ ip ++ point ++ fp ++ ex ∧
    (sign = [] ∨ sign = ['+'] ∨ sign = ['-']) ∧
    (point = ['.'] ∨ (point = [] ∧ fp = [])) ∧
    (ip ≠ [] ∨ fp ≠ []) ∧
    (∀ c ∈ ip, isDigit c = true) ∧ (∀ c ∈ fp, isDigit c = true) ∧
    ExpText ex e ∧
    v = (if sign = ['-'] then -1 else 1) * (number (ip ++ fp) : ℚ) * 10 ^ (e - (fp.length : ℤ))

/-- The words Rust reads as something other than a number: an optional sign and `inf`, `infinity` or
`nan` in any mixture of upper and lower case. -/
def IsFloatWord (s : List Char) : Prop :=
  ∃ sign w : List Char, s = sign ++ w ∧ (sign = [] ∨ sign = ['+'] ∨ sign = ['-']) ∧
    (w.map Char.toLower = "inf".toList ∨ w.map Char.toLower = "infinity".toList ∨
      w.map Char.toLower = "nan".toList)

end Osmio.Spec
