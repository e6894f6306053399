import Verif.Lib.Float64
/-!
# Library model: the crate `separator`, and `{:.n}` of a double

`separated_string` of unsigned integers and `separated_string_with_fixed_place` of doubles that are not negative, from separator 0.4.
-/

namespace Osmio

/-- The loop over the digits: a comma comes before a digit, other than the first, if the digits from there on are a multiple of three. -/
def separateFrom : (later : Bool) → Str → Str
  | _, [] => []
  | later, c :: s => (if later && (s.length + 1) % 3 == 0 then [','] else []) ++ c :: separateFrom true s

/-- `separated_string` of an unsigned integer -/
def separatedString (n : Nat) : Str := separateFrom false (natStr n)

/-- `format!("{:.*}", places, x)`, for at least one place: the nearest decimal, of two the even one. -/
def fixedF64 (places : Nat) : F64 → Str
  | .nan => ['N', 'a', 'N']
  | .inf neg => (if neg then ['-'] else []) ++ ['i', 'n', 'f']
  | .fin neg m =>
    let n := (roundHalfEven (m * 10 ^ places)).toNat
    (if neg then ['-'] else []) ++ natStr (n / 10 ^ places) ++ '.' :: padNat places (n % 10 ^ places)

/-- `separated_string_with_fixed_place` of a double: the part before the point is separated. -/
def separatedFixed (places : Nat) (x : F64) : Str :=
  separateFrom false ((fixedF64 places x).takeWhile (· != '.')) ++ (fixedF64 places x).dropWhile (· != '.')

end Osmio
