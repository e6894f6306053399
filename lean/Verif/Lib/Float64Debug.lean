import Verif.Lib.Float64
/-!
# Library model: `Debug for f64`

`core::fmt::float::float_to_general_debug` without a precision: magnitudes of at least 1e16 and non-zero magnitudes
below 1e-4 (both thresholds are doubles) in exponent notation, all others as `Display` does but with at least one digit
after the point. The digits are the shortest ones in both cases.
-/

namespace Osmio

/-- `LowerExp` with the shortest digits, for `d * 10^t`: one digit before the point, no trailing zeros, no point if
there is only one digit. -/
def exponentStr (d : Nat) (t : ℤ) : Str :=
  match stripZeros (natStr d) with
  | [] => []
  | c :: r => c :: ((if r = [] then [] else '.' :: r) ++ 'e' :: intStr (t + (natStr d).length - 1))

/-- At least one digit after the point. -/
def withPoint (s : Str) : Str := if '.' ∈ s then s else s ++ ['.', '0']

/-- `Debug for f64` -/
def debugF64 : F64 → Str
  | .nan => ['N', 'a', 'N']
  | .inf neg => (if neg then ['-'] else []) ++ ['i', 'n', 'f']
  | .fin neg m =>
    (if neg then ['-'] else []) ++
      (if m = 0 then ['0', '.', '0'] else
        match shortest m with
        | some (d, t) =>
          if 10 ^ 16 ≤ m ∨ m < roundMag (1 / 10000) then exponentStr d t else withPoint (decimalStr d t)
        | none => [])

end Osmio
