import Mathlib.Data.Rat.Floor
/-!
# Specification: rounding to a double, as IEEE 754 defines it

Round to nearest, ties to even, in binary64. The result is first rounded as if exponents had no upper bound; a result of 2¹⁰²⁴ or more
overflows.
-/

namespace Osmio.Spec

/-- `r` is the number `m · 2^e` with a significand of at most 53 bits, of exactly 53 bits unless the exponent is the least one. -/
def Binary64 (r : ℚ) (m e : ℤ) : Prop :=
  r = m * 2 ^ e ∧ |m| < 2 ^ 53 ∧ -1074 ≤ e ∧ (2 ^ 52 ≤ |m| ∨ e = -1074)

/-- `r` is the value of a double (if it is not too large). -/
def IsBinary64 (r : ℚ) : Prop := ∃ m e, Binary64 r m e

/-- Rounding `q` gives `r`: no other number is nearer, and if another is as near the significand of `r` is even. -/
structure RoundsTo (q r : ℚ) : Prop where
  is : IsBinary64 r
  nearest : ∀ r', IsBinary64 r' → |r - q| ≤ |r' - q|
  even : ∀ r', IsBinary64 r' → r' ≠ r → |r' - q| = |r - q| → ∃ m e, Binary64 r (2 * m) e

/-- `z` is the integer nearest to `p`, half way cases away from zero. -/
def HalfAway (p : ℚ) (z : ℤ) : Prop := |(z : ℚ) - p| ≤ 1 / 2 ∧ (|(z : ℚ) - p| = 1 / 2 → |p| < |(z : ℚ)|)

end Osmio.Spec
