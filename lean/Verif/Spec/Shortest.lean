import Verif.Spec.Ieee
/-!
# Specification: the shortest decimal for a double

Of the decimals that are read as a double those with the fewest significant digits, and of these one nearest to the double.
-/

namespace Osmio.Spec

/-- `q` can be written with `k` significant digits. -/
def Digits (k : ℕ) (q : ℚ) : Prop := ∃ (d : ℕ) (t : ℤ), d < 10 ^ k ∧ q = d * 10 ^ t

/-- `q` is the decimal to print for the double `m`. -/
def ShortestFor (m q : ℚ) : Prop :=
  RoundsTo q m ∧ ∃ k, Digits k q ∧ (∀ j q', Digits j q' → RoundsTo q' m → k ≤ j) ∧
    ∀ q', Digits k q' → RoundsTo q' m → |q - m| ≤ |q' - m|

end Osmio.Spec
