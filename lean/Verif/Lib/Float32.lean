import Verif.Lib.Float64
/-!
# Library model: IEEE-754 binary32 (`f32`) and its widening to `f64`

An `f32` is its bit pattern, a `UInt32`. Widening (`x as f64`) is exact: every finite `f32` is a
double with the same value.
-/

namespace Osmio

/-- `f32`, as the bit pattern that `f32::to_bits` returns. -/
structure F32 where
  bits : UInt32
  deriving DecidableEq

namespace F32

/-- The sign bit. -/
def neg (x : F32) : Bool := decide (2 ^ 31 ≤ x.bits.toNat)
/-- The eight exponent bits. -/
def expo (x : F32) : Nat := x.bits.toNat / 2 ^ 23 % 2 ^ 8
/-- The twenty three fraction bits. -/
def frac (x : F32) : Nat := x.bits.toNat % 2 ^ 23

/-- The integer significand of a finite value: the hidden bit is set unless the exponent bits are 0. -/
def signif (x : F32) : Nat := if x.expo = 0 then x.frac else 2 ^ 23 + x.frac
/-- The exponent of the last bit of the significand. -/
def lastExp (x : F32) : ℤ := if x.expo = 0 then -149 else (x.expo : ℤ) - 150

/-- `x as f64` -/
def toF64 (x : F32) : F64 :=
  if x.expo = 255 then (if x.frac = 0 then .inf x.neg else .nan)
  else .fin x.neg ((x.signif : ℚ) * 2 ^ x.lastExp)

end F32
end Osmio
