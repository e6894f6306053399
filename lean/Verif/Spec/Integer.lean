import Verif.Spec.XmlValue
/-! # Specification of integer text -/

namespace Osmio.Spec

/-- `s` is an integer in decimal notation and stands for `z`: an optional sign and at least one digit, nothing else.
Leading zeros are allowed. -/
inductive IsInteger : Str → Int → Prop where
  | plain {s n} : Value.Number 10 s n → IsInteger s n
  | plus {s n} : Value.Number 10 s n → IsInteger ('+' :: s) n
  | minus {s n} : Value.Number 10 s n → IsInteger ('-' :: s) (-n)

/-- `s` is a number without a minus sign and stands for `n`. -/
inductive IsNatural : Str → Nat → Prop where
  | plain {s n} : Value.Number 10 s n → IsNatural s n
  | plus {s n} : Value.Number 10 s n → IsNatural ('+' :: s) n

/-- `s` is `z` in the usual notation: no plus sign, no leading zeros, no minus sign before zero. -/
inductive IsShortest : Str → Int → Prop where
  | zero : IsShortest ['0'] 0
  | pos {s n} : Value.Number 10 s n → s.head? ≠ some '0' → IsShortest s n
  | neg {s n} : Value.Number 10 s n → s.head? ≠ some '0' → IsShortest ('-' :: s) (-n)

end Osmio.Spec
