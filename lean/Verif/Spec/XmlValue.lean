import Verif.Spec.Xml
import Verif.Lib.Utf8
/-!
# Specification: values of attributes

Attribute-value normalization (XML 1.0, section 3.3.3) as a relation between the text between the quotes and the
value, and the local part of a qualified name (Namespaces in XML, section 4). Nothing of the model is mentioned.
-/

namespace Osmio.Spec.Value

/-- The digit `c` has value `d` in this base, at most 16. -/
def Digit (base : Nat) (c : Char) (d : Nat) : Prop :=
  d < base ∧ ((str% "0123456789abcdef")[d]? = some c ∨ (str% "0123456789ABCDEF")[d]? = some c)

/-- Digits and the number they stand for. -/
inductive Number (base : Nat) : Str → Nat → Prop where
  | digit {c d} : Digit base c d → Number base [c] d
  | more {s n c d} : Number base s n → Digit base c d → Number base (s ++ [c]) (base * n + d)

/-- What stands between `&` and `;`, and the character meant: a predefined entity, or the number of a character other
than zero. -/
inductive Stands : Str → Char → Prop where
  | entity {name c} : (name, c) ∈ predefined → Stands name c
  | dec {s c} : Number 10 s c.toNat → c.toNat ≠ 0 → Stands ('#' :: s) c
  | hex {s c} : Number 16 s c.toNat → c.toNat ≠ 0 → Stands ('#' :: 'x' :: s) c

/-- Text of a value, and the value: line breaks and tabs become spaces, references are replaced. -/
inductive Means : Str → Str → Prop where
  | nil : Means [] []
  | plain {c s v} : c ≠ '&' → c ≠ '\t' → c ≠ '\n' → c ≠ '\r' → Means s v → Means (c :: s) (c :: v)
  | blank {c s v} : c = '\t' ∨ c = '\n' → Means s v → Means (c :: s) (' ' :: v)
  | cr {s v} : s.head? ≠ some '\n' → Means s v → Means ('\r' :: s) (' ' :: v)
  | crlf {s v} : Means s v → Means ('\r' :: '\n' :: s) (' ' :: v)
  | ref {e c s v} : ';' ∉ e → Stands e c → Means s v → Means ('&' :: (e ++ ';' :: s)) (c :: v)

/-- The bytes of a value are the UTF-8 of a text with this meaning. -/
def Bytes (b : List UInt8) (v : Str) : Prop := ∃ s, b = Utf8.encode s ∧ Means s v

/-- The local part of a qualified name: what follows the first colon, or everything if there is none. -/
def Local (q l : List UInt8) : Prop := (q = l ∧ 58 ∉ q) ∨ ∃ p, 58 ∉ p ∧ q = p ++ 58 :: l

end Osmio.Spec.Value
