import Verif.Spec.XmlValue
/-!
# Specification: JSON text (RFC 8259)

White space, string literals, whole numbers and objects with one member, as relations between text and value.
-/

namespace Osmio.Spec.JsonText

/-- White space between tokens. -/
def Space (s : Str) : Prop := ∀ c ∈ s, c = ' ' ∨ c = '\t' ∨ c = '\n' ∨ c = '\r'

/-- Two character escapes: the letter after the backslash and the number of the character meant. -/
def escapes : List (Char × Nat) :=
  [('"', 0x22), ('\\', 0x5C), ('/', 0x2F), ('b', 0x8), ('f', 0xC), ('n', 0xA), ('r', 0xD), ('t', 0x9)]

/-- Text between the quotes, and the characters it stands for. A character outside the basic plane can be written as two escapes, its UTF-16
surrogates. -/
inductive Chars : Str → Str → Prop where
  | nil : Chars [] []
  | plain {c r v} : 0x20 ≤ c.toNat → c ≠ '"' → c ≠ '\\' → Chars r v → Chars (c :: r) (c :: v)
  | short {e c r v} : (e, c.toNat) ∈ escapes → Chars r v → Chars ('\\' :: e :: r) (c :: v)
  | unit {h c r v} : h.length = 4 → Value.Number 16 h c.toNat → Chars r v → Chars ('\\' :: 'u' :: (h ++ r)) (c :: v)
  | pair {h l a b c r v} : h.length = 4 → l.length = 4 → Value.Number 16 h (0xD800 + a) → Value.Number 16 l (0xDC00 + b) →
      a < 0x400 → b < 0x400 → c.toNat = 0x10000 + a * 0x400 + b → Chars r v →
      Chars ('\\' :: 'u' :: (h ++ '\\' :: 'u' :: (l ++ r))) (c :: v)

/-- A string literal and the string. -/
def Literal (s v : Str) : Prop := ∃ b, Chars b v ∧ s = '"' :: (b ++ ['"'])

/-- A whole number, without fraction and exponent; zero has no sign. -/
inductive Integer : Str → Int → Prop where
  | zero : Integer ['0'] 0
  | pos {s n} : Value.Number 10 s n → s.head? ≠ some '0' → Integer s n
  | neg {s n} : Value.Number 10 s n → s.head? ≠ some '0' → Integer ('-' :: s) (-n)

/-- An object with one member, of this name and value. -/
def Object (name : Str) (value : Str → Prop) (s : Str) : Prop :=
  ∃ k v a b c d, Literal k name ∧ value v ∧ Space a ∧ Space b ∧ Space c ∧ Space d ∧
    s = '{' :: (a ++ (k ++ (b ++ ':' :: (c ++ (v ++ (d ++ ['}']))))))

/-- A whole JSON text: white space around a value. -/
def Text (value : Str → Prop) (s : Str) : Prop := ∃ a v b, Space a ∧ value v ∧ Space b ∧ s = a ++ (v ++ b)

end Osmio.Spec.JsonText
