import Verif.Lib.Basic
/-!
# Library model: UTF-8

`encode` is the encoding of Rust's `str`; `decode` is `str::from_utf8` (strict: no overlong forms, no
surrogates, nothing above U+10FFFF).
-/

namespace Osmio.Utf8

/-- A byte from a number. -/
def byte (n : Nat) : UInt8 := UInt8.ofNat n

/-- `char::encode_utf8` -/
def encodeChar (c : Char) : List UInt8 :=
  let n := c.toNat
  if n < 0x80 then [byte n]
  else if n < 0x800 then [byte (0xC0 + n / 64), byte (0x80 + n % 64)]
  else if n < 0x10000 then [byte (0xE0 + n / 4096), byte (0x80 + n / 64 % 64), byte (0x80 + n % 64)]
  else [byte (0xF0 + n / 262144), byte (0x80 + n / 4096 % 64), byte (0x80 + n / 64 % 64), byte (0x80 + n % 64)]

/-- The bytes of a string. -/
def encode (s : Str) : List UInt8 := s.flatMap encodeChar

/-- A continuation byte, without its marker. -/
def cont (b : UInt8) : Option Nat :=
  if 0x80 ≤ b.toNat ∧ b.toNat < 0xC0 then some (b.toNat - 0x80) else none

/-- A code point that is at least `lo` and a scalar value. -/
def scalar (lo n : Nat) : Option Char :=
  if lo ≤ n ∧ n.isValidChar then some (Char.ofNat n) else none

/-- The first character of a non-empty byte string and the number of bytes it takes. -/
def decodeFirst (b : UInt8) (r : List UInt8) : Option (Char × Nat) :=
  let n := b.toNat
  if n < 0x80 then some (Char.ofNat n, 1)
  else if n < 0xC0 then none
  else if n < 0xE0 then
    match r with
    | b1 :: _ =>
      match cont b1 with
      | some x => (scalar 0x80 ((n - 0xC0) * 64 + x)).map (·, 2)
      | none => none
    | [] => none
  else if n < 0xF0 then
    match r with
    | b1 :: b2 :: _ =>
      match cont b1, cont b2 with
      | some x, some y => (scalar 0x800 (((n - 0xE0) * 64 + x) * 64 + y)).map (·, 3)
      | _, _ => none
    | _ => none
  else if n < 0xF8 then
    match r with
    | b1 :: b2 :: b3 :: _ =>
      match cont b1, cont b2, cont b3 with
      | some x, some y, some z => (scalar 0x10000 ((((n - 0xF0) * 64 + x) * 64 + y) * 64 + z)).map (·, 4)
      | _, _, _ => none
    | _ => none
  else none

/-- Decode with a bound on the number of characters. -/
def decodeAux : Nat → List UInt8 → Option Str
  | _, [] => some []
  | 0, _ :: _ => none
  | n + 1, b :: r =>
    match decodeFirst b r with
    | some (c, k) => (decodeAux n (r.drop (k - 1))).map (c :: ·)
    | none => none

/-- `str::from_utf8` -/
def decode (bs : List UInt8) : Option Str := decodeAux bs.length bs

/-- The characters before the first invalid byte sequence, and whether there is none. -/
def decodePrefixAux : Nat → List UInt8 → Str × Bool
  | _, [] => ([], true)
  | 0, _ :: _ => ([], false)
  | n + 1, b :: r =>
    match decodeFirst b r with
    | some (c, k) => (c :: (decodePrefixAux n (r.drop (k - 1))).1, (decodePrefixAux n (r.drop (k - 1))).2)
    | none => ([], false)

/-- What a reader that decodes piece by piece sees of a byte string. -/
def decodePrefix (bs : List UInt8) : Str × Bool := decodePrefixAux bs.length bs

end Osmio.Utf8
