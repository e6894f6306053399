import Verif.Lib.Json
/-!
# Library model: reading with `serde_json` 1.0

`serde_json::from_str` for the types that osmio derives `Deserialize` for: numbers of the integer types, strings, and enums. `none` is an
error. A number with a fraction, an exponent or more than 64 bits is read as a floating point number, as is negative zero, and the integer
types refuse it; so it is an error here at once.
-/

namespace Osmio.Json

/-- `parse_whitespace` -/
def isWs (c : Char) : Bool := decide (c = ' ' ∨ c = '\n' ∨ c = '\t' ∨ c = '\r')

/-- `parse_whitespace` -/
def skipWs : Str → Str
  | [] => []
  | c :: r => if isWs c then skipWs r else c :: r

/-- `decode_hex_val` -/
def hexVal (c : Char) : Option Nat :=
  if 48 ≤ c.toNat ∧ c.toNat ≤ 57 then some (c.toNat - 48)
  else if 97 ≤ c.toNat ∧ c.toNat ≤ 102 then some (c.toNat - 87)
  else if 65 ≤ c.toNat ∧ c.toNat ≤ 70 then some (c.toNat - 55)
  else none

/-- `decode_hex_escape` -/
def hex4 : Str → Option (Nat × Str)
  | a :: b :: c :: d :: r =>
    match hexVal a, hexVal b, hexVal c, hexVal d with
    | some a, some b, some c, some d => some (((a * 16 + b) * 16 + c) * 16 + d, r)
    | _, _, _, _ => none
  | _ => none

/-- `parse_unicode_escape`, after `\u`: surrogates must come in pairs. -/
def unicodeEscape (r : Str) : Option (Char × Str) :=
  match hex4 r with
  | none => none
  | some (n, r) =>
    if 0xDC00 ≤ n ∧ n ≤ 0xDFFF then none
    else if n < 0xD800 ∨ 0xDBFF < n then some (Char.ofNat n, r)
    else
      match r with
      | '\\' :: 'u' :: r =>
        match hex4 r with
        | none => none
        | some (m, r) =>
          if m < 0xDC00 ∨ 0xDFFF < m then none
          else some (Char.ofNat ((n - 0xD800) * 0x400 + (m - 0xDC00) + 0x10000), r)
      | _ => none

/-- `parse_escape`, after the backslash -/
def escape : Str → Option (Char × Str)
  | '"' :: r => some ('"', r)
  | '\\' :: r => some ('\\', r)
  | '/' :: r => some ('/', r)
  | 'b' :: r => some (Char.ofNat 8, r)
  | 'f' :: r => some (Char.ofNat 12, r)
  | 'n' :: r => some (Char.ofNat 10, r)
  | 'r' :: r => some (Char.ofNat 13, r)
  | 't' :: r => some (Char.ofNat 9, r)
  | 'u' :: r => unicodeEscape r
  | _ => none

/-- Put a character in front. -/
def consChar (c : Char) : Option (Str × Str) → Option (Str × Str)
  | some (v, r) => some (c :: v, r)
  | none => none

/-- `StrRead::parse_str`, after the quote. The first argument bounds the number of characters. -/
def strBody : Nat → Str → Option (Str × Str)
  | 0, _ => none
  | _ + 1, [] => none
  | n + 1, c :: r =>
    if c = '"' then some ([], r)
    else if c = '\\' then
      match escape r with
      | some (x, r) => consChar x (strBody n r)
      | none => none
    else if c.toNat < 32 then none
    else consChar c (strBody n r)

/-- `deserialize_str`, `deserialize_string` -/
def parseString (s : Str) : Option (Str × Str) :=
  match skipWs s with
  | '"' :: r => strBody (r.length + 1) r
  | _ => none

/-- Digits without a leading zero (`parse_integer`), and no fraction or exponent behind them. -/
def parseUint (s : Str) : Option (Nat × Str) :=
  match spanDigits s with
  | (ds, r) =>
    match parseDigits ds with
    | none => none
    | some n =>
      if ds.head? = some '0' ∧ ds ≠ ['0'] then none
      else if r.head? = some '.' ∨ r.head? = some 'e' ∨ r.head? = some 'E' then none
      else some (n, r)

/-- `deserialize_i32`, `deserialize_i64`, before the range check -/
def parseInteger (s : Str) : Option (Int × Str) :=
  match skipWs s with
  | '-' :: r =>
    match parseUint r with
    | some (n, r) => if n = 0 then none else some (-(n : Int), r)
    | none => none
  | r =>
    match parseUint r with
    | some (n, r) => some ((n : Int), r)
    | none => none

/-- `Deserializer::end`: nothing but white space is left. -/
def atEnd (r : Str) : Bool := (skipWs r).isEmpty

/-- The end of an object, and of the input. -/
def closeObject (r : Str) : Bool :=
  match skipWs r with
  | '}' :: r => atEnd r
  | _ => false

/-- `parse_object_colon` -/
def colon (r : Str) : Option Str :=
  match skipWs r with
  | ':' :: r => some r
  | _ => none

/-- `deserialize_unit`: the word `null`. -/
def parseNull (r : Str) : Option Str :=
  match skipWs r with
  | 'n' :: 'u' :: 'l' :: 'l' :: r => some r
  | _ => none

/-- The name of the variant in an object with one member (`VariantAccess::variant_seed`). -/
def variantKey (r : Str) : Option (Str × Str) :=
  match parseString r with
  | none => none
  | some (k, r) =>
    match colon r with
    | none => none
    | some r => some (k, r)

end Osmio.Json
