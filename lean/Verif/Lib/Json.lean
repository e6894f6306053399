import Verif.Model.Timestamp
/-!
# Library model: the part of `serde_json` 1.0 that osmio uses

`serde_json::Map` without the `preserve_order` feature (a `BTreeMap<String, Value>`) holding string
values, and the compact serialisation of such an object.
-/

namespace Osmio.Json

/-- Lower case hexadecimal digit. -/
def hexDigit (n : Nat) : Char := if n < 10 then Char.ofNat (48 + n) else Char.ofNat (87 + n)

/-- `serde_json`'s `format_escaped_str_contents` for one character: the table `ESCAPE`. -/
def escapeChar (c : Char) : Str :=
  if c = '"' then ['\\', '"']
  else if c = '\\' then ['\\', '\\']
  else if c.toNat = 8 then ['\\', 'b']
  else if c.toNat = 9 then ['\\', 't']
  else if c.toNat = 10 then ['\\', 'n']
  else if c.toNat = 12 then ['\\', 'f']
  else if c.toNat = 13 then ['\\', 'r']
  else if c.toNat < 32 then ['\\', 'u', '0', '0', hexDigit (c.toNat / 16), hexDigit (c.toNat % 16)]
  else [c]

/-- A JSON string literal. -/
def quote (s : Str) : Str := '"' :: (s.flatMap escapeChar ++ ['"'])

/-- `Map::insert` into a `BTreeMap`, kept as a list sorted by key. -/
def insert (k v : Str) : List (Str × Str) → List (Str × Str)
  | [] => [(k, v)]
  | (k', v') :: r =>
    match compareStr k k' with
    | .lt => (k, v) :: (k', v') :: r
    | .eq => (k, v) :: r
    | .gt => (k', v') :: insert k v r

/-- Comma separated members. -/
def members : List (Str × Str) → Str
  | [] => []
  | [(k, v)] => quote k ++ ':' :: quote v
  | (k, v) :: r => quote k ++ ':' :: (quote v ++ ',' :: members r)

/-- `serde_json::Value::Object(map).to_string()` -/
def object (m : List (Str × Str)) : Str := '{' :: (members m ++ ['}'])

/-- Comma separated pairs, each an array of two strings. -/
def pairs : List (Str × Str) → Str
  | [] => []
  | [(k, v)] => '[' :: (quote k ++ ',' :: (quote v ++ [']']))
  | (k, v) :: r => '[' :: (quote k ++ ',' :: (quote v ++ ']' :: ',' :: pairs r))

/-- `serde_json::to_writer` for a `Vec<(String, String)>` -/
def array (l : List (Str × Str)) : Str := '[' :: (pairs l ++ [']'])

end Osmio.Json
