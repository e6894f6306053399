import Verif.Lib.StrLit
import Verif.Lib.RustNum
import Verif.Lib.Json
/-!
# Library model: the builders of `core::fmt` behind `derive(Debug)`, and `Debug` of strings

`alt` is the flag of `{:#?}`. The builders get the texts of the parts, made with the same flag.
-/

namespace Osmio

/-- `PadAdapter`: four spaces before each line; `newline` says whether a line begins here. -/
def padLines : (newline : Bool) → Str → Str
  | _, [] => []
  | newline, c :: s => (if newline then str% "    " else []) ++ c :: padLines (c == '\n') s

/-- With a comma and a space between each two. -/
def commas : List Str → Str
  | [] => []
  | [x] => x
  | x :: y :: xs => x ++ str% ", " ++ commas (y :: xs)

/-- Each on lines of its own, indented, with a comma. -/
def indented (xs : List Str) : Str := xs.flatMap fun x => padLines true (x ++ str% ",\n")

/-- `DebugTuple`; also tuples, whose name is empty, with two parts or more. -/
def debugTuple (alt : Bool) (name : Str) (parts : List Str) : Str :=
  if parts = [] then name
  else if alt then name ++ str% "(\n" ++ indented parts ++ str% ")"
  else name ++ str% "(" ++ commas parts ++ str% ")"

/-- `DebugStruct` -/
def debugStruct (alt : Bool) (name : Str) (fields : List (Str × Str)) : Str :=
  if fields = [] then name
  else if alt then name ++ str% " {\n" ++ indented (fields.map fun f => f.1 ++ str% ": " ++ f.2) ++ str% "}"
  else name ++ str% " { " ++ commas (fields.map fun f => f.1 ++ str% ": " ++ f.2) ++ str% " }"

/-- `DebugList`: vectors and slices. -/
def debugList (alt : Bool) (items : List Str) : Str :=
  if items = [] then str% "[]"
  else if alt then str% "[\n" ++ indented items ++ str% "]"
  else str% "[" ++ commas items ++ str% "]"

/-- `DebugMap`, in the order of the entries. -/
def debugMap (alt : Bool) (entries : List (Str × Str)) : Str :=
  if entries = [] then str% "{}"
  else if alt then str% "{\n" ++ indented (entries.map fun e => e.1 ++ str% ": " ++ e.2) ++ str% "}"
  else str% "{" ++ commas (entries.map fun e => e.1 ++ str% ": " ++ e.2) ++ str% "}"

/-- `derive(Debug)` of `Option` -/
def debugOption (alt : Bool) (p : α → Str) : Option α → Str
  | none => str% "None"
  | some x => debugTuple alt (str% "Some") [p x]

/-- `Debug` of `bool` -/
def debugBool (x : Bool) : Str := if x then str% "true" else str% "false"

/-- The digits of a number to the base 16, in small letters, without needless zeros. -/
def lowerHex (n : Nat) : Str :=
  if n < 16 then [Json.hexDigit n] else lowerHex (n / 16) ++ [Json.hexDigit (n % 16)]

/-- `char::escape_debug_ext` as `Debug for str` uses it. `plain` stands for the tables of Unicode: printable, and no extender of graphemes. -/
def escapeDebug (plain : Char → Bool) (c : Char) : Str :=
  if c = '\x00' then str% "\\0"
  else if c = '\t' then str% "\\t"
  else if c = '\r' then str% "\\r"
  else if c = '\n' then str% "\\n"
  else if c = '"' then str% "\\\""
  else if c = '\\' then str% "\\\\"
  else if plain c then [c]
  else str% "\\u{" ++ lowerHex c.toNat ++ str% "}"

/-- `Debug for str` -/
def debugStr (plain : Char → Bool) (s : Str) : Str := '"' :: s.flatMap (escapeDebug plain) ++ ['"']

end Osmio
