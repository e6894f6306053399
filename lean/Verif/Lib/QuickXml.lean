import Verif.Lib.StrLit
import Verif.Lib.Utf8
/-!
# Library model: quick-xml, as `src/changesets.rs` uses it

The changeset readers use three things of quick-xml: `Reader::read_event_into`,
`BytesStart::attributes` and `Attribute::normalized_value`.

* An event is modelled with the parts the readers look at. Text, comments, CDATA, processing
  instructions, declarations, document types and references are one constructor, `other`: the readers
  skip all of them.
* `Attributes` is an iterator of results; an element carries the list of what it yields, `none` for
  an error (malformed or repeated attribute).
* A source is the list of what the calls of `read_event_into` give until the end of the file, `none` for an
  error. After the last one every call gives `Eof`.

Theorems about events hold for every sequence of events and errors. How bytes become events is in
`Verif/Lib/QuickXmlBytes.lean`.
-/

namespace Osmio.QuickXml

/-- `Attribute`: the key and the value as they stand in the document. -/
structure Attr where
  key : List UInt8
  value : List UInt8
  deriving DecidableEq

/-- What `BytesStart::attributes` yields, `none` for an error. -/
abbrev Attrs := List (Option Attr)

/-- `Event` -/
inductive Event where
  | start (name : List UInt8) (attrs : Attrs)
  | empty (name : List UInt8) (attrs : Attrs)
  | end_ (name : List UInt8)
  | other
  deriving DecidableEq

/-- What the calls of `read_event_into` give before `Eof`, `none` for an error. -/
abbrev Events := List (Option Event)

/-- One call of `read_event_into`. -/
inductive Read where
  | event (e : Event)
  | error
  | eof

/-- `Reader::read_event_into`: what is read and what is left. -/
def readEvent : Events → Read × Events
  | [] => (.eof, [])
  | some e :: r => (.event e, r)
  | none :: r => (.error, r)

/-- `QName::local_name`: what follows the first colon, or everything. -/
def localName (n : List UInt8) : List UInt8 :=
  if 58 ∈ n then (n.dropWhile (· != 58)).drop 1 else n

/-- Value of a digit in base 10 or 16 (`char::to_digit`). -/
def digit (base : Nat) (c : Char) : Option Nat :=
  let n := c.toNat
  if 48 ≤ n ∧ n ≤ 57 then some (n - 48)
  else if base = 16 ∧ 97 ≤ n ∧ n ≤ 102 then some (n - 87)
  else if base = 16 ∧ 65 ≤ n ∧ n ≤ 70 then some (n - 55)
  else none

/-- Value of digits. -/
def number (base : Nat) : Nat → Str → Option Nat
  | acc, [] => some acc
  | acc, c :: r =>
    match digit base c with
    | some d => number base (base * acc + d) r
    | none => none

/-- A character given by its number; zero is refused. -/
def charRef (base : Nat) (s : Str) : Option Char :=
  match s with
  | [] => none
  | c :: r =>
    match number base 0 (c :: r) with
    | some n => if n ≠ 0 ∧ n.isValidChar then some (Char.ofNat n) else none
    | none => none

/-- What stands between `&` and `;`: a number or one of the five predefined entities. -/
def resolve : Str → Option Char
  | '#' :: 'x' :: r => charRef 16 r
  | '#' :: r => charRef 10 r
  | e =>
    if e = str% "lt" then some '<'
    else if e = str% "gt" then some '>'
    else if e = str% "amp" then some '&'
    else if e = str% "apos" then some '\''
    else if e = str% "quot" then some '"'
    else none

/-- Attribute value normalization, XML 1.0. `e` is the part of an open reference that has been read. -/
def normalize : Option Str → Str → Option Str
  | none, [] => some []
  | some _, [] => none
  | some e, c :: r =>
    if c = ';' then
      match resolve e with
      | some x => (normalize none r).map (x :: ·)
      | none => none
    else normalize (some (e ++ [c])) r
  | none, '\r' :: '\n' :: r => (normalize none r).map (' ' :: ·)
  | none, c :: r =>
    if c = '&' then normalize (some []) r
    else if c = '\t' ∨ c = '\n' ∨ c = '\r' then (normalize none r).map (' ' :: ·)
    else (normalize none r).map (c :: ·)

/-- `Attribute::normalized_value(XmlVersion::Implicit1_0)` -/
def Attr.normalizedValue (a : Attr) : Option Str :=
  match Utf8.decode a.value with
  | some s => normalize none s
  | none => none

end Osmio.QuickXml
