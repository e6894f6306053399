import Verif.Lib.Xml
import Verif.Spec.XmlText
import Verif.Spec.XmlChars
/-!
# Specification: what can be represented in the XML that osmio writes
-/

namespace Osmio.Xml
open Spec

/-- A character that a value may contain: any XML character except tab, newline and carriage return, which
the writer does not escape and XML parsers turn into spaces in attribute values. -/
def valueChar (c : Char) : Bool := isXmlChar c && c != '\t' && c != '\n' && c != '\r'

/-- A character which stands for itself in an attribute value. -/
def plainChar (c : Char) : Bool :=
  c != '"' && c != '<' && c != '&' && isXmlChar c && c != '\t' && c != '\n' && c != '\r'

/-- A name without a prefix, other than `xmlns`. -/
def IsKey (k : Str) : Prop :=
  ∃ c r, k = c :: r ∧ NameStart c ∧ (∀ x ∈ r, NameChar x) ∧ ':' ∉ k ∧ k ≠ str% "xmlns"

/-- A timestamp that the writer can write: text timestamps are written as they are, without escapes. -/
def TimeOk : TimestampFormat → Prop
  | .iso s => ∀ c ∈ s, plainChar c = true
  | .epoch _ => True

/-- The texts of an object can be represented. -/
structure Representable (d : ObjData) : Prop where
  user : ∀ u, d.view.user = some u → ∀ c ∈ u, valueChar c = true
  time : ∀ t, d.view.timestamp = some t → TimeOk t
  tags : ∀ kv ∈ d.view.tags, (∀ c ∈ kv.1, valueChar c = true) ∧ ∀ c ∈ kv.2, valueChar c = true
  roles : ∀ m ∈ d.members, ∀ c ∈ m.2.2, valueChar c = true

/-- A character that stands in an attribute value without an escape. -/
def rawChar (c : Char) : Bool := c != '"' && c != '<' && c != '&' && isXmlChar c

/-- The texts of an object are made of characters that XML has at all. -/
structure XmlTexts (d : ObjData) : Prop where
  user : ∀ u, d.view.user = some u → ∀ c ∈ u, isXmlChar c = true
  time : ∀ s, d.view.timestamp = some (.iso s) → ∀ c ∈ s, rawChar c = true
  tags : ∀ kv ∈ d.view.tags, (∀ c ∈ kv.1, isXmlChar c = true) ∧ ∀ c ∈ kv.2, isXmlChar c = true
  roles : ∀ m ∈ d.members, ∀ c ∈ m.2.2, isXmlChar c = true

/-- A timestamp's text, if it is one. -/
def isoText : Option TimestampFormat → List Str
  | some (.iso s) => [s]
  | _ => []

/-- The texts of an object: user name, text timestamp, keys and values of tags, roles of members. -/
def textsOf (d : ObjData) : List Str :=
  d.view.user.toList ++ isoText d.view.timestamp ++ d.view.tags.map Prod.fst ++ d.view.tags.map Prod.snd ++
    d.members.map fun m => m.2.2

/-- Change the characters of a text timestamp. -/
def mapTime (g : Char → Char) : TimestampFormat → TimestampFormat
  | .iso s => .iso (s.map g)
  | .epoch e => .epoch e

/-- Change the characters of the texts of an object. -/
def mapTexts (g : Char → Char) (d : ObjData) : ObjData :=
  { d with
    view := { d.view with
      user := d.view.user.map (·.map g)
      timestamp := d.view.timestamp.map (mapTime g)
      tags := d.view.tags.map fun kv => (kv.1.map g, kv.2.map g) }
    members := d.members.map fun m => (m.1, m.2.1, m.2.2.map g) }

/-- Headers that can be represented: their keys are names other than those the writer uses itself. -/
def HeadersOk (hs : List (Str × Str)) : Prop :=
  (∀ h ∈ hs, IsKey h.1 ∧ (∀ c ∈ h.2, valueChar c = true) ∧ h.1 ≠ str% "version" ∧ h.1 ≠ str% "generator") ∧
    (hs.map Prod.fst).Nodup

/-- An object as it comes back: its timestamp is text. -/
def readBack (d : ObjData) : ObjData :=
  { d with view := { d.view with timestamp := d.view.timestamp.map fun t => .iso t.toIsoString } }

end Osmio.Xml
