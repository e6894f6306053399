import Verif.Spec.Representable
/-!
# Specification: which keys and values a document header can have
-/

namespace Osmio.Spec
open Xml

/-- A name as it is written: prefix, colon, local part. -/
def nameText : Name → Str
  | ⟨none, l⟩ => l
  | ⟨some p, l⟩ => p ++ ':' :: l

/-- The keys an attribute of the root element can have: a name without colon other than `xmlns`, or a name in the name space `xml`, the only one
with a prefix that need not be declared. -/
def HeaderKey (k : Str) : Prop := IsKey k ∨ ∃ l, k = str% "xml:" ++ l ∧ l ≠ [] ∧ ∀ c ∈ l, NameChar c ∧ c ≠ ':'

/-- The values an attribute can have: the parser gives every character as it is. -/
def HeaderValue (norm : Config) (v : Str) : Prop := ∀ c ∈ v, XmlChar c ∧ norm c = c

end Osmio.Spec
