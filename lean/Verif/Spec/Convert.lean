import Verif.Spec.XmlText
import Verif.Spec.Writer
/-!
# Specification: copying objects from one file to another
-/

namespace Osmio.Spec

/-- The object has all that OSM data have: version, timestamp (as a number), changeset, user id and user name, and a position if it is a node. -/
structure Complete (d : ObjData) : Prop where
  version : d.view.version ≠ none
  timestamp : ∃ t, d.view.timestamp = some (.epoch t)
  changeset : d.view.changesetId ≠ none
  uid : d.view.uid ≠ none
  user : d.view.user ≠ none
  pos : d.view.kind = .node → d.pos ≠ none

/-- The object without its timestamp. -/
def untimed (d : ObjData) : ObjData := { d with view := { d.view with timestamp := none } }

/-- The second object is a copy of the first: the same but for the timestamp, which is equal as `==` compares timestamps. -/
def CopyOf (d d' : ObjData) : Prop :=
  untimed d' = untimed d ∧
    ((d.view.timestamp = none ∧ d'.view.timestamp = none) ∨
      ∃ t t', d.view.timestamp = some t ∧ d'.view.timestamp = some t' ∧ TimestampFormat.eq t t' = true)

/-- The program that writes the objects one after another. -/
def copyCalls {α : Type} (os : List α) : List (Call α) := os.map Call.writeObj

/-- What parsers may do to a character of an attribute value: nothing, or turn a tab or line break into a space. -/
def SpacesOnly (norm : Char → Char) : Prop := ∀ c, norm c = c ∨ ((c = '\t' ∨ c = '\n' ∨ c = '\r') ∧ norm c = ' ')

end Osmio.Spec
