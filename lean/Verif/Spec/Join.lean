import Verif.Lib.QuickXmlBytes
/-!
# Specification: files that can be continued

What is asked of a text so that another one can follow it.
-/

namespace Osmio.Spec.Cs
open QuickXml

/-- A start tag. -/
def isStart : Option Event → Bool
  | some (.start _ _) => true
  | _ => false

/-- An end tag. -/
def isStop : Option Event → Bool
  | some (.end_ _) => true
  | _ => false

/-- A text without anything wrong in its markup, and with as many end tags as start tags. -/
def Whole (a : List UInt8) : Prop := none ∉ eventsOf a ∧ (eventsOf a).countP isStart = (eventsOf a).countP isStop

end Osmio.Spec.Cs
