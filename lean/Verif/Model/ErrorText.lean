import Verif.Lib.StrLit
import Verif.Model.Traits
import Verif.Model.Timestamp
/-!
# Model: the error texts of the conversions from text (`src/lib.rs`)

`Model/Traits.lean` and `Model/Timestamp.lean` have the same functions without their error texts, as the readers use them.
-/

namespace Osmio

/-- `src/lib.rs:523-534`, `TryFrom<char>` -/
def OSMObjectType.tryFrom (c : Char) : Except Str OSMObjectType :=
  if c = 'n' then .ok .node
  else if c = 'w' then .ok .way
  else if c = 'r' then .ok .relation
  else .error ("Cannot convert ".toList ++ [c] ++ " to OSMObjectType".toList)

/-- `src/lib.rs:536-547`, `FromStr` -/
def OSMObjectType.parse (s : Str) : Except Str OSMObjectType :=
  if s = "n".toList ∨ s = "node".toList then .ok .node
  else if s = "w".toList ∨ s = "way".toList then .ok .way
  else if s = "r".toList ∨ s = "relation".toList ∨ s = "rel".toList then .ok .relation
  else .error ("Cannot convert ".toList ++ s ++ " to OSMObjectType".toList)

/-- `src/lib.rs:279-288`, `FromStr` -/
def TimestampFormat.parse (s : Str) : Except Str TimestampFormat :=
  match Chrono.parseRfc3339 s with
  | some t => .ok (.epoch (Int64.ofInt t))
  | none => .error ("invalid date".toList)

end Osmio
