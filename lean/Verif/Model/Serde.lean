import Verif.Lib.SerdeJson
import Verif.Lib.StrLit
import Verif.Model.Traits
/-!
# Model: the derived `Serialize` and `Deserialize` (`src/lib.rs` lines 100, 248 and 487), with `serde_json`

`serde_json::to_string` and `serde_json::from_str` for `Lat`, `Lon`, `TimestampFormat` and `OSMObjectType`. No attribute changes the derived
form: a newtype struct is its content, an enum variant with a value is an object with one member, a variant without a string.
-/

namespace Osmio
open Json

/-- The `i32` inside of a coordinate; `src/lib.rs:100-101`. -/
def innerFromJson (s : Str) : Option Int32 :=
  match parseInteger s with
  | none => none
  | some (z, r) =>
    if -2147483648 ≤ z ∧ z ≤ 2147483647 then
      if atEnd r then some (Int32.ofInt z) else none
    else none

/-- `src/lib.rs:100`, `Serialize` -/
def Lat.toJson (l : Lat) : Str := intStr l.inner.toInt
/-- `src/lib.rs:100`, `Serialize` -/
def Lon.toJson (l : Lon) : Str := intStr l.inner.toInt
/-- `src/lib.rs:100`, `Deserialize` -/
def Lat.fromJson (s : Str) : Option Lat := (innerFromJson s).map Lat.mk
/-- `src/lib.rs:100`, `Deserialize` -/
def Lon.fromJson (s : Str) : Option Lon := (innerFromJson s).map Lon.mk

/-- `src/lib.rs:248-252`, `Serialize` -/
def TimestampFormat.toJson : TimestampFormat → Str
  | .iso s => '{' :: (quote (str% "ISOString") ++ ':' :: (quote s ++ ['}']))
  | .epoch t => '{' :: (quote (str% "EpochNumber") ++ ':' :: (intStr t.toInt ++ ['}']))

/-- `src/lib.rs:248-252`, `Deserialize` -/
def TimestampFormat.fromJson (s : Str) : Option TimestampFormat :=
  match skipWs s with
  | '{' :: r =>
    match variantKey r with
    | none => none
    | some (k, r) =>
      if k = str% "ISOString" then
        match parseString r with
        | none => none
        | some (v, r) => if closeObject r then some (.iso v) else none
      else if k = str% "EpochNumber" then
        match parseInteger r with
        | none => none
        | some (z, r) =>
          if -9223372036854775808 ≤ z ∧ z ≤ 9223372036854775807 then
            if closeObject r then some (.epoch (Int64.ofInt z)) else none
          else none
      else none
  | _ => none

/-- The names of the variants, `src/lib.rs:489-491` -/
def OSMObjectType.variant : OSMObjectType → Str
  | .node => str% "Node"
  | .way => str% "Way"
  | .relation => str% "Relation"

/-- The variant with a name; `src/lib.rs:487-492`. -/
def OSMObjectType.ofVariant (k : Str) : Option OSMObjectType :=
  if k = str% "Node" then some .node
  else if k = str% "Way" then some .way
  else if k = str% "Relation" then some .relation
  else none

/-- `src/lib.rs:487-492`, `Serialize` -/
def OSMObjectType.toJson (t : OSMObjectType) : Str := quote t.variant

/-- `src/lib.rs:487-492`, `Deserialize`: a string, or an object with the value `null`. -/
def OSMObjectType.fromJson (s : Str) : Option OSMObjectType :=
  match skipWs s with
  | '"' :: _ =>
    match parseString s with
    | none => none
    | some (k, r) =>
      match OSMObjectType.ofVariant k with
      | none => none
      | some t => if atEnd r then some t else none
  | '{' :: r =>
    match variantKey r with
    | none => none
    | some (k, r) =>
      match OSMObjectType.ofVariant k with
      | none => none
      | some t =>
        match parseNull r with
        | none => none
        | some r => if closeObject r then some t else none
  | _ => none

end Osmio
