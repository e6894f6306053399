import Verif.Model.LatLon
import Verif.Lib.Json
/-!
# Model: the traits of `src/lib.rs` (lines 61–62, 316–691)

A Rust trait is a Lean class. Default methods that some implementation overrides (`num_tags`,
`untagged`) are class fields with default values; the other default methods are definitions on top of
the class. `&mut self` methods return the new object. `impl Into<..>` parameters are modelled after the
conversion. Identifiers are `i64`.
-/

namespace Osmio

/-- `src/lib.rs:62` -/
abbrev ObjId := Int64

/-- `src/lib.rs:487-492` -/
inductive OSMObjectType where
  | node
  | way
  | relation
  deriving DecidableEq, Repr

namespace OSMObjectType

/-- `src/lib.rs:495-501` -/
def nameShort : OSMObjectType → Char
  | .node => 'n'
  | .way => 'w'
  | .relation => 'r'

/-- `src/lib.rs:502-508`; also `Display` (lines 517-521). -/
def nameLong : OSMObjectType → Str
  | .node => "node".toList
  | .way => "way".toList
  | .relation => "relation".toList

/-- `src/lib.rs:511-515`, `Debug` -/
def debug (t : OSMObjectType) : Str := [t.nameShort]

/-- `src/lib.rs:526-533`, `TryFrom<char>`; the error text is dropped. -/
def tryFromChar (c : Char) : Option OSMObjectType :=
  if c = 'n' then some .node else if c = 'w' then some .way else if c = 'r' then some .relation else none

/-- `src/lib.rs:539-546`, `FromStr`; the error text is dropped. -/
def fromStr (s : Str) : Option OSMObjectType :=
  if s = "n".toList ∨ s = "node".toList then some .node
  else if s = "w".toList ∨ s = "way".toList then some .way
  else if s = "r".toList ∨ s = "relation".toList ∨ s = "rel".toList then some .relation
  else none

/-- Derived `Ord` (line 487): declaration order; `src/lib.rs:487-492`. -/
def rank : OSMObjectType → Nat
  | .node => 0
  | .way => 1
  | .relation => 2

end OSMObjectType

/-- `src/lib.rs:316-371` -/
class OSMObjBase (α : Type) where
  id : α → ObjId
  setId : α → ObjId → α
  version : α → Option UInt32
  setVersion : α → Option UInt32 → α
  deleted : α → Bool
  setDeleted : α → Bool → α
  changesetId : α → Option UInt32
  setChangesetId : α → Option UInt32 → α
  timestamp : α → Option TimestampFormat
  setTimestamp : α → Option TimestampFormat → α
  uid : α → Option UInt32
  setUid : α → Option UInt32 → α
  user : α → Option Str
  setUser : α → Option Str → α
  tags : α → List (Str × Str)
  tag : α → Str → Option Str
  /-- lines 337-339 -/
  numTags : α → Nat := fun a => (tags a).length
  /-- lines 357-359 -/
  untagged : α → Bool := fun a => numTags a == 0
  setTag : α → Str → Str → α
  unsetTag : α → Str → α
  objectType : α → OSMObjectType

section
variable {α : Type} [OSMObjBase α]
open OSMObjBase

/-- `src/lib.rs:334-336` -/
def hasTag (a : α) (k : Str) : Bool := (tag a k).isSome

/-- `src/lib.rs:353-355` -/
def tagged (a : α) : Bool := !untagged a

/-- `src/lib.rs:341-350` -/
def tagsJsonString (a : α) : Str :=
  if untagged a then "{}".toList
  else Json.object ((tags a).foldl (fun t kv => Json.insert kv.1 kv.2 t) [])

/-- `src/lib.rs:364-368` -/
def stripMetadata (a : α) : α := setChangesetId (setUser (setUid a none) none) none
end

/-- `src/lib.rs:374-434` -/
class NodeT (α : Type) extends OSMObjBase α where
  latLon : α → Option (Lat × Lon)
  setLatLonDirect : α → Option (Lat × Lon) → α

section
variable {α : Type} [NodeT α]
open NodeT

/-- `src/lib.rs:379-381` -/
def latLonF64 (a : α) : Option (F64 × F64) := (latLon a).map (fun (lat, lon) => (lat.degrees, lon.degrees))

/-- `src/lib.rs:383-385` -/
def hasLatLon (a : α) : Bool := (latLon a).isSome

/-- `src/lib.rs:388-390` -/
def unsetLatLon (a : α) : α := setLatLonDirect a none

/-- `src/lib.rs:415-433`. The conversions `L1: TryInto<Lat>` and `L2: TryInto<Lon>` are parameters. -/
def setLatLon {L1 L2 : Type} (toLat : L1 → Except ParseLatLonError Lat)
    (toLon : L2 → Except ParseLatLonError Lon) (a : α) (loc : Option (L1 × L2)) :
    α × Except ParseLatLonError Unit :=
  match loc with
  | none => (setLatLonDirect a none, .ok ())
  | some (l1, l2) =>
    match toLat l1 with
    | .error e => (a, .error e)
    | .ok lat =>
      match toLon l2 with
      | .error e => (a, .error e)
      | .ok lon => (setLatLonDirect a (some (lat, lon)), .ok ())
end

/-- `src/lib.rs:437-473` -/
class WayT (α : Type) extends OSMObjBase α where
  nodes : α → List ObjId
  numNodes : α → Nat
  node : α → Nat → Option ObjId
  setNodes : α → List ObjId → α

section
variable {α : Type} [WayT α]
open WayT

/-- `src/lib.rs:442-444` -/
def nids (a : α) : List ObjId := nodes a

/-- `src/lib.rs:456-461` -/
def isClosed (a : α) : Bool :=
  match (nodes a).head?, (nodes a).getLast? with
  | some x, some y => x == y
  | _, _ => false

/-- `src/lib.rs:465-472` -/
def isArea (a : α) : Bool := isClosed a && (OSMObjBase.tag a "area".toList != some "no".toList)
end

/-- `src/lib.rs:476-484` -/
class RelationT (α : Type) extends OSMObjBase α where
  members : α → List (OSMObjectType × ObjId × Str)
  setMembers : α → List (OSMObjectType × ObjId × Str) → α

/-- `src/lib.rs:550-579`. A mutable reference to the inside is modelled as the part and a function
putting a changed part back. -/
class OSMObjT (α : Type) (N W R : outParam Type) extends OSMObjBase α where
  intoNode : α → Option N
  intoWay : α → Option W
  intoRelation : α → Option R
  asNode : α → Option N
  asWay : α → Option W
  asRelation : α → Option R
  asNodeMut : α → Option (N × (N → α))
  asWayMut : α → Option (W × (W → α))
  asRelationMut : α → Option (R × (R → α))

section
variable {α : Type} [OSMObjBase α]
/-- `src/lib.rs:570-572` -/
def isNode (a : α) : Bool := OSMObjBase.objectType a == .node
/-- `src/lib.rs:573-575` -/
def isWay (a : α) : Bool := OSMObjBase.objectType a == .way
/-- `src/lib.rs:576-578` -/
def isRelation (a : α) : Bool := OSMObjBase.objectType a == .relation
end

end Osmio
