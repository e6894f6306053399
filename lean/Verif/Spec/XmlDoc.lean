import Verif.Lib.Xml
import Verif.Spec.XmlText
/-!
# Specification of reading: documents as trees, and the object an element stands for
-/

namespace Osmio.Spec
open Xml

/-- The content of an XML document or element: text (and comments and so on) and elements. -/
inductive Forest where
  | nil
  | text (rest : Forest)
  | elem (name : Name) (attrs : List Attr) (kids : Forest) (rest : Forest)

/-- Does the name belong to an object? Prefixes do not matter. -/
def kindOf (n : Name) : Option OSMObjectType :=
  if n.loc = str% "node" then some .node
  else if n.loc = str% "way" then some .way
  else if n.loc = str% "relation" then some .relation
  else none

namespace Forest

/-- The events of a document in document order. -/
def events : Forest → List XmlEvent
  | .nil => []
  | .text r => .other :: r.events
  | .elem n as k r => .start n as :: (k.events ++ .stop n :: r.events)

/-- The object elements, in document order: their kind, attributes and content. -/
def objects : Forest → List (OSMObjectType × List Attr × Forest)
  | .nil => []
  | .text r => r.objects
  | .elem n as k r =>
    match kindOf n with
    | some kind => (kind, as, k) :: r.objects
    | none => k.objects ++ r.objects

/-- No object inside another object. -/
def Flat : Forest → Prop
  | .nil => True
  | .text r => r.Flat
  | .elem n _ k r => k.Flat ∧ ((kindOf n).isSome = true → k.objects = []) ∧ r.Flat

/-- The local names of the attributes that mean something in an OSM file. -/
def attrNames : List Str :=
  [str% "id", str% "version", str% "changeset", str% "timestamp", str% "uid", str% "user", str% "lat", str% "lon", str% "visible",
    str% "k", str% "v", str% "ref", str% "type", str% "role"]

/-- No element has two attributes with the same local name, if it is one of those (two attributes with the same local name have different prefixes). -/
def Distinct : Forest → Prop
  | .nil => True
  | .text r => r.Distinct
  | .elem _ as k r => ((as.map fun a => a.name.loc).filter (· ∈ attrNames)).Nodup ∧ k.Distinct ∧ r.Distinct

/-- All elements, in the order in which they begin. -/
def elems : Forest → List (Str × List Attr)
  | .nil => []
  | .text r => r.elems
  | .elem n as k r => (n.loc, as) :: (k.elems ++ r.elems)

end Forest

/-- The value of an attribute. -/
def attr (k : Str) (as : List Attr) : Option Str := (as.find? fun a => a.name.loc = k).map Attr.value

/-- A tag needs a key and a value. -/
def tagOf (e : Str × List Attr) : Option (Str × Str) :=
  if e.1 = str% "tag" then
    match attr (str% "k") e.2, attr (str% "v") e.2 with
    | some k, some v => some (k, v)
    | _, _ => none
  else none

/-- A reference to a node of a way needs a number. -/
def ndOf (e : Str × List Attr) : Option ObjId :=
  if e.1 = str% "nd" then (attr (str% "ref") e.2).bind parseI64 else none

/-- A member needs a number and a type. -/
def memberOf (e : Str × List Attr) : Option (OSMObjectType × ObjId × Str) :=
  if e.1 = str% "member" then
    match (attr (str% "ref") e.2).bind parseI64, (attr (str% "type") e.2).bind OSMObjectType.fromStr with
    | some r, some t => some (t, r, (attr (str% "role") e.2).getD [])
    | _, _ => none
  else none

/-- A position needs both coordinates. -/
def posOf (as : List Attr) : Option (Lat × Lon) :=
  match (attr (str% "lat") as).map Lat.fromStr, (attr (str% "lon") as).map Lon.fromStr with
  | some (.ok lat), some (.ok lon) => some (lat, lon)
  | _, _ => none

/-- The object of an element. -/
def objectOf (kind : OSMObjectType) (as : List Attr) (kids : Forest) (id : ObjId) : ObjData where
  view := {
    id := id
    version := (attr (str% "version") as).bind parseU32
    deleted := decide (attr (str% "visible") as = some (str% "false"))
    changesetId := (attr (str% "changeset") as).bind parseU32
    timestamp := (attr (str% "timestamp") as).map .iso
    uid := (attr (str% "uid") as).bind parseU32
    user := attr (str% "user") as
    tags := kids.elems.filterMap tagOf
    kind := kind }
  pos := if kind = .node then posOf as else none
  nodes := if kind = .way then kids.elems.filterMap ndOf else []
  members := if kind = .relation then kids.elems.filterMap memberOf else []

/-- The identifier of an element that can be read: it needs an identifier and, for a node, both coordinates (as
attributes, whatever their values). -/
def readableId (kind : OSMObjectType) (as : List Attr) : Option ObjId :=
  if kind = .node ∧ (attr (str% "lat") as = none ∨ attr (str% "lon") as = none) then none
  else (attr (str% "id") as).bind parseI64

/-- What an object element stands for, if it can be read. -/
def readElem (e : OSMObjectType × List Attr × Forest) : Option ObjData :=
  (readableId e.1 e.2.1).map (objectOf e.1 e.2.1 e.2.2)

end Osmio.Spec
