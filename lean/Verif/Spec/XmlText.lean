import Verif.Lib.StrLit
import Verif.Spec.Object
/-!
# Specification of the text the writers produce

Written as plain concatenations, without sinks, faults or states.
-/

namespace Osmio.Spec
open OSMObjBase

/-- The five predefined XML entities. -/
def entity : Char → Option Str
  | '&' => some (str% "amp")
  | '"' => some (str% "quot")
  | '\'' => some (str% "apos")
  | '<' => some (str% "lt")
  | '>' => some (str% "gt")
  | _ => none

/-- A character of a value, as it appears in the document. -/
def escaped1 (c : Char) : Str :=
  match entity c with
  | some e => '&' :: (e ++ [';'])
  | none => [c]

/-- A value as it appears in the document. -/
def escaped (s : Str) : Str := s.flatMap escaped1

/-- An attribute whose value is already in its document form. -/
def rawAttr (k v : Str) : Str := ' ' :: (k ++ '=' :: '"' :: (v ++ ['"']))

/-- An optional attribute. -/
def rawAttr? (k : Str) : Option Str → Str
  | some v => rawAttr k v
  | none => []

/-- What the writers show of an object. -/
structure ObjData where
  view : View
  pos : Option (Lat × Lon)
  nodes : List ObjId
  members : List (OSMObjectType × ObjId × Str)

/-- The attributes of an object element. -/
def attrsText (d : ObjData) (version : UInt32) : Str :=
  rawAttr (str% "id") (i64Str d.view.id) ++
  rawAttr (str% "visible") (if d.view.deleted then str% "false" else str% "true") ++
  rawAttr (str% "version") (u32Str version) ++
  rawAttr? (str% "user") (d.view.user.map escaped) ++
  rawAttr? (str% "uid") (d.view.uid.map u32Str) ++
  rawAttr? (str% "changeset") (d.view.changesetId.map u32Str) ++
  rawAttr? (str% "timestamp") (d.view.timestamp.map TimestampFormat.display) ++
  rawAttr? (str% "lat") (d.pos.map fun p => p.1.display) ++
  rawAttr? (str% "lon") (d.pos.map fun p => p.2.display)

/-- One `nd` element. -/
def ndText (n : ObjId) : Str := str% "\n\t\t<nd" ++ rawAttr (str% "ref") (i64Str n) ++ str% " />"
/-- One `member` element. -/
def memberText (m : OSMObjectType × ObjId × Str) : Str :=
  str% "\n\t\t<member" ++ rawAttr (str% "type") m.1.nameLong ++ rawAttr (str% "ref") (i64Str m.2.1) ++
    rawAttr (str% "role") (escaped m.2.2) ++ str% "/>"
/-- One `tag` element. -/
def tagText (t : Str × Str) : Str :=
  str% "\n\t\t<tag" ++ rawAttr (str% "k") (escaped t.1) ++ rawAttr (str% "v") (escaped t.2) ++ str% " />"

/-- The element of an object with a version. -/
def objText (d : ObjData) (version : UInt32) : Str :=
  str% "\n\t<" ++ d.view.kind.nameLong ++ attrsText d version ++
  (if d.view.kind = .node ∧ d.view.tags = [] then str% " />"
   else str% ">" ++ d.nodes.flatMap ndText ++ d.members.flatMap memberText ++ d.view.tags.flatMap tagText ++
     str% "\n\t</" ++ d.view.kind.nameLong ++ str% ">")

/-- The beginning of an XML document. -/
def xmlHead (headers : List (Str × Str)) : Str :=
  str% "<?xml version=\"1.0\" encoding=\"utf-8\"?>\n<osm version=\"0.6\" generator=\"osmio/0.16.1\"" ++
    headers.flatMap (fun h => rawAttr h.1 (escaped h.2)) ++ str% ">"
/-- The end of an XML document. -/
def xmlTail : Str := str% "\n</osm>"
/-- The beginning of a change document. -/
def oscHead : Str :=
  str% "<?xml version=\"1.0\" encoding=\"utf-8\"?>\n<osmChange version=\"0.6\" generator=\"osmio/0.16.1\">\n<modify>"
/-- The end of a change document. -/
def oscTail : Str := str% "\n</modify>\n</osmChange>"

end Osmio.Spec

namespace Osmio
open OSMObjBase

/-- Read an object through its getters. -/
def objData {α N W R : Type} [OSMObjT α N W R] [NodeT N] [WayT W] [RelationT R] (o : α) : Spec.ObjData :=
  ⟨view o, (OSMObjT.asNode o).bind NodeT.latLon, ((OSMObjT.asWay o).map WayT.nodes).getD [],
   ((OSMObjT.asRelation o).map RelationT.members).getD []⟩

end Osmio
