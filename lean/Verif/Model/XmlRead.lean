import Verif.Lib.Xml
import Verif.Model.Family
/-!
# Model: the XML and OSC readers (`src/xml/mod.rs`, `src/osc/mod.rs`)

A reader owns an iterator over the parser's events; here the list of the events still to come, where `none` is an
error of the parser (on which the readers panic). Rust code that changes attribute lists in place returns the changed list.
-/

namespace Osmio
open Xml

/-- `Vec::swap_remove`: the element at `i` is replaced by the last one; `src/xml/mod.rs:167`. -/
def swapRemove {α : Type} (l : List α) (i : Nat) : List α :=
  match l.getLast? with
  | some x => (l.set i x).dropLast
  | none => l

/-- `src/xml/mod.rs:162-171`: the value and what is left of the attributes. -/
def getXmlAttribute (attrs : List Attr) (key : Str) : Option Str × List Attr :=
  match attrs.findIdx? (fun a => a.name.loc == key) with
  | some i => (attrs[i]?.map Attr.value, swapRemove attrs i)
  | none => (none, attrs)

/-- `src/xml/mod.rs:175-190`, one element of `get_tags` -/
def tagOf : XmlEvent → Option (Str × Str)
  | .start name attrs =>
    if name.loc = str% "tag" then
      let (ko, attrs) := getXmlAttribute attrs (str% "k")
      let (vo, _) := getXmlAttribute attrs (str% "v")
      match ko, vo with
      | some k, some v => some (k, v)
      | _, _ => none
    else none
  | _ => none

/-- `src/xml/mod.rs:173-193` -/
def getTags (els : List XmlEvent) : List (Str × Str) := els.filterMap tagOf

/-- `src/xml/mod.rs:198-213`, one element of `get_nodes` -/
def ndOf : XmlEvent → Option ObjId
  | .start name attrs =>
    if name.loc = str% "nd" then (getXmlAttribute attrs (str% "ref")).1.bind parseI64
    else none
  | _ => none

/-- `src/xml/mod.rs:195-216` -/
def getNodes (els : List XmlEvent) : List ObjId := els.filterMap ndOf

/-- `src/xml/mod.rs:221-239`, one element of `get_members` -/
def memberOf : XmlEvent → Option (OSMObjectType × ObjId × Str)
  | .start name attrs =>
    if name.loc = str% "member" then
      let (refO, attrs) := getXmlAttribute attrs (str% "ref")
      let (typeO, attrs) := getXmlAttribute attrs (str% "type")
      let (roleO, _) := getXmlAttribute attrs (str% "role")
      match refO.bind parseI64, typeO.bind OSMObjectType.fromStr with
      | some refId, some memberType => some (memberType, refId, roleO.getD [])
      | _, _ => none
    else none
  | _ => none

/-- `src/xml/mod.rs:218-242` -/
def getMembers (els : List XmlEvent) : List (OSMObjectType × ObjId × Str) := els.filterMap memberOf

/-- `src/xml/mod.rs:272-278` (and the same in the functions for ways and relations): the value of the attribute `visible`. -/
def deletedOf (visible : Option Str) : Bool :=
  (visible.bind fun val =>
    if val = str% "true" then some false else if val = str% "false" then some true else none).getD false

/-- `src/xml/mod.rs:268-271`: both coordinates, or none. -/
def latLonOf (lat : Except ParseLatLonError Lat) (lon : Except ParseLatLonError Lon) : Option (Lat × Lon) :=
  match lat, lon with
  | .ok lat, .ok lon => some (lat, lon)
  | _, _ => none

/-- `src/xml/mod.rs:256-293`. `attrs` are the attributes of the first element of `els` (`extract_attrs`,
lines 150-160); their removal from it does not change what `get_tags` finds, as that element is not a `tag`. -/
def nodeXmlElementsToOsmObj (attrs : List Attr) (els : List XmlEvent) : Option StringOSMObj :=
  let (ido, attrs) := getXmlAttribute attrs (str% "id")
  match ido.bind parseI64 with
  | none => none
  | some id =>
    let (versionO, attrs) := getXmlAttribute attrs (str% "version")
    let (changesetO, attrs) := getXmlAttribute attrs (str% "changeset")
    let (timestampO, attrs) := getXmlAttribute attrs (str% "timestamp")
    let (uidO, attrs) := getXmlAttribute attrs (str% "uid")
    let (user, attrs) := getXmlAttribute attrs (str% "user")
    let (latO, attrs) := getXmlAttribute attrs (str% "lat")
    match latO with
    | none => none
    | some latS =>
      let (lonO, attrs) := getXmlAttribute attrs (str% "lon")
      match lonO with
      | none => none
      | some lonS =>
        let (visible, _) := getXmlAttribute attrs (str% "visible")
        some (.node {
          id_ := id
          version_ := versionO.bind parseU32
          deleted_ := deletedOf visible
          changesetId_ := changesetO.bind parseU32
          timestamp_ := timestampO.map TimestampFormat.iso
          uid_ := uidO.bind parseU32
          user_ := user
          latLon_ := latLonOf (Lat.fromStr latS) (Lon.fromStr lonS)
          tags_ := getTags els })

/-- `src/xml/mod.rs:295-325` -/
def wayXmlElementsToOsmObj (attrs : List Attr) (els : List XmlEvent) : Option StringOSMObj :=
  let (ido, attrs) := getXmlAttribute attrs (str% "id")
  match ido.bind parseI64 with
  | none => none
  | some id =>
    let (versionO, attrs) := getXmlAttribute attrs (str% "version")
    let (changesetO, attrs) := getXmlAttribute attrs (str% "changeset")
    let (timestampO, attrs) := getXmlAttribute attrs (str% "timestamp")
    let (uidO, attrs) := getXmlAttribute attrs (str% "uid")
    let (user, attrs) := getXmlAttribute attrs (str% "user")
    let (visible, _) := getXmlAttribute attrs (str% "visible")
    some (.way {
      id_ := id
      version_ := versionO.bind parseU32
      deleted_ := deletedOf visible
      changesetId_ := changesetO.bind parseU32
      timestamp_ := timestampO.map TimestampFormat.iso
      uid_ := uidO.bind parseU32
      user_ := user
      tags_ := getTags els
      nodes_ := getNodes els })

/-- `src/xml/mod.rs:327-357` -/
def relationXmlElementsToOsmObj (attrs : List Attr) (els : List XmlEvent) : Option StringOSMObj :=
  let (ido, attrs) := getXmlAttribute attrs (str% "id")
  match ido.bind parseI64 with
  | none => none
  | some id =>
    let (versionO, attrs) := getXmlAttribute attrs (str% "version")
    let (changesetO, attrs) := getXmlAttribute attrs (str% "changeset")
    let (timestampO, attrs) := getXmlAttribute attrs (str% "timestamp")
    let (uidO, attrs) := getXmlAttribute attrs (str% "uid")
    let (user, attrs) := getXmlAttribute attrs (str% "user")
    let (visible, _) := getXmlAttribute attrs (str% "visible")
    some (.relation {
      id_ := id
      version_ := versionO.bind parseU32
      deleted_ := deletedOf visible
      changesetId_ := changesetO.bind parseU32
      timestamp_ := timestampO.map TimestampFormat.iso
      uid_ := uidO.bind parseU32
      user_ := user
      tags_ := getTags els
      members_ := getMembers els })

/-- `src/xml/mod.rs:244-254` -/
def xmlElementsToOsmObj (els : List XmlEvent) : Option StringOSMObj :=
  match els with
  | .start name attrs :: _ =>
    if name.loc = str% "node" then nodeXmlElementsToOsmObj attrs els
    else if name.loc = str% "way" then wayXmlElementsToOsmObj attrs els
    else if name.loc = str% "relation" then relationXmlElementsToOsmObj attrs els
    else none
  | _ => none

/-- The patterns `"node" | "way" | "relation"` of `src/xml/mod.rs:109` and 115. -/
def isObjName (n : Name) : Bool := n.loc == str% "node" || n.loc == str% "way" || n.loc == str% "relation"

/-- An iteration sees: should it push from now on (`src/xml/mod.rs:108-113`)? -/
def pushNow : XmlEvent → Bool
  | .start name _ => isObjName name
  | _ => false

/-- An iteration sees: should it break (`src/xml/mod.rs:114-119`)? -/
def breakNow : XmlEvent → Bool
  | .stop name => isObjName name
  | _ => false

/-- `src/xml/mod.rs:92-129`: the loop of `next`. -/
def XMLReader.collect (shouldPush : Bool) (elements : List XmlEvent) :
    List (Option XmlEvent) → Res (List XmlEvent) × List (Option XmlEvent)
  | [] => (.ok elements, [])
  | none :: r => (.error .unwrap, r)
  | some el :: r =>
    let shouldPush := shouldPush || pushNow el
    let elements := if shouldPush then elements ++ [el] else elements
    if breakNow el then (.ok elements, r) else XMLReader.collect shouldPush elements r

/-- `src/xml/mod.rs:91-132` -/
def XMLReader.next (evs : List (Option XmlEvent)) : Res (Option StringOSMObj) × List (Option XmlEvent) :=
  match XMLReader.collect false [] evs with
  | (.ok elements, r) => (.ok (xmlElementsToOsmObj elements), r)
  | (.error p, r) => (.error p, r)

/-- The pattern of `src/osc/mod.rs:66-71` -/
def oscPushNow : XmlEvent → Bool
  | .start name _ => name.loc == str% "node" || name.loc == str% "way" || name.loc == str% "relation"
  | _ => false

/-- The pattern of `src/osc/mod.rs:72-77` -/
def oscBreakNow : XmlEvent → Bool
  | .stop name => name.loc == str% "node" || name.loc == str% "way" || name.loc == str% "relation"
  | _ => false

/-- `src/osc/mod.rs:52-87`: the loop of `next`. -/
def OSCReader.collect (shouldPush : Bool) (elements : List XmlEvent) :
    List (Option XmlEvent) → Res (List XmlEvent) × List (Option XmlEvent)
  | [] => (.ok elements, [])
  | none :: r => (.error .unwrap, r)
  | some el :: r =>
    let shouldPush := shouldPush || oscPushNow el
    let elements := if shouldPush then elements ++ [el] else elements
    if oscBreakNow el then (.ok elements, r) else OSCReader.collect shouldPush elements r

/-- `src/osc/mod.rs:49-90` -/
def OSCReader.next (evs : List (Option XmlEvent)) : Res (Option StringOSMObj) × List (Option XmlEvent) :=
  match OSCReader.collect false [] evs with
  | (.ok elements, r) => (.ok (xmlElementsToOsmObj elements), r)
  | (.error p, r) => (.error p, r)

/-- `XMLReader::new` (`src/xml/mod.rs:77-81`) on a byte stream, with the whole stream tokenised. -/
def XMLReader.new (norm : Xml.Config) (bytes : List UInt8) : List (Option XmlEvent) := eventsOfBytes norm bytes

/-- `OSCReader::new` (`src/osc/mod.rs:35-39`) -/
def OSCReader.new (norm : Xml.Config) (bytes : List UInt8) : List (Option XmlEvent) := eventsOfBytes norm bytes

end Osmio
