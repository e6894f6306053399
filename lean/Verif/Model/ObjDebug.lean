import Verif.Lib.RustDebug
import Verif.Model.LatLonDebug
import Verif.Model.StringTypes
import Verif.Model.RcTypes
import Verif.Model.ArcTypes
/-!
# Model: `Debug` of the objects

`plain` says which characters the standard library shows as they are; `alt` is the flag of `{:#?}`. Smart pointers, small vectors and small
strings show what they hold.
-/

namespace Osmio

/-- `Debug` of an `i64`; `src/lib.rs:62`, `ObjId`. -/
def debugI64 (x : Int64) : Str := intStr x.toInt

/-- `Debug` of a `u32`; `src/obj_types/string_types.rs:32`, `37`, `41`, the types of `_version`, `_changeset_id`, `_uid`. -/
def debugU32 (x : UInt32) : Str := natStr x.toNat

/-- `src/lib.rs:248-252`, `derive(Debug)` -/
def TimestampFormat.debug (plain : Char → Bool) (alt : Bool) : TimestampFormat → Str
  | .iso s => debugTuple alt (str% "ISOString") [debugStr plain s]
  | .epoch n => debugTuple alt (str% "EpochNumber") [debugI64 n]

/-- A list of tags, `src/obj_types/string_types.rs:46`. -/
def debugTags (plain : Char → Bool) (alt : Bool) (ts : List (Str × Str)) : Str :=
  debugList alt (ts.map fun t => debugTuple alt [] [debugStr plain t.1, debugStr plain t.2])

/-- A position, `src/obj_types/string_types.rs:49`. -/
def debugLatLon (alt : Bool) (p : Lat × Lon) : Str := debugTuple alt [] [p.1.debug, p.2.debug]

/-- A member, `src/obj_types/string_types.rs:97`. -/
def debugMember (plain : Char → Bool) (alt : Bool) (m : OSMObjectType × ObjId × Str) : Str :=
  debugTuple alt [] [m.1.debug, debugI64 m.2.1, debugStr plain m.2.2]

/-- `src/obj_types/string_types.rs:26-50`, `derive(Debug)` -/
def StringNode.debug (plain : Char → Bool) (alt : Bool) (x : StringNode) : Str :=
  debugStruct alt (str% "StringNode") [
    (str% "_id", debugI64 x.id_),
    (str% "_version", debugOption alt debugU32 x.version_),
    (str% "_deleted", debugBool x.deleted_),
    (str% "_changeset_id", debugOption alt debugU32 x.changesetId_),
    (str% "_timestamp", debugOption alt (TimestampFormat.debug plain alt) x.timestamp_),
    (str% "_uid", debugOption alt debugU32 x.uid_),
    (str% "_user", debugOption alt (debugStr plain) x.user_),
    (str% "_tags", debugTags plain alt x.tags_),
    (str% "_lat_lon", debugOption alt (debugLatLon alt) x.latLon_)]

/-- `src/obj_types/string_types.rs:52-74`, `derive(Debug)` -/
def StringWay.debug (plain : Char → Bool) (alt : Bool) (x : StringWay) : Str :=
  debugStruct alt (str% "StringWay") [
    (str% "_id", debugI64 x.id_),
    (str% "_version", debugOption alt debugU32 x.version_),
    (str% "_deleted", debugBool x.deleted_),
    (str% "_changeset_id", debugOption alt debugU32 x.changesetId_),
    (str% "_timestamp", debugOption alt (TimestampFormat.debug plain alt) x.timestamp_),
    (str% "_uid", debugOption alt debugU32 x.uid_),
    (str% "_user", debugOption alt (debugStr plain) x.user_),
    (str% "_tags", debugTags plain alt x.tags_),
    (str% "_nodes", debugList alt (x.nodes_.map debugI64))]

/-- `src/obj_types/string_types.rs:76-98`, `derive(Debug)` -/
def StringRelation.debug (plain : Char → Bool) (alt : Bool) (x : StringRelation) : Str :=
  debugStruct alt (str% "StringRelation") [
    (str% "_id", debugI64 x.id_),
    (str% "_version", debugOption alt debugU32 x.version_),
    (str% "_deleted", debugBool x.deleted_),
    (str% "_changeset_id", debugOption alt debugU32 x.changesetId_),
    (str% "_timestamp", debugOption alt (TimestampFormat.debug plain alt) x.timestamp_),
    (str% "_uid", debugOption alt debugU32 x.uid_),
    (str% "_user", debugOption alt (debugStr plain) x.user_),
    (str% "_tags", debugTags plain alt x.tags_),
    (str% "_members", debugList alt (x.members_.map (debugMember plain alt)))]

/-- `src/obj_types/string_types.rs:100-105`, `derive(Debug)` -/
def StringOSMObj.debug (plain : Char → Bool) (alt : Bool) : StringOSMObj → Str
  | .node x => debugTuple alt (str% "Node") [x.debug plain alt]
  | .way x => debugTuple alt (str% "Way") [x.debug plain alt]
  | .relation x => debugTuple alt (str% "Relation") [x.debug plain alt]

/-- `src/obj_types/rc_types.rs:25-37`, `derive(Debug)` -/
def RcNode.debug (plain : Char → Bool) (alt : Bool) (x : RcNode) : Str :=
  debugStruct alt (str% "RcNode") [
    (str% "_id", debugI64 x.id_),
    (str% "_version", debugOption alt debugU32 x.version_),
    (str% "_deleted", debugBool x.deleted_),
    (str% "_changeset_id", debugOption alt debugU32 x.changesetId_),
    (str% "_timestamp", debugOption alt (TimestampFormat.debug plain alt) x.timestamp_),
    (str% "_uid", debugOption alt debugU32 x.uid_),
    (str% "_user", debugOption alt (debugStr plain) x.user_),
    (str% "_tags", debugOption alt (debugTags plain alt) x.tags_),
    (str% "_lat_lon", debugOption alt (debugLatLon alt) x.latLon_)]

/-- `src/obj_types/rc_types.rs:39-51`, `derive(Debug)` -/
def RcWay.debug (plain : Char → Bool) (alt : Bool) (x : RcWay) : Str :=
  debugStruct alt (str% "RcWay") [
    (str% "_id", debugI64 x.id_),
    (str% "_version", debugOption alt debugU32 x.version_),
    (str% "_deleted", debugBool x.deleted_),
    (str% "_changeset_id", debugOption alt debugU32 x.changesetId_),
    (str% "_timestamp", debugOption alt (TimestampFormat.debug plain alt) x.timestamp_),
    (str% "_uid", debugOption alt debugU32 x.uid_),
    (str% "_user", debugOption alt (debugStr plain) x.user_),
    (str% "_tags", debugTags plain alt x.tags_),
    (str% "_nodes", debugList alt (x.nodes_.map debugI64))]

/-- `src/obj_types/rc_types.rs:53-65`, `derive(Debug)` -/
def RcRelation.debug (plain : Char → Bool) (alt : Bool) (x : RcRelation) : Str :=
  debugStruct alt (str% "RcRelation") [
    (str% "_id", debugI64 x.id_),
    (str% "_version", debugOption alt debugU32 x.version_),
    (str% "_deleted", debugBool x.deleted_),
    (str% "_changeset_id", debugOption alt debugU32 x.changesetId_),
    (str% "_timestamp", debugOption alt (TimestampFormat.debug plain alt) x.timestamp_),
    (str% "_uid", debugOption alt debugU32 x.uid_),
    (str% "_user", debugOption alt (debugStr plain) x.user_),
    (str% "_tags", debugTags plain alt x.tags_),
    (str% "_members", debugList alt (x.members_.map (debugMember plain alt)))]

/-- `src/obj_types/rc_types.rs:67-72`, `derive(Debug)` -/
def RcOSMObj.debug (plain : Char → Bool) (alt : Bool) : RcOSMObj → Str
  | .node x => debugTuple alt (str% "Node") [x.debug plain alt]
  | .way x => debugTuple alt (str% "Way") [x.debug plain alt]
  | .relation x => debugTuple alt (str% "Relation") [x.debug plain alt]

/-- `src/obj_types/arc_types.rs:25-37`, `derive(Debug)` -/
def ArcNode.debug (plain : Char → Bool) (alt : Bool) (x : ArcNode) : Str :=
  debugStruct alt (str% "ArcNode") [
    (str% "_id", debugI64 x.id_),
    (str% "_version", debugOption alt debugU32 x.version_),
    (str% "_deleted", debugBool x.deleted_),
    (str% "_changeset_id", debugOption alt debugU32 x.changesetId_),
    (str% "_timestamp", debugOption alt (TimestampFormat.debug plain alt) x.timestamp_),
    (str% "_uid", debugOption alt debugU32 x.uid_),
    (str% "_user", debugOption alt (debugStr plain) x.user_),
    (str% "_tags", debugOption alt (debugTags plain alt) x.tags_),
    (str% "_lat_lon", debugOption alt (debugLatLon alt) x.latLon_)]

/-- `src/obj_types/arc_types.rs:39-51`, `derive(Debug)` -/
def ArcWay.debug (plain : Char → Bool) (alt : Bool) (x : ArcWay) : Str :=
  debugStruct alt (str% "ArcWay") [
    (str% "_id", debugI64 x.id_),
    (str% "_version", debugOption alt debugU32 x.version_),
    (str% "_deleted", debugBool x.deleted_),
    (str% "_changeset_id", debugOption alt debugU32 x.changesetId_),
    (str% "_timestamp", debugOption alt (TimestampFormat.debug plain alt) x.timestamp_),
    (str% "_uid", debugOption alt debugU32 x.uid_),
    (str% "_user", debugOption alt (debugStr plain) x.user_),
    (str% "_tags", debugTags plain alt x.tags_),
    (str% "_nodes", debugList alt (x.nodes_.map debugI64))]

/-- `src/obj_types/arc_types.rs:53-65`, `derive(Debug)` -/
def ArcRelation.debug (plain : Char → Bool) (alt : Bool) (x : ArcRelation) : Str :=
  debugStruct alt (str% "ArcRelation") [
    (str% "_id", debugI64 x.id_),
    (str% "_version", debugOption alt debugU32 x.version_),
    (str% "_deleted", debugBool x.deleted_),
    (str% "_changeset_id", debugOption alt debugU32 x.changesetId_),
    (str% "_timestamp", debugOption alt (TimestampFormat.debug plain alt) x.timestamp_),
    (str% "_uid", debugOption alt debugU32 x.uid_),
    (str% "_user", debugOption alt (debugStr plain) x.user_),
    (str% "_tags", debugTags plain alt x.tags_),
    (str% "_members", debugList alt (x.members_.map (debugMember plain alt)))]

/-- `src/obj_types/arc_types.rs:67-72`, `derive(Debug)` -/
def ArcOSMObj.debug (plain : Char → Bool) (alt : Bool) : ArcOSMObj → Str
  | .node x => debugTuple alt (str% "Node") [x.debug plain alt]
  | .way x => debugTuple alt (str% "Way") [x.debug plain alt]
  | .relation x => debugTuple alt (str% "Relation") [x.debug plain alt]

/-- `src/bin/osmio-osc-debug.rs:15`: `dbg!(o)`, on the standard error stream. `place` is the file, line and column of the call. -/
def dbgLine (plain : Char → Bool) (place : Str) (o : StringOSMObj) : Str :=
  str% "[" ++ place ++ str% "] o = " ++ o.debug plain true ++ ['\n']

end Osmio
