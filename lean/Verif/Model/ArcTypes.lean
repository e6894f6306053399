import Verif.Model.TagList
/-!
# Model: `src/obj_types/arc_types.rs`

`Arc<str>` strings: all are `Str` here, and `Vec`/`SmallVec` are lists. Generated by `tools/gentypes.py`.
-/

namespace Osmio

/-- `src/obj_types/arc_types.rs:25-37` -/
structure ArcNode where
  id_ : ObjId
  version_ : Option UInt32
  deleted_ : Bool
  changesetId_ : Option UInt32
  timestamp_ : Option TimestampFormat
  uid_ : Option UInt32
  user_ : Option Str
  tags_ : Option (List (Str × Str))
  latLon_ : Option (Lat × Lon)
  deriving DecidableEq

/-- `src/obj_types/arc_types.rs:39-51` -/
structure ArcWay where
  id_ : ObjId
  version_ : Option UInt32
  deleted_ : Bool
  changesetId_ : Option UInt32
  timestamp_ : Option TimestampFormat
  uid_ : Option UInt32
  user_ : Option Str
  tags_ : List (Str × Str)
  nodes_ : List ObjId
  deriving DecidableEq

/-- `src/obj_types/arc_types.rs:53-65` -/
structure ArcRelation where
  id_ : ObjId
  version_ : Option UInt32
  deleted_ : Bool
  changesetId_ : Option UInt32
  timestamp_ : Option TimestampFormat
  uid_ : Option UInt32
  user_ : Option Str
  tags_ : List (Str × Str)
  members_ : List (OSMObjectType × ObjId × Str)
  deriving DecidableEq

/-- `src/obj_types/arc_types.rs:67-72` -/
inductive ArcOSMObj where
  | node (x : ArcNode)
  | way (x : ArcWay)
  | relation (x : ArcRelation)
  deriving DecidableEq

namespace ArcNode
/-- `src/obj_types/arc_types.rs:254-256` -/
def id (x : ArcNode) : ObjId := x.id_
/-- `src/obj_types/arc_types.rs:257-259` -/
def version (x : ArcNode) : Option UInt32 := x.version_
/-- `src/obj_types/arc_types.rs:260-262` -/
def deleted (x : ArcNode) : Bool := x.deleted_
/-- `src/obj_types/arc_types.rs:263-265` -/
def changesetId (x : ArcNode) : Option UInt32 := x.changesetId_
/-- `src/obj_types/arc_types.rs:266-268` -/
def timestamp (x : ArcNode) : Option TimestampFormat := x.timestamp_
/-- `src/obj_types/arc_types.rs:269-271` -/
def uid (x : ArcNode) : Option UInt32 := x.uid_
/-- `src/obj_types/arc_types.rs:272-274` -/
def user (x : ArcNode) : Option Str := x.user_
/-- `src/obj_types/arc_types.rs:276-278` -/
def setId (x : ArcNode) (v : ObjId) : ArcNode := { x with id_ := v }
/-- `src/obj_types/arc_types.rs:279-281` -/
def setVersion (x : ArcNode) (v : Option UInt32) : ArcNode := { x with version_ := v }
/-- `src/obj_types/arc_types.rs:282-284` -/
def setDeleted (x : ArcNode) (v : Bool) : ArcNode := { x with deleted_ := v }
/-- `src/obj_types/arc_types.rs:285-287` -/
def setChangesetId (x : ArcNode) (v : Option UInt32) : ArcNode := { x with changesetId_ := v }
/-- `src/obj_types/arc_types.rs:288-290` -/
def setTimestamp (x : ArcNode) (v : Option TimestampFormat) : ArcNode := { x with timestamp_ := v }
/-- `src/obj_types/arc_types.rs:291-293` -/
def setUid (x : ArcNode) (v : Option UInt32) : ArcNode := { x with uid_ := v }
/-- `src/obj_types/arc_types.rs:294-296` -/
def setUser (x : ArcNode) (v : Option Str) : ArcNode := { x with user_ := v }
/-- `src/obj_types/arc_types.rs:298-303` -/
def tags (x : ArcNode) : List (Str × Str) :=
  match x.tags_ with
  | none => []
  | some t => t
/-- `src/obj_types/arc_types.rs:305-318` -/
def tag (x : ArcNode) (key : Str) : Option Str :=
  match x.tags_ with
  | none => none
  | some t => TagList.get t key
/-- `src/obj_types/arc_types.rs:320-339` -/
def setTag (x : ArcNode) (key value : Str) : ArcNode :=
  match x.tags_ with
  | none => { x with tags_ := some [(key, value)] }
  | some t =>
    match TagList.idx t key with
    | none => { x with tags_ := some (t ++ [(key, value)]) }
    | some i => { x with tags_ := some (t.set i (key, value)) }
/-- `src/obj_types/arc_types.rs:341-353` -/
def unsetTag (x : ArcNode) (key : Str) : ArcNode :=
  match x.tags_ with
  | none => x
  | some t =>
    match TagList.idx t key with
    | none => x
    | some i => { x with tags_ := some (t.eraseIdx i) }
/-- `src/obj_types/arc_types.rs:355-357` -/
def objectType (_ : ArcNode) : OSMObjectType := .node

/-- `src/obj_types/arc_types.rs:253-358` -/
instance : OSMObjBase ArcNode where
  id := id
  setId := setId
  version := version
  setVersion := setVersion
  deleted := deleted
  setDeleted := setDeleted
  changesetId := changesetId
  setChangesetId := setChangesetId
  timestamp := timestamp
  setTimestamp := setTimestamp
  uid := uid
  setUid := setUid
  user := user
  setUser := setUser
  tags := tags
  tag := tag
  setTag := setTag
  unsetTag := unsetTag
  objectType := objectType

/-- `src/obj_types/arc_types.rs:361-363` -/
def latLon (x : ArcNode) : Option (Lat × Lon) := x.latLon_
/-- `src/obj_types/arc_types.rs:365-367` -/
def setLatLonDirect (x : ArcNode) (loc : Option (Lat × Lon)) : ArcNode := { x with latLon_ := loc }
/-- `src/obj_types/arc_types.rs:360-368` -/
instance : NodeT ArcNode where
  latLon := latLon
  setLatLonDirect := setLatLonDirect
end ArcNode

namespace ArcWay
/-- `src/obj_types/arc_types.rs:371-373` -/
def id (x : ArcWay) : ObjId := x.id_
/-- `src/obj_types/arc_types.rs:374-376` -/
def version (x : ArcWay) : Option UInt32 := x.version_
/-- `src/obj_types/arc_types.rs:377-379` -/
def deleted (x : ArcWay) : Bool := x.deleted_
/-- `src/obj_types/arc_types.rs:380-382` -/
def changesetId (x : ArcWay) : Option UInt32 := x.changesetId_
/-- `src/obj_types/arc_types.rs:383-385` -/
def timestamp (x : ArcWay) : Option TimestampFormat := x.timestamp_
/-- `src/obj_types/arc_types.rs:386-388` -/
def uid (x : ArcWay) : Option UInt32 := x.uid_
/-- `src/obj_types/arc_types.rs:389-391` -/
def user (x : ArcWay) : Option Str := x.user_
/-- `src/obj_types/arc_types.rs:393-395` -/
def setId (x : ArcWay) (v : ObjId) : ArcWay := { x with id_ := v }
/-- `src/obj_types/arc_types.rs:396-398` -/
def setVersion (x : ArcWay) (v : Option UInt32) : ArcWay := { x with version_ := v }
/-- `src/obj_types/arc_types.rs:399-401` -/
def setDeleted (x : ArcWay) (v : Bool) : ArcWay := { x with deleted_ := v }
/-- `src/obj_types/arc_types.rs:402-404` -/
def setChangesetId (x : ArcWay) (v : Option UInt32) : ArcWay := { x with changesetId_ := v }
/-- `src/obj_types/arc_types.rs:405-407` -/
def setTimestamp (x : ArcWay) (v : Option TimestampFormat) : ArcWay := { x with timestamp_ := v }
/-- `src/obj_types/arc_types.rs:408-410` -/
def setUid (x : ArcWay) (v : Option UInt32) : ArcWay := { x with uid_ := v }
/-- `src/obj_types/arc_types.rs:411-413` -/
def setUser (x : ArcWay) (v : Option Str) : ArcWay := { x with user_ := v }
/-- `src/obj_types/arc_types.rs:415-417` -/
def tags (x : ArcWay) : List (Str × Str) := x.tags_
/-- `src/obj_types/arc_types.rs:419-431` -/
def tag (x : ArcWay) (key : Str) : Option Str := TagList.get x.tags_ key
/-- `src/obj_types/arc_types.rs:433-446` -/
def setTag (x : ArcWay) (key value : Str) : ArcWay :=
  match TagList.idx x.tags_ key with
  | none => { x with tags_ := x.tags_ ++ [(key, value)] }
  | some i => { x with tags_ := x.tags_.set i (key, value) }
/-- `src/obj_types/arc_types.rs:448-459` -/
def unsetTag (x : ArcWay) (key : Str) : ArcWay :=
  match TagList.idx x.tags_ key with
  | none => x
  | some i => { x with tags_ := x.tags_.eraseIdx i }
/-- `src/obj_types/arc_types.rs:461-463` -/
def objectType (_ : ArcWay) : OSMObjectType := .way

/-- `src/obj_types/arc_types.rs:370-464` -/
instance : OSMObjBase ArcWay where
  id := id
  setId := setId
  version := version
  setVersion := setVersion
  deleted := deleted
  setDeleted := setDeleted
  changesetId := changesetId
  setChangesetId := setChangesetId
  timestamp := timestamp
  setTimestamp := setTimestamp
  uid := uid
  setUid := setUid
  user := user
  setUser := setUser
  tags := tags
  tag := tag
  setTag := setTag
  unsetTag := unsetTag
  objectType := objectType

/-- `src/obj_types/arc_types.rs:467-469` -/
def nodes (x : ArcWay) : List ObjId := x.nodes_
/-- `src/obj_types/arc_types.rs:471-473` -/
def numNodes (x : ArcWay) : Nat := x.nodes_.length
/-- `src/obj_types/arc_types.rs:475-477` -/
def node (x : ArcWay) (idx : Nat) : Option ObjId := x.nodes_[idx]?
/-- `src/obj_types/arc_types.rs:478-481` -/
def setNodes (x : ArcWay) (ns : List ObjId) : ArcWay := { x with nodes_ := ns }
/-- `src/obj_types/arc_types.rs:466-482` -/
instance : WayT ArcWay where
  nodes := nodes
  numNodes := numNodes
  node := node
  setNodes := setNodes
end ArcWay

namespace ArcRelation
/-- `src/obj_types/arc_types.rs:485-487` -/
def id (x : ArcRelation) : ObjId := x.id_
/-- `src/obj_types/arc_types.rs:488-490` -/
def version (x : ArcRelation) : Option UInt32 := x.version_
/-- `src/obj_types/arc_types.rs:491-493` -/
def deleted (x : ArcRelation) : Bool := x.deleted_
/-- `src/obj_types/arc_types.rs:494-496` -/
def changesetId (x : ArcRelation) : Option UInt32 := x.changesetId_
/-- `src/obj_types/arc_types.rs:497-499` -/
def timestamp (x : ArcRelation) : Option TimestampFormat := x.timestamp_
/-- `src/obj_types/arc_types.rs:500-502` -/
def uid (x : ArcRelation) : Option UInt32 := x.uid_
/-- `src/obj_types/arc_types.rs:503-505` -/
def user (x : ArcRelation) : Option Str := x.user_
/-- `src/obj_types/arc_types.rs:507-509` -/
def setId (x : ArcRelation) (v : ObjId) : ArcRelation := { x with id_ := v }
/-- `src/obj_types/arc_types.rs:510-512` -/
def setVersion (x : ArcRelation) (v : Option UInt32) : ArcRelation := { x with version_ := v }
/-- `src/obj_types/arc_types.rs:513-515` -/
def setDeleted (x : ArcRelation) (v : Bool) : ArcRelation := { x with deleted_ := v }
/-- `src/obj_types/arc_types.rs:516-518` -/
def setChangesetId (x : ArcRelation) (v : Option UInt32) : ArcRelation := { x with changesetId_ := v }
/-- `src/obj_types/arc_types.rs:519-521` -/
def setTimestamp (x : ArcRelation) (v : Option TimestampFormat) : ArcRelation := { x with timestamp_ := v }
/-- `src/obj_types/arc_types.rs:522-524` -/
def setUid (x : ArcRelation) (v : Option UInt32) : ArcRelation := { x with uid_ := v }
/-- `src/obj_types/arc_types.rs:525-527` -/
def setUser (x : ArcRelation) (v : Option Str) : ArcRelation := { x with user_ := v }
/-- `src/obj_types/arc_types.rs:529-531` -/
def tags (x : ArcRelation) : List (Str × Str) := x.tags_
/-- `src/obj_types/arc_types.rs:533-545` -/
def tag (x : ArcRelation) (key : Str) : Option Str := TagList.get x.tags_ key
/-- `src/obj_types/arc_types.rs:547-560` -/
def setTag (x : ArcRelation) (key value : Str) : ArcRelation :=
  match TagList.idx x.tags_ key with
  | none => { x with tags_ := x.tags_ ++ [(key, value)] }
  | some i => { x with tags_ := x.tags_.set i (key, value) }
/-- `src/obj_types/arc_types.rs:562-573` -/
def unsetTag (x : ArcRelation) (key : Str) : ArcRelation :=
  match TagList.idx x.tags_ key with
  | none => x
  | some i => { x with tags_ := x.tags_.eraseIdx i }
/-- `src/obj_types/arc_types.rs:575-577` -/
def objectType (_ : ArcRelation) : OSMObjectType := .relation

/-- `src/obj_types/arc_types.rs:484-578` -/
instance : OSMObjBase ArcRelation where
  id := id
  setId := setId
  version := version
  setVersion := setVersion
  deleted := deleted
  setDeleted := setDeleted
  changesetId := changesetId
  setChangesetId := setChangesetId
  timestamp := timestamp
  setTimestamp := setTimestamp
  uid := uid
  setUid := setUid
  user := user
  setUser := setUser
  tags := tags
  tag := tag
  setTag := setTag
  unsetTag := unsetTag
  objectType := objectType

/-- `src/obj_types/arc_types.rs:581-585` -/
def members (x : ArcRelation) : List (OSMObjectType × ObjId × Str) := x.members_.map (fun (t, i, r) => (t, i, r))
/-- `src/obj_types/arc_types.rs:587-598` -/
def setMembers (x : ArcRelation) (ms : List (OSMObjectType × ObjId × Str)) : ArcRelation :=
  { x with members_ := ms.map (fun (t, i, r) => (t, i, r)) }
/-- `src/obj_types/arc_types.rs:580-599` -/
instance : RelationT ArcRelation where
  members := members
  setMembers := setMembers
end ArcRelation

namespace ArcOSMObj
/-- `src/obj_types/arc_types.rs:75-77` -/
def id : ArcOSMObj → ObjId
  | .node x => x.id
  | .way x => x.id
  | .relation x => x.id
/-- `src/obj_types/arc_types.rs:78-80` -/
def version : ArcOSMObj → Option UInt32
  | .node x => x.version
  | .way x => x.version
  | .relation x => x.version
/-- `src/obj_types/arc_types.rs:81-83` -/
def deleted : ArcOSMObj → Bool
  | .node x => x.deleted
  | .way x => x.deleted
  | .relation x => x.deleted
/-- `src/obj_types/arc_types.rs:84-86` -/
def changesetId : ArcOSMObj → Option UInt32
  | .node x => x.changesetId
  | .way x => x.changesetId
  | .relation x => x.changesetId
/-- `src/obj_types/arc_types.rs:87-89` -/
def timestamp : ArcOSMObj → Option TimestampFormat
  | .node x => x.timestamp
  | .way x => x.timestamp
  | .relation x => x.timestamp
/-- `src/obj_types/arc_types.rs:90-92` -/
def uid : ArcOSMObj → Option UInt32
  | .node x => x.uid
  | .way x => x.uid
  | .relation x => x.uid
/-- `src/obj_types/arc_types.rs:93-95` -/
def user : ArcOSMObj → Option Str
  | .node x => x.user
  | .way x => x.user
  | .relation x => x.user
/-- `src/obj_types/arc_types.rs:97-99` -/
def setId (o : ArcOSMObj) (v : ObjId) : ArcOSMObj :=
  match o with
  | .node x => .node (x.setId v)
  | .way x => .way (x.setId v)
  | .relation x => .relation (x.setId v)
/-- `src/obj_types/arc_types.rs:100-102` -/
def setVersion (o : ArcOSMObj) (v : Option UInt32) : ArcOSMObj :=
  match o with
  | .node x => .node (x.setVersion v)
  | .way x => .way (x.setVersion v)
  | .relation x => .relation (x.setVersion v)
/-- `src/obj_types/arc_types.rs:103-105` -/
def setDeleted (o : ArcOSMObj) (v : Bool) : ArcOSMObj :=
  match o with
  | .node x => .node (x.setDeleted v)
  | .way x => .way (x.setDeleted v)
  | .relation x => .relation (x.setDeleted v)
/-- `src/obj_types/arc_types.rs:106-108` -/
def setChangesetId (o : ArcOSMObj) (v : Option UInt32) : ArcOSMObj :=
  match o with
  | .node x => .node (x.setChangesetId v)
  | .way x => .way (x.setChangesetId v)
  | .relation x => .relation (x.setChangesetId v)
/-- `src/obj_types/arc_types.rs:109-111` -/
def setTimestamp (o : ArcOSMObj) (v : Option TimestampFormat) : ArcOSMObj :=
  match o with
  | .node x => .node (x.setTimestamp v)
  | .way x => .way (x.setTimestamp v)
  | .relation x => .relation (x.setTimestamp v)
/-- `src/obj_types/arc_types.rs:112-114` -/
def setUid (o : ArcOSMObj) (v : Option UInt32) : ArcOSMObj :=
  match o with
  | .node x => .node (x.setUid v)
  | .way x => .way (x.setUid v)
  | .relation x => .relation (x.setUid v)
/-- `src/obj_types/arc_types.rs:115-117` -/
def setUser (o : ArcOSMObj) (v : Option Str) : ArcOSMObj :=
  match o with
  | .node x => .node (x.setUser v)
  | .way x => .way (x.setUser v)
  | .relation x => .relation (x.setUser v)
/-- `src/obj_types/arc_types.rs:119-125` -/
def tags : ArcOSMObj → List (Str × Str)
  | .node x => x.tags
  | .way x => x.tags
  | .relation x => x.tags
/-- `src/obj_types/arc_types.rs:142-148` -/
def tag (o : ArcOSMObj) (key : Str) : Option Str :=
  match o with
  | .node x => x.tag key
  | .way x => x.tag key
  | .relation x => x.tag key
/-- `src/obj_types/arc_types.rs:127-133` -/
def numTags : ArcOSMObj → Nat
  | .node x => (match x.tags_ with | none => 0 | some t => t.length)
  | .way x => x.tags_.length
  | .relation x => x.tags_.length
/-- `src/obj_types/arc_types.rs:134-140` -/
def untagged : ArcOSMObj → Bool
  | .node x => (match x.tags_ with | none => true | some t => t.isEmpty)
  | .way x => x.tags_.isEmpty
  | .relation x => x.tags_.isEmpty
/-- `src/obj_types/arc_types.rs:150-156` -/
def setTag (o : ArcOSMObj) (key value : Str) : ArcOSMObj :=
  match o with
  | .node x => .node (x.setTag key value)
  | .way x => .way (x.setTag key value)
  | .relation x => .relation (x.setTag key value)
/-- `src/obj_types/arc_types.rs:158-164` -/
def unsetTag (o : ArcOSMObj) (key : Str) : ArcOSMObj :=
  match o with
  | .node x => .node (x.unsetTag key)
  | .way x => .way (x.unsetTag key)
  | .relation x => .relation (x.unsetTag key)
/-- `src/obj_types/arc_types.rs:166-172` -/
def objectType : ArcOSMObj → OSMObjectType
  | .node _ => .node
  | .way _ => .way
  | .relation _ => .relation

/-- `src/obj_types/arc_types.rs:74-173` -/
instance : OSMObjBase ArcOSMObj where
  id := id
  setId := setId
  version := version
  setVersion := setVersion
  deleted := deleted
  setDeleted := setDeleted
  changesetId := changesetId
  setChangesetId := setChangesetId
  timestamp := timestamp
  setTimestamp := setTimestamp
  uid := uid
  setUid := setUid
  user := user
  setUser := setUser
  tags := tags
  tag := tag
  numTags := numTags
  untagged := untagged
  setTag := setTag
  unsetTag := unsetTag
  objectType := objectType

/-- `src/obj_types/arc_types.rs:180-186` -/
def intoNode : ArcOSMObj → Option ArcNode
  | .node x => some x
  | _ => none
/-- `src/obj_types/arc_types.rs:188-194` -/
def intoWay : ArcOSMObj → Option ArcWay
  | .way x => some x
  | _ => none
/-- `src/obj_types/arc_types.rs:196-202` -/
def intoRelation : ArcOSMObj → Option ArcRelation
  | .relation x => some x
  | _ => none
/-- `src/obj_types/arc_types.rs:204-210` -/
def asNode : ArcOSMObj → Option ArcNode
  | .node x => some x
  | _ => none
/-- `src/obj_types/arc_types.rs:212-218` -/
def asWay : ArcOSMObj → Option ArcWay
  | .way x => some x
  | _ => none
/-- `src/obj_types/arc_types.rs:220-226` -/
def asRelation : ArcOSMObj → Option ArcRelation
  | .relation x => some x
  | _ => none
/-- `src/obj_types/arc_types.rs:228-234` -/
def asNodeMut : ArcOSMObj → Option (ArcNode × (ArcNode → ArcOSMObj))
  | .node x => some (x, .node)
  | _ => none
/-- `src/obj_types/arc_types.rs:236-242` -/
def asWayMut : ArcOSMObj → Option (ArcWay × (ArcWay → ArcOSMObj))
  | .way x => some (x, .way)
  | _ => none
/-- `src/obj_types/arc_types.rs:244-250` -/
def asRelationMut : ArcOSMObj → Option (ArcRelation × (ArcRelation → ArcOSMObj))
  | .relation x => some (x, .relation)
  | _ => none

/-- `src/obj_types/arc_types.rs:175-251` -/
instance : OSMObjT ArcOSMObj ArcNode ArcWay ArcRelation where
  intoNode := intoNode
  asNode := asNode
  asNodeMut := asNodeMut
  intoWay := intoWay
  asWay := asWay
  asWayMut := asWayMut
  intoRelation := intoRelation
  asRelation := asRelation
  asRelationMut := asRelationMut
end ArcOSMObj

end Osmio
