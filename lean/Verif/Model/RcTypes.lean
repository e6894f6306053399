import Verif.Model.TagList
/-!
# Model: `src/obj_types/rc_types.rs`

`Rc<str>` strings: all are `Str` here, and `Vec`/`SmallVec` are lists. Generated by `tools/gentypes.py`.
-/

namespace Osmio

/-- `src/obj_types/rc_types.rs:25-37` -/
structure RcNode where
  id_ : ObjId
  version_ : Option UInt32
  deleted_ : Bool
  changesetId_ : Option UInt32
  timestamp_ : Option TimestampFormat
  uid_ : Option UInt32
  user_ : Option Str
  tags_ : Option (List (Str × Str))
  latLon_ : Option (Lat × Lon)
  deriving DecidableEq

/-- `src/obj_types/rc_types.rs:39-51` -/
structure RcWay where
  id_ : ObjId
  version_ : Option UInt32
  deleted_ : Bool
  changesetId_ : Option UInt32
  timestamp_ : Option TimestampFormat
  uid_ : Option UInt32
  user_ : Option Str
  tags_ : List (Str × Str)
  nodes_ : List ObjId
  deriving DecidableEq

/-- `src/obj_types/rc_types.rs:53-65` -/
structure RcRelation where
  id_ : ObjId
  version_ : Option UInt32
  deleted_ : Bool
  changesetId_ : Option UInt32
  timestamp_ : Option TimestampFormat
  uid_ : Option UInt32
  user_ : Option Str
  tags_ : List (Str × Str)
  members_ : List (OSMObjectType × ObjId × Str)
  deriving DecidableEq

/-- `src/obj_types/rc_types.rs:67-72` -/
inductive RcOSMObj where
  | node (x : RcNode)
  | way (x : RcWay)
  | relation (x : RcRelation)
  deriving DecidableEq

namespace RcNode
/-- `src/obj_types/rc_types.rs:254-256` -/
def id (x : RcNode) : ObjId := x.id_
/-- `src/obj_types/rc_types.rs:257-259` -/
def version (x : RcNode) : Option UInt32 := x.version_
/-- `src/obj_types/rc_types.rs:260-262` -/
def deleted (x : RcNode) : Bool := x.deleted_
/-- `src/obj_types/rc_types.rs:263-265` -/
def changesetId (x : RcNode) : Option UInt32 := x.changesetId_
/-- `src/obj_types/rc_types.rs:266-268` -/
def timestamp (x : RcNode) : Option TimestampFormat := x.timestamp_
/-- `src/obj_types/rc_types.rs:269-271` -/
def uid (x : RcNode) : Option UInt32 := x.uid_
/-- `src/obj_types/rc_types.rs:272-274` -/
def user (x : RcNode) : Option Str := x.user_
/-- `src/obj_types/rc_types.rs:276-278` -/
def setId (x : RcNode) (v : ObjId) : RcNode := { x with id_ := v }
/-- `src/obj_types/rc_types.rs:279-281` -/
def setVersion (x : RcNode) (v : Option UInt32) : RcNode := { x with version_ := v }
/-- `src/obj_types/rc_types.rs:282-284` -/
def setDeleted (x : RcNode) (v : Bool) : RcNode := { x with deleted_ := v }
/-- `src/obj_types/rc_types.rs:285-287` -/
def setChangesetId (x : RcNode) (v : Option UInt32) : RcNode := { x with changesetId_ := v }
/-- `src/obj_types/rc_types.rs:288-290` -/
def setTimestamp (x : RcNode) (v : Option TimestampFormat) : RcNode := { x with timestamp_ := v }
/-- `src/obj_types/rc_types.rs:291-293` -/
def setUid (x : RcNode) (v : Option UInt32) : RcNode := { x with uid_ := v }
/-- `src/obj_types/rc_types.rs:294-296` -/
def setUser (x : RcNode) (v : Option Str) : RcNode := { x with user_ := v }
/-- `src/obj_types/rc_types.rs:298-303` -/
def tags (x : RcNode) : List (Str × Str) :=
  match x.tags_ with
  | none => []
  | some t => t
/-- `src/obj_types/rc_types.rs:305-321` -/
def tag (x : RcNode) (key : Str) : Option Str :=
  match x.tags_ with
  | none => none
  | some t => TagList.get t key
/-- `src/obj_types/rc_types.rs:323-342` -/
def setTag (x : RcNode) (key value : Str) : RcNode :=
  match x.tags_ with
  | none => { x with tags_ := some [(key, value)] }
  | some t =>
    match TagList.idx t key with
    | none => { x with tags_ := some (t ++ [(key, value)]) }
    | some i => { x with tags_ := some (t.set i (key, value)) }
/-- `src/obj_types/rc_types.rs:344-356` -/
def unsetTag (x : RcNode) (key : Str) : RcNode :=
  match x.tags_ with
  | none => x
  | some t =>
    match TagList.idx t key with
    | none => x
    | some i => { x with tags_ := some (t.eraseIdx i) }
/-- `src/obj_types/rc_types.rs:358-360` -/
def objectType (_ : RcNode) : OSMObjectType := .node

/-- `src/obj_types/rc_types.rs:253-361` -/
instance : OSMObjBase RcNode where
  id := id
  setId := setId
  version := version
  setVersion := setVersion
  deleted := deleted
  setDeleted := setDeleted
  changesetId := changesetId
  setChangesetId := setChangesetId
  timestamp := timestamp
  setTimestamp := setTimestamp
  uid := uid
  setUid := setUid
  user := user
  setUser := setUser
  tags := tags
  tag := tag
  setTag := setTag
  unsetTag := unsetTag
  objectType := objectType

/-- `src/obj_types/rc_types.rs:364-366` -/
def latLon (x : RcNode) : Option (Lat × Lon) := x.latLon_
/-- `src/obj_types/rc_types.rs:368-370` -/
def setLatLonDirect (x : RcNode) (loc : Option (Lat × Lon)) : RcNode := { x with latLon_ := loc }
/-- `src/obj_types/rc_types.rs:363-371` -/
instance : NodeT RcNode where
  latLon := latLon
  setLatLonDirect := setLatLonDirect
end RcNode

namespace RcWay
/-- `src/obj_types/rc_types.rs:374-376` -/
def id (x : RcWay) : ObjId := x.id_
/-- `src/obj_types/rc_types.rs:377-379` -/
def version (x : RcWay) : Option UInt32 := x.version_
/-- `src/obj_types/rc_types.rs:380-382` -/
def deleted (x : RcWay) : Bool := x.deleted_
/-- `src/obj_types/rc_types.rs:383-385` -/
def changesetId (x : RcWay) : Option UInt32 := x.changesetId_
/-- `src/obj_types/rc_types.rs:386-388` -/
def timestamp (x : RcWay) : Option TimestampFormat := x.timestamp_
/-- `src/obj_types/rc_types.rs:389-391` -/
def uid (x : RcWay) : Option UInt32 := x.uid_
/-- `src/obj_types/rc_types.rs:392-394` -/
def user (x : RcWay) : Option Str := x.user_
/-- `src/obj_types/rc_types.rs:396-398` -/
def setId (x : RcWay) (v : ObjId) : RcWay := { x with id_ := v }
/-- `src/obj_types/rc_types.rs:399-401` -/
def setVersion (x : RcWay) (v : Option UInt32) : RcWay := { x with version_ := v }
/-- `src/obj_types/rc_types.rs:402-404` -/
def setDeleted (x : RcWay) (v : Bool) : RcWay := { x with deleted_ := v }
/-- `src/obj_types/rc_types.rs:405-407` -/
def setChangesetId (x : RcWay) (v : Option UInt32) : RcWay := { x with changesetId_ := v }
/-- `src/obj_types/rc_types.rs:408-410` -/
def setTimestamp (x : RcWay) (v : Option TimestampFormat) : RcWay := { x with timestamp_ := v }
/-- `src/obj_types/rc_types.rs:411-413` -/
def setUid (x : RcWay) (v : Option UInt32) : RcWay := { x with uid_ := v }
/-- `src/obj_types/rc_types.rs:414-416` -/
def setUser (x : RcWay) (v : Option Str) : RcWay := { x with user_ := v }
/-- `src/obj_types/rc_types.rs:418-420` -/
def tags (x : RcWay) : List (Str × Str) := x.tags_
/-- `src/obj_types/rc_types.rs:422-434` -/
def tag (x : RcWay) (key : Str) : Option Str := TagList.get x.tags_ key
/-- `src/obj_types/rc_types.rs:436-449` -/
def setTag (x : RcWay) (key value : Str) : RcWay :=
  match TagList.idx x.tags_ key with
  | none => { x with tags_ := x.tags_ ++ [(key, value)] }
  | some i => { x with tags_ := x.tags_.set i (key, value) }
/-- `src/obj_types/rc_types.rs:451-462` -/
def unsetTag (x : RcWay) (key : Str) : RcWay :=
  match TagList.idx x.tags_ key with
  | none => x
  | some i => { x with tags_ := x.tags_.eraseIdx i }
/-- `src/obj_types/rc_types.rs:464-466` -/
def objectType (_ : RcWay) : OSMObjectType := .way

/-- `src/obj_types/rc_types.rs:373-467` -/
instance : OSMObjBase RcWay where
  id := id
  setId := setId
  version := version
  setVersion := setVersion
  deleted := deleted
  setDeleted := setDeleted
  changesetId := changesetId
  setChangesetId := setChangesetId
  timestamp := timestamp
  setTimestamp := setTimestamp
  uid := uid
  setUid := setUid
  user := user
  setUser := setUser
  tags := tags
  tag := tag
  setTag := setTag
  unsetTag := unsetTag
  objectType := objectType

/-- `src/obj_types/rc_types.rs:470-472` -/
def nodes (x : RcWay) : List ObjId := x.nodes_
/-- `src/obj_types/rc_types.rs:474-476` -/
def numNodes (x : RcWay) : Nat := x.nodes_.length
/-- `src/obj_types/rc_types.rs:478-480` -/
def node (x : RcWay) (idx : Nat) : Option ObjId := x.nodes_[idx]?
/-- `src/obj_types/rc_types.rs:481-484` -/
def setNodes (x : RcWay) (ns : List ObjId) : RcWay := { x with nodes_ := ns }
/-- `src/obj_types/rc_types.rs:469-485` -/
instance : WayT RcWay where
  nodes := nodes
  numNodes := numNodes
  node := node
  setNodes := setNodes
end RcWay

namespace RcRelation
/-- `src/obj_types/rc_types.rs:488-490` -/
def id (x : RcRelation) : ObjId := x.id_
/-- `src/obj_types/rc_types.rs:491-493` -/
def version (x : RcRelation) : Option UInt32 := x.version_
/-- `src/obj_types/rc_types.rs:494-496` -/
def deleted (x : RcRelation) : Bool := x.deleted_
/-- `src/obj_types/rc_types.rs:497-499` -/
def changesetId (x : RcRelation) : Option UInt32 := x.changesetId_
/-- `src/obj_types/rc_types.rs:500-502` -/
def timestamp (x : RcRelation) : Option TimestampFormat := x.timestamp_
/-- `src/obj_types/rc_types.rs:503-505` -/
def uid (x : RcRelation) : Option UInt32 := x.uid_
/-- `src/obj_types/rc_types.rs:506-508` -/
def user (x : RcRelation) : Option Str := x.user_
/-- `src/obj_types/rc_types.rs:510-512` -/
def setId (x : RcRelation) (v : ObjId) : RcRelation := { x with id_ := v }
/-- `src/obj_types/rc_types.rs:513-515` -/
def setVersion (x : RcRelation) (v : Option UInt32) : RcRelation := { x with version_ := v }
/-- `src/obj_types/rc_types.rs:516-518` -/
def setDeleted (x : RcRelation) (v : Bool) : RcRelation := { x with deleted_ := v }
/-- `src/obj_types/rc_types.rs:519-521` -/
def setChangesetId (x : RcRelation) (v : Option UInt32) : RcRelation := { x with changesetId_ := v }
/-- `src/obj_types/rc_types.rs:522-524` -/
def setTimestamp (x : RcRelation) (v : Option TimestampFormat) : RcRelation := { x with timestamp_ := v }
/-- `src/obj_types/rc_types.rs:525-527` -/
def setUid (x : RcRelation) (v : Option UInt32) : RcRelation := { x with uid_ := v }
/-- `src/obj_types/rc_types.rs:528-530` -/
def setUser (x : RcRelation) (v : Option Str) : RcRelation := { x with user_ := v }
/-- `src/obj_types/rc_types.rs:532-534` -/
def tags (x : RcRelation) : List (Str × Str) := x.tags_
/-- `src/obj_types/rc_types.rs:536-548` -/
def tag (x : RcRelation) (key : Str) : Option Str := TagList.get x.tags_ key
/-- `src/obj_types/rc_types.rs:550-563` -/
def setTag (x : RcRelation) (key value : Str) : RcRelation :=
  match TagList.idx x.tags_ key with
  | none => { x with tags_ := x.tags_ ++ [(key, value)] }
  | some i => { x with tags_ := x.tags_.set i (key, value) }
/-- `src/obj_types/rc_types.rs:565-576` -/
def unsetTag (x : RcRelation) (key : Str) : RcRelation :=
  match TagList.idx x.tags_ key with
  | none => x
  | some i => { x with tags_ := x.tags_.eraseIdx i }
/-- `src/obj_types/rc_types.rs:578-580` -/
def objectType (_ : RcRelation) : OSMObjectType := .relation

/-- `src/obj_types/rc_types.rs:487-581` -/
instance : OSMObjBase RcRelation where
  id := id
  setId := setId
  version := version
  setVersion := setVersion
  deleted := deleted
  setDeleted := setDeleted
  changesetId := changesetId
  setChangesetId := setChangesetId
  timestamp := timestamp
  setTimestamp := setTimestamp
  uid := uid
  setUid := setUid
  user := user
  setUser := setUser
  tags := tags
  tag := tag
  setTag := setTag
  unsetTag := unsetTag
  objectType := objectType

/-- `src/obj_types/rc_types.rs:584-588` -/
def members (x : RcRelation) : List (OSMObjectType × ObjId × Str) := x.members_.map (fun (t, i, r) => (t, i, r))
/-- `src/obj_types/rc_types.rs:590-601` -/
def setMembers (x : RcRelation) (ms : List (OSMObjectType × ObjId × Str)) : RcRelation :=
  { x with members_ := ms.map (fun (t, i, r) => (t, i, r)) }
/-- `src/obj_types/rc_types.rs:583-602` -/
instance : RelationT RcRelation where
  members := members
  setMembers := setMembers
end RcRelation

namespace RcOSMObj
/-- `src/obj_types/rc_types.rs:75-77` -/
def id : RcOSMObj → ObjId
  | .node x => x.id
  | .way x => x.id
  | .relation x => x.id
/-- `src/obj_types/rc_types.rs:78-80` -/
def version : RcOSMObj → Option UInt32
  | .node x => x.version
  | .way x => x.version
  | .relation x => x.version
/-- `src/obj_types/rc_types.rs:81-83` -/
def deleted : RcOSMObj → Bool
  | .node x => x.deleted
  | .way x => x.deleted
  | .relation x => x.deleted
/-- `src/obj_types/rc_types.rs:84-86` -/
def changesetId : RcOSMObj → Option UInt32
  | .node x => x.changesetId
  | .way x => x.changesetId
  | .relation x => x.changesetId
/-- `src/obj_types/rc_types.rs:87-89` -/
def timestamp : RcOSMObj → Option TimestampFormat
  | .node x => x.timestamp
  | .way x => x.timestamp
  | .relation x => x.timestamp
/-- `src/obj_types/rc_types.rs:90-92` -/
def uid : RcOSMObj → Option UInt32
  | .node x => x.uid
  | .way x => x.uid
  | .relation x => x.uid
/-- `src/obj_types/rc_types.rs:93-95` -/
def user : RcOSMObj → Option Str
  | .node x => x.user
  | .way x => x.user
  | .relation x => x.user
/-- `src/obj_types/rc_types.rs:97-99` -/
def setId (o : RcOSMObj) (v : ObjId) : RcOSMObj :=
  match o with
  | .node x => .node (x.setId v)
  | .way x => .way (x.setId v)
  | .relation x => .relation (x.setId v)
/-- `src/obj_types/rc_types.rs:100-102` -/
def setVersion (o : RcOSMObj) (v : Option UInt32) : RcOSMObj :=
  match o with
  | .node x => .node (x.setVersion v)
  | .way x => .way (x.setVersion v)
  | .relation x => .relation (x.setVersion v)
/-- `src/obj_types/rc_types.rs:103-105` -/
def setDeleted (o : RcOSMObj) (v : Bool) : RcOSMObj :=
  match o with
  | .node x => .node (x.setDeleted v)
  | .way x => .way (x.setDeleted v)
  | .relation x => .relation (x.setDeleted v)
/-- `src/obj_types/rc_types.rs:106-108` -/
def setChangesetId (o : RcOSMObj) (v : Option UInt32) : RcOSMObj :=
  match o with
  | .node x => .node (x.setChangesetId v)
  | .way x => .way (x.setChangesetId v)
  | .relation x => .relation (x.setChangesetId v)
/-- `src/obj_types/rc_types.rs:109-111` -/
def setTimestamp (o : RcOSMObj) (v : Option TimestampFormat) : RcOSMObj :=
  match o with
  | .node x => .node (x.setTimestamp v)
  | .way x => .way (x.setTimestamp v)
  | .relation x => .relation (x.setTimestamp v)
/-- `src/obj_types/rc_types.rs:112-114` -/
def setUid (o : RcOSMObj) (v : Option UInt32) : RcOSMObj :=
  match o with
  | .node x => .node (x.setUid v)
  | .way x => .way (x.setUid v)
  | .relation x => .relation (x.setUid v)
/-- `src/obj_types/rc_types.rs:115-117` -/
def setUser (o : RcOSMObj) (v : Option Str) : RcOSMObj :=
  match o with
  | .node x => .node (x.setUser v)
  | .way x => .way (x.setUser v)
  | .relation x => .relation (x.setUser v)
/-- `src/obj_types/rc_types.rs:119-125` -/
def tags : RcOSMObj → List (Str × Str)
  | .node x => x.tags
  | .way x => x.tags
  | .relation x => x.tags
/-- `src/obj_types/rc_types.rs:142-148` -/
def tag (o : RcOSMObj) (key : Str) : Option Str :=
  match o with
  | .node x => x.tag key
  | .way x => x.tag key
  | .relation x => x.tag key
/-- `src/obj_types/rc_types.rs:127-133` -/
def numTags : RcOSMObj → Nat
  | .node x => (match x.tags_ with | none => 0 | some t => t.length)
  | .way x => x.tags_.length
  | .relation x => x.tags_.length
/-- `src/obj_types/rc_types.rs:134-140` -/
def untagged : RcOSMObj → Bool
  | .node x => (match x.tags_ with | none => true | some t => t.isEmpty)
  | .way x => x.tags_.isEmpty
  | .relation x => x.tags_.isEmpty
/-- `src/obj_types/rc_types.rs:150-156` -/
def setTag (o : RcOSMObj) (key value : Str) : RcOSMObj :=
  match o with
  | .node x => .node (x.setTag key value)
  | .way x => .way (x.setTag key value)
  | .relation x => .relation (x.setTag key value)
/-- `src/obj_types/rc_types.rs:158-164` -/
def unsetTag (o : RcOSMObj) (key : Str) : RcOSMObj :=
  match o with
  | .node x => .node (x.unsetTag key)
  | .way x => .way (x.unsetTag key)
  | .relation x => .relation (x.unsetTag key)
/-- `src/obj_types/rc_types.rs:166-172` -/
def objectType : RcOSMObj → OSMObjectType
  | .node _ => .node
  | .way _ => .way
  | .relation _ => .relation

/-- `src/obj_types/rc_types.rs:74-173` -/
instance : OSMObjBase RcOSMObj where
  id := id
  setId := setId
  version := version
  setVersion := setVersion
  deleted := deleted
  setDeleted := setDeleted
  changesetId := changesetId
  setChangesetId := setChangesetId
  timestamp := timestamp
  setTimestamp := setTimestamp
  uid := uid
  setUid := setUid
  user := user
  setUser := setUser
  tags := tags
  tag := tag
  numTags := numTags
  untagged := untagged
  setTag := setTag
  unsetTag := unsetTag
  objectType := objectType

/-- `src/obj_types/rc_types.rs:180-186` -/
def intoNode : RcOSMObj → Option RcNode
  | .node x => some x
  | _ => none
/-- `src/obj_types/rc_types.rs:188-194` -/
def intoWay : RcOSMObj → Option RcWay
  | .way x => some x
  | _ => none
/-- `src/obj_types/rc_types.rs:196-202` -/
def intoRelation : RcOSMObj → Option RcRelation
  | .relation x => some x
  | _ => none
/-- `src/obj_types/rc_types.rs:204-210` -/
def asNode : RcOSMObj → Option RcNode
  | .node x => some x
  | _ => none
/-- `src/obj_types/rc_types.rs:212-218` -/
def asWay : RcOSMObj → Option RcWay
  | .way x => some x
  | _ => none
/-- `src/obj_types/rc_types.rs:220-226` -/
def asRelation : RcOSMObj → Option RcRelation
  | .relation x => some x
  | _ => none
/-- `src/obj_types/rc_types.rs:228-234` -/
def asNodeMut : RcOSMObj → Option (RcNode × (RcNode → RcOSMObj))
  | .node x => some (x, .node)
  | _ => none
/-- `src/obj_types/rc_types.rs:236-242` -/
def asWayMut : RcOSMObj → Option (RcWay × (RcWay → RcOSMObj))
  | .way x => some (x, .way)
  | _ => none
/-- `src/obj_types/rc_types.rs:244-250` -/
def asRelationMut : RcOSMObj → Option (RcRelation × (RcRelation → RcOSMObj))
  | .relation x => some (x, .relation)
  | _ => none

/-- `src/obj_types/rc_types.rs:175-251` -/
instance : OSMObjT RcOSMObj RcNode RcWay RcRelation where
  intoNode := intoNode
  asNode := asNode
  asNodeMut := asNodeMut
  intoWay := intoWay
  asWay := asWay
  asWayMut := asWayMut
  intoRelation := intoRelation
  asRelation := asRelation
  asRelationMut := asRelationMut
end RcOSMObj

end Osmio
