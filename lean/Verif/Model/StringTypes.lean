import Verif.Model.TagList
/-!
# Model: `src/obj_types/string_types.rs`

inline or heap strings (`SmolStr`), small vectors: all are `Str` here, and `Vec`/`SmallVec` are lists. Generated by `tools/gentypes.py`.
-/

namespace Osmio

/-- `src/obj_types/string_types.rs:26-50` -/
structure StringNode where
  id_ : ObjId
  version_ : Option UInt32
  deleted_ : Bool
  changesetId_ : Option UInt32
  timestamp_ : Option TimestampFormat
  uid_ : Option UInt32
  user_ : Option Str
  tags_ : List (Str × Str)
  latLon_ : Option (Lat × Lon)
  deriving DecidableEq

/-- `src/obj_types/string_types.rs:52-74` -/
structure StringWay where
  id_ : ObjId
  version_ : Option UInt32
  deleted_ : Bool
  changesetId_ : Option UInt32
  timestamp_ : Option TimestampFormat
  uid_ : Option UInt32
  user_ : Option Str
  tags_ : List (Str × Str)
  nodes_ : List ObjId
  deriving DecidableEq

/-- `src/obj_types/string_types.rs:76-98` -/
structure StringRelation where
  id_ : ObjId
  version_ : Option UInt32
  deleted_ : Bool
  changesetId_ : Option UInt32
  timestamp_ : Option TimestampFormat
  uid_ : Option UInt32
  user_ : Option Str
  tags_ : List (Str × Str)
  members_ : List (OSMObjectType × ObjId × Str)
  deriving DecidableEq

/-- `src/obj_types/string_types.rs:100-105` -/
inductive StringOSMObj where
  | node (x : StringNode)
  | way (x : StringWay)
  | relation (x : StringRelation)
  deriving DecidableEq

namespace StringNode
/-- `src/obj_types/string_types.rs:284-286` -/
def id (x : StringNode) : ObjId := x.id_
/-- `src/obj_types/string_types.rs:287-289` -/
def version (x : StringNode) : Option UInt32 := x.version_
/-- `src/obj_types/string_types.rs:290-292` -/
def deleted (x : StringNode) : Bool := x.deleted_
/-- `src/obj_types/string_types.rs:293-295` -/
def changesetId (x : StringNode) : Option UInt32 := x.changesetId_
/-- `src/obj_types/string_types.rs:296-298` -/
def timestamp (x : StringNode) : Option TimestampFormat := x.timestamp_
/-- `src/obj_types/string_types.rs:299-301` -/
def uid (x : StringNode) : Option UInt32 := x.uid_
/-- `src/obj_types/string_types.rs:302-304` -/
def user (x : StringNode) : Option Str := x.user_
/-- `src/obj_types/string_types.rs:306-308` -/
def setId (x : StringNode) (v : ObjId) : StringNode := { x with id_ := v }
/-- `src/obj_types/string_types.rs:309-311` -/
def setVersion (x : StringNode) (v : Option UInt32) : StringNode := { x with version_ := v }
/-- `src/obj_types/string_types.rs:312-314` -/
def setDeleted (x : StringNode) (v : Bool) : StringNode := { x with deleted_ := v }
/-- `src/obj_types/string_types.rs:315-317` -/
def setChangesetId (x : StringNode) (v : Option UInt32) : StringNode := { x with changesetId_ := v }
/-- `src/obj_types/string_types.rs:318-320` -/
def setTimestamp (x : StringNode) (v : Option TimestampFormat) : StringNode := { x with timestamp_ := v }
/-- `src/obj_types/string_types.rs:321-323` -/
def setUid (x : StringNode) (v : Option UInt32) : StringNode := { x with uid_ := v }
/-- `src/obj_types/string_types.rs:324-326` -/
def setUser (x : StringNode) (v : Option Str) : StringNode := { x with user_ := v }
/-- `src/obj_types/string_types.rs:328-330` -/
def tags (x : StringNode) : List (Str × Str) := x.tags_
/-- `src/obj_types/string_types.rs:332-338` -/
def tag (x : StringNode) (key : Str) : Option Str := TagList.get x.tags_ key
/-- `src/obj_types/string_types.rs:340-353` -/
def setTag (x : StringNode) (key value : Str) : StringNode :=
  match TagList.idx x.tags_ key with
  | none => { x with tags_ := x.tags_ ++ [(key, value)] }
  | some i => { x with tags_ := x.tags_.set i (key, value) }
/-- `src/obj_types/string_types.rs:355-366` -/
def unsetTag (x : StringNode) (key : Str) : StringNode :=
  match TagList.idx x.tags_ key with
  | none => x
  | some i => { x with tags_ := x.tags_.eraseIdx i }
/-- `src/obj_types/string_types.rs:368-370` -/
def objectType (_ : StringNode) : OSMObjectType := .node

/-- `src/obj_types/string_types.rs:283-371` -/
instance : OSMObjBase StringNode where
  id := id
  setId := setId
  version := version
  setVersion := setVersion
  deleted := deleted
  setDeleted := setDeleted
  changesetId := changesetId
  setChangesetId := setChangesetId
  timestamp := timestamp
  setTimestamp := setTimestamp
  uid := uid
  setUid := setUid
  user := user
  setUser := setUser
  tags := tags
  tag := tag
  setTag := setTag
  unsetTag := unsetTag
  objectType := objectType

/-- `src/obj_types/string_types.rs:374-376` -/
def latLon (x : StringNode) : Option (Lat × Lon) := x.latLon_
/-- `src/obj_types/string_types.rs:378-380` -/
def setLatLonDirect (x : StringNode) (loc : Option (Lat × Lon)) : StringNode := { x with latLon_ := loc }
/-- `src/obj_types/string_types.rs:373-381` -/
instance : NodeT StringNode where
  latLon := latLon
  setLatLonDirect := setLatLonDirect
end StringNode

namespace StringWay
/-- `src/obj_types/string_types.rs:384-386` -/
def id (x : StringWay) : ObjId := x.id_
/-- `src/obj_types/string_types.rs:387-389` -/
def version (x : StringWay) : Option UInt32 := x.version_
/-- `src/obj_types/string_types.rs:390-392` -/
def deleted (x : StringWay) : Bool := x.deleted_
/-- `src/obj_types/string_types.rs:393-395` -/
def changesetId (x : StringWay) : Option UInt32 := x.changesetId_
/-- `src/obj_types/string_types.rs:396-398` -/
def timestamp (x : StringWay) : Option TimestampFormat := x.timestamp_
/-- `src/obj_types/string_types.rs:399-401` -/
def uid (x : StringWay) : Option UInt32 := x.uid_
/-- `src/obj_types/string_types.rs:402-404` -/
def user (x : StringWay) : Option Str := x.user_
/-- `src/obj_types/string_types.rs:406-408` -/
def setId (x : StringWay) (v : ObjId) : StringWay := { x with id_ := v }
/-- `src/obj_types/string_types.rs:409-411` -/
def setVersion (x : StringWay) (v : Option UInt32) : StringWay := { x with version_ := v }
/-- `src/obj_types/string_types.rs:412-414` -/
def setDeleted (x : StringWay) (v : Bool) : StringWay := { x with deleted_ := v }
/-- `src/obj_types/string_types.rs:415-417` -/
def setChangesetId (x : StringWay) (v : Option UInt32) : StringWay := { x with changesetId_ := v }
/-- `src/obj_types/string_types.rs:418-420` -/
def setTimestamp (x : StringWay) (v : Option TimestampFormat) : StringWay := { x with timestamp_ := v }
/-- `src/obj_types/string_types.rs:421-423` -/
def setUid (x : StringWay) (v : Option UInt32) : StringWay := { x with uid_ := v }
/-- `src/obj_types/string_types.rs:424-426` -/
def setUser (x : StringWay) (v : Option Str) : StringWay := { x with user_ := v }
/-- `src/obj_types/string_types.rs:428-430` -/
def tags (x : StringWay) : List (Str × Str) := x.tags_
/-- `src/obj_types/string_types.rs:432-438` -/
def tag (x : StringWay) (key : Str) : Option Str := TagList.get x.tags_ key
/-- `src/obj_types/string_types.rs:440-453` -/
def setTag (x : StringWay) (key value : Str) : StringWay :=
  match TagList.idx x.tags_ key with
  | none => { x with tags_ := x.tags_ ++ [(key, value)] }
  | some i => { x with tags_ := x.tags_.set i (key, value) }
/-- `src/obj_types/string_types.rs:455-466` -/
def unsetTag (x : StringWay) (key : Str) : StringWay :=
  match TagList.idx x.tags_ key with
  | none => x
  | some i => { x with tags_ := x.tags_.eraseIdx i }
/-- `src/obj_types/string_types.rs:468-470` -/
def objectType (_ : StringWay) : OSMObjectType := .way

/-- `src/obj_types/string_types.rs:383-471` -/
instance : OSMObjBase StringWay where
  id := id
  setId := setId
  version := version
  setVersion := setVersion
  deleted := deleted
  setDeleted := setDeleted
  changesetId := changesetId
  setChangesetId := setChangesetId
  timestamp := timestamp
  setTimestamp := setTimestamp
  uid := uid
  setUid := setUid
  user := user
  setUser := setUser
  tags := tags
  tag := tag
  setTag := setTag
  unsetTag := unsetTag
  objectType := objectType

/-- `src/obj_types/string_types.rs:477-479` -/
def nodes (x : StringWay) : List ObjId := x.nodes_
/-- `src/obj_types/string_types.rs:474-476` -/
def numNodes (x : StringWay) : Nat := x.nodes_.length
/-- `src/obj_types/string_types.rs:480-482` -/
def node (x : StringWay) (idx : Nat) : Option ObjId := x.nodes_[idx]?
/-- `src/obj_types/string_types.rs:483-486` -/
def setNodes (x : StringWay) (ns : List ObjId) : StringWay := { x with nodes_ := ns }
/-- `src/obj_types/string_types.rs:473-487` -/
instance : WayT StringWay where
  nodes := nodes
  numNodes := numNodes
  node := node
  setNodes := setNodes
end StringWay

namespace StringRelation
/-- `src/obj_types/string_types.rs:490-492` -/
def id (x : StringRelation) : ObjId := x.id_
/-- `src/obj_types/string_types.rs:493-495` -/
def version (x : StringRelation) : Option UInt32 := x.version_
/-- `src/obj_types/string_types.rs:496-498` -/
def deleted (x : StringRelation) : Bool := x.deleted_
/-- `src/obj_types/string_types.rs:499-501` -/
def changesetId (x : StringRelation) : Option UInt32 := x.changesetId_
/-- `src/obj_types/string_types.rs:502-504` -/
def timestamp (x : StringRelation) : Option TimestampFormat := x.timestamp_
/-- `src/obj_types/string_types.rs:505-507` -/
def uid (x : StringRelation) : Option UInt32 := x.uid_
/-- `src/obj_types/string_types.rs:508-510` -/
def user (x : StringRelation) : Option Str := x.user_
/-- `src/obj_types/string_types.rs:512-514` -/
def setId (x : StringRelation) (v : ObjId) : StringRelation := { x with id_ := v }
/-- `src/obj_types/string_types.rs:515-517` -/
def setVersion (x : StringRelation) (v : Option UInt32) : StringRelation := { x with version_ := v }
/-- `src/obj_types/string_types.rs:518-520` -/
def setDeleted (x : StringRelation) (v : Bool) : StringRelation := { x with deleted_ := v }
/-- `src/obj_types/string_types.rs:521-523` -/
def setChangesetId (x : StringRelation) (v : Option UInt32) : StringRelation := { x with changesetId_ := v }
/-- `src/obj_types/string_types.rs:524-526` -/
def setTimestamp (x : StringRelation) (v : Option TimestampFormat) : StringRelation := { x with timestamp_ := v }
/-- `src/obj_types/string_types.rs:527-529` -/
def setUid (x : StringRelation) (v : Option UInt32) : StringRelation := { x with uid_ := v }
/-- `src/obj_types/string_types.rs:530-532` -/
def setUser (x : StringRelation) (v : Option Str) : StringRelation := { x with user_ := v }
/-- `src/obj_types/string_types.rs:534-536` -/
def tags (x : StringRelation) : List (Str × Str) := x.tags_
/-- `src/obj_types/string_types.rs:538-544` -/
def tag (x : StringRelation) (key : Str) : Option Str := TagList.get x.tags_ key
/-- `src/obj_types/string_types.rs:546-559` -/
def setTag (x : StringRelation) (key value : Str) : StringRelation :=
  match TagList.idx x.tags_ key with
  | none => { x with tags_ := x.tags_ ++ [(key, value)] }
  | some i => { x with tags_ := x.tags_.set i (key, value) }
/-- `src/obj_types/string_types.rs:561-572` -/
def unsetTag (x : StringRelation) (key : Str) : StringRelation :=
  match TagList.idx x.tags_ key with
  | none => x
  | some i => { x with tags_ := x.tags_.eraseIdx i }
/-- `src/obj_types/string_types.rs:574-576` -/
def objectType (_ : StringRelation) : OSMObjectType := .relation

/-- `src/obj_types/string_types.rs:489-577` -/
instance : OSMObjBase StringRelation where
  id := id
  setId := setId
  version := version
  setVersion := setVersion
  deleted := deleted
  setDeleted := setDeleted
  changesetId := changesetId
  setChangesetId := setChangesetId
  timestamp := timestamp
  setTimestamp := setTimestamp
  uid := uid
  setUid := setUid
  user := user
  setUser := setUser
  tags := tags
  tag := tag
  setTag := setTag
  unsetTag := unsetTag
  objectType := objectType

/-- `src/obj_types/string_types.rs:580-584` -/
def members (x : StringRelation) : List (OSMObjectType × ObjId × Str) := x.members_.map (fun (t, i, r) => (t, i, r))
/-- `src/obj_types/string_types.rs:586-596` -/
def setMembers (x : StringRelation) (ms : List (OSMObjectType × ObjId × Str)) : StringRelation :=
  { x with members_ := ms.map (fun (t, i, r) => (t, i, r)) }
/-- `src/obj_types/string_types.rs:579-597` -/
instance : RelationT StringRelation where
  members := members
  setMembers := setMembers
end StringRelation

namespace StringOSMObj
/-- `src/obj_types/string_types.rs:124-126` -/
def id : StringOSMObj → ObjId
  | .node x => x.id
  | .way x => x.id
  | .relation x => x.id
/-- `src/obj_types/string_types.rs:127-129` -/
def version : StringOSMObj → Option UInt32
  | .node x => x.version
  | .way x => x.version
  | .relation x => x.version
/-- `src/obj_types/string_types.rs:130-132` -/
def deleted : StringOSMObj → Bool
  | .node x => x.deleted
  | .way x => x.deleted
  | .relation x => x.deleted
/-- `src/obj_types/string_types.rs:133-135` -/
def changesetId : StringOSMObj → Option UInt32
  | .node x => x.changesetId
  | .way x => x.changesetId
  | .relation x => x.changesetId
/-- `src/obj_types/string_types.rs:136-138` -/
def timestamp : StringOSMObj → Option TimestampFormat
  | .node x => x.timestamp
  | .way x => x.timestamp
  | .relation x => x.timestamp
/-- `src/obj_types/string_types.rs:139-141` -/
def uid : StringOSMObj → Option UInt32
  | .node x => x.uid
  | .way x => x.uid
  | .relation x => x.uid
/-- `src/obj_types/string_types.rs:142-144` -/
def user : StringOSMObj → Option Str
  | .node x => x.user
  | .way x => x.user
  | .relation x => x.user
/-- `src/obj_types/string_types.rs:146-148` -/
def setId (o : StringOSMObj) (v : ObjId) : StringOSMObj :=
  match o with
  | .node x => .node (x.setId v)
  | .way x => .way (x.setId v)
  | .relation x => .relation (x.setId v)
/-- `src/obj_types/string_types.rs:149-151` -/
def setVersion (o : StringOSMObj) (v : Option UInt32) : StringOSMObj :=
  match o with
  | .node x => .node (x.setVersion v)
  | .way x => .way (x.setVersion v)
  | .relation x => .relation (x.setVersion v)
/-- `src/obj_types/string_types.rs:152-154` -/
def setDeleted (o : StringOSMObj) (v : Bool) : StringOSMObj :=
  match o with
  | .node x => .node (x.setDeleted v)
  | .way x => .way (x.setDeleted v)
  | .relation x => .relation (x.setDeleted v)
/-- `src/obj_types/string_types.rs:155-157` -/
def setChangesetId (o : StringOSMObj) (v : Option UInt32) : StringOSMObj :=
  match o with
  | .node x => .node (x.setChangesetId v)
  | .way x => .way (x.setChangesetId v)
  | .relation x => .relation (x.setChangesetId v)
/-- `src/obj_types/string_types.rs:158-160` -/
def setTimestamp (o : StringOSMObj) (v : Option TimestampFormat) : StringOSMObj :=
  match o with
  | .node x => .node (x.setTimestamp v)
  | .way x => .way (x.setTimestamp v)
  | .relation x => .relation (x.setTimestamp v)
/-- `src/obj_types/string_types.rs:161-163` -/
def setUid (o : StringOSMObj) (v : Option UInt32) : StringOSMObj :=
  match o with
  | .node x => .node (x.setUid v)
  | .way x => .way (x.setUid v)
  | .relation x => .relation (x.setUid v)
/-- `src/obj_types/string_types.rs:164-166` -/
def setUser (o : StringOSMObj) (v : Option Str) : StringOSMObj :=
  match o with
  | .node x => .node (x.setUser v)
  | .way x => .way (x.setUser v)
  | .relation x => .relation (x.setUser v)
/-- `src/obj_types/string_types.rs:168-170` -/
def tags : StringOSMObj → List (Str × Str)
  | .node x => x.tags
  | .way x => x.tags
  | .relation x => x.tags
/-- `src/obj_types/string_types.rs:172-178` -/
def tag (o : StringOSMObj) (key : Str) : Option Str :=
  match o with
  | .node x => x.tag key
  | .way x => x.tag key
  | .relation x => x.tag key
/-- `src/obj_types/string_types.rs:180-186` -/
def setTag (o : StringOSMObj) (key value : Str) : StringOSMObj :=
  match o with
  | .node x => .node (x.setTag key value)
  | .way x => .way (x.setTag key value)
  | .relation x => .relation (x.setTag key value)
/-- `src/obj_types/string_types.rs:188-194` -/
def unsetTag (o : StringOSMObj) (key : Str) : StringOSMObj :=
  match o with
  | .node x => .node (x.unsetTag key)
  | .way x => .way (x.unsetTag key)
  | .relation x => .relation (x.unsetTag key)
/-- `src/obj_types/string_types.rs:196-202` -/
def objectType : StringOSMObj → OSMObjectType
  | .node _ => .node
  | .way _ => .way
  | .relation _ => .relation

/-- `src/obj_types/string_types.rs:123-203` -/
instance : OSMObjBase StringOSMObj where
  id := id
  setId := setId
  version := version
  setVersion := setVersion
  deleted := deleted
  setDeleted := setDeleted
  changesetId := changesetId
  setChangesetId := setChangesetId
  timestamp := timestamp
  setTimestamp := setTimestamp
  uid := uid
  setUid := setUid
  user := user
  setUser := setUser
  tags := tags
  tag := tag
  setTag := setTag
  unsetTag := unsetTag
  objectType := objectType

/-- `src/obj_types/string_types.rs:210-216` -/
def intoNode : StringOSMObj → Option StringNode
  | .node x => some x
  | _ => none
/-- `src/obj_types/string_types.rs:218-224` -/
def intoWay : StringOSMObj → Option StringWay
  | .way x => some x
  | _ => none
/-- `src/obj_types/string_types.rs:226-232` -/
def intoRelation : StringOSMObj → Option StringRelation
  | .relation x => some x
  | _ => none
/-- `src/obj_types/string_types.rs:234-240` -/
def asNode : StringOSMObj → Option StringNode
  | .node x => some x
  | _ => none
/-- `src/obj_types/string_types.rs:242-248` -/
def asWay : StringOSMObj → Option StringWay
  | .way x => some x
  | _ => none
/-- `src/obj_types/string_types.rs:250-256` -/
def asRelation : StringOSMObj → Option StringRelation
  | .relation x => some x
  | _ => none
/-- `src/obj_types/string_types.rs:258-264` -/
def asNodeMut : StringOSMObj → Option (StringNode × (StringNode → StringOSMObj))
  | .node x => some (x, .node)
  | _ => none
/-- `src/obj_types/string_types.rs:266-272` -/
def asWayMut : StringOSMObj → Option (StringWay × (StringWay → StringOSMObj))
  | .way x => some (x, .way)
  | _ => none
/-- `src/obj_types/string_types.rs:274-280` -/
def asRelationMut : StringOSMObj → Option (StringRelation × (StringRelation → StringOSMObj))
  | .relation x => some (x, .relation)
  | _ => none

/-- `src/obj_types/string_types.rs:205-281` -/
instance : OSMObjT StringOSMObj StringNode StringWay StringRelation where
  intoNode := intoNode
  asNode := asNode
  asNodeMut := asNodeMut
  intoWay := intoWay
  asWay := asWay
  asWayMut := asWayMut
  intoRelation := intoRelation
  asRelation := asRelation
  asRelationMut := asRelationMut
end StringOSMObj

end Osmio
