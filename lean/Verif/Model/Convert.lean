import Verif.Model.StringTypes
import Verif.Model.ArcTypes
import Verif.Model.RcTypes
/-!
# Model: conversions to the string based types (`src/obj_types/mod.rs`)
-/

namespace Osmio

/-- `StringNodeBuilder::default()._id(id).build().unwrap()`: the defaults of
`src/obj_types/string_types.rs:26-50`. The derived builder cannot fail once `_id` is set. -/
def StringNode.default (id : ObjId) : StringNode := ⟨id, none, false, none, none, none, none, [], none⟩
/-- Defaults of `src/obj_types/string_types.rs:52-74`. -/
def StringWay.default (id : ObjId) : StringWay := ⟨id, none, false, none, none, none, none, [], []⟩
/-- Defaults of `src/obj_types/string_types.rs:76-98`. -/
def StringRelation.default (id : ObjId) : StringRelation :=
  ⟨id, none, false, none, none, none, none, [], []⟩

/-- `src/obj_types/mod.rs:12-30` -/
def StringNode.ofRc (o : RcNode) : StringNode :=
  let n := StringNode.default o.id
  let n := n.setVersion o.version
  let n := n.setDeleted o.deleted
  let n := n.setChangesetId o.changesetId
  let n := n.setTimestamp o.timestamp
  let n := n.setUid o.uid
  let n := n.setUser o.user
  let n := n.setLatLonDirect o.latLon
  o.tags.foldl (fun n (k, v) => n.setTag k v) n

/-- `src/obj_types/mod.rs:32-51` -/
def StringWay.ofRc (o : RcWay) : StringWay :=
  let w := StringWay.default o.id
  let w := w.setVersion o.version
  let w := w.setDeleted o.deleted
  let w := w.setChangesetId o.changesetId
  let w := w.setTimestamp o.timestamp
  let w := w.setUid o.uid
  let w := w.setUser o.user
  let w := o.tags.foldl (fun w (k, v) => w.setTag k v) w
  w.setNodes o.nodes

/-- `src/obj_types/mod.rs:53-75` -/
def StringRelation.ofRc (o : RcRelation) : StringRelation :=
  let r := StringRelation.default o.id
  let r := r.setVersion o.version
  let r := r.setDeleted o.deleted
  let r := r.setChangesetId o.changesetId
  let r := r.setTimestamp o.timestamp
  let r := r.setUid o.uid
  let r := r.setUser o.user
  let r := o.tags.foldl (fun r (k, v) => r.setTag k v) r
  r.setMembers o.members

/-- `src/obj_types/mod.rs:77-85` -/
def StringOSMObj.ofRc : RcOSMObj → StringOSMObj
  | .node n => .node (StringNode.ofRc n)
  | .way w => .way (StringWay.ofRc w)
  | .relation r => .relation (StringRelation.ofRc r)

/-- `src/obj_types/mod.rs:87-105` -/
def StringNode.ofArc (o : ArcNode) : StringNode :=
  let n := StringNode.default o.id
  let n := n.setVersion o.version
  let n := n.setDeleted o.deleted
  let n := n.setChangesetId o.changesetId
  let n := n.setTimestamp o.timestamp
  let n := n.setUid o.uid
  let n := n.setUser o.user
  let n := n.setLatLonDirect o.latLon
  o.tags.foldl (fun n (k, v) => n.setTag k v) n

/-- `src/obj_types/mod.rs:107-126` -/
def StringWay.ofArc (o : ArcWay) : StringWay :=
  let w := StringWay.default o.id
  let w := w.setVersion o.version
  let w := w.setDeleted o.deleted
  let w := w.setChangesetId o.changesetId
  let w := w.setTimestamp o.timestamp
  let w := w.setUid o.uid
  let w := w.setUser o.user
  let w := o.tags.foldl (fun w (k, v) => w.setTag k v) w
  w.setNodes o.nodes

/-- `src/obj_types/mod.rs:128-150` -/
def StringRelation.ofArc (o : ArcRelation) : StringRelation :=
  let r := StringRelation.default o.id
  let r := r.setVersion o.version
  let r := r.setDeleted o.deleted
  let r := r.setChangesetId o.changesetId
  let r := r.setTimestamp o.timestamp
  let r := r.setUid o.uid
  let r := r.setUser o.user
  let r := o.tags.foldl (fun r (k, v) => r.setTag k v) r
  r.setMembers o.members

/-- `src/obj_types/mod.rs:152-160` -/
def StringOSMObj.ofArc : ArcOSMObj → StringOSMObj
  | .node n => .node (StringNode.ofArc n)
  | .way w => .way (StringWay.ofArc w)
  | .relation r => .relation (StringRelation.ofArc r)

/-- `impl From<StringNode> for StringOSMObj` (`src/obj_types/string_types.rs:107-111`) -/
def StringOSMObj.ofNode (n : StringNode) : StringOSMObj := .node n
/-- `impl From<StringWay> for StringOSMObj` (`src/obj_types/string_types.rs:112-116`) -/
def StringOSMObj.ofWay (w : StringWay) : StringOSMObj := .way w
/-- `impl From<StringRelation> for StringOSMObj` (`src/obj_types/string_types.rs:117-121`) -/
def StringOSMObj.ofRelation (r : StringRelation) : StringOSMObj := .relation r

end Osmio
