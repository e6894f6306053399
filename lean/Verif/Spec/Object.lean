import Verif.Model.Traits
/-!
# Specification of object operations

The observable state of an object is what its getters return. `Op` lists the public mutators every
object has; `step` says what each should do to the observable state.
-/

namespace Osmio.Spec

/-- What the getters of an object show. -/
structure View where
  id : ObjId
  version : Option UInt32
  deleted : Bool
  changesetId : Option UInt32
  timestamp : Option TimestampFormat
  uid : Option UInt32
  user : Option Str
  tags : List (Str × Str)
  kind : OSMObjectType

/-- The first value stored for a key. -/
def lookup (k : Str) : List (Str × Str) → Option Str
  | [] => none
  | (k', v') :: r => if k' = k then some v' else lookup k r

/-- Replace the first entry for a key, or append a new one. -/
def put (k v : Str) : List (Str × Str) → List (Str × Str)
  | [] => [(k, v)]
  | (k', v') :: r => if k' = k then (k, v) :: r else (k', v') :: put k v r

/-- Remove the first entry for a key. -/
def removeFirst (k : Str) : List (Str × Str) → List (Str × Str)
  | [] => []
  | (k', v') :: r => if k' = k then r else (k', v') :: removeFirst k r

/-- A public mutator with its argument. -/
inductive Op where
  | setId (v : ObjId)
  | setVersion (v : Option UInt32)
  | setDeleted (v : Bool)
  | setChangesetId (v : Option UInt32)
  | setTimestamp (v : Option TimestampFormat)
  | setUid (v : Option UInt32)
  | setUser (v : Option Str)
  | setTag (k v : Str)
  | unsetTag (k : Str)
  | stripMetadata

/-- The specified effect of a mutator. -/
def step : Op → View → View
  | .setId v, s => { s with id := v }
  | .setVersion v, s => { s with version := v }
  | .setDeleted v, s => { s with deleted := v }
  | .setChangesetId v, s => { s with changesetId := v }
  | .setTimestamp v, s => { s with timestamp := v }
  | .setUid v, s => { s with uid := v }
  | .setUser v, s => { s with user := v }
  | .setTag k v, s => { s with tags := put k v s.tags }
  | .unsetTag k, s => { s with tags := removeFirst k s.tags }
  | .stripMetadata, s => { s with uid := none, user := none, changesetId := none }

/-- A map that remembers the order in which its keys were first inserted. -/
structure OMap where
  keys : List Str
  val : Str → Option Str

/-- Insert or overwrite: an existing key keeps its place. -/
def OMap.set (m : OMap) (k v : Str) : OMap :=
  ⟨if k ∈ m.keys then m.keys else m.keys ++ [k], fun x => if x = k then some v else m.val x⟩

/-- Delete a key. -/
def OMap.unset (m : OMap) (k : Str) : OMap :=
  ⟨m.keys.filter (fun x => x ≠ k), fun x => if x = k then none else m.val x⟩

/-- The effect of a mutator on the tags seen as such a map. -/
def OMap.step : Op → OMap → OMap
  | .setTag k v, m => m.set k v
  | .unsetTag k, m => m.unset k
  | _, m => m

/-- The list of pairs a map shows when iterated. -/
def OMap.toList (m : OMap) : List (Str × Str) := m.keys.filterMap (fun k => (m.val k).map (fun v => (k, v)))

end Osmio.Spec

namespace Osmio

/-- Read an object through its getters. -/
def view {α : Type} [OSMObjBase α] (a : α) : Spec.View :=
  ⟨OSMObjBase.id a, OSMObjBase.version a, OSMObjBase.deleted a, OSMObjBase.changesetId a,
   OSMObjBase.timestamp a, OSMObjBase.uid a, OSMObjBase.user a, OSMObjBase.tags a, OSMObjBase.objectType a⟩

/-- Call a mutator. -/
def apply {α : Type} [OSMObjBase α] (a : α) : Spec.Op → α
  | .setId v => OSMObjBase.setId a v
  | .setVersion v => OSMObjBase.setVersion a v
  | .setDeleted v => OSMObjBase.setDeleted a v
  | .setChangesetId v => OSMObjBase.setChangesetId a v
  | .setTimestamp v => OSMObjBase.setTimestamp a v
  | .setUid v => OSMObjBase.setUid a v
  | .setUser v => OSMObjBase.setUser a v
  | .setTag k v => OSMObjBase.setTag a k v
  | .unsetTag k => OSMObjBase.unsetTag a k
  | .stripMetadata => stripMetadata a

/-- Call a sequence of mutators. -/
def applyAll {α : Type} [OSMObjBase α] (a : α) (ops : List Spec.Op) : α := ops.foldl apply a

/-- An object type meets its specification: every mutator has the specified effect on the getters, and
the derived getters agree with the tags. -/
class LawfulObj (α : Type) [OSMObjBase α] : Prop where
  view_apply : ∀ (a : α) (op : Spec.Op), view (apply a op) = Spec.step op (view a)
  tag_eq : ∀ (a : α) (k : Str), OSMObjBase.tag a k = Spec.lookup k (OSMObjBase.tags a)
  numTags_eq : ∀ a : α, OSMObjBase.numTags a = (OSMObjBase.tags a).length
  untagged_iff : ∀ a : α, OSMObjBase.untagged a = true ↔ OSMObjBase.tags a = []

/-- Nodes: the mutators of the base trait keep the position and setting the position keeps the rest. -/
class LawfulNode (α : Type) [NodeT α] : Prop extends LawfulObj α where
  kind : ∀ a : α, OSMObjBase.objectType a = .node
  latLon_apply : ∀ (a : α) op, NodeT.latLon (apply a op) = NodeT.latLon a
  latLon_set : ∀ (a : α) l, NodeT.latLon (NodeT.setLatLonDirect a l) = l
  view_set : ∀ (a : α) l, view (NodeT.setLatLonDirect a l) = view a

class LawfulWay (α : Type) [WayT α] : Prop extends LawfulObj α where
  kind : ∀ a : α, OSMObjBase.objectType a = .way
  nodes_apply : ∀ (a : α) op, WayT.nodes (apply a op) = WayT.nodes a
  nodes_set : ∀ (a : α) l, WayT.nodes (WayT.setNodes a l) = l
  view_set : ∀ (a : α) l, view (WayT.setNodes a l) = view a
  numNodes_eq : ∀ a : α, WayT.numNodes a = (WayT.nodes a).length
  node_eq : ∀ (a : α) i, WayT.node a i = (WayT.nodes a)[i]?

class LawfulRelation (α : Type) [RelationT α] : Prop extends LawfulObj α where
  kind : ∀ a : α, OSMObjBase.objectType a = .relation
  members_apply : ∀ (a : α) op, RelationT.members (apply a op) = RelationT.members a
  members_set : ∀ (a : α) l, RelationT.members (RelationT.setMembers a l) = l
  view_set : ∀ (a : α) l, view (RelationT.setMembers a l) = view a

/-- A sum type shows exactly one of its three faces, the one its kind says, with the same getters, and
changing the part through a mutable reference changes the whole accordingly. -/
class LawfulSum (α : Type) (N W R : outParam Type) [OSMObjT α N W R] [OSMObjBase N] [OSMObjBase W]
    [OSMObjBase R] : Prop where
  node : ∀ (a : α) (n : N), OSMObjT.intoNode a = some n →
    view n = view a ∧ OSMObjBase.objectType a = .node
  way : ∀ (a : α) (w : W), OSMObjT.intoWay a = some w →
    view w = view a ∧ OSMObjBase.objectType a = .way
  relation : ∀ (a : α) (r : R), OSMObjT.intoRelation a = some r →
    view r = view a ∧ OSMObjBase.objectType a = .relation
  total : ∀ a : α, (OSMObjT.intoNode a).isSome ∨ (OSMObjT.intoWay a).isSome ∨
    (OSMObjT.intoRelation a).isSome
  asNode : ∀ a : α, OSMObjT.asNode a = OSMObjT.intoNode a
  asWay : ∀ a : α, OSMObjT.asWay a = OSMObjT.intoWay a
  asRelation : ∀ a : α, OSMObjT.asRelation a = OSMObjT.intoRelation a
  asNodeMut : ∀ a : α, (OSMObjT.asNodeMut a).map Prod.fst = OSMObjT.intoNode a ∧
    ∀ n f, OSMObjT.asNodeMut a = some (n, f) → ∀ n', OSMObjT.intoNode (f n') = some n'
  asWayMut : ∀ a : α, (OSMObjT.asWayMut a).map Prod.fst = OSMObjT.intoWay a ∧
    ∀ w f, OSMObjT.asWayMut a = some (w, f) → ∀ w', OSMObjT.intoWay (f w') = some w'
  asRelationMut : ∀ a : α, (OSMObjT.asRelationMut a).map Prod.fst = OSMObjT.intoRelation a ∧
    ∀ r f, OSMObjT.asRelationMut a = some (r, f) → ∀ r', OSMObjT.intoRelation (f r') = some r'

end Osmio
