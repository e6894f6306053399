import Verif.Model.Family
/-!
# Model: `==` on objects

Every object type of `src/obj_types` derives `PartialEq`, which `src/lib.rs:316` makes part of the contract
of `OSMObjBase`. A derived `==` on a struct compares the fields one by one, in the order of the
declaration, with their own `==`; on an enum it also compares the variant. All fields have exact
comparisons except the timestamp, whose `==` is written by hand (`src/lib.rs:305-313`).
-/

namespace Osmio

/-- `PartialEq` of `Option<TimestampFormat>` (standard library, derived); `src/lib.rs:305-313` under an `Option`. -/
def eqTimestamp : Option TimestampFormat → Option TimestampFormat → Bool
  | none, none => true
  | some a, some b => a.eq b
  | _, _ => false

/-- The `PartialEq` bound of `src/lib.rs:316`. -/
class PartialEqT (α : Type) where
  eq : α → α → Bool

/-- Derived `PartialEq`, `src/obj_types/string_types.rs:26-50` -/
instance : PartialEqT StringNode where
  eq a b := a.id_ == b.id_ && a.version_ == b.version_ && a.deleted_ == b.deleted_ && a.changesetId_ == b.changesetId_ && eqTimestamp a.timestamp_ b.timestamp_ &&
    a.uid_ == b.uid_ && a.user_ == b.user_ && a.tags_ == b.tags_ && a.latLon_ == b.latLon_

/-- Derived `PartialEq`, `src/obj_types/string_types.rs:52-74` -/
instance : PartialEqT StringWay where
  eq a b := a.id_ == b.id_ && a.version_ == b.version_ && a.deleted_ == b.deleted_ && a.changesetId_ == b.changesetId_ && eqTimestamp a.timestamp_ b.timestamp_ &&
    a.uid_ == b.uid_ && a.user_ == b.user_ && a.tags_ == b.tags_ && a.nodes_ == b.nodes_

/-- Derived `PartialEq`, `src/obj_types/string_types.rs:76-98` -/
instance : PartialEqT StringRelation where
  eq a b := a.id_ == b.id_ && a.version_ == b.version_ && a.deleted_ == b.deleted_ && a.changesetId_ == b.changesetId_ && eqTimestamp a.timestamp_ b.timestamp_ &&
    a.uid_ == b.uid_ && a.user_ == b.user_ && a.tags_ == b.tags_ && a.members_ == b.members_

/-- Derived `PartialEq`, `src/obj_types/string_types.rs:100-105` -/
def StringOSMObj.eq : StringOSMObj → StringOSMObj → Bool
  | .node a, .node b => PartialEqT.eq a b
  | .way a, .way b => PartialEqT.eq a b
  | .relation a, .relation b => PartialEqT.eq a b
  | _, _ => false

/-- Derived, `src/obj_types/string_types.rs:100`. -/
instance : PartialEqT StringOSMObj := ⟨StringOSMObj.eq⟩

/-- Derived `PartialEq`, `src/obj_types/rc_types.rs:25-37` -/
instance : PartialEqT RcNode where
  eq a b := a.id_ == b.id_ && a.version_ == b.version_ && a.deleted_ == b.deleted_ && a.changesetId_ == b.changesetId_ && eqTimestamp a.timestamp_ b.timestamp_ &&
    a.uid_ == b.uid_ && a.user_ == b.user_ && a.tags_ == b.tags_ && a.latLon_ == b.latLon_

/-- Derived `PartialEq`, `src/obj_types/rc_types.rs:39-51` -/
instance : PartialEqT RcWay where
  eq a b := a.id_ == b.id_ && a.version_ == b.version_ && a.deleted_ == b.deleted_ && a.changesetId_ == b.changesetId_ && eqTimestamp a.timestamp_ b.timestamp_ &&
    a.uid_ == b.uid_ && a.user_ == b.user_ && a.tags_ == b.tags_ && a.nodes_ == b.nodes_

/-- Derived `PartialEq`, `src/obj_types/rc_types.rs:53-65` -/
instance : PartialEqT RcRelation where
  eq a b := a.id_ == b.id_ && a.version_ == b.version_ && a.deleted_ == b.deleted_ && a.changesetId_ == b.changesetId_ && eqTimestamp a.timestamp_ b.timestamp_ &&
    a.uid_ == b.uid_ && a.user_ == b.user_ && a.tags_ == b.tags_ && a.members_ == b.members_

/-- Derived `PartialEq`, `src/obj_types/rc_types.rs:67-72` -/
def RcOSMObj.eq : RcOSMObj → RcOSMObj → Bool
  | .node a, .node b => PartialEqT.eq a b
  | .way a, .way b => PartialEqT.eq a b
  | .relation a, .relation b => PartialEqT.eq a b
  | _, _ => false

/-- Derived, `src/obj_types/rc_types.rs:67`. -/
instance : PartialEqT RcOSMObj := ⟨RcOSMObj.eq⟩

/-- Derived `PartialEq`, `src/obj_types/arc_types.rs:25-37` -/
instance : PartialEqT ArcNode where
  eq a b := a.id_ == b.id_ && a.version_ == b.version_ && a.deleted_ == b.deleted_ && a.changesetId_ == b.changesetId_ && eqTimestamp a.timestamp_ b.timestamp_ &&
    a.uid_ == b.uid_ && a.user_ == b.user_ && a.tags_ == b.tags_ && a.latLon_ == b.latLon_

/-- Derived `PartialEq`, `src/obj_types/arc_types.rs:39-51` -/
instance : PartialEqT ArcWay where
  eq a b := a.id_ == b.id_ && a.version_ == b.version_ && a.deleted_ == b.deleted_ && a.changesetId_ == b.changesetId_ && eqTimestamp a.timestamp_ b.timestamp_ &&
    a.uid_ == b.uid_ && a.user_ == b.user_ && a.tags_ == b.tags_ && a.nodes_ == b.nodes_

/-- Derived `PartialEq`, `src/obj_types/arc_types.rs:53-65` -/
instance : PartialEqT ArcRelation where
  eq a b := a.id_ == b.id_ && a.version_ == b.version_ && a.deleted_ == b.deleted_ && a.changesetId_ == b.changesetId_ && eqTimestamp a.timestamp_ b.timestamp_ &&
    a.uid_ == b.uid_ && a.user_ == b.user_ && a.tags_ == b.tags_ && a.members_ == b.members_

/-- Derived `PartialEq`, `src/obj_types/arc_types.rs:67-72` -/
def ArcOSMObj.eq : ArcOSMObj → ArcOSMObj → Bool
  | .node a, .node b => PartialEqT.eq a b
  | .way a, .way b => PartialEqT.eq a b
  | .relation a, .relation b => PartialEqT.eq a b
  | _, _ => false

/-- Derived, `src/obj_types/arc_types.rs:67`. -/
instance : PartialEqT ArcOSMObj := ⟨ArcOSMObj.eq⟩

/-- Derived, `src/obj_types/string_types.rs:26`, `src/obj_types/rc_types.rs:25`, `src/obj_types/arc_types.rs:25`. -/
instance (f : Family) : PartialEqT f.Node :=
  match f with
  | .string => inferInstanceAs (PartialEqT StringNode)
  | .rc => inferInstanceAs (PartialEqT RcNode)
  | .arc => inferInstanceAs (PartialEqT ArcNode)

/-- Derived, `src/obj_types/string_types.rs:52`, `src/obj_types/rc_types.rs:39`, `src/obj_types/arc_types.rs:39`. -/
instance (f : Family) : PartialEqT f.Way :=
  match f with
  | .string => inferInstanceAs (PartialEqT StringWay)
  | .rc => inferInstanceAs (PartialEqT RcWay)
  | .arc => inferInstanceAs (PartialEqT ArcWay)

/-- Derived, `src/obj_types/string_types.rs:76`, `src/obj_types/rc_types.rs:53`, `src/obj_types/arc_types.rs:53`. -/
instance (f : Family) : PartialEqT f.Relation :=
  match f with
  | .string => inferInstanceAs (PartialEqT StringRelation)
  | .rc => inferInstanceAs (PartialEqT RcRelation)
  | .arc => inferInstanceAs (PartialEqT ArcRelation)

/-- Derived, `src/obj_types/string_types.rs:100`, `src/obj_types/rc_types.rs:67`, `src/obj_types/arc_types.rs:67`. -/
instance (f : Family) : PartialEqT f.Obj :=
  match f with
  | .string => inferInstanceAs (PartialEqT StringOSMObj)
  | .rc => inferInstanceAs (PartialEqT RcOSMObj)
  | .arc => inferInstanceAs (PartialEqT ArcOSMObj)

/-- Of all twelve types, `src/obj_types/mod.rs:8-10`. -/
instance (t : ObjTy) : PartialEqT t.Carrier :=
  match t with
  | .node f => inferInstanceAs (PartialEqT f.Node)
  | .way f => inferInstanceAs (PartialEqT f.Way)
  | .relation f => inferInstanceAs (PartialEqT f.Relation)
  | .obj f => inferInstanceAs (PartialEqT f.Obj)

end Osmio
