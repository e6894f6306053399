import Verif.Model.Convert
/-!
# The object types of the library

`src/obj_types/mod.rs` exports three families (owned strings, `Rc<str>`, `Arc<str>`), each with a node,
way and relation type and a sum type. The definitions here only name these twelve types, so that a
statement about "every object" can quantify over them.
-/

namespace Osmio

/-- `src/obj_types/mod.rs:2-10` -/
inductive Family where
  | string
  | rc
  | arc
  deriving DecidableEq

/-- The node type of a family; `src/obj_types/string_types.rs:28-50`, `src/obj_types/rc_types.rs:26-37`, `src/obj_types/arc_types.rs:26-37`. -/
def Family.Node : Family → Type
  | .string => StringNode
  | .rc => RcNode
  | .arc => ArcNode

/-- The way type of a family; `src/obj_types/string_types.rs:54-74`, `src/obj_types/rc_types.rs:40-51`, `src/obj_types/arc_types.rs:40-51`. -/
def Family.Way : Family → Type
  | .string => StringWay
  | .rc => RcWay
  | .arc => ArcWay

/-- The relation type of a family; `src/obj_types/string_types.rs:78-98`, `src/obj_types/rc_types.rs:54-65`, `src/obj_types/arc_types.rs:54-65`. -/
def Family.Relation : Family → Type
  | .string => StringRelation
  | .rc => RcRelation
  | .arc => ArcRelation

/-- The sum type of a family; `src/obj_types/string_types.rs:101-105`, `src/obj_types/rc_types.rs:68-72`, `src/obj_types/arc_types.rs:68-72`. -/
def Family.Obj : Family → Type
  | .string => StringOSMObj
  | .rc => RcOSMObj
  | .arc => ArcOSMObj

/-- The node types have the traits, `src/obj_types/string_types.rs:283-381`, `src/obj_types/rc_types.rs:253-371`, `src/obj_types/arc_types.rs:253-368`. -/
instance (f : Family) : NodeT f.Node :=
  match f with
  | .string => inferInstanceAs (NodeT StringNode)
  | .rc => inferInstanceAs (NodeT RcNode)
  | .arc => inferInstanceAs (NodeT ArcNode)

/-- The way types have the traits, `src/obj_types/string_types.rs:383-487`, `src/obj_types/rc_types.rs:373-485`, `src/obj_types/arc_types.rs:370-482`. -/
instance (f : Family) : WayT f.Way :=
  match f with
  | .string => inferInstanceAs (WayT StringWay)
  | .rc => inferInstanceAs (WayT RcWay)
  | .arc => inferInstanceAs (WayT ArcWay)

/-- The relation types have the traits, `src/obj_types/string_types.rs:489-597`, `src/obj_types/rc_types.rs:487-602`, `src/obj_types/arc_types.rs:484-599`. -/
instance (f : Family) : RelationT f.Relation :=
  match f with
  | .string => inferInstanceAs (RelationT StringRelation)
  | .rc => inferInstanceAs (RelationT RcRelation)
  | .arc => inferInstanceAs (RelationT ArcRelation)

/-- The sum types have the traits, `src/obj_types/string_types.rs:123-281`, `src/obj_types/rc_types.rs:74-251`, `src/obj_types/arc_types.rs:74-251`. -/
instance Family.instObj (f : Family) : OSMObjT f.Obj f.Node f.Way f.Relation :=
  match f with
  | .string => inferInstanceAs (OSMObjT StringOSMObj StringNode StringWay StringRelation)
  | .rc => inferInstanceAs (OSMObjT RcOSMObj RcNode RcWay RcRelation)
  | .arc => inferInstanceAs (OSMObjT ArcOSMObj ArcNode ArcWay ArcRelation)

/-- One of the twelve object types; `src/obj_types/mod.rs:8-10`. -/
inductive ObjTy where
  | node (f : Family)
  | way (f : Family)
  | relation (f : Family)
  | obj (f : Family)
  deriving DecidableEq

/-- The type named; `src/obj_types/mod.rs:8-10`. -/
def ObjTy.Carrier : ObjTy → Type
  | .node f => f.Node
  | .way f => f.Way
  | .relation f => f.Relation
  | .obj f => f.Obj

/-- All twelve have the trait, `src/obj_types/mod.rs:8-10`. -/
instance (t : ObjTy) : OSMObjBase t.Carrier :=
  match t with
  | .node f => inferInstanceAs (OSMObjBase f.Node)
  | .way f => inferInstanceAs (OSMObjBase f.Way)
  | .relation f => inferInstanceAs (OSMObjBase f.Relation)
  | .obj f => inferInstanceAs (OSMObjBase f.Obj)

end Osmio
