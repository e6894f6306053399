import Verif.Spec.Convert
import Verif.Spec.Representable
/-!
# Specification: editing the objects of a file

A program reads objects, and for each of them writes any number of edited versions: none to leave it out, one with an empty script to keep it.
The scripts may depend on anything the program has seen.
-/

namespace Osmio.Spec
open Xml

/-- A change to an object. -/
inductive Edit where
  /-- A mutator that every object has. -/
  | call (op : Op)
  /-- `set_lat_lon_direct` on what `as_node_mut` gives; nothing if it is no node. -/
  | position (p : Option (Lat × Lon))
  /-- `set_nodes` on what `as_way_mut` gives; nothing if it is no way. -/
  | nodes (ns : List ObjId)
  /-- `set_members` on what `as_relation_mut` gives; nothing if it is no relation. -/
  | members (ms : List (OSMObjectType × ObjId × Str))

/-- What the change should do to what the object shows. -/
def Edit.effect (d : ObjData) : Edit → ObjData
  | .call op => { d with view := step op d.view }
  | .position p => if d.view.kind = .node then { d with pos := p } else d
  | .nodes ns => if d.view.kind = .way then { d with nodes := ns } else d
  | .members ms => if d.view.kind = .relation then { d with members := ms } else d

/-- The change does not take away what a written object must have: its version and its position. It sets no text timestamp with characters that
need an escape. -/
def Edit.Keeps : Edit → Prop
  | .call (.setVersion v) => v ≠ none
  | .call (.setTimestamp t) => ∀ s ∈ isoText t, '"' ∉ s ∧ '<' ∉ s ∧ '&' ∉ s
  | .position p => p ≠ none
  | _ => True

/-- The object has what a written object must have. -/
structure Sound (d : ObjData) : Prop where
  version : d.view.version ≠ none
  pos : d.view.kind = .node → d.pos ≠ none
  time : ∀ s ∈ isoText d.view.timestamp, '"' ∉ s ∧ '<' ∉ s ∧ '&' ∉ s

/-- The results of editing: for each of the objects, in order, one result for each of its scripts. -/
def edited {α : Type} (change : α → Edit → α) (os : List α) (scripts : List (List (List Edit))) : List α :=
  (os.zip scripts).flatMap fun x => x.2.map fun script => script.foldl change x.1

end Osmio.Spec

namespace Osmio
open Spec OSMObjBase

/-- The program makes the change. -/
def Spec.Edit.make {α N W R : Type} [OSMObjT α N W R] [NodeT N] [WayT W] [RelationT R] (o : α) : Edit → α
  | .call op => apply o op
  | .position p => match OSMObjT.asNodeMut o with | some (n, put) => put (NodeT.setLatLonDirect n p) | none => o
  | .nodes ns => match OSMObjT.asWayMut o with | some (w, put) => put (WayT.setNodes w ns) | none => o
  | .members ms => match OSMObjT.asRelationMut o with | some (r, put) => put (RelationT.setMembers r ms) | none => o

end Osmio
