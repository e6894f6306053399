import Verif.Proofs.Family
import Verif.Proofs.Json
import Verif.Model.Reader
/-!
# Objects: C05, C11–C20

`t : ObjTy` ranges over the twelve object types of the library, `f : Family` over its three families.
-/

namespace Osmio
open Spec OSMObjBase

/-! ## Sample objects, used to show that hypotheses can be met -/

/-- A node with everything set. -/
def sampleNode : StringNode :=
  ⟨7, some 3, false, some 9, some (.epoch 12), some 5, some "bob".toList,
    [("a".toList, "1".toList), ("b".toList, "2".toList)], some (⟨5⟩, ⟨6⟩)⟩
/-- The same as an `Arc` node. -/
def sampleArcNode : ArcNode :=
  ⟨7, some 3, false, some 9, some (.epoch 12), some 5, some "bob".toList,
    some [("a".toList, "1".toList), ("b".toList, "2".toList)], some (⟨5⟩, ⟨6⟩)⟩
/-- A closed way. -/
def sampleWay : RcWay := ⟨8, some 1, true, none, none, none, none, [("area".toList, "no".toList)], [1, 2, 1]⟩

/-! ## C05 -/

/-- **C05.** `set_lat_lon` on a node of any family, with any pair of fallible conversions: if both
conversions succeed the result is `Ok`, both values are stored and every other getter is unchanged; if
either fails the result is an error and the node is the very same. `None` clears the position. -/
theorem C05_set_lat_lon_atomic (f : Family) (n : f.Node) {L1 L2 : Type}
    (toLat : L1 → Except ParseLatLonError Lat) (toLon : L2 → Except ParseLatLonError Lon) (a : L1) (b : L2) :
    (∀ lat lon, toLat a = .ok lat → toLon b = .ok lon →
      (setLatLon toLat toLon n (some (a, b))).2 = .ok () ∧
      NodeT.latLon (setLatLon toLat toLon n (some (a, b))).1 = some (lat, lon) ∧
      view (setLatLon toLat toLon n (some (a, b))).1 = view n) ∧
    (∀ e, toLat a = .error e → setLatLon toLat toLon n (some (a, b)) = (n, .error e)) ∧
    (∀ lat e, toLat a = .ok lat → toLon b = .error e →
      setLatLon toLat toLon n (some (a, b)) = (n, .error e)) ∧
    ((setLatLon toLat toLon n none).2 = .ok () ∧
      NodeT.latLon (setLatLon toLat toLon n none).1 = none ∧
      view (setLatLon toLat toLon n none).1 = view n) := by
  refine ⟨?_, ?_, ?_, ?_⟩
  · intro lat lon h1 h2
    simp only [setLatLon, h1, h2]
    exact ⟨trivial, LawfulNode.latLon_set _ _, LawfulNode.view_set _ _⟩
  · intro e h
    simp only [setLatLon, h]
  · intro lat e h1 h2
    simp only [setLatLon, h1, h2]
  · simp only [setLatLon]
    exact ⟨trivial, LawfulNode.latLon_set _ _, LawfulNode.view_set _ _⟩

/-- **C05.** What `lat_lon` shows after the call is all or nothing. -/
theorem C05_never_half (f : Family) (n : f.Node) {L1 L2 : Type}
    (toLat : L1 → Except ParseLatLonError Lat) (toLon : L2 → Except ParseLatLonError Lon)
    (loc : Option (L1 × L2)) :
    match (setLatLon toLat toLon n loc).2 with
    | .ok () => NodeT.latLon (setLatLon toLat toLon n loc).1 =
        loc.bind fun p => match toLat p.1, toLon p.2 with
          | .ok x, .ok y => some (x, y)
          | _, _ => none
    | .error _ => (setLatLon toLat toLon n loc).1 = n := by
  cases loc with
  | none => simp only [setLatLon]; exact LawfulNode.latLon_set _ _
  | some p =>
    obtain ⟨a, b⟩ := p
    cases h1 : toLat a with
    | error e => simp only [setLatLon, h1]
    | ok lat =>
      cases h2 : toLon b with
      | error e => simp only [setLatLon, h1, h2]
      | ok lon =>
        simp only [setLatLon, h1, h2, Option.bind_some]; exact LawfulNode.latLon_set _ _

/-- The hypotheses of C05 are met with the library's own conversions: text for 1.5 and 2.5 is accepted, and
`x` is refused after a good first half. -/
example : (setLatLon Lat.fromStr Lon.fromStr sampleNode (some ("1.5".toList, "2.5".toList))).1.latLon_ =
    some (⟨15000000⟩, ⟨25000000⟩) := by decide +kernel
example : (setLatLon Lat.fromStr Lon.fromStr sampleNode (some ("1.5".toList, "x".toList))).1 = sampleNode := by
  decide +kernel

/-! ## C11 -/

/-- **C11.** After any sequence of mutator calls (among them any `set_tag` and `unset_tag` calls) on an
object whose tag keys are distinct — for instance one without tags — the tags are those of an
insertion-ordered map that received the same calls: `tags()` lists it, `tag(k)` and `has_tag(k)` look up
in it, and `num_tags`, `tagged` and `untagged` count it. -/
theorem C11_tags_are_an_ordered_map (t : ObjTy) (a : t.Carrier) (ops : List Op)
    (h0 : ((tags a).map Prod.fst).Nodup) :
    let b := applyAll a ops
    let m := ops.foldl (fun m op => OMap.step op m) (OMap.mk ((tags a).map Prod.fst) (fun k => lookup k (tags a)))
    tags b = m.toList ∧ (tags b).map Prod.fst = m.keys ∧ m.keys.Nodup ∧
    (∀ k, tag b k = m.val k) ∧ (∀ k, hasTag b k = true ↔ k ∈ m.keys) ∧
    numTags b = m.keys.length ∧ (untagged b = true ↔ m.keys = []) ∧ (tagged b = true ↔ m.keys ≠ []) := by
  intro b m
  obtain ⟨hn, hm⟩ := applyAll_tags a ops h0
  have hm' : tagMap (tags b) = m := hm
  have hk : (tags b).map Prod.fst = m.keys := congrArg OMap.keys hm'
  have hv : ∀ k, tag b k = m.val k := fun k => by
    rw [LawfulObj.tag_eq, ← hm']; rfl
  have hu : untagged b = true ↔ m.keys = [] := by
    rw [LawfulObj.untagged_iff, ← hk, List.map_eq_nil_iff]
  refine ⟨?_, hk, ?_, hv, ?_, ?_, hu, ?_⟩
  · rw [← hm', tagMap_toList hn]
  · rw [← hk]; exact hn
  · intro k
    unfold hasTag
    rw [LawfulObj.tag_eq, ← hk]
    constructor
    · intro h
      by_contra hc
      rw [lookup_not_mem hc] at h
      cases h
    · intro h
      obtain ⟨v, e, _⟩ := lookup_mem h
      rw [e]; rfl
  · rw [LawfulObj.numTags_eq, ← hk, List.length_map]
  · rw [← not_iff_not] at hu
    rw [ne_eq, ← hu]
    unfold tagged
    cases untagged b <;> simp

/-- **C11.** In particular from an object without tags the map starts empty. -/
theorem C11_from_untagged (t : ObjTy) (a : t.Carrier) (ops : List Op) (h : tags a = []) (k : Str) :
    tag (applyAll a ops) k = (ops.foldl (fun m op => OMap.step op m) (OMap.mk [] (fun _ => none))).val k ∧
    tags (applyAll a ops) = (ops.foldl (fun m op => OMap.step op m) (OMap.mk [] (fun _ => none))).toList := by
  have := C11_tags_are_an_ordered_map t a ops (by rw [h]; exact List.nodup_nil)
  simp only [h] at this
  exact ⟨this.2.2.2.1 k, this.1⟩

example : tags (StringNode.default 1) = [] := rfl
/-- Removing and setting again moves a key to the end; overwriting keeps its place. -/
example : (tags (applyAll (StringWay.default 1)
    [.setTag "a".toList "1".toList, .setTag "b".toList "2".toList, .setTag "a".toList "3".toList,
     .setTag "c".toList "4".toList, .unsetTag "b".toList, .setTag "b".toList "5".toList])) =
    [("a".toList, "3".toList), ("c".toList, "4".toList), ("b".toList, "5".toList)] := by decide +kernel

/-! ## C12 -/

/-- **C12**, for objects whose tag keys are distinct. Missing: objects with a repeated key, which readers
can produce; there the claim is false, see `C12_unset_tag_fails`. -/
theorem C12_unset_tag_partial (t : ObjTy) (a : t.Carrier) (k : Str) (h : ((tags a).map Prod.fst).Nodup) :
    hasTag (unsetTag a k) k = false ∧ tag (unsetTag a k) k = none ∧
    ∀ x, x ≠ k → tag (unsetTag a k) x = tag a x := by
  have e : ∀ x, tag (unsetTag a k) x = if x = k then none else tag a x := fun x => by
    rw [LawfulObj.tag_eq, tags_unsetTag, lookup_remove k x h, LawfulObj.tag_eq]
  refine ⟨?_, by rw [e, if_pos rfl], fun x hx => by rw [e, if_neg hx]⟩
  unfold hasTag
  rw [e, if_pos rfl]; rfl

/-- **C12.** Whatever the tags are, other keys are unaffected, and one entry for the key goes away. -/
theorem C12_unset_tag_others_partial (t : ObjTy) (a : t.Carrier) (k x : Str) (hx : x ≠ k) :
    tag (unsetTag a k) x = tag a x := by
  rw [LawfulObj.tag_eq, tags_unsetTag, LawfulObj.tag_eq]
  induction tags a with
  | nil => rfl
  | cons p r ih =>
    obtain ⟨k', v'⟩ := p
    simp only [removeFirst]
    by_cases h : k' = k
    · subst h
      have h' : k' ≠ x := fun e => hx e.symm
      simp [lookup, h']
    · simp only [h, if_false, lookup, ih]

/-- The full claim C12 is false: with a repeated key the second value shows up after `unset_tag`. -/
theorem C12_unset_tag_fails : ¬ ∀ (t : ObjTy) (a : t.Carrier) (k : Str), hasTag (unsetTag a k) k = false := by
  intro h
  have := h (.node .string) { StringNode.default 1 with
    tags_ := [("a".toList, "1".toList), ("a".toList, "2".toList)] } "a".toList
  revert this
  decide +kernel

example : ((tags sampleNode).map Prod.fst).Nodup := by decide +kernel

/-! ## C13 -/

/-- **C13.** Every mutator of every object type has exactly the effect of updating its own component of
what the getters show. -/
theorem C13_setters (t : ObjTy) (a : t.Carrier) (op : Op) : view (apply a op) = step op (view a) :=
  LawfulObj.view_apply a op

/-- **C13.** The same for whole histories. -/
theorem C13_histories (t : ObjTy) (a : t.Carrier) (ops : List Op) :
    view (applyAll a ops) = ops.foldl (fun s op => step op s) (view a) := view_applyAll a ops

/-- **C13.** The position of a node is independent of everything else. -/
theorem C13_node (f : Family) (n : f.Node) (op : Op) (l : Option (Lat × Lon)) :
    NodeT.latLon (NodeT.setLatLonDirect n l) = l ∧ view (NodeT.setLatLonDirect n l) = view n ∧
    NodeT.latLon (apply n op) = NodeT.latLon n ∧
    (NodeT.latLon (unsetLatLon n) = none ∧ view (unsetLatLon n) = view n) ∧
    hasLatLon (NodeT.setLatLonDirect n l) = l.isSome ∧
    latLonF64 (NodeT.setLatLonDirect n l) = l.map (fun p => (p.1.degrees, p.2.degrees)) := by
  refine ⟨LawfulNode.latLon_set _ _, LawfulNode.view_set _ _, LawfulNode.latLon_apply _ _,
    ⟨LawfulNode.latLon_set _ _, LawfulNode.view_set _ _⟩, ?_, ?_⟩
  · unfold hasLatLon; rw [LawfulNode.latLon_set]
  · unfold latLonF64; rw [LawfulNode.latLon_set]

/-- **C13.** The nodes of a way are independent of everything else, and the derived getters agree. -/
theorem C13_way (f : Family) (w : f.Way) (op : Op) (l : List ObjId) (i : Nat) :
    WayT.nodes (WayT.setNodes w l) = l ∧ view (WayT.setNodes w l) = view w ∧
    WayT.nodes (apply w op) = WayT.nodes w ∧ WayT.numNodes w = (WayT.nodes w).length ∧
    WayT.node w i = (WayT.nodes w)[i]? ∧ nids w = WayT.nodes w :=
  ⟨LawfulWay.nodes_set _ _, LawfulWay.view_set _ _, LawfulWay.nodes_apply _ _, LawfulWay.numNodes_eq _,
   LawfulWay.node_eq _ _, rfl⟩

/-- **C13.** The members of a relation are independent of everything else. -/
theorem C13_relation (f : Family) (r : f.Relation) (op : Op) (l : List (OSMObjectType × ObjId × Str)) :
    RelationT.members (RelationT.setMembers r l) = l ∧ view (RelationT.setMembers r l) = view r ∧
    RelationT.members (apply r op) = RelationT.members r :=
  ⟨LawfulRelation.members_set _ _, LawfulRelation.view_set _ _, LawfulRelation.members_apply _ _⟩

/-- **C13.** A setter called on a sum object acts on the object inside. -/
theorem C13_sum (f : Family) (o : f.Obj) (op : Op) :
    OSMObjT.intoNode (apply o op) = (OSMObjT.intoNode o).map (fun n => apply n op) ∧
    OSMObjT.intoWay (apply o op) = (OSMObjT.intoWay o).map (fun n => apply n op) ∧
    OSMObjT.intoRelation (apply o op) = (OSMObjT.intoRelation o).map (fun n => apply n op) := by
  cases f <;> cases o <;> cases op <;> exact ⟨rfl, rfl, rfl⟩

/-! ## C14 -/

/-- **C14.** -/
theorem C14_strip_metadata (t : ObjTy) (a : t.Carrier) :
    uid (stripMetadata a) = none ∧ user (stripMetadata a) = none ∧ changesetId (stripMetadata a) = none ∧
    OSMObjBase.id (stripMetadata a) = OSMObjBase.id a ∧ version (stripMetadata a) = version a ∧
    deleted (stripMetadata a) = deleted a ∧ timestamp (stripMetadata a) = timestamp a ∧
    tags (stripMetadata a) = tags a ∧ objectType (stripMetadata a) = objectType a ∧
    stripMetadata (stripMetadata a) = stripMetadata a := by
  have h : view (stripMetadata a) = step .stripMetadata (view a) := LawfulObj.view_apply a .stripMetadata
  refine ⟨congrArg View.uid h, congrArg View.user h, congrArg View.changesetId h, congrArg View.id h,
    congrArg View.version h, congrArg View.deleted h, congrArg View.timestamp h, congrArg View.tags h,
    congrArg View.kind h, ?_⟩
  rcases t with f | f | f | f <;> cases f
  all_goals first
    | rfl
    | (cases a <;> rfl)

/-- **C14.** Position, nodes and members are kept. -/
theorem C14_strip_metadata_payload (f : Family) :
    (∀ n : f.Node, NodeT.latLon (stripMetadata n) = NodeT.latLon n) ∧
    (∀ w : f.Way, WayT.nodes (stripMetadata w) = WayT.nodes w) ∧
    (∀ r : f.Relation, RelationT.members (stripMetadata r) = RelationT.members r) ∧
    (∀ o : f.Obj, OSMObjT.intoNode (stripMetadata o) = (OSMObjT.intoNode o).map stripMetadata ∧
      OSMObjT.intoWay (stripMetadata o) = (OSMObjT.intoWay o).map stripMetadata ∧
      OSMObjT.intoRelation (stripMetadata o) = (OSMObjT.intoRelation o).map stripMetadata) :=
  ⟨fun n => LawfulNode.latLon_apply n .stripMetadata, fun w => LawfulWay.nodes_apply w .stripMetadata,
   fun r => LawfulRelation.members_apply r .stripMetadata, fun o => C13_sum f o .stripMetadata⟩

example : uid sampleNode ≠ none ∧ user sampleNode ≠ none := by decide +kernel

/-! ## C15 -/

/-- Everything a user can see of a node, way, relation or object is the same. -/
def SameNode {α β : Type} [NodeT α] [NodeT β] (a : α) (b : β) : Prop :=
  view a = view b ∧ NodeT.latLon a = NodeT.latLon b
/-- See `SameNode`. -/
def SameWay {α β : Type} [WayT α] [WayT β] (a : α) (b : β) : Prop :=
  view a = view b ∧ WayT.nodes a = WayT.nodes b
/-- See `SameNode`. -/
def SameRelation {α β : Type} [RelationT α] [RelationT β] (a : α) (b : β) : Prop :=
  view a = view b ∧ RelationT.members a = RelationT.members b

theorem foldl_setTag {α : Type} [OSMObjBase α] [LawfulObj α] (l : List (Str × Str)) (a : α) :
    view (l.foldl (fun n kv => setTag n kv.1 kv.2) a) =
      { view a with tags := l.foldl (fun t kv => put kv.1 kv.2 t) (tags a) } := by
  induction l generalizing a with
  | nil => rfl
  | cons p r ih =>
    simp only [List.foldl_cons]
    rw [ih, tags_setTag]
    have : view (setTag a p.1 p.2) = step (.setTag p.1 p.2) (view a) := LawfulObj.view_apply a (.setTag p.1 p.2)
    rw [this]
    rfl

theorem foldl_keep {α β : Type} (g : α → β) (s : α → Str × Str → α) (h : ∀ a p, g (s a p) = g a)
    (l : List (Str × Str)) (a : α) : g (l.foldl s a) = g a := by
  induction l generalizing a with
  | nil => rfl
  | cons p r ih => simp only [List.foldl_cons]; rw [ih, h]

/-- What the conversion does to the tags, in general: each pair is put into an empty list in turn. -/
def rebuilt (l : List (Str × Str)) : List (Str × Str) := l.foldl (fun t kv => put kv.1 kv.2 t) []

theorem rebuilt_nodup {l : List (Str × Str)} (h : (l.map Prod.fst).Nodup) : rebuilt l = l := by
  unfold rebuilt; rw [foldl_put_nodup l [] (by simpa using h)]; simp

theorem ofRc_node (o : RcNode) :
    view (StringNode.ofRc o) = { view o with tags := rebuilt (tags o) } ∧
    NodeT.latLon (StringNode.ofRc o) = NodeT.latLon o := by
  constructor
  · exact foldl_setTag (α := StringNode) (tags o) _
  · exact foldl_keep (α := StringNode) NodeT.latLon (fun n kv => setTag n kv.1 kv.2)
      (fun n kv => LawfulNode.latLon_apply n (.setTag kv.1 kv.2)) (tags o) _

theorem ofArc_node (o : ArcNode) :
    view (StringNode.ofArc o) = { view o with tags := rebuilt (tags o) } ∧
    NodeT.latLon (StringNode.ofArc o) = NodeT.latLon o := by
  constructor
  · exact foldl_setTag (α := StringNode) (tags o) _
  · exact foldl_keep (α := StringNode) NodeT.latLon (fun n kv => setTag n kv.1 kv.2)
      (fun n kv => LawfulNode.latLon_apply n (.setTag kv.1 kv.2)) (tags o) _

theorem ofRc_way (o : RcWay) :
    view (StringWay.ofRc o) = { view o with tags := rebuilt (tags o) } ∧
    WayT.nodes (StringWay.ofRc o) = WayT.nodes o :=
  ⟨(LawfulWay.view_set (α := StringWay) _ _).trans (foldl_setTag (α := StringWay) (tags o) _),
   LawfulWay.nodes_set (α := StringWay) _ _⟩

theorem ofArc_way (o : ArcWay) :
    view (StringWay.ofArc o) = { view o with tags := rebuilt (tags o) } ∧
    WayT.nodes (StringWay.ofArc o) = WayT.nodes o :=
  ⟨(LawfulWay.view_set (α := StringWay) _ _).trans (foldl_setTag (α := StringWay) (tags o) _),
   LawfulWay.nodes_set (α := StringWay) _ _⟩

theorem ofRc_relation (o : RcRelation) :
    view (StringRelation.ofRc o) = { view o with tags := rebuilt (tags o) } ∧
    RelationT.members (StringRelation.ofRc o) = RelationT.members o :=
  ⟨(LawfulRelation.view_set (α := StringRelation) _ _).trans (foldl_setTag (α := StringRelation) (tags o) _),
   LawfulRelation.members_set (α := StringRelation) _ _⟩

theorem ofArc_relation (o : ArcRelation) :
    view (StringRelation.ofArc o) = { view o with tags := rebuilt (tags o) } ∧
    RelationT.members (StringRelation.ofArc o) = RelationT.members o :=
  ⟨(LawfulRelation.view_set (α := StringRelation) _ _).trans (foldl_setTag (α := StringRelation) (tags o) _),
   LawfulRelation.members_set (α := StringRelation) _ _⟩

/-- **C15**, for objects whose tag keys are distinct: conversion from `Rc` and `Arc` objects to owned
objects keeps everything. Missing: objects with a repeated key (see `C15_conversion_fails`). -/
theorem C15_conversion_partial :
    (∀ o : RcNode, ((tags o).map Prod.fst).Nodup → SameNode (StringNode.ofRc o) o) ∧
    (∀ o : ArcNode, ((tags o).map Prod.fst).Nodup → SameNode (StringNode.ofArc o) o) ∧
    (∀ o : RcWay, ((tags o).map Prod.fst).Nodup → SameWay (StringWay.ofRc o) o) ∧
    (∀ o : ArcWay, ((tags o).map Prod.fst).Nodup → SameWay (StringWay.ofArc o) o) ∧
    (∀ o : RcRelation, ((tags o).map Prod.fst).Nodup → SameRelation (StringRelation.ofRc o) o) ∧
    (∀ o : ArcRelation, ((tags o).map Prod.fst).Nodup → SameRelation (StringRelation.ofArc o) o) := by
  refine ⟨fun o h => ?_, fun o h => ?_, fun o h => ?_, fun o h => ?_, fun o h => ?_, fun o h => ?_⟩
  · exact ⟨by rw [(ofRc_node o).1, rebuilt_nodup h]; rfl, (ofRc_node o).2⟩
  · exact ⟨by rw [(ofArc_node o).1, rebuilt_nodup h]; rfl, (ofArc_node o).2⟩
  · exact ⟨by rw [(ofRc_way o).1, rebuilt_nodup h]; rfl, (ofRc_way o).2⟩
  · exact ⟨by rw [(ofArc_way o).1, rebuilt_nodup h]; rfl, (ofArc_way o).2⟩
  · exact ⟨by rw [(ofRc_relation o).1, rebuilt_nodup h]; rfl, (ofRc_relation o).2⟩
  · exact ⟨by rw [(ofArc_relation o).1, rebuilt_nodup h]; rfl, (ofArc_relation o).2⟩

/-- **C15.** The sum types convert to the conversion of what is inside. -/
theorem C15_conversion_sum :
    (∀ o : RcOSMObj, OSMObjT.intoNode (StringOSMObj.ofRc o) = (OSMObjT.intoNode o).map StringNode.ofRc ∧
      OSMObjT.intoWay (StringOSMObj.ofRc o) = (OSMObjT.intoWay o).map StringWay.ofRc ∧
      OSMObjT.intoRelation (StringOSMObj.ofRc o) = (OSMObjT.intoRelation o).map StringRelation.ofRc) ∧
    (∀ o : ArcOSMObj, OSMObjT.intoNode (StringOSMObj.ofArc o) = (OSMObjT.intoNode o).map StringNode.ofArc ∧
      OSMObjT.intoWay (StringOSMObj.ofArc o) = (OSMObjT.intoWay o).map StringWay.ofArc ∧
      OSMObjT.intoRelation (StringOSMObj.ofArc o) = (OSMObjT.intoRelation o).map StringRelation.ofArc) := by
  constructor <;> intro o <;> cases o <;> exact ⟨rfl, rfl, rfl⟩

theorem lookup_foldl_put (l acc : List (Str × Str)) (k : Str) :
    lookup k (l.foldl (fun t kv => put kv.1 kv.2 t) acc) = (lookupLast k l).or (lookup k acc) := by
  induction l generalizing acc with
  | nil => simp [lookupLast, lookup]
  | cons p r ih =>
    obtain ⟨k', v⟩ := p
    rw [List.foldl_cons, ih, lookup_put]
    unfold lookupLast
    rw [List.reverse_cons, lookup_append]
    simp only [lookup]
    by_cases h : k' = k
    · subst h; cases lookup k' r.reverse <;> simp
    · have : k ≠ k' := fun e => h e.symm
      simp [h, this]

/-- **C15.** With repeated keys no key is lost: the converted node has, for each key, the last value of the
original. (The original shows the first.) -/
theorem C15_conversion_repeated_partial (o : ArcNode) (k : Str) :
    tag (StringNode.ofArc o) k = lookup k (tags o).reverse := by
  have h := congrArg View.tags (ofArc_node o).1
  have h' : tags (StringNode.ofArc o) = rebuilt (tags o) := h
  rw [LawfulObj.tag_eq, h']
  unfold rebuilt
  rw [lookup_foldl_put]
  simp [lookup, lookupLast]

/-- The full claim C15 is false: with a repeated key the tag list shrinks and `tag` changes its answer. -/
theorem C15_conversion_fails :
    ¬ ∀ o : ArcNode, tags (StringNode.ofArc o) = tags o ∧ ∀ k, tag (StringNode.ofArc o) k = tag o k := by
  intro h
  have := (h { sampleArcNode with tags_ := some [("a".toList, "1".toList), ("a".toList, "2".toList)] }).2
    "a".toList
  revert this
  decide +kernel

example : ((tags sampleArcNode).map Prod.fst).Nodup ∧ tags sampleArcNode ≠ [] := by decide +kernel

/-! ## C16 -/

/-- **C16.** Exactly one of the three tests holds; it agrees with `object_type`; exactly the
corresponding conversion returns an object, with the same contents; references agree with conversions. -/
theorem C16_kind_coherent (f : Family) (o : f.Obj) :
    ((isNode o = true ∧ isWay o = false ∧ isRelation o = false ∧ objectType o = .node ∧
        (∃ n, OSMObjT.intoNode o = some n ∧ view n = view o) ∧
        OSMObjT.intoWay o = none ∧ OSMObjT.intoRelation o = none) ∨
     (isNode o = false ∧ isWay o = true ∧ isRelation o = false ∧ objectType o = .way ∧
        (∃ w, OSMObjT.intoWay o = some w ∧ view w = view o) ∧
        OSMObjT.intoNode o = none ∧ OSMObjT.intoRelation o = none) ∨
     (isNode o = false ∧ isWay o = false ∧ isRelation o = true ∧ objectType o = .relation ∧
        (∃ r, OSMObjT.intoRelation o = some r ∧ view r = view o) ∧
        OSMObjT.intoNode o = none ∧ OSMObjT.intoWay o = none)) ∧
    OSMObjT.asNode o = OSMObjT.intoNode o ∧ OSMObjT.asWay o = OSMObjT.intoWay o ∧
    OSMObjT.asRelation o = OSMObjT.intoRelation o ∧
    (OSMObjT.asNodeMut o).map Prod.fst = OSMObjT.intoNode o ∧
    (OSMObjT.asWayMut o).map Prod.fst = OSMObjT.intoWay o ∧
    (OSMObjT.asRelationMut o).map Prod.fst = OSMObjT.intoRelation o := by
  refine ⟨?_, LawfulSum.asNode o, LawfulSum.asWay o, LawfulSum.asRelation o, (LawfulSum.asNodeMut o).1,
    (LawfulSum.asWayMut o).1, (LawfulSum.asRelationMut o).1⟩
  have none_of {X : Type} (x : Option X) (k k' : OSMObjectType) (hk : objectType o = k) (hne : k ≠ k')
      (h : ∀ y, x = some y → objectType o = k') : x = none := by
    cases x with
    | none => rfl
    | some y => exact absurd (hk.symm.trans (h y rfl)) hne
  have hN := LawfulSum.node (N := f.Node) (W := f.Way) (R := f.Relation) o
  have hW := LawfulSum.way (N := f.Node) (W := f.Way) (R := f.Relation) o
  have hR := LawfulSum.relation (N := f.Node) (W := f.Way) (R := f.Relation) o
  rcases LawfulSum.total (N := f.Node) (W := f.Way) (R := f.Relation) o with h | h | h
  · obtain ⟨n, hn⟩ := Option.isSome_iff_exists.1 h
    obtain ⟨hv, hk⟩ := hN n hn
    left
    refine ⟨by simp [isNode, hk], by simp [isWay, hk], by simp [isRelation, hk], hk, ⟨n, hn, hv⟩, ?_, ?_⟩
    · exact none_of _ _ .way hk (by decide) (fun y hy => (hW y hy).2)
    · exact none_of _ _ .relation hk (by decide) (fun y hy => (hR y hy).2)
  · obtain ⟨n, hn⟩ := Option.isSome_iff_exists.1 h
    obtain ⟨hv, hk⟩ := hW n hn
    right; left
    refine ⟨by simp [isNode, hk], by simp [isWay, hk], by simp [isRelation, hk], hk, ⟨n, hn, hv⟩, ?_, ?_⟩
    · exact none_of _ _ .node hk (by decide) (fun y hy => (hN y hy).2)
    · exact none_of _ _ .relation hk (by decide) (fun y hy => (hR y hy).2)
  · obtain ⟨n, hn⟩ := Option.isSome_iff_exists.1 h
    obtain ⟨hv, hk⟩ := hR n hn
    right; right
    refine ⟨by simp [isNode, hk], by simp [isWay, hk], by simp [isRelation, hk], hk, ⟨n, hn, hv⟩, ?_, ?_⟩
    · exact none_of _ _ .node hk (by decide) (fun y hy => (hN y hy).2)
    · exact none_of _ _ .way hk (by decide) (fun y hy => (hW y hy).2)

/-- **C16.** Concrete types report their own kind. -/
theorem C16_concrete_kinds (f : Family) (n : f.Node) (w : f.Way) (r : f.Relation) :
    objectType n = .node ∧ objectType w = .way ∧ objectType r = .relation :=
  ⟨LawfulNode.kind n, LawfulWay.kind w, LawfulRelation.kind r⟩

/-- **C16.** Writing through `as_node_mut` (and so on) replaces what `into_node` returns. -/
theorem C16_mutable_references (f : Family) (o : f.Obj) :
    (∀ n put, OSMObjT.asNodeMut o = some (n, put) → ∀ n', OSMObjT.intoNode (put n') = some n') ∧
    (∀ w put, OSMObjT.asWayMut o = some (w, put) → ∀ w', OSMObjT.intoWay (put w') = some w') ∧
    (∀ r put, OSMObjT.asRelationMut o = some (r, put) → ∀ r', OSMObjT.intoRelation (put r') = some r') :=
  ⟨(LawfulSum.asNodeMut o).2, (LawfulSum.asWayMut o).2, (LawfulSum.asRelationMut o).2⟩

/-- **C16.** An owned node, way or relation made an object (`into`) shows the same in everything, is of the same kind, and comes back as it was. -/
theorem C16_made (n : StringNode) (w : StringWay) (r : StringRelation) :
    (view (StringOSMObj.ofNode n) = view n ∧ objectType (StringOSMObj.ofNode n) = .node ∧ OSMObjT.intoNode (StringOSMObj.ofNode n) = some n) ∧
    (view (StringOSMObj.ofWay w) = view w ∧ objectType (StringOSMObj.ofWay w) = .way ∧ OSMObjT.intoWay (StringOSMObj.ofWay w) = some w) ∧
    (view (StringOSMObj.ofRelation r) = view r ∧ objectType (StringOSMObj.ofRelation r) = .relation ∧
      OSMObjT.intoRelation (StringOSMObj.ofRelation r) = some r) :=
  ⟨⟨rfl, rfl, rfl⟩, ⟨rfl, rfl, rfl⟩, ⟨rfl, rfl, rfl⟩⟩

/-- **C16, C15.** Converting a shared object to an owned one and making an object of it may be done in either order. -/
theorem C16_made_of_shared (n : ArcNode) (w : ArcWay) (r : ArcRelation) (n' : RcNode) (w' : RcWay) (r' : RcRelation) :
    StringOSMObj.ofArc (.node n) = .ofNode (.ofArc n) ∧ StringOSMObj.ofArc (.way w) = .ofWay (.ofArc w) ∧
    StringOSMObj.ofArc (.relation r) = .ofRelation (.ofArc r) ∧
    StringOSMObj.ofRc (.node n') = .ofNode (.ofRc n') ∧ StringOSMObj.ofRc (.way w') = .ofWay (.ofRc w') ∧
    StringOSMObj.ofRc (.relation r') = .ofRelation (.ofRc r') := ⟨rfl, rfl, rfl, rfl, rfl, rfl⟩

/-! ## C17 -/

theorem FilterNext.drain {σ Obj X : Type} {r : ReaderT σ Obj} {f : Obj → Option X} {s : σ} {os : List Obj}
    {s' : σ} (h : ObjectsDrain r s os s') : FilterDrains r f s (os.filterMap f) s' := by
  induction h with
  | done h => exact .done (.done h)
  | more h _ ih =>
    rename_i s s1 s2 o os _
    cases hf : f o with
    | some x =>
      rw [List.filterMap_cons_some hf]
      exact .more (.hit h hf) ih
    | none =>
      rw [List.filterMap_cons_none hf]
      generalize hl : os.filterMap f = l at ih
      cases ih with
      | done h' => exact .done (.skip h hf h')
      | more h' t => exact .more (.skip h hf h') t

theorem FilterNext.det {σ Obj X : Type} {r : ReaderT σ Obj} {f : Obj → Option X} {s s1 s2 : σ}
    {x y : Option X} (h1 : FilterNext r f s x s1) (h2 : FilterNext r f s y s2) : x = y ∧ s1 = s2 := by
  induction h1 generalizing y s2 with
  | done h =>
    cases h2 with
    | done h' => rw [h] at h'; cases h'; exact ⟨rfl, rfl⟩
    | hit h' _ => rw [h] at h'; cases h'
    | skip h' _ _ => rw [h] at h'; cases h'
  | hit h hf =>
    cases h2 with
    | done h' => rw [h] at h'; cases h'
    | hit h' hf' => rw [h] at h'; cases h'; rw [hf] at hf'; cases hf'; exact ⟨rfl, rfl⟩
    | skip h' hf' _ => rw [h] at h'; cases h'; rw [hf] at hf'; cases hf'
  | skip h hf _ ih =>
    cases h2 with
    | done h' => rw [h] at h'; cases h'
    | hit h' hf' => rw [h] at h'; cases h'; rw [hf] at hf'; cases hf'
    | skip h' hf' t => rw [h] at h'; cases h'; exact ih t

theorem FilterDrains.det {σ Obj X : Type} {r : ReaderT σ Obj} {f : Obj → Option X} {s s1 s2 : σ}
    {xs ys : List X} (h1 : FilterDrains r f s xs s1) (h2 : FilterDrains r f s ys s2) : xs = ys ∧ s1 = s2 := by
  induction h1 generalizing ys s2 with
  | done h =>
    cases h2 with
    | done h' => exact ⟨rfl, (h.det h').2⟩
    | more h' _ => cases (h.det h').1
  | more h _ ih =>
    cases h2 with
    | done h' => cases (h.det h').1
    | more h' t =>
      obtain ⟨e, rfl⟩ := h.det h'
      cases e
      obtain ⟨rfl, rfl⟩ := ih t
      exact ⟨rfl, rfl⟩

/-- **C17.** On any reader that drains to the objects `os`, each kind iterator drains, to exactly the
objects of that kind, unchanged and in order, and leaves the reader where `objects()` would. Nothing else
is possible. -/
theorem C17_kind_iterators (f : Family) {σ : Type} (r : ReaderT σ f.Obj) (s s' : σ) (os : List f.Obj)
    (h : ObjectsDrain r s os s') :
    (∀ ns s2, NodesDrain r s ns s2 ↔ ns = os.filterMap OSMObjT.intoNode ∧ s2 = s') ∧
    (∀ ws s2, WaysDrain r s ws s2 ↔ ws = os.filterMap OSMObjT.intoWay ∧ s2 = s') ∧
    (∀ rs s2, RelationsDrain r s rs s2 ↔ rs = os.filterMap OSMObjT.intoRelation ∧ s2 = s') := by
  refine ⟨fun ns s2 => ⟨fun hd => ?_, ?_⟩, fun ns s2 => ⟨fun hd => ?_, ?_⟩, fun ns s2 => ⟨fun hd => ?_, ?_⟩⟩
  · exact FilterDrains.det hd (FilterNext.drain h)
  · rintro ⟨rfl, rfl⟩; exact FilterNext.drain h
  · exact FilterDrains.det hd (FilterNext.drain h)
  · rintro ⟨rfl, rfl⟩; exact FilterNext.drain h
  · exact FilterDrains.det hd (FilterNext.drain h)
  · rintro ⟨rfl, rfl⟩; exact FilterNext.drain h

theorem filterMap_view {O X : Type} [OSMObjBase O] [OSMObjBase X] (g : O → Option X) (p : O → Bool)
    (os : List O) (h : ∀ o, match g o with
      | some x => p o = true ∧ view x = view o
      | none => p o = false) :
    (os.filterMap g).map view = (os.filter p).map view := by
  induction os with
  | nil => rfl
  | cons o os ih =>
    have := h o
    cases hg : g o with
    | some x =>
      rw [hg] at this
      rw [List.filterMap_cons_some hg, List.filter_cons_of_pos this.1]
      simp only [List.map_cons, this.2, ih]
    | none =>
      rw [hg] at this
      rw [List.filterMap_cons_none hg, List.filter_cons_of_neg (by rw [this]; simp)]
      exact ih

/-- **C17.** The three lists are a partition of the objects: they show the same contents as the sublists
of nodes, ways and relations, and their lengths add up. -/
theorem C17_partition (f : Family) (os : List f.Obj) :
    (os.filterMap OSMObjT.intoNode).map view = (os.filter isNode).map view ∧
    (os.filterMap OSMObjT.intoWay).map view = (os.filter isWay).map view ∧
    (os.filterMap OSMObjT.intoRelation).map view = (os.filter isRelation).map view ∧
    (os.filterMap OSMObjT.intoNode).length + (os.filterMap OSMObjT.intoWay).length +
      (os.filterMap OSMObjT.intoRelation).length = os.length := by
  refine ⟨filterMap_view _ _ _ fun o => ?_, filterMap_view _ _ _ fun o => ?_,
    filterMap_view _ _ _ fun o => ?_, ?_⟩
  · rcases (C16_kind_coherent f o).1 with ⟨h1, h2, h3, h4, ⟨x, hx, hv⟩, h5, h6⟩ |
      ⟨h1, h2, h3, h4, ⟨x, hx, hv⟩, h5, h6⟩ | ⟨h1, h2, h3, h4, ⟨x, hx, hv⟩, h5, h6⟩
    · rw [hx]; exact ⟨h1, hv⟩
    · rw [h5]; exact h1
    · rw [h5]; exact h1
  · rcases (C16_kind_coherent f o).1 with ⟨h1, h2, h3, h4, ⟨x, hx, hv⟩, h5, h6⟩ |
      ⟨h1, h2, h3, h4, ⟨x, hx, hv⟩, h5, h6⟩ | ⟨h1, h2, h3, h4, ⟨x, hx, hv⟩, h5, h6⟩
    · rw [h5]; exact h2
    · rw [hx]; exact ⟨h2, hv⟩
    · rw [h6]; exact h2
  · rcases (C16_kind_coherent f o).1 with ⟨h1, h2, h3, h4, ⟨x, hx, hv⟩, h5, h6⟩ |
      ⟨h1, h2, h3, h4, ⟨x, hx, hv⟩, h5, h6⟩ | ⟨h1, h2, h3, h4, ⟨x, hx, hv⟩, h5, h6⟩
    · rw [h6]; exact h3
    · rw [h6]; exact h3
    · rw [hx]; exact ⟨h3, hv⟩
  · induction os with
    | nil => rfl
    | cons o os ih =>
      rcases (C16_kind_coherent f o).1 with ⟨h1, h2, h3, h4, ⟨x, hx, hv⟩, h5, h6⟩ |
        ⟨h1, h2, h3, h4, ⟨x, hx, hv⟩, h5, h6⟩ | ⟨h1, h2, h3, h4, ⟨x, hx, hv⟩, h5, h6⟩
      · rw [List.filterMap_cons_some hx, List.filterMap_cons_none h5, List.filterMap_cons_none h6]
        simp only [List.length_cons]; omega
      · rw [List.filterMap_cons_some hx, List.filterMap_cons_none h5, List.filterMap_cons_none h6]
        simp only [List.length_cons]; omega
      · rw [List.filterMap_cons_some hx, List.filterMap_cons_none h5, List.filterMap_cons_none h6]
        simp only [List.length_cons]; omega

/-- A reader over a list drains to it. -/
def listReader (Obj : Type) : ReaderT (List Obj) Obj :=
  ⟨fun s => match s with
    | [] => (none, [])
    | o :: os => (some o, os)⟩

theorem listReader_drains {Obj : Type} (os : List Obj) : ObjectsDrain (listReader Obj) os os [] := by
  induction os with
  | nil => exact .done rfl
  | cons o os ih => exact .more rfl ih

/-- So the hypothesis of C17 is met by every list of objects. -/
example (os : List (Family.Obj .arc)) : ObjectsDrain (listReader _) os os [] := listReader_drains os

/-! ## C18 -/

/-- **C18.** Names parse back. -/
theorem C18_names_parse_back (t : OSMObjectType) :
    OSMObjectType.fromStr t.nameLong = some t ∧ OSMObjectType.fromStr [t.nameShort] = some t ∧
    OSMObjectType.tryFromChar t.nameShort = some t ∧ OSMObjectType.fromStr t.debug = some t := by
  cases t <;> decide

/-- **C18.** The long name, which is also the `Display` text, the short name, and the `Debug` text, which is the short name. -/
theorem C18_texts (t : OSMObjectType) :
    (t.nameLong, t.nameShort, t.debug) =
      match t with
      | .node => ("node".toList, 'n', "n".toList)
      | .way => ("way".toList, 'w', "w".toList)
      | .relation => ("relation".toList, 'r', "r".toList) := by
  cases t <;> decide

/-- **C18.** Exactly the documented spellings are accepted. -/
theorem C18_spellings (s : Str) (c : Char) :
    (OSMObjectType.fromStr s = some .node ↔ s = "n".toList ∨ s = "node".toList) ∧
    (OSMObjectType.fromStr s = some .way ↔ s = "w".toList ∨ s = "way".toList) ∧
    (OSMObjectType.fromStr s = some .relation ↔ s = "r".toList ∨ s = "relation".toList ∨ s = "rel".toList) ∧
    (OSMObjectType.tryFromChar c = some .node ↔ c = 'n') ∧
    (OSMObjectType.tryFromChar c = some .way ↔ c = 'w') ∧
    (OSMObjectType.tryFromChar c = some .relation ↔ c = 'r') := by
  have hs : ∀ x y : Str, x ≠ y → (s = x → s ≠ y) := fun x y h e e' => h (e.symm.trans e')
  refine ⟨?_, ?_, ?_, ?_, ?_, ?_⟩
  · unfold OSMObjectType.fromStr
    split
    · simp_all
    · rename_i h
      refine ⟨fun e => ?_, fun e => absurd e h⟩
      split at e
      · cases e
      · split at e <;> cases e
  · unfold OSMObjectType.fromStr
    constructor
    · intro e
      split at e
      · cases e
      · split at e
        · assumption
        · split at e <;> cases e
    · rintro (rfl | rfl) <;> decide
  · unfold OSMObjectType.fromStr
    constructor
    · intro e
      split at e
      · cases e
      · split at e
        · cases e
        · split at e
          · assumption
          · cases e
    · rintro (rfl | rfl | rfl) <;> decide
  · unfold OSMObjectType.tryFromChar
    constructor
    · intro e
      split at e
      · assumption
      · split at e
        · cases e
        · split at e <;> cases e
    · rintro rfl; decide
  · unfold OSMObjectType.tryFromChar
    constructor
    · intro e
      split at e
      · cases e
      · split at e
        · assumption
        · split at e <;> cases e
    · rintro rfl; decide
  · unfold OSMObjectType.tryFromChar
    constructor
    · intro e
      split at e
      · cases e
      · split at e
        · cases e
        · split at e
          · assumption
          · cases e
    · rintro rfl; decide

/-- **C18.** Node < Way < Relation. -/
theorem C18_order : OSMObjectType.rank .node < OSMObjectType.rank .way ∧
    OSMObjectType.rank .way < OSMObjectType.rank .relation := by decide

/-! ## C19 -/

/-- **C19.** A way is closed when it has nodes and the first is the last. -/
theorem C19_is_closed (f : Family) (w : f.Way) :
    isClosed w = true ↔ ∃ h : WayT.nodes w ≠ [], (WayT.nodes w).head h = (WayT.nodes w).getLast h := by
  unfold isClosed
  generalize WayT.nodes w = l
  cases l with
  | nil => simp
  | cons x xs =>
    rw [List.head?_cons, List.getLast?_eq_some_getLast (by simp)]
    simp

/-- **C19.** It is an area when it is closed and not tagged area=no. -/
theorem C19_is_area (f : Family) (w : f.Way) :
    isArea w = true ↔ isClosed w = true ∧ lookup "area".toList (tags w) ≠ some "no".toList := by
  unfold isArea
  rw [LawfulObj.tag_eq]
  simp

example : isClosed sampleWay = true ∧ isArea sampleWay = false := by decide +kernel
example : isArea (OSMObjBase.unsetTag sampleWay "area".toList) = true := by decide +kernel

/-! ## C20 -/

/-- **C20**, for objects whose tag keys are distinct: `tags_json_string` decodes, under JSON's rules, to a
list of members with strictly ascending keys which has exactly the object's tags. Missing: repeated keys,
where the last value is written although `tag` shows the first (`C20_json_fails`). -/
theorem C20_json_partial (t : ObjTy) (a : t.Carrier) (hn : ((tags a).map Prod.fst).Nodup) :
    ∃ ms, Spec.Json.decodeObject (tagsJsonString a) = some ms ∧
      ms.Pairwise (fun p q => compareStr p.1 q.1 = .lt) ∧ ∀ k, lookup k ms = tag a k := by
  by_cases hu : untagged a = true
  · refine ⟨[], ?_, .nil, fun k => ?_⟩
    · unfold tagsJsonString; rw [if_pos hu]; rfl
    · rw [LawfulObj.tag_eq, (LawfulObj.untagged_iff a).1 hu]
  · obtain ⟨h1, h2⟩ := foldl_insert (tags a) [] .nil
    refine ⟨_, ?_, h1, fun k => ?_⟩
    · unfold tagsJsonString; rw [if_neg hu]; exact object_decode _
    · rw [h2, lookupLast_nodup hn, LawfulObj.tag_eq]; simp [lookup]

/-- **C20.** For every object: valid JSON, keys strictly ascending, last value for each key. -/
theorem C20_json_valid (t : ObjTy) (a : t.Carrier) :
    ∃ ms, Spec.Json.decodeObject (tagsJsonString a) = some ms ∧
      ms.Pairwise (fun p q => compareStr p.1 q.1 = .lt) ∧ ∀ k, lookup k ms = lookup k (tags a).reverse := by
  by_cases hu : untagged a = true
  · refine ⟨[], ?_, .nil, fun k => ?_⟩
    · unfold tagsJsonString; rw [if_pos hu]; rfl
    · rw [(LawfulObj.untagged_iff a).1 hu]; rfl
  · obtain ⟨h1, h2⟩ := foldl_insert (tags a) [] .nil
    refine ⟨_, ?_, h1, fun k => ?_⟩
    · unfold tagsJsonString; rw [if_neg hu]; exact object_decode _
    · rw [h2]; simp [lookup, lookupLast]

/-- **C20.** `{}` for untagged objects. -/
theorem C20_json_untagged (t : ObjTy) (a : t.Carrier) (h : tags a = []) : tagsJsonString a = "{}".toList := by
  unfold tagsJsonString
  rw [if_pos ((LawfulObj.untagged_iff a).2 h)]

/-- The full claim C20 is false for repeated keys. -/
theorem C20_json_fails : ¬ ∀ (a : StringNode), ∃ ms,
    Spec.Json.decodeObject (tagsJsonString a) = some ms ∧ ∀ k, lookup k ms = tag a k := by
  intro h
  obtain ⟨ms, h1, h2⟩ := h { StringNode.default 1 with
    tags_ := [("a".toList, "1".toList), ("a".toList, "2".toList)] }
  have e : Spec.Json.decodeObject (tagsJsonString { StringNode.default 1 with
    tags_ := [("a".toList, "1".toList), ("a".toList, "2".toList)] }) = some [("a".toList, "2".toList)] := by
    decide +kernel
  rw [e] at h1
  cases h1
  have := h2 "a".toList
  revert this
  decide +kernel

example : tagsJsonString { StringNode.default 1 with
    tags_ := [("b\"".toList, "x\n".toList), ("a".toList, "\\".toList)] } =
    "{\"a\":\"\\\\\",\"b\\\"\":\"x\\n\"}".toList := by decide +kernel

end Osmio
