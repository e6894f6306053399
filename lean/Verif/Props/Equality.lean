import Verif.Model.ObjEq
import Verif.Spec.Equality
import Verif.Props.Objects
import Verif.Props.Timestamp
import Verif.Model.ArcPbf
/-!
# C80: two objects are equal exactly when they show the same
-/

namespace Osmio
open Spec OSMObjBase

/-- What the getters of an object of unknown kind show beyond those that all objects have. -/
def contents {f : Family} (o : f.Obj) :
    Option (Option (Lat × Lon)) × Option (List ObjId) × Option (List (OSMObjectType × ObjId × Str)) :=
  ((OSMObjT.asNode o).map NodeT.latLon, (OSMObjT.asWay o).map WayT.nodes,
   (OSMObjT.asRelation o).map RelationT.members)

theorem stamp_eq (a b : TimestampFormat) : a.eq b = true ↔ SameStamp a b := by
  cases a <;> cases b <;>
    simp only [TimestampFormat.eq, SameStamp, beq_iff_eq, TimestampFormat.toEpochNumber]

theorem eqTimestamp_iff (a b : Option TimestampFormat) : eqTimestamp a b = true ↔ SameStamp? a b := by
  cases a <;> cases b <;> simp only [eqTimestamp, SameStamp?, stamp_eq, reduceCtorEq]

theorem eqTimestamp_refl (a : Option TimestampFormat) : eqTimestamp a a = true := by
  cases a
  · rfl
  · exact C08_eq_refl _

theorem eqTimestamp_symm (a b : Option TimestampFormat) : eqTimestamp a b = eqTimestamp b a := by
  cases a <;> cases b <;> first | rfl | exact C08_eq_symm _ _

theorem string_node_eq (a b : StringNode) : PartialEqT.eq a b = true ↔
    (a.id_ = b.id_ ∧ a.version_ = b.version_ ∧ a.deleted_ = b.deleted_ ∧ a.changesetId_ = b.changesetId_ ∧
      SameStamp? a.timestamp_ b.timestamp_ ∧ a.uid_ = b.uid_ ∧ a.user_ = b.user_ ∧ a.tags_ = b.tags_) ∧
    a.latLon_ = b.latLon_ := by
  simp only [PartialEqT.eq, Bool.and_eq_true, beq_iff_eq, eqTimestamp_iff, and_assoc]

theorem string_way_eq (a b : StringWay) : PartialEqT.eq a b = true ↔
    (a.id_ = b.id_ ∧ a.version_ = b.version_ ∧ a.deleted_ = b.deleted_ ∧ a.changesetId_ = b.changesetId_ ∧
      SameStamp? a.timestamp_ b.timestamp_ ∧ a.uid_ = b.uid_ ∧ a.user_ = b.user_ ∧ a.tags_ = b.tags_) ∧
    a.nodes_ = b.nodes_ := by
  simp only [PartialEqT.eq, Bool.and_eq_true, beq_iff_eq, eqTimestamp_iff, and_assoc]

theorem string_relation_eq (a b : StringRelation) : PartialEqT.eq a b = true ↔
    (a.id_ = b.id_ ∧ a.version_ = b.version_ ∧ a.deleted_ = b.deleted_ ∧ a.changesetId_ = b.changesetId_ ∧
      SameStamp? a.timestamp_ b.timestamp_ ∧ a.uid_ = b.uid_ ∧ a.user_ = b.user_ ∧ a.tags_ = b.tags_) ∧
    a.members_ = b.members_ := by
  simp only [PartialEqT.eq, Bool.and_eq_true, beq_iff_eq, eqTimestamp_iff, and_assoc]

theorem rc_node_eq (a b : RcNode) : PartialEqT.eq a b = true ↔
    (a.id_ = b.id_ ∧ a.version_ = b.version_ ∧ a.deleted_ = b.deleted_ ∧ a.changesetId_ = b.changesetId_ ∧
      SameStamp? a.timestamp_ b.timestamp_ ∧ a.uid_ = b.uid_ ∧ a.user_ = b.user_ ∧ a.tags_ = b.tags_) ∧
    a.latLon_ = b.latLon_ := by
  simp only [PartialEqT.eq, Bool.and_eq_true, beq_iff_eq, eqTimestamp_iff, and_assoc]

theorem rc_way_eq (a b : RcWay) : PartialEqT.eq a b = true ↔
    (a.id_ = b.id_ ∧ a.version_ = b.version_ ∧ a.deleted_ = b.deleted_ ∧ a.changesetId_ = b.changesetId_ ∧
      SameStamp? a.timestamp_ b.timestamp_ ∧ a.uid_ = b.uid_ ∧ a.user_ = b.user_ ∧ a.tags_ = b.tags_) ∧
    a.nodes_ = b.nodes_ := by
  simp only [PartialEqT.eq, Bool.and_eq_true, beq_iff_eq, eqTimestamp_iff, and_assoc]

theorem rc_relation_eq (a b : RcRelation) : PartialEqT.eq a b = true ↔
    (a.id_ = b.id_ ∧ a.version_ = b.version_ ∧ a.deleted_ = b.deleted_ ∧ a.changesetId_ = b.changesetId_ ∧
      SameStamp? a.timestamp_ b.timestamp_ ∧ a.uid_ = b.uid_ ∧ a.user_ = b.user_ ∧ a.tags_ = b.tags_) ∧
    a.members_ = b.members_ := by
  simp only [PartialEqT.eq, Bool.and_eq_true, beq_iff_eq, eqTimestamp_iff, and_assoc]

theorem arc_node_eq (a b : ArcNode) : PartialEqT.eq a b = true ↔
    (a.id_ = b.id_ ∧ a.version_ = b.version_ ∧ a.deleted_ = b.deleted_ ∧ a.changesetId_ = b.changesetId_ ∧
      SameStamp? a.timestamp_ b.timestamp_ ∧ a.uid_ = b.uid_ ∧ a.user_ = b.user_ ∧ a.tags_ = b.tags_) ∧
    a.latLon_ = b.latLon_ := by
  simp only [PartialEqT.eq, Bool.and_eq_true, beq_iff_eq, eqTimestamp_iff, and_assoc]

theorem arc_way_eq (a b : ArcWay) : PartialEqT.eq a b = true ↔
    (a.id_ = b.id_ ∧ a.version_ = b.version_ ∧ a.deleted_ = b.deleted_ ∧ a.changesetId_ = b.changesetId_ ∧
      SameStamp? a.timestamp_ b.timestamp_ ∧ a.uid_ = b.uid_ ∧ a.user_ = b.user_ ∧ a.tags_ = b.tags_) ∧
    a.nodes_ = b.nodes_ := by
  simp only [PartialEqT.eq, Bool.and_eq_true, beq_iff_eq, eqTimestamp_iff, and_assoc]

theorem arc_relation_eq (a b : ArcRelation) : PartialEqT.eq a b = true ↔
    (a.id_ = b.id_ ∧ a.version_ = b.version_ ∧ a.deleted_ = b.deleted_ ∧ a.changesetId_ = b.changesetId_ ∧
      SameStamp? a.timestamp_ b.timestamp_ ∧ a.uid_ = b.uid_ ∧ a.user_ = b.user_ ∧ a.tags_ = b.tags_) ∧
    a.members_ = b.members_ := by
  simp only [PartialEqT.eq, Bool.and_eq_true, beq_iff_eq, eqTimestamp_iff, and_assoc]

theorem alike_iff (a b : View) : Alike a b ↔ a.id = b.id ∧ a.version = b.version ∧ a.deleted = b.deleted ∧
    a.changesetId = b.changesetId ∧ SameStamp? a.timestamp b.timestamp ∧ a.uid = b.uid ∧ a.user = b.user ∧
    a.tags = b.tags ∧ a.kind = b.kind :=
  ⟨fun h => ⟨h.1, h.2, h.3, h.4, h.5, h.6, h.7, h.8, h.9⟩,
   fun ⟨h1, h2, h3, h4, h5, h6, h7, h8, h9⟩ => ⟨h1, h2, h3, h4, h5, h6, h7, h8, h9⟩⟩

theorem alike_of {a b : View} (hk : a.kind = b.kind) {Q : Prop} :
    ((a.id = b.id ∧ a.version = b.version ∧ a.deleted = b.deleted ∧ a.changesetId = b.changesetId ∧
      SameStamp? a.timestamp b.timestamp ∧ a.uid = b.uid ∧ a.user = b.user ∧ a.tags = b.tags) ∧ Q) ↔
    (Alike a b ∧ Q) := by
  rw [alike_iff]
  constructor
  · rintro ⟨⟨h1, h2, h3, h4, h5, h6, h7, h8⟩, h9⟩
    exact ⟨⟨h1, h2, h3, h4, h5, h6, h7, h8, hk⟩, h9⟩
  · rintro ⟨⟨h1, h2, h3, h4, h5, h6, h7, h8, -⟩, h9⟩
    exact ⟨⟨h1, h2, h3, h4, h5, h6, h7, h8⟩, h9⟩

/-- **C80**, for ways: `==` holds exactly when the getters agree. -/
theorem C80_way (f : Family) (a b : f.Way) :
    PartialEqT.eq a b = true ↔ Alike (view a) (view b) ∧ WayT.nodes a = WayT.nodes b := by
  cases f
  · exact (string_way_eq a b).trans (alike_of (a := view (a : StringWay)) (b := view (b : StringWay)) rfl)
  · exact (rc_way_eq a b).trans (alike_of (a := view (a : RcWay)) (b := view (b : RcWay)) rfl)
  · exact (arc_way_eq a b).trans (alike_of (a := view (a : ArcWay)) (b := view (b : ArcWay)) rfl)

theorem string_relation (a b : StringRelation) : PartialEqT.eq a b = true ↔
    Alike (view a) (view b) ∧ RelationT.members a = RelationT.members b := by
  have h : ∀ x : StringRelation, RelationT.members x = x.members_ := StringRelation.members_eq
  rw [h, h]
  exact (string_relation_eq a b).trans (alike_of (a := view a) (b := view b) rfl)

theorem rc_relation (a b : RcRelation) : PartialEqT.eq a b = true ↔
    Alike (view a) (view b) ∧ RelationT.members a = RelationT.members b := by
  have h : ∀ x : RcRelation, RelationT.members x = x.members_ := RcRelation.members_eq
  rw [h, h]
  exact (rc_relation_eq a b).trans (alike_of (a := view a) (b := view b) rfl)

theorem arc_relation (a b : ArcRelation) : PartialEqT.eq a b = true ↔
    Alike (view a) (view b) ∧ RelationT.members a = RelationT.members b := by
  have h : ∀ x : ArcRelation, RelationT.members x = x.members_ := ArcRelation.members_eq
  rw [h, h]
  exact (arc_relation_eq a b).trans (alike_of (a := view a) (b := view b) rfl)

/-- **C80**, for relations: `==` holds exactly when the getters agree. -/
theorem C80_relation (f : Family) (a b : f.Relation) :
    PartialEqT.eq a b = true ↔ Alike (view a) (view b) ∧ RelationT.members a = RelationT.members b := by
  cases f
  · exact string_relation a b
  · exact rc_relation a b
  · exact arc_relation a b

/-- How the tags of a shared node are stored. -/
theorem stored {s s' : Option (List (Str × Str))} (hn : s.getD [] ≠ []) (h : s.getD [] = s'.getD []) : s = s' := by
  cases s <;> cases s'
  · rfl
  · exact absurd rfl hn
  · exact absurd h hn
  · exact congrArg some h

theorem arc_tags (a : ArcNode) : tags a = a.tags_.getD [] := by
  change ArcNode.tags a = _
  unfold ArcNode.tags
  cases a.tags_ <;> rfl

theorem rc_tags (a : RcNode) : tags a = a.tags_.getD [] := by
  change RcNode.tags a = _
  unfold RcNode.tags
  cases a.tags_ <;> rfl

theorem tags_ne_nil {α : Type} [OSMObjBase α] [LawfulObj α] {a : α} (h : tagged a = true) : tags a ≠ [] := by
  intro e
  have := (LawfulObj.untagged_iff a).mpr e
  rw [tagged, this] at h
  cases h

theorem rc_node (a b : RcNode) (ht : tagged a = true) :
    PartialEqT.eq a b = true ↔ Alike (view a) (view b) ∧ a.latLon_ = b.latLon_ := by
  have hn := tags_ne_nil ht
  have e : a.tags_ = b.tags_ ↔ (view a).tags = (view b).tags := by
    change _ ↔ tags a = tags b
    rw [rc_tags] at hn
    rw [rc_tags, rc_tags]
    exact ⟨fun e => by rw [e], fun e => stored hn e⟩
  rw [rc_node_eq, e]
  exact alike_of (a := view a) (b := view b) rfl

theorem arc_node (a b : ArcNode) (ht : tagged a = true) :
    PartialEqT.eq a b = true ↔ Alike (view a) (view b) ∧ a.latLon_ = b.latLon_ := by
  have hn := tags_ne_nil ht
  have e : a.tags_ = b.tags_ ↔ (view a).tags = (view b).tags := by
    change _ ↔ tags a = tags b
    rw [arc_tags] at hn
    rw [arc_tags, arc_tags]
    exact ⟨fun e => by rw [e], fun e => stored hn e⟩
  rw [arc_node_eq, e]
  exact alike_of (a := view a) (b := view b) rfl

theorem rc_node_sound (a b : RcNode) (h : PartialEqT.eq a b = true) :
    Alike (view a) (view b) ∧ a.latLon_ = b.latLon_ := by
  obtain ⟨⟨h1, h2, h3, h4, h5, h6, h7, h8⟩, h9⟩ := (rc_node_eq a b).mp h
  exact ⟨⟨h1, h2, h3, h4, h5, h6, h7, (rc_tags a).trans (Eq.trans (by rw [h8]) (rc_tags b).symm), rfl⟩, h9⟩

theorem arc_node_sound (a b : ArcNode) (h : PartialEqT.eq a b = true) :
    Alike (view a) (view b) ∧ a.latLon_ = b.latLon_ := by
  obtain ⟨⟨h1, h2, h3, h4, h5, h6, h7, h8⟩, h9⟩ := (arc_node_eq a b).mp h
  exact ⟨⟨h1, h2, h3, h4, h5, h6, h7, (arc_tags a).trans (Eq.trans (by rw [h8]) (arc_tags b).symm), rfl⟩, h9⟩

theorem rc_untagged (a : RcNode) (h : untagged a = true) :
    ∃ b : RcNode, view b = view a ∧ b.latLon_ = a.latLon_ ∧ PartialEqT.eq a b = false := by
  have hg := (LawfulObj.untagged_iff a).mp h
  rw [rc_tags] at hg
  obtain ⟨i, v, d, c, t, u, n, g, p⟩ := a
  cases g with
  | none =>
    refine ⟨⟨i, v, d, c, t, u, n, some [], p⟩, rfl, rfl, Bool.eq_false_iff.mpr fun e => ?_⟩
    cases ((rc_node_eq _ _).mp e).1.2.2.2.2.2.2.2
  | some l =>
    cases (show l = [] from hg)
    refine ⟨⟨i, v, d, c, t, u, n, none, p⟩, rfl, rfl, Bool.eq_false_iff.mpr fun e => ?_⟩
    cases ((rc_node_eq _ _).mp e).1.2.2.2.2.2.2.2

theorem arc_untagged (a : ArcNode) (h : untagged a = true) :
    ∃ b : ArcNode, view b = view a ∧ b.latLon_ = a.latLon_ ∧ PartialEqT.eq a b = false := by
  have hg := (LawfulObj.untagged_iff a).mp h
  rw [arc_tags] at hg
  obtain ⟨i, v, d, c, t, u, n, g, p⟩ := a
  cases g with
  | none =>
    refine ⟨⟨i, v, d, c, t, u, n, some [], p⟩, rfl, rfl, Bool.eq_false_iff.mpr fun e => ?_⟩
    cases ((arc_node_eq _ _).mp e).1.2.2.2.2.2.2.2
  | some l =>
    cases (show l = [] from hg)
    refine ⟨⟨i, v, d, c, t, u, n, none, p⟩, rfl, rfl, Bool.eq_false_iff.mpr fun e => ?_⟩
    cases ((arc_node_eq _ _).mp e).1.2.2.2.2.2.2.2

/-- **C80**, for nodes: `==` holds exactly when the getters agree. Missing: shared nodes without tags
(`C80_untagged_fails`). -/
theorem C80_node_partial (f : Family) (a b : f.Node) (h : f = .string ∨ tagged a = true) :
    PartialEqT.eq a b = true ↔ Alike (view a) (view b) ∧ NodeT.latLon a = NodeT.latLon b := by
  cases f with
  | string => exact (string_node_eq a b).trans (alike_of (a := view (a : StringNode)) (b := view (b : StringNode)) rfl)
  | rc => exact rc_node a b (h.resolve_left (by decide))
  | arc => exact arc_node a b (h.resolve_left (by decide))

/-- **C80**, for all nodes: nodes that are equal show the same. -/
theorem C80_node_sound (f : Family) (a b : f.Node) (h : PartialEqT.eq a b = true) :
    Alike (view a) (view b) ∧ NodeT.latLon a = NodeT.latLon b := by
  cases f with
  | string => exact (C80_node_partial .string a b (.inl rfl)).mp h
  | rc => exact rc_node_sound a b h
  | arc => exact arc_node_sound a b h

/-- **C80**, what the claim misses: each shared node without tags differs, according to `==`, from another
node of its type that shows exactly the same. -/
theorem C80_untagged_fails (f : Family) (hf : f ≠ .string) (a : f.Node) (h : untagged a = true) :
    ∃ b : f.Node, view b = view a ∧ NodeT.latLon b = NodeT.latLon a ∧ PartialEqT.eq a b = false := by
  cases f with
  | string => exact absurd rfl hf
  | rc => exact rc_untagged a h
  | arc => exact arc_untagged a h

/-- Exactly when two shared nodes are equal. -/
theorem rc_exact (a b : RcNode) : PartialEqT.eq a b = true ↔
    (Alike (view a) (view b) ∧ NodeT.latLon a = NodeT.latLon b) ∧ a.tags_.isNone = b.tags_.isNone := by
  constructor
  · intro h
    exact ⟨rc_node_sound a b h, by rw [((rc_node_eq a b).mp h).1.2.2.2.2.2.2.2]⟩
  · rintro ⟨⟨⟨h1, h2, h3, h4, h5, h6, h7, h8, -⟩, h9⟩, h10⟩
    change tags a = tags b at h8
    rw [rc_tags, rc_tags] at h8
    refine (rc_node_eq a b).mpr ⟨⟨h1, h2, h3, h4, h5, h6, h7, ?_⟩, h9⟩
    cases ha : a.tags_ <;> cases hb : b.tags_ <;> rw [ha, hb] at h8 h10
    · cases h10
    · cases h10
    · exact congrArg some h8

theorem rc_isNone_apply (a b : RcNode) (op : Op) (h : a.tags_.isNone = b.tags_.isNone) :
    (apply a op).tags_.isNone = (apply b op).tags_.isNone := by
  cases op with
  | setTag k v =>
    change (RcNode.setTag a k v).tags_.isNone = (RcNode.setTag b k v).tags_.isNone
    rw [RcNode.setTag_eq, RcNode.setTag_eq]
    rfl
  | unsetTag k =>
    change (RcNode.unsetTag a k).tags_.isNone = (RcNode.unsetTag b k).tags_.isNone
    rw [RcNode.unsetTag_eq, RcNode.unsetTag_eq]
    cases ha : a.tags_ <;> cases hb : b.tags_ <;> rw [ha, hb] at h <;> first | rfl | cases h
  | _ => exact h

/-- Exactly when two shared nodes are equal. -/
theorem arc_exact (a b : ArcNode) : PartialEqT.eq a b = true ↔
    (Alike (view a) (view b) ∧ NodeT.latLon a = NodeT.latLon b) ∧ a.tags_.isNone = b.tags_.isNone := by
  constructor
  · intro h
    exact ⟨arc_node_sound a b h, by rw [((arc_node_eq a b).mp h).1.2.2.2.2.2.2.2]⟩
  · rintro ⟨⟨⟨h1, h2, h3, h4, h5, h6, h7, h8, -⟩, h9⟩, h10⟩
    change tags a = tags b at h8
    rw [arc_tags, arc_tags] at h8
    refine (arc_node_eq a b).mpr ⟨⟨h1, h2, h3, h4, h5, h6, h7, ?_⟩, h9⟩
    cases ha : a.tags_ <;> cases hb : b.tags_ <;> rw [ha, hb] at h8 h10
    · cases h10
    · cases h10
    · exact congrArg some h8

theorem arc_isNone_apply (a b : ArcNode) (op : Op) (h : a.tags_.isNone = b.tags_.isNone) :
    (apply a op).tags_.isNone = (apply b op).tags_.isNone := by
  cases op with
  | setTag k v =>
    change (ArcNode.setTag a k v).tags_.isNone = (ArcNode.setTag b k v).tags_.isNone
    rw [ArcNode.setTag_eq, ArcNode.setTag_eq]
    rfl
  | unsetTag k =>
    change (ArcNode.unsetTag a k).tags_.isNone = (ArcNode.unsetTag b k).tags_.isNone
    rw [ArcNode.unsetTag_eq, ArcNode.unsetTag_eq]
    cases ha : a.tags_ <;> cases hb : b.tags_ <;> rw [ha, hb] at h <;> first | rfl | cases h
  | _ => exact h

theorem sameStamp_refl (t : TimestampFormat) : SameStamp t t := (stamp_eq t t).mp (C08_eq_refl t)
theorem sameStamp?_refl (t : Option TimestampFormat) : SameStamp? t t :=
  (eqTimestamp_iff t t).mp (eqTimestamp_refl t)
theorem sameStamp?_symm {s t : Option TimestampFormat} (h : SameStamp? s t) : SameStamp? t s := by
  rw [← eqTimestamp_iff] at h ⊢
  rw [eqTimestamp_symm]
  exact h

theorem Spec.Alike.refl (a : View) : Alike a a := ⟨rfl, rfl, rfl, rfl, sameStamp?_refl _, rfl, rfl, rfl, rfl⟩
theorem Spec.Alike.symm {a b : View} (h : Alike a b) : Alike b a :=
  ⟨h.1.symm, h.2.symm, h.3.symm, h.4.symm, sameStamp?_symm h.5, h.6.symm, h.7.symm, h.8.symm, h.9.symm⟩
theorem Spec.Alike.step {a b : View} (op : Op) (h : Alike a b) : Alike (step op a) (step op b) := by
  obtain ⟨h1, h2, h3, h4, h5, h6, h7, h8, h9⟩ := h
  cases op with
  | setTimestamp t => exact ⟨h1, h2, h3, h4, sameStamp?_refl t, h6, h7, h8, h9⟩
  | setTag k v => exact ⟨h1, h2, h3, h4, h5, h6, h7, congrArg (put k v) h8, h9⟩
  | unsetTag k => exact ⟨h1, h2, h3, h4, h5, h6, h7, congrArg (removeFirst k) h8, h9⟩
  | setId v => exact ⟨rfl, h2, h3, h4, h5, h6, h7, h8, h9⟩
  | setVersion v => exact ⟨h1, rfl, h3, h4, h5, h6, h7, h8, h9⟩
  | setDeleted v => exact ⟨h1, h2, rfl, h4, h5, h6, h7, h8, h9⟩
  | setChangesetId v => exact ⟨h1, h2, h3, rfl, h5, h6, h7, h8, h9⟩
  | setUid v => exact ⟨h1, h2, h3, h4, h5, rfl, h7, h8, h9⟩
  | setUser v => exact ⟨h1, h2, h3, h4, h5, h6, rfl, h8, h9⟩
  | stripMetadata => exact ⟨h1, h2, h3, rfl, h5, rfl, rfl, h8, h9⟩

theorem node_refl (f : Family) (a : f.Node) : PartialEqT.eq a a = true := by
  cases f with
  | string => exact (C80_node_partial .string a a (.inl rfl)).mpr ⟨Alike.refl _, rfl⟩
  | rc => exact (rc_exact a a).mpr ⟨⟨Alike.refl _, rfl⟩, rfl⟩
  | arc => exact (arc_exact a a).mpr ⟨⟨Alike.refl _, rfl⟩, rfl⟩

theorem node_symm (f : Family) {a b : f.Node} (h : PartialEqT.eq a b = true) : PartialEqT.eq b a = true := by
  cases f with
  | string =>
    have := (C80_node_partial .string a b (.inl rfl)).mp h
    exact (C80_node_partial .string b a (.inl rfl)).mpr ⟨this.1.symm, this.2.symm⟩
  | rc =>
    have := (rc_exact a b).mp h
    exact (rc_exact b a).mpr ⟨⟨this.1.1.symm, this.1.2.symm⟩, this.2.symm⟩
  | arc =>
    have := (arc_exact a b).mp h
    exact (arc_exact b a).mpr ⟨⟨this.1.1.symm, this.1.2.symm⟩, this.2.symm⟩

theorem node_apply (f : Family) {a b : f.Node} (op : Op) (h : PartialEqT.eq a b = true) :
    PartialEqT.eq (apply a op) (apply b op) = true := by
  have hv : ∀ {α : Type} [NodeT α] [LawfulNode α] {a b : α},
      Alike (view a) (view b) ∧ NodeT.latLon a = NodeT.latLon b →
      Alike (view (apply a op)) (view (apply b op)) ∧ NodeT.latLon (apply a op) = NodeT.latLon (apply b op) := by
    intro α _ _ a b h
    rw [LawfulObj.view_apply, LawfulObj.view_apply, LawfulNode.latLon_apply, LawfulNode.latLon_apply]
    exact ⟨h.1.step op, h.2⟩
  cases f with
  | string => exact (C80_node_partial .string _ _ (.inl rfl)).mpr (hv ((C80_node_partial .string a b (.inl rfl)).mp h))
  | rc =>
    have := (rc_exact a b).mp h
    exact (rc_exact _ _).mpr ⟨hv this.1, rc_isNone_apply _ _ op this.2⟩
  | arc =>
    have := (arc_exact a b).mp h
    exact (arc_exact _ _).mpr ⟨hv this.1, arc_isNone_apply _ _ op this.2⟩

theorem way_refl (f : Family) (a : f.Way) : PartialEqT.eq a a = true := (C80_way f a a).mpr ⟨Alike.refl _, rfl⟩
theorem relation_refl (f : Family) (a : f.Relation) : PartialEqT.eq a a = true :=
  (C80_relation f a a).mpr ⟨Alike.refl _, rfl⟩
theorem way_symm (f : Family) {a b : f.Way} (h : PartialEqT.eq a b = true) : PartialEqT.eq b a = true :=
  have := (C80_way f a b).mp h
  (C80_way f b a).mpr ⟨this.1.symm, this.2.symm⟩
theorem relation_symm (f : Family) {a b : f.Relation} (h : PartialEqT.eq a b = true) : PartialEqT.eq b a = true :=
  have := (C80_relation f a b).mp h
  (C80_relation f b a).mpr ⟨this.1.symm, this.2.symm⟩
theorem way_apply (f : Family) {a b : f.Way} (op : Op) (h : PartialEqT.eq a b = true) :
    PartialEqT.eq (apply a op) (apply b op) = true := by
  have := (C80_way f a b).mp h
  rw [C80_way, LawfulObj.view_apply, LawfulObj.view_apply, LawfulWay.nodes_apply, LawfulWay.nodes_apply]
  exact ⟨this.1.step op, this.2⟩
theorem relation_apply (f : Family) {a b : f.Relation} (op : Op) (h : PartialEqT.eq a b = true) :
    PartialEqT.eq (apply a op) (apply b op) = true := by
  have := (C80_relation f a b).mp h
  rw [C80_relation, LawfulObj.view_apply, LawfulObj.view_apply, LawfulRelation.members_apply,
    LawfulRelation.members_apply]
  exact ⟨this.1.step op, this.2⟩

/-! ### Objects of unknown kind -/

/-- A node as an object. -/
def Family.ofNode (f : Family) (x : f.Node) : f.Obj :=
  match f, x with
  | .string, x => StringOSMObj.node x
  | .rc, x => RcOSMObj.node x
  | .arc, x => ArcOSMObj.node x
/-- A way as an object. -/
def Family.ofWay (f : Family) (x : f.Way) : f.Obj :=
  match f, x with
  | .string, x => StringOSMObj.way x
  | .rc, x => RcOSMObj.way x
  | .arc, x => ArcOSMObj.way x
/-- A relation as an object. -/
def Family.ofRelation (f : Family) (x : f.Relation) : f.Obj :=
  match f, x with
  | .string, x => StringOSMObj.relation x
  | .rc, x => RcOSMObj.relation x
  | .arc, x => ArcOSMObj.relation x

/-- To prove something about `==` on objects it is enough to prove it for objects of the same kind. -/
theorem obj_elim (f : Family) (P : f.Obj → f.Obj → Bool → Prop)
    (hn : ∀ x y, P (f.ofNode x) (f.ofNode y) (PartialEqT.eq x y))
    (hw : ∀ x y, P (f.ofWay x) (f.ofWay y) (PartialEqT.eq x y))
    (hr : ∀ x y, P (f.ofRelation x) (f.ofRelation y) (PartialEqT.eq x y))
    (off : ∀ a b, objectType a ≠ objectType b → P a b false) : ∀ a b, P a b (PartialEqT.eq a b) := by
  cases f with
  | string =>
    intro a b
    cases a with
    | node x =>
      cases b with
      | node y => exact hn x y
      | way y => exact off _ _ (show OSMObjectType.node ≠ OSMObjectType.way by decide)
      | relation y => exact off _ _ (show OSMObjectType.node ≠ OSMObjectType.relation by decide)
    | way x =>
      cases b with
      | node y => exact off _ _ (show OSMObjectType.way ≠ OSMObjectType.node by decide)
      | way y => exact hw x y
      | relation y => exact off _ _ (show OSMObjectType.way ≠ OSMObjectType.relation by decide)
    | relation x =>
      cases b with
      | node y => exact off _ _ (show OSMObjectType.relation ≠ OSMObjectType.node by decide)
      | way y => exact off _ _ (show OSMObjectType.relation ≠ OSMObjectType.way by decide)
      | relation y => exact hr x y
  | rc =>
    intro a b
    cases a with
    | node x =>
      cases b with
      | node y => exact hn x y
      | way y => exact off _ _ (show OSMObjectType.node ≠ OSMObjectType.way by decide)
      | relation y => exact off _ _ (show OSMObjectType.node ≠ OSMObjectType.relation by decide)
    | way x =>
      cases b with
      | node y => exact off _ _ (show OSMObjectType.way ≠ OSMObjectType.node by decide)
      | way y => exact hw x y
      | relation y => exact off _ _ (show OSMObjectType.way ≠ OSMObjectType.relation by decide)
    | relation x =>
      cases b with
      | node y => exact off _ _ (show OSMObjectType.relation ≠ OSMObjectType.node by decide)
      | way y => exact off _ _ (show OSMObjectType.relation ≠ OSMObjectType.way by decide)
      | relation y => exact hr x y
  | arc =>
    intro a b
    cases a with
    | node x =>
      cases b with
      | node y => exact hn x y
      | way y => exact off _ _ (show OSMObjectType.node ≠ OSMObjectType.way by decide)
      | relation y => exact off _ _ (show OSMObjectType.node ≠ OSMObjectType.relation by decide)
    | way x =>
      cases b with
      | node y => exact off _ _ (show OSMObjectType.way ≠ OSMObjectType.node by decide)
      | way y => exact hw x y
      | relation y => exact off _ _ (show OSMObjectType.way ≠ OSMObjectType.relation by decide)
    | relation x =>
      cases b with
      | node y => exact off _ _ (show OSMObjectType.relation ≠ OSMObjectType.node by decide)
      | way y => exact off _ _ (show OSMObjectType.relation ≠ OSMObjectType.way by decide)
      | relation y => exact hr x y

theorem view_ofNode (f : Family) (x : f.Node) : view (f.ofNode x) = view x := by cases f <;> rfl
theorem view_ofWay (f : Family) (x : f.Way) : view (f.ofWay x) = view x := by cases f <;> rfl
theorem view_ofRelation (f : Family) (x : f.Relation) : view (f.ofRelation x) = view x := by cases f <;> rfl
theorem contents_ofNode (f : Family) (x : f.Node) : contents (f.ofNode x) = (some (NodeT.latLon x), none, none) := by
  cases f <;> rfl
theorem contents_ofWay (f : Family) (x : f.Way) : contents (f.ofWay x) = (none, some (WayT.nodes x), none) := by
  cases f <;> rfl
theorem contents_ofRelation (f : Family) (x : f.Relation) :
    contents (f.ofRelation x) = (none, none, some (RelationT.members x)) := by cases f <;> rfl
theorem apply_ofNode (f : Family) (x : f.Node) (op : Op) : apply (f.ofNode x) op = f.ofNode (apply x op) := by
  cases f <;> cases op <;> rfl
theorem apply_ofWay (f : Family) (x : f.Way) (op : Op) : apply (f.ofWay x) op = f.ofWay (apply x op) := by
  cases f <;> cases op <;> rfl
theorem apply_ofRelation (f : Family) (x : f.Relation) (op : Op) :
    apply (f.ofRelation x) op = f.ofRelation (apply x op) := by cases f <;> cases op <;> rfl
theorem eq_ofNode (f : Family) (x y : f.Node) : PartialEqT.eq (f.ofNode x) (f.ofNode y) = PartialEqT.eq x y := by
  cases f <;> rfl
theorem eq_ofWay (f : Family) (x y : f.Way) : PartialEqT.eq (f.ofWay x) (f.ofWay y) = PartialEqT.eq x y := by
  cases f <;> rfl
theorem eq_ofRelation (f : Family) (x y : f.Relation) :
    PartialEqT.eq (f.ofRelation x) (f.ofRelation y) = PartialEqT.eq x y := by cases f <;> rfl
theorem kind_ofNode (f : Family) (x : f.Node) : objectType (f.ofNode x) = .node := by cases f <;> rfl
theorem tagged_ofNode (f : Family) (x : f.Node) : tagged (f.ofNode x) = tagged x := by
  rw [Bool.eq_iff_iff]
  have h : ∀ {α : Type} [OSMObjBase α] [LawfulObj α] (a : α), tagged a = true ↔ (view a).tags ≠ [] := by
    intro α _ _ a
    have := LawfulObj.untagged_iff a
    simp only [tagged, view, Bool.not_eq_true', ne_eq, ← this, Bool.not_eq_true]
  rw [h, h, view_ofNode]

/-- **C80**, for objects of unknown kind: `==` holds exactly when the getters agree. Missing: shared nodes
without tags. -/
theorem C80_obj_partial (f : Family) (a b : f.Obj)
    (h : f = .string ∨ objectType a ≠ .node ∨ tagged a = true) :
    PartialEqT.eq a b = true ↔ Alike (view a) (view b) ∧ contents a = contents b := by
  refine obj_elim f (fun a b e => f = .string ∨ objectType a ≠ .node ∨ tagged a = true →
    (e = true ↔ Alike (view a) (view b) ∧ contents a = contents b)) ?_ ?_ ?_ ?_ a b h
  · intro x y h
    rw [kind_ofNode, tagged_ofNode] at h
    rw [view_ofNode, view_ofNode, contents_ofNode, contents_ofNode,
      C80_node_partial f x y (h.imp_right fun h => h.resolve_left fun e => e rfl)]
    simp only [Prod.mk.injEq, Option.some.injEq, and_true]
  · intro x y _
    rw [view_ofWay, view_ofWay, contents_ofWay, contents_ofWay, C80_way]
    simp only [Prod.mk.injEq, Option.some.injEq, and_true, true_and]
  · intro x y _
    rw [view_ofRelation, view_ofRelation, contents_ofRelation, contents_ofRelation, C80_relation]
    simp only [Prod.mk.injEq, Option.some.injEq, true_and]
  · exact fun a b hk _ => ⟨fun e => Bool.noConfusion e, fun e => absurd e.1.kind hk⟩

/-- **C80.** Owned objects of unknown kind: no exception. -/
theorem C80_owned (a b : StringOSMObj) : PartialEqT.eq a b = true ↔
    Alike (view a) (view b) ∧ contents (f := .string) a = contents (f := .string) b :=
  C80_obj_partial .string a b (.inl rfl)

/-- **C80.** Equal objects show the same, whatever their type. -/
theorem C80_sound (t : ObjTy) (a b : t.Carrier) (h : PartialEqT.eq a b = true) : Alike (view a) (view b) := by
  rcases t with f | f | f | f
  · exact (C80_node_sound f a b h).1
  · exact ((C80_way f a b).mp h).1
  · exact ((C80_relation f a b).mp h).1
  · refine obj_elim f (fun a b e => e = true → Alike (view a) (view b)) ?_ ?_ ?_ ?_ a b h
    · exact fun x y h => by rw [view_ofNode, view_ofNode]; exact (C80_node_sound f x y h).1
    · exact fun x y h => by rw [view_ofWay, view_ofWay]; exact ((C80_way f x y).mp h).1
    · exact fun x y h => by rw [view_ofRelation, view_ofRelation]; exact ((C80_relation f x y).mp h).1
    · exact fun a b _ e => Bool.noConfusion e

/-- **C80.** Equal objects of unknown kind have the same position, nodes or members. -/
theorem C80_contents (f : Family) (a b : f.Obj) (h : PartialEqT.eq a b = true) : contents a = contents b := by
  refine obj_elim f (fun a b e => e = true → contents a = contents b) ?_ ?_ ?_ ?_ a b h
  · exact fun x y h => by rw [contents_ofNode, contents_ofNode, (C80_node_sound f x y h).2]
  · exact fun x y h => by rw [contents_ofWay, contents_ofWay, ((C80_way f x y).mp h).2]
  · exact fun x y h => by rw [contents_ofRelation, contents_ofRelation, ((C80_relation f x y).mp h).2]
  · exact fun a b _ e => Bool.noConfusion e

theorem symm_imp (t : ObjTy) (a b : t.Carrier) (h : PartialEqT.eq a b = true) : PartialEqT.eq b a = true := by
  rcases t with f | f | f | f
  · exact node_symm f h
  · exact way_symm f h
  · exact relation_symm f h
  · refine obj_elim f (fun a b e => e = true → PartialEqT.eq b a = true) ?_ ?_ ?_ ?_ a b h
    · exact fun x y h => (eq_ofNode f y x).trans (node_symm f h)
    · exact fun x y h => (eq_ofWay f y x).trans (way_symm f h)
    · exact fun x y h => (eq_ofRelation f y x).trans (relation_symm f h)
    · exact fun a b _ e => Bool.noConfusion e

/-- **C80.** `==` is symmetric on all object types. -/
theorem C80_symm (t : ObjTy) (a b : t.Carrier) : PartialEqT.eq a b = PartialEqT.eq b a :=
  Bool.eq_iff_iff.mpr ⟨symm_imp t a b, symm_imp t b a⟩

/-- **C80.** `==` is reflexive on all object types. -/
theorem C80_refl (t : ObjTy) (a : t.Carrier) : PartialEqT.eq a a = true := by
  rcases t with f | f | f | f
  · exact node_refl f a
  · exact way_refl f a
  · exact relation_refl f a
  · refine obj_elim f (fun a b e => a = b → e = true) ?_ ?_ ?_ ?_ a a rfl
    · intro x y h
      cases f <;> cases h <;> exact node_refl _ x
    · intro x y h
      cases f <;> cases h <;> exact way_refl _ x
    · intro x y h
      cases f <;> cases h <;> exact relation_refl _ x
    · exact fun a b h e => absurd (congrArg objectType e) h

/-- **C80.** Equal objects stay equal when the same mutator is called on both. -/
theorem C80_mutators (t : ObjTy) (a b : t.Carrier) (op : Op) (h : PartialEqT.eq a b = true) :
    PartialEqT.eq (apply a op) (apply b op) = true := by
  rcases t with f | f | f | f
  · exact node_apply f op h
  · exact way_apply f op h
  · exact relation_apply f op h
  · refine obj_elim f (fun a b e => e = true → PartialEqT.eq (apply a op) (apply b op) = true) ?_ ?_ ?_ ?_ a b h
    · exact fun x y h => by rw [apply_ofNode, apply_ofNode, eq_ofNode]; exact node_apply f op h
    · exact fun x y h => by rw [apply_ofWay, apply_ofWay, eq_ofWay]; exact way_apply f op h
    · exact fun x y h => by rw [apply_ofRelation, apply_ofRelation, eq_ofRelation]; exact relation_apply f op h
    · exact fun a b _ e => Bool.noConfusion e

/-! ### Conversion -/

theorem Spec.Alike.retag {a b : View} (g : List (Str × Str) → List (Str × Str)) (h : Alike a b) :
    Alike { a with tags := g a.tags } { b with tags := g b.tags } :=
  ⟨h.1, h.2, h.3, h.4, h.5, h.6, h.7, congrArg g h.8, h.9⟩

theorem rc_node_converted {a b : RcNode} (h : Alike (view a) (view b) ∧ NodeT.latLon a = NodeT.latLon b) :
    PartialEqT.eq (StringNode.ofRc a) (StringNode.ofRc b) = true := by
  refine (C80_node_partial .string _ _ (.inl rfl)).mpr ⟨?_, (ofRc_node a).2.trans (h.2.trans (ofRc_node b).2.symm)⟩
  exact (ofRc_node a).1 ▸ (ofRc_node b).1 ▸ h.1.retag rebuilt

theorem rc_way_converted {a b : RcWay} (h : Alike (view a) (view b) ∧ WayT.nodes a = WayT.nodes b) :
    PartialEqT.eq (StringWay.ofRc a) (StringWay.ofRc b) = true := by
  refine (C80_way .string _ _).mpr ⟨?_, (ofRc_way a).2.trans (h.2.trans (ofRc_way b).2.symm)⟩
  exact (ofRc_way a).1 ▸ (ofRc_way b).1 ▸ h.1.retag rebuilt

theorem rc_relation_converted {a b : RcRelation}
    (h : Alike (view a) (view b) ∧ RelationT.members a = RelationT.members b) :
    PartialEqT.eq (StringRelation.ofRc a) (StringRelation.ofRc b) = true := by
  refine (C80_relation .string _ _).mpr ⟨?_, (ofRc_relation a).2.trans (h.2.trans (ofRc_relation b).2.symm)⟩
  exact (ofRc_relation a).1 ▸ (ofRc_relation b).1 ▸ h.1.retag rebuilt

/-- **C80.** Shared objects that show the same become equal owned objects, whether or not they are equal
themselves. -/
theorem C80_converted_rc (a b : RcOSMObj)
    (h : Alike (view a) (view b) ∧ contents (f := .rc) a = contents (f := .rc) b) :
    PartialEqT.eq (StringOSMObj.ofRc a) (StringOSMObj.ofRc b) = true := by
  cases a with
  | node x =>
    cases b with
    | node y => exact rc_node_converted ⟨h.1, Option.some.inj (congrArg Prod.fst h.2)⟩
    | way y => cases congrArg Prod.fst h.2
    | relation y => cases congrArg Prod.fst h.2
  | way x =>
    cases b with
    | node y => cases congrArg Prod.fst h.2
    | way y => exact rc_way_converted ⟨h.1, Option.some.inj (congrArg (fun c => c.2.1) h.2)⟩
    | relation y => cases congrArg (fun c => c.2.1) h.2
  | relation x =>
    cases b with
    | node y => cases congrArg Prod.fst h.2
    | way y => cases congrArg (fun c => c.2.1) h.2
    | relation y => exact rc_relation_converted ⟨h.1, Option.some.inj (congrArg (fun c => c.2.2) h.2)⟩

theorem arc_node_converted {a b : ArcNode} (h : Alike (view a) (view b) ∧ NodeT.latLon a = NodeT.latLon b) :
    PartialEqT.eq (StringNode.ofArc a) (StringNode.ofArc b) = true := by
  refine (C80_node_partial .string _ _ (.inl rfl)).mpr ⟨?_, (ofArc_node a).2.trans (h.2.trans (ofArc_node b).2.symm)⟩
  exact (ofArc_node a).1 ▸ (ofArc_node b).1 ▸ h.1.retag rebuilt

theorem arc_way_converted {a b : ArcWay} (h : Alike (view a) (view b) ∧ WayT.nodes a = WayT.nodes b) :
    PartialEqT.eq (StringWay.ofArc a) (StringWay.ofArc b) = true := by
  refine (C80_way .string _ _).mpr ⟨?_, (ofArc_way a).2.trans (h.2.trans (ofArc_way b).2.symm)⟩
  exact (ofArc_way a).1 ▸ (ofArc_way b).1 ▸ h.1.retag rebuilt

theorem arc_relation_converted {a b : ArcRelation}
    (h : Alike (view a) (view b) ∧ RelationT.members a = RelationT.members b) :
    PartialEqT.eq (StringRelation.ofArc a) (StringRelation.ofArc b) = true := by
  refine (C80_relation .string _ _).mpr ⟨?_, (ofArc_relation a).2.trans (h.2.trans (ofArc_relation b).2.symm)⟩
  exact (ofArc_relation a).1 ▸ (ofArc_relation b).1 ▸ h.1.retag rebuilt

/-- **C80.** Shared objects that show the same become equal owned objects, whether or not they are equal
themselves. -/
theorem C80_converted_arc (a b : ArcOSMObj)
    (h : Alike (view a) (view b) ∧ contents (f := .arc) a = contents (f := .arc) b) :
    PartialEqT.eq (StringOSMObj.ofArc a) (StringOSMObj.ofArc b) = true := by
  cases a with
  | node x =>
    cases b with
    | node y => exact arc_node_converted ⟨h.1, Option.some.inj (congrArg Prod.fst h.2)⟩
    | way y => cases congrArg Prod.fst h.2
    | relation y => cases congrArg Prod.fst h.2
  | way x =>
    cases b with
    | node y => cases congrArg Prod.fst h.2
    | way y => exact arc_way_converted ⟨h.1, Option.some.inj (congrArg (fun c => c.2.1) h.2)⟩
    | relation y => cases congrArg (fun c => c.2.1) h.2
  | relation x =>
    cases b with
    | node y => cases congrArg Prod.fst h.2
    | way y => cases congrArg (fun c => c.2.1) h.2
    | relation y => exact arc_relation_converted ⟨h.1, Option.some.inj (congrArg (fun c => c.2.2) h.2)⟩

/-! ### Transitivity -/

/-- The timestamp is missing or a number, as in all objects of a PBF file. -/
def Numbered (v : View) : Prop := ∀ s, v.timestamp ≠ some (.iso s)
/-- The timestamp is missing or a text, as in all objects of an XML file. -/
def Dated (v : View) : Prop := ∀ t, v.timestamp ≠ some (.epoch t)

theorem timestamp_eq {a b : View} (h : Alike a b) (hk : (Numbered a ∧ Numbered b) ∨ (Dated a ∧ Dated b)) :
    a.timestamp = b.timestamp := by
  have h5 := h.timestamp
  rcases hk with ⟨ha, hb⟩ | ⟨ha, hb⟩
  all_goals
    cases ea : a.timestamp with
    | none =>
      cases eb : b.timestamp with
      | none => rfl
      | some y => rw [ea, eb] at h5; exact h5.elim
    | some x =>
      cases eb : b.timestamp with
      | none => rw [ea, eb] at h5; exact h5.elim
      | some y =>
        cases x <;> cases y
        all_goals first
          | exact absurd ea (ha _)
          | exact absurd eb (hb _)
          | (rw [ea, eb] at h5; exact congrArg _ (congrArg _ h5))

theorem string_node_identical {a b : StringNode} (h : PartialEqT.eq a b = true) (ht : a.timestamp_ = b.timestamp_) : a = b := by
  obtain ⟨⟨h1, h2, h3, h4, -, h6, h7, h8⟩, h9⟩ := (string_node_eq a b).mp h
  cases a; cases b
  cases h1; cases h2; cases h3; cases h4; cases ht; cases h6; cases h7; cases h8; cases h9
  rfl

theorem string_way_identical {a b : StringWay} (h : PartialEqT.eq a b = true) (ht : a.timestamp_ = b.timestamp_) : a = b := by
  obtain ⟨⟨h1, h2, h3, h4, -, h6, h7, h8⟩, h9⟩ := (string_way_eq a b).mp h
  cases a; cases b
  cases h1; cases h2; cases h3; cases h4; cases ht; cases h6; cases h7; cases h8; cases h9
  rfl

theorem string_relation_identical {a b : StringRelation} (h : PartialEqT.eq a b = true) (ht : a.timestamp_ = b.timestamp_) : a = b := by
  obtain ⟨⟨h1, h2, h3, h4, -, h6, h7, h8⟩, h9⟩ := (string_relation_eq a b).mp h
  cases a; cases b
  cases h1; cases h2; cases h3; cases h4; cases ht; cases h6; cases h7; cases h8; cases h9
  rfl

theorem rc_node_identical {a b : RcNode} (h : PartialEqT.eq a b = true) (ht : a.timestamp_ = b.timestamp_) : a = b := by
  obtain ⟨⟨h1, h2, h3, h4, -, h6, h7, h8⟩, h9⟩ := (rc_node_eq a b).mp h
  cases a; cases b
  cases h1; cases h2; cases h3; cases h4; cases ht; cases h6; cases h7; cases h8; cases h9
  rfl

theorem rc_way_identical {a b : RcWay} (h : PartialEqT.eq a b = true) (ht : a.timestamp_ = b.timestamp_) : a = b := by
  obtain ⟨⟨h1, h2, h3, h4, -, h6, h7, h8⟩, h9⟩ := (rc_way_eq a b).mp h
  cases a; cases b
  cases h1; cases h2; cases h3; cases h4; cases ht; cases h6; cases h7; cases h8; cases h9
  rfl

theorem rc_relation_identical {a b : RcRelation} (h : PartialEqT.eq a b = true) (ht : a.timestamp_ = b.timestamp_) : a = b := by
  obtain ⟨⟨h1, h2, h3, h4, -, h6, h7, h8⟩, h9⟩ := (rc_relation_eq a b).mp h
  cases a; cases b
  cases h1; cases h2; cases h3; cases h4; cases ht; cases h6; cases h7; cases h8; cases h9
  rfl

theorem arc_node_identical {a b : ArcNode} (h : PartialEqT.eq a b = true) (ht : a.timestamp_ = b.timestamp_) : a = b := by
  obtain ⟨⟨h1, h2, h3, h4, -, h6, h7, h8⟩, h9⟩ := (arc_node_eq a b).mp h
  cases a; cases b
  cases h1; cases h2; cases h3; cases h4; cases ht; cases h6; cases h7; cases h8; cases h9
  rfl

theorem arc_way_identical {a b : ArcWay} (h : PartialEqT.eq a b = true) (ht : a.timestamp_ = b.timestamp_) : a = b := by
  obtain ⟨⟨h1, h2, h3, h4, -, h6, h7, h8⟩, h9⟩ := (arc_way_eq a b).mp h
  cases a; cases b
  cases h1; cases h2; cases h3; cases h4; cases ht; cases h6; cases h7; cases h8; cases h9
  rfl

theorem arc_relation_identical {a b : ArcRelation} (h : PartialEqT.eq a b = true) (ht : a.timestamp_ = b.timestamp_) : a = b := by
  obtain ⟨⟨h1, h2, h3, h4, -, h6, h7, h8⟩, h9⟩ := (arc_relation_eq a b).mp h
  cases a; cases b
  cases h1; cases h2; cases h3; cases h4; cases ht; cases h6; cases h7; cases h8; cases h9
  rfl

/-- **C80.** Objects that are equal and have the same timestamp, down to its representation, are identical:
nothing that can be done with them tells them apart. -/
theorem C80_identical (t : ObjTy) (a b : t.Carrier) (h : PartialEqT.eq a b = true)
    (ht : timestamp a = timestamp b) : a = b := by
  have hn : ∀ (f : Family) (a b : f.Node), PartialEqT.eq a b = true → timestamp a = timestamp b → a = b := by
    intro f a b h ht
    cases f
    · exact string_node_identical h ht
    · exact rc_node_identical h ht
    · exact arc_node_identical h ht
  have hw : ∀ (f : Family) (a b : f.Way), PartialEqT.eq a b = true → timestamp a = timestamp b → a = b := by
    intro f a b h ht
    cases f
    · exact string_way_identical h ht
    · exact rc_way_identical h ht
    · exact arc_way_identical h ht
  have hr : ∀ (f : Family) (a b : f.Relation), PartialEqT.eq a b = true → timestamp a = timestamp b → a = b := by
    intro f a b h ht
    cases f
    · exact string_relation_identical h ht
    · exact rc_relation_identical h ht
    · exact arc_relation_identical h ht
  rcases t with f | f | f | f
  · exact hn f a b h ht
  · exact hw f a b h ht
  · exact hr f a b h ht
  · refine obj_elim f (fun a b e => e = true → timestamp a = timestamp b → a = b) ?_ ?_ ?_ ?_ a b h ht
    · intro x y h ht
      have e : ∀ x : f.Node, timestamp (f.ofNode x) = timestamp x := fun x => congrArg View.timestamp (view_ofNode f x)
      rw [e, e] at ht
      rw [hn f x y h ht]
    · intro x y h ht
      have e : ∀ x : f.Way, timestamp (f.ofWay x) = timestamp x := fun x => congrArg View.timestamp (view_ofWay f x)
      rw [e, e] at ht
      rw [hw f x y h ht]
    · intro x y h ht
      have e : ∀ x : f.Relation, timestamp (f.ofRelation x) = timestamp x :=
        fun x => congrArg View.timestamp (view_ofRelation f x)
      rw [e, e] at ht
      rw [hr f x y h ht]
    · exact fun a b _ e => Bool.noConfusion e

/-- **C80.** `==` is transitive where two of the three objects have timestamps of one kind, as objects from
files of one format do. Missing: objects with timestamps of both kinds (`C80_trans_fails`). -/
theorem C80_trans_partial (t : ObjTy) (a b c : t.Carrier) (hab : PartialEqT.eq a b = true)
    (hbc : PartialEqT.eq b c = true)
    (hk : (Numbered (view a) ∧ Numbered (view b)) ∨ (Dated (view a) ∧ Dated (view b)) ∨
      (Numbered (view b) ∧ Numbered (view c)) ∨ (Dated (view b) ∧ Dated (view c))) :
    PartialEqT.eq a c = true := by
  have h : ((Numbered (view a) ∧ Numbered (view b)) ∨ (Dated (view a) ∧ Dated (view b))) ∨
      ((Numbered (view b) ∧ Numbered (view c)) ∨ (Dated (view b) ∧ Dated (view c))) := by
    rcases hk with h | h | h | h
    · exact .inl (.inl h)
    · exact .inl (.inr h)
    · exact .inr (.inl h)
    · exact .inr (.inr h)
  rcases h with h | h
  · rw [C80_identical t a b hab (timestamp_eq (C80_sound t a b hab) h)]
    exact hbc
  · rw [← C80_identical t b c hbc (timestamp_eq (C80_sound t b c hbc) h)]
    exact hab

/-- `==` is not transitive: the same way with three timestamps. -/
theorem C80_trans_fails : ∃ a b c : StringWay, PartialEqT.eq a b = true ∧ PartialEqT.eq b c = true ∧
    PartialEqT.eq a c = false :=
  ⟨⟨1, none, false, none, some (.iso (str% "1970-01-01T00:00:00Z")), none, none, [], [1, 2]⟩,
   ⟨1, none, false, none, some (.epoch 0), none, none, [], [1, 2]⟩,
   ⟨1, none, false, none, some (.iso (str% "1970-01-01T00:00:00+00:00")), none, none, [], [1, 2]⟩,
   by decide +kernel, by decide +kernel, by decide +kernel⟩

/-! ### Where it matters: nodes of a PBF file -/

/-- A group with one node without tags. -/
def alone : Proto.DenseNodes :=
  { id := [1], lat := [10], lon := [20]
    denseinfo := some { version := [1], timestamp := [5], changeset := [1], uid := [1], userSid := [1] } }
/-- A group with the same node and one that has a tag. -/
def accompanied : Proto.DenseNodes :=
  { id := [1, 1], lat := [10, 0], lon := [20, 0], keysVals := [0, 2, 3, 0]
    denseinfo := some { version := [1, 1], timestamp := [5, 0], changeset := [1, 0], uid := [1, 0],
                        userSid := [1, 0] } }
/-- The texts of the block. -/
def texts : List (Option Str) := [some [], some (str% "bob"), some (str% "natural"), some (str% "tree")]

/-- The first node of a group as the reader for shared objects decodes it. -/
def firstNode (d : Proto.DenseNodes) : Option ArcNode :=
  match ArcPbf.decodeDenseNodes .debug d 100 0 0 1 texts with
  | .ok (.node n :: _) => some n
  | _ => none

/-- **C80**, where the exception is met: the reader for shared objects reads one and the same node, without
tags, from two groups. The two results show the same but are not equal, because one group also holds a node
with a tag. -/
theorem C80_pbf_fails : ∃ a b : ArcNode, firstNode alone = some a ∧ firstNode accompanied = some b ∧
    view a = view b ∧ NodeT.latLon a = NodeT.latLon b ∧ PartialEqT.eq a b = false :=
  ⟨⟨1, some 1, false, some 1, some (.epoch 5), some 1, some (str% "bob"), none, some (⟨10⟩, ⟨20⟩)⟩,
   ⟨1, some 1, false, some 1, some (.epoch 5), some 1, some (str% "bob"), some [], some (⟨10⟩, ⟨20⟩)⟩,
   by decide +kernel, by decide +kernel, rfl, rfl, by decide +kernel⟩

/-- A tag that is set and removed again leaves its trace, too. -/
theorem C80_unset_fails : ∃ (a : ArcNode) (k v : Str), view (unsetTag (setTag a k v) k) = view a ∧
    NodeT.latLon (unsetTag (setTag a k v) k) = NodeT.latLon a ∧
    PartialEqT.eq a (unsetTag (setTag a k v) k) = false :=
  ⟨⟨1, some 1, false, some 1, some (.epoch 5), some 1, some (str% "bob"), none, some (⟨10⟩, ⟨20⟩)⟩,
   str% "natural", str% "tree", rfl, rfl, by decide +kernel⟩

/-! ### The hypotheses can be met -/

example : tagged sampleArcNode = true ∧ tagged sampleNode = true := by decide +kernel
example : untagged (α := ArcNode) ⟨1, none, false, none, none, none, none, none, none⟩ = true := by decide +kernel
example : PartialEqT.eq sampleNode { sampleNode with timestamp_ := some (.iso (str% "1970-01-01T00:00:12Z")) } = true := by
  decide +kernel
example : Numbered (view sampleNode) ∧ Numbered (view sampleNode) := by
  constructor <;> intro s h <;> cases h

end Osmio
