import Verif.Model.Builder
import Mathlib.Data.List.Induction
/-!
# Building objects: C61
-/

namespace Osmio

/-- A setter call on a builder of type `β`: the common setters, or the one particular to the kind of object (with argument type `ε`). -/
inductive BuilderSet (ε : Type) where
  | id (v : ObjId) | version (v : UInt32) | deleted (v : Bool) | changesetId (v : UInt32) | timestamp (v : TimestampFormat)
  | uid (v : UInt32) | user (v : Str) | tags (v : List (Str × Str)) | extra (v : ε)

namespace BuilderSet
variable {ε : Type}
def id? : BuilderSet ε → Option (ObjId) | .id v => some v | _ => none
def version? : BuilderSet ε → Option (UInt32) | .version v => some v | _ => none
def deleted? : BuilderSet ε → Option (Bool) | .deleted v => some v | _ => none
def changesetId? : BuilderSet ε → Option (UInt32) | .changesetId v => some v | _ => none
def timestamp? : BuilderSet ε → Option (TimestampFormat) | .timestamp v => some v | _ => none
def uid? : BuilderSet ε → Option (UInt32) | .uid v => some v | _ => none
def user? : BuilderSet ε → Option (Str) | .user v => some v | _ => none
def tags? : BuilderSet ε → Option (List (Str × Str)) | .tags v => some v | _ => none
def extra? : BuilderSet ε → Option (ε) | .extra v => some v | _ => none
end BuilderSet

/-- The argument of the last call of one setter. -/
def lastSet {ε τ : Type} (sel : BuilderSet ε → Option τ) (cs : List (BuilderSet ε)) : Option τ := (cs.filterMap sel).getLast?

theorem lastSet_concat {ε τ : Type} (sel : BuilderSet ε → Option τ) (cs : List (BuilderSet ε)) (c : BuilderSet ε) :
    lastSet sel (cs ++ [c]) = (sel c).or (lastSet sel cs) := by
  unfold lastSet
  rw [List.filterMap_append]
  cases h : sel c with
  | none => simp [List.filterMap_cons, h]
  | some v => simp [List.filterMap_cons, h]

/-- A setter call on `StringNodeBuilder`. -/
def StringNodeBuilder.apply (b : StringNodeBuilder) : BuilderSet (Lat × Lon) → StringNodeBuilder
  | .id v => b.id v
  | .version v => b.version v
  | .deleted v => b.deleted v
  | .changesetId v => b.changesetId v
  | .timestamp v => b.timestamp v
  | .uid v => b.uid v
  | .user v => b.user v
  | .tags v => b.tags v
  | .extra v => b.latLon v

theorem StringNodeBuilder.apply_spec (cs : List (BuilderSet (Lat × Lon))) :
    cs.foldl apply default = ⟨lastSet BuilderSet.id? cs, (lastSet BuilderSet.version? cs).map some, lastSet BuilderSet.deleted? cs, (lastSet BuilderSet.changesetId? cs).map some, (lastSet BuilderSet.timestamp? cs).map some, (lastSet BuilderSet.uid? cs).map some, (lastSet BuilderSet.user? cs).map some, lastSet BuilderSet.tags? cs, (lastSet BuilderSet.extra? cs).map some⟩ := by
  induction cs using List.reverseRecOn with
  | nil => rfl
  | append_singleton cs c ih =>
    rw [List.foldl_append, List.foldl_cons, List.foldl_nil, ih]
    simp only [lastSet_concat]
    cases c <;> rfl

/-- A setter call on `StringWayBuilder`. -/
def StringWayBuilder.apply (b : StringWayBuilder) : BuilderSet (List ObjId) → StringWayBuilder
  | .id v => b.id v
  | .version v => b.version v
  | .deleted v => b.deleted v
  | .changesetId v => b.changesetId v
  | .timestamp v => b.timestamp v
  | .uid v => b.uid v
  | .user v => b.user v
  | .tags v => b.tags v
  | .extra v => b.nodes v

theorem StringWayBuilder.apply_spec (cs : List (BuilderSet (List ObjId))) :
    cs.foldl apply default = ⟨lastSet BuilderSet.id? cs, (lastSet BuilderSet.version? cs).map some, lastSet BuilderSet.deleted? cs, (lastSet BuilderSet.changesetId? cs).map some, (lastSet BuilderSet.timestamp? cs).map some, (lastSet BuilderSet.uid? cs).map some, (lastSet BuilderSet.user? cs).map some, lastSet BuilderSet.tags? cs, lastSet BuilderSet.extra? cs⟩ := by
  induction cs using List.reverseRecOn with
  | nil => rfl
  | append_singleton cs c ih =>
    rw [List.foldl_append, List.foldl_cons, List.foldl_nil, ih]
    simp only [lastSet_concat]
    cases c <;> rfl

/-- A setter call on `StringRelationBuilder`. -/
def StringRelationBuilder.apply (b : StringRelationBuilder) : BuilderSet (List (OSMObjectType × ObjId × Str)) → StringRelationBuilder
  | .id v => b.id v
  | .version v => b.version v
  | .deleted v => b.deleted v
  | .changesetId v => b.changesetId v
  | .timestamp v => b.timestamp v
  | .uid v => b.uid v
  | .user v => b.user v
  | .tags v => b.tags v
  | .extra v => b.members v

theorem StringRelationBuilder.apply_spec (cs : List (BuilderSet (List (OSMObjectType × ObjId × Str)))) :
    cs.foldl apply default = ⟨lastSet BuilderSet.id? cs, (lastSet BuilderSet.version? cs).map some, lastSet BuilderSet.deleted? cs, (lastSet BuilderSet.changesetId? cs).map some, (lastSet BuilderSet.timestamp? cs).map some, (lastSet BuilderSet.uid? cs).map some, (lastSet BuilderSet.user? cs).map some, lastSet BuilderSet.tags? cs, lastSet BuilderSet.extra? cs⟩ := by
  induction cs using List.reverseRecOn with
  | nil => rfl
  | append_singleton cs c ih =>
    rw [List.foldl_append, List.foldl_cons, List.foldl_nil, ih]
    simp only [lastSet_concat]
    cases c <;> rfl

/-- **C61.** However a builder is used, `build` fails exactly if the id was never given; the object has, for each field, the value
given last, and if none was given no metadata, `deleted = false`, no tags, no position, no nodes, no members. -/
theorem C61_node_builder (cs : List (BuilderSet (Lat × Lon))) :
    match lastSet BuilderSet.id? cs, (cs.foldl StringNodeBuilder.apply StringNodeBuilder.default).build with
    | none, r => r = .error ⟨str% "_id"⟩
    | some _, .error _ => False
    | some i, .ok n => n.id = i ∧ n.version = lastSet BuilderSet.version? cs ∧ n.deleted = (lastSet BuilderSet.deleted? cs).getD false ∧
        n.changesetId = lastSet BuilderSet.changesetId? cs ∧ n.timestamp = lastSet BuilderSet.timestamp? cs ∧ n.uid = lastSet BuilderSet.uid? cs ∧
        n.user = lastSet BuilderSet.user? cs ∧ n.tags = (lastSet BuilderSet.tags? cs).getD [] ∧ n.latLon = lastSet BuilderSet.extra? cs := by
  rw [StringNodeBuilder.apply_spec]
  unfold StringNodeBuilder.build
  cases h : lastSet BuilderSet.id? cs with
  | none => rfl
  | some i =>
    refine ⟨rfl, ?_, rfl, ?_, ?_, ?_, ?_, rfl, ?_⟩
    · show ((lastSet BuilderSet.version? cs).map some).getD none = _
      cases lastSet BuilderSet.version? cs <;> rfl
    · show ((lastSet BuilderSet.changesetId? cs).map some).getD none = _
      cases lastSet BuilderSet.changesetId? cs <;> rfl
    · show ((lastSet BuilderSet.timestamp? cs).map some).getD none = _
      cases lastSet BuilderSet.timestamp? cs <;> rfl
    · show ((lastSet BuilderSet.uid? cs).map some).getD none = _
      cases lastSet BuilderSet.uid? cs <;> rfl
    · show ((lastSet BuilderSet.user? cs).map some).getD none = _
      cases lastSet BuilderSet.user? cs <;> rfl
    · show ((lastSet BuilderSet.extra? cs).map some).getD none = _
      cases lastSet BuilderSet.extra? cs <;> rfl

theorem C61_way_builder (cs : List (BuilderSet (List ObjId))) :
    match lastSet BuilderSet.id? cs, (cs.foldl StringWayBuilder.apply StringWayBuilder.default).build with
    | none, r => r = .error ⟨str% "_id"⟩
    | some _, .error _ => False
    | some i, .ok n => n.id = i ∧ n.version = lastSet BuilderSet.version? cs ∧ n.deleted = (lastSet BuilderSet.deleted? cs).getD false ∧
        n.changesetId = lastSet BuilderSet.changesetId? cs ∧ n.timestamp = lastSet BuilderSet.timestamp? cs ∧ n.uid = lastSet BuilderSet.uid? cs ∧
        n.user = lastSet BuilderSet.user? cs ∧ n.tags = (lastSet BuilderSet.tags? cs).getD [] ∧ n.nodes = (lastSet BuilderSet.extra? cs).getD [] := by
  rw [StringWayBuilder.apply_spec]
  unfold StringWayBuilder.build
  cases h : lastSet BuilderSet.id? cs with
  | none => rfl
  | some i =>
    refine ⟨rfl, ?_, rfl, ?_, ?_, ?_, ?_, rfl, ?_⟩
    · show ((lastSet BuilderSet.version? cs).map some).getD none = _
      cases lastSet BuilderSet.version? cs <;> rfl
    · show ((lastSet BuilderSet.changesetId? cs).map some).getD none = _
      cases lastSet BuilderSet.changesetId? cs <;> rfl
    · show ((lastSet BuilderSet.timestamp? cs).map some).getD none = _
      cases lastSet BuilderSet.timestamp? cs <;> rfl
    · show ((lastSet BuilderSet.uid? cs).map some).getD none = _
      cases lastSet BuilderSet.uid? cs <;> rfl
    · show ((lastSet BuilderSet.user? cs).map some).getD none = _
      cases lastSet BuilderSet.user? cs <;> rfl
    · first | rfl | simp [StringRelation.members]

theorem C61_relation_builder (cs : List (BuilderSet (List (OSMObjectType × ObjId × Str)))) :
    match lastSet BuilderSet.id? cs, (cs.foldl StringRelationBuilder.apply StringRelationBuilder.default).build with
    | none, r => r = .error ⟨str% "_id"⟩
    | some _, .error _ => False
    | some i, .ok n => n.id = i ∧ n.version = lastSet BuilderSet.version? cs ∧ n.deleted = (lastSet BuilderSet.deleted? cs).getD false ∧
        n.changesetId = lastSet BuilderSet.changesetId? cs ∧ n.timestamp = lastSet BuilderSet.timestamp? cs ∧ n.uid = lastSet BuilderSet.uid? cs ∧
        n.user = lastSet BuilderSet.user? cs ∧ n.tags = (lastSet BuilderSet.tags? cs).getD [] ∧ n.members = (lastSet BuilderSet.extra? cs).getD [] := by
  rw [StringRelationBuilder.apply_spec]
  unfold StringRelationBuilder.build
  cases h : lastSet BuilderSet.id? cs with
  | none => rfl
  | some i =>
    refine ⟨rfl, ?_, rfl, ?_, ?_, ?_, ?_, rfl, ?_⟩
    · show ((lastSet BuilderSet.version? cs).map some).getD none = _
      cases lastSet BuilderSet.version? cs <;> rfl
    · show ((lastSet BuilderSet.changesetId? cs).map some).getD none = _
      cases lastSet BuilderSet.changesetId? cs <;> rfl
    · show ((lastSet BuilderSet.timestamp? cs).map some).getD none = _
      cases lastSet BuilderSet.timestamp? cs <;> rfl
    · show ((lastSet BuilderSet.uid? cs).map some).getD none = _
      cases lastSet BuilderSet.uid? cs <;> rfl
    · show ((lastSet BuilderSet.user? cs).map some).getD none = _
      cases lastSet BuilderSet.user? cs <;> rfl
    · first | rfl | simp [StringRelation.members]

/-- **C61**, for the conversions: what they start from is what the builder gives for an id alone. -/
theorem C61_conversion_start (id : ObjId) :
    (StringNodeBuilder.default.id id).build = .ok (StringNode.default id) ∧
    (StringWayBuilder.default.id id).build = .ok (StringWay.default id) ∧
    (StringRelationBuilder.default.id id).build = .ok (StringRelation.default id) := ⟨rfl, rfl, rfl⟩

example : ∃ n, (((StringNodeBuilder.default.id 7).user (str% "a")).user (str% "b")).build = .ok n ∧ n.user = some (str% "b") ∧
    n.version = none := ⟨_, rfl, rfl, rfl⟩

end Osmio
