import Verif.Proofs.AccessorList
import Verif.Model.StringPbf
/-!
# Properties: the accessors of the messages (C97)

`Spec.Access.Sound` (`Spec/Accessors.lean`) says what accessors are to do; the lists of fields with their types, defaults and numbers (`Spec/AccessorList.lean`)
come from the `.proto` files.
-/

namespace Osmio

open Proto Spec.Access

/-- **C97.** The accessors of all messages. -/
theorem C97_accessors :
    Sound blobHeader blobHeaderRest Spec.Pbf.encodeBlobHeader BlobHeader.new BlobHeader.clear ∧
    Sound blob blobRest Spec.Pbf.encodeBlob Blob.new Blob.clear ∧
    Sound headerBlock headerBlockRest Spec.Pbf.encodeHeaderBlock HeaderBlock.new HeaderBlock.clear ∧
    Sound headerBBox headerBBoxRest Spec.Pbf.encodeHeaderBBox HeaderBBox.new HeaderBBox.clear ∧
    Sound primitiveBlock primitiveBlockRest Spec.Pbf.encodePrimitiveBlock PrimitiveBlock.new PrimitiveBlock.clear ∧
    Sound primitiveGroup primitiveGroupRest Spec.Pbf.encodePrimitiveGroup PrimitiveGroup.new PrimitiveGroup.clear ∧
    Sound stringTable stringTableRest Spec.Pbf.encodeStringTable StringTable.new StringTable.clear ∧
    Sound info infoRest Spec.Pbf.encodeInfo Info.new Info.clear ∧
    Sound denseInfo denseInfoRest Spec.Pbf.encodeDenseInfo DenseInfo.new DenseInfo.clear ∧
    Sound changeSet changeSetRest Spec.Pbf.encodeChangeSet ChangeSet.new ChangeSet.clear ∧
    Sound node nodeRest Spec.Pbf.encodeNode Node.new Node.clear ∧
    Sound denseNodes denseNodesRest Spec.Pbf.encodeDenseNodes DenseNodes.new DenseNodes.clear ∧
    Sound way wayRest Spec.Pbf.encodeWay Way.new Way.clear ∧
    Sound relation relationRest Spec.Pbf.encodeRelation Relation.new Relation.clear :=
  ⟨Proto.BlobHeader.accessors,
    Proto.Blob.accessors,
    Proto.HeaderBlock.accessors,
    Proto.HeaderBBox.accessors,
    Proto.PrimitiveBlock.accessors,
    Proto.PrimitiveGroup.accessors,
    Proto.StringTable.accessors,
    Proto.Info.accessors,
    Proto.DenseInfo.accessors,
    Proto.ChangeSet.accessors,
    Proto.Node.accessors,
    Proto.DenseNodes.accessors,
    Proto.Way.accessors,
    Proto.Relation.accessors⟩

/-- **C97.** The message that stands for one that is not there is a fresh one. -/
theorem C97_default_instance :
    BlobHeader.defaultInstance = BlobHeader.new ∧
    Blob.defaultInstance = Blob.new ∧
    HeaderBlock.defaultInstance = HeaderBlock.new ∧
    HeaderBBox.defaultInstance = HeaderBBox.new ∧
    PrimitiveBlock.defaultInstance = PrimitiveBlock.new ∧
    PrimitiveGroup.defaultInstance = PrimitiveGroup.new ∧
    StringTable.defaultInstance = StringTable.new ∧
    Info.defaultInstance = Info.new ∧
    DenseInfo.defaultInstance = DenseInfo.new ∧
    ChangeSet.defaultInstance = ChangeSet.new ∧
    Node.defaultInstance = Node.new ∧
    DenseNodes.defaultInstance = DenseNodes.new ∧
    Way.defaultInstance = Way.new ∧
    Relation.defaultInstance = Relation.new :=
  ⟨rfl, rfl, rfl, rfl, rfl, rfl, rfl, rfl, rfl, rfl, rfl, rfl, rfl, rfl⟩

/-- **C97.** The kinds of members: each name of the enumeration with its number, in both directions, and no other; the first is the default. -/
theorem C97_member_types :
    (∀ n t, MemberType.fromI32 n = some t ↔ t.value = n) ∧
    (∀ s t, MemberType.fromStr s = some t ↔ (s, t.value) ∈ memberTypes) ∧
    MemberType.values.map MemberType.value = memberTypes.map Prod.snd ∧
    memberTypes.head?.map Prod.snd = some MemberType.default.value := by
  refine ⟨fun n t => ?_, fun s t => ?_, by decide, by decide⟩
  · unfold MemberType.fromI32
    constructor
    · intro h
      split at h
      · cases h; simp_all [MemberType.value]
      · split at h
        · cases h; simp_all [MemberType.value]
        · split at h
          · cases h; simp_all [MemberType.value]
          · cases h
    · rintro rfl
      cases t <;> rfl
  · unfold MemberType.fromStr
    constructor
    · intro h
      split at h
      · cases h; simp_all [MemberType.value, memberTypes]
      · split at h
        · cases h; simp_all [MemberType.value, memberTypes]
        · split at h
          · cases h; simp_all [MemberType.value, memberTypes]
          · cases h
    · intro h
      simp only [memberTypes, List.mem_cons, Prod.mk.injEq, List.not_mem_nil, or_false] at h
      cases t <;> simp [MemberType.value] at h <;> subst h <;> decide

/-- **C97.** The defaults that the readers use are what the accessors show. -/
theorem C97_readers (m : PrimitiveBlock) : m.granularityOr = m.getGranularity ∧ m.latOffsetOr = m.getLatOffset ∧
    m.lonOffsetOr = m.getLonOffset ∧ m.dateGranularityOr = m.getDateGranularity := ⟨rfl, rfl, rfl, rfl⟩

/-! A history: two values set, one cleared, a text lent and taken out. -/

example : let m := ((PrimitiveBlock.new.setGranularity 1).setLatOffset (-5)).clearGranularity
    m.getGranularity = 100 ∧ m.hasGranularity = false ∧ m.getLatOffset = -5 ∧ m.hasLatOffset = true ∧ m.getDateGranularity = 1000 := by decide

example : let m := (BlobHeader.new.mutType (· ++ str% "OSM")).mutType (· ++ str% "Data")
    m.getType = str% "OSMData" ∧ m.takeType = (str% "OSMData", BlobHeader.new) ∧ m.takeType.2.getType = [] := by decide

example : Spec.Pbf.encodeInfo (Info.new.setVersion (-1)) ≠ [] ∧ (Info.new.setVersion (-1)).getVersion = Info.new.getVersion := by decide +kernel

/-- The calls of the first example. -/
example : ∃ calls : List (Call primitiveBlock), calls.length = 3 ∧
    calls.foldl (fun m c => c.run m) PrimitiveBlock.new = ((PrimitiveBlock.new.setGranularity 1).setLatOffset (-5)).clearGranularity :=
  ⟨[.set ⟨0, by decide⟩ (1 : Int32), .set ⟨1, by decide⟩ (-5 : Int64), .clear ⟨0, by decide⟩], rfl, rfl⟩

end Osmio
