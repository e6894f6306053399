import Verif.Spec.AccessorList
import Verif.Proofs.Accessors
import Mathlib.Tactic.FinCases
import Mathlib.Data.Fintype.Basic
/-!
# The accessors of each message

Goes through all fields, calls and messages.
-/

set_option linter.unusedSimpArgs false
set_option linter.unusedTactic false
set_option linter.unreachableTactic false

namespace Osmio

open Proto Spec.Access

/-- Looks at every field of a message. -/
macro "field_cases" m:ident : tactic => `(tactic| first
  | (rcases $m:ident with ⟨_ | _, _ | _, _ | _⟩ <;> rfl)
  | (rcases $m:ident with ⟨_ | _, _ | _, _ | _, _ | _, _ | _⟩ <;> rfl)
  | (rcases $m:ident with ⟨_, _, _, _ | _, _ | _, _ | _, _ | _, _ | _⟩ <;> rfl))

/-- Goes through the calls and fields one by one. -/
macro "accessor_laws" : tactic => `(tactic| (
  refine ⟨?_, ?_⟩
  · intro m c i
    cases c with
    | set j v => revert v; fin_cases j <;> intro v <;> fin_cases i <;> rfl
    | clear j => fin_cases j <;> fin_cases i <;> rfl
    | mutate j l h f =>
      revert l h f
      fin_cases j <;> intro l h f <;> (first | (cases h; done) | (cases h; fin_cases i <;> field_cases m))
    | take j l h =>
      revert l h
      fin_cases j <;> intro l h <;> (first | (cases h; done) | (cases h; fin_cases i <;> rfl))
  · intro m c
    cases c with
    | set j v => revert v; fin_cases j <;> intro v <;> rfl
    | clear j => fin_cases j <;> rfl
    | mutate j l h f =>
      revert l h f
      fin_cases j <;> intro l h f <;> (first | (cases h; done) | (cases h; field_cases m))
    | take j l h =>
      revert l h
      fin_cases j <;> intro l h <;> (first | (cases h; done) | (cases h; rfl))))

/-- What is shown of a field tells what is in it. -/
theorem held_inj {α : Type} {d : α} {x y : Option α}
    (h : (if x.isSome then some (x.getD d) else none) = if y.isSome then some (y.getD d) else none) : x = y := by
  cases x <;> cases y <;> simp_all

theorem shows_default {α : Type} {d : α} {x : Option α} (h : (if x.isSome then some (x.getD d) else none) = none) : x.getD d = d := by
  cases x <;> simp_all

theorem Proto.BlobHeader.laws : Laws blobHeader blobHeaderRest := by accessor_laws

theorem Proto.BlobHeader.accessors : Sound blobHeader blobHeaderRest Spec.Pbf.encodeBlobHeader BlobHeader.new BlobHeader.clear where
  history m calls := Proto.BlobHeader.laws.history calls m
  default m i h := by fin_cases i <;> exact shows_default h
  taken m i l h := by revert l h; fin_cases i <;> intro l h <;> cases h <;> rfl
  others m calls := Proto.BlobHeader.laws.rest calls m
  all := by
    rintro ⟨a0, a1, a2⟩ ⟨b0, b1, b2⟩ hs hr
    have e0 : a0 = b0 := held_inj (hs ⟨0, by decide⟩)
    have e1 : a1 = b1 := held_inj (hs ⟨1, by decide⟩)
    have e2 : a2 = b2 := held_inj (hs ⟨2, by decide⟩)
    subst e0 e1 e2
    rfl
  fresh := ⟨rfl, fun i => by fin_cases i <;> rfl, fun m => rfl⟩
  wire i v := by revert v; fin_cases i <;> intro v <;> simp [blobHeader, BlobHeader.new, Spec.Pbf.encodeBlobHeader, Spec.Wire.opt, Spec.Wire.rep, Spec.Wire.packed, BlobHeader.setType, BlobHeader.setIndexdata, BlobHeader.setDatasize]

theorem Proto.Blob.laws : Laws blob blobRest := by accessor_laws

theorem Proto.Blob.accessors : Sound blob blobRest Spec.Pbf.encodeBlob Blob.new Blob.clear where
  history m calls := Proto.Blob.laws.history calls m
  default m i h := by fin_cases i <;> exact shows_default h
  taken m i l h := by revert l h; fin_cases i <;> intro l h <;> cases h <;> rfl
  others m calls := Proto.Blob.laws.rest calls m
  all := by
    rintro ⟨a0, a1, a2, a3, a4⟩ ⟨b0, b1, b2, b3, b4⟩ hs hr
    have e0 : a0 = b0 := held_inj (hs ⟨0, by decide⟩)
    have e1 : a1 = b1 := held_inj (hs ⟨1, by decide⟩)
    have e2 : a2 = b2 := held_inj (hs ⟨2, by decide⟩)
    have e3 : a3 = b3 := held_inj (hs ⟨3, by decide⟩)
    have e4 : a4 = b4 := held_inj (hs ⟨4, by decide⟩)
    subst e0 e1 e2 e3 e4
    rfl
  fresh := ⟨rfl, fun i => by fin_cases i <;> rfl, fun m => rfl⟩
  wire i v := by revert v; fin_cases i <;> intro v <;> simp [blob, Blob.new, Spec.Pbf.encodeBlob, Spec.Wire.opt, Spec.Wire.rep, Spec.Wire.packed, Blob.setRaw, Blob.setRawSize, Blob.setZlibData, Blob.setLzmaData, Blob.setObsoleteBzip2Data]

theorem Proto.HeaderBlock.laws : Laws headerBlock headerBlockRest := by accessor_laws

theorem Proto.HeaderBlock.accessors : Sound headerBlock headerBlockRest Spec.Pbf.encodeHeaderBlock HeaderBlock.new HeaderBlock.clear where
  history m calls := Proto.HeaderBlock.laws.history calls m
  default m i h := by fin_cases i <;> exact shows_default h
  taken m i l h := by revert l h; fin_cases i <;> intro l h <;> cases h <;> rfl
  others m calls := Proto.HeaderBlock.laws.rest calls m
  all := by
    rintro ⟨a0, a1, a2, a3, a4, a5, a6, a7⟩ ⟨b0, b1, b2, b3, b4, b5, b6, b7⟩ hs hr
    have e3 : a3 = b3 := held_inj (hs ⟨0, by decide⟩)
    have e4 : a4 = b4 := held_inj (hs ⟨1, by decide⟩)
    have e5 : a5 = b5 := held_inj (hs ⟨2, by decide⟩)
    have e6 : a6 = b6 := held_inj (hs ⟨3, by decide⟩)
    have e7 : a7 = b7 := held_inj (hs ⟨4, by decide⟩)
    have e0 : a0 = b0 := congrArg (fun x => x.1) hr
    have e1 : a1 = b1 := congrArg (fun x => x.2.1) hr
    have e2 : a2 = b2 := congrArg (fun x => x.2.2) hr
    subst e0 e1 e2 e3 e4 e5 e6 e7
    rfl
  fresh := ⟨rfl, fun i => by fin_cases i <;> rfl, fun m => rfl⟩
  wire i v := by revert v; fin_cases i <;> intro v <;> simp [headerBlock, HeaderBlock.new, Spec.Pbf.encodeHeaderBlock, Spec.Wire.opt, Spec.Wire.rep, Spec.Wire.packed, HeaderBlock.setWritingprogram, HeaderBlock.setSource, HeaderBlock.setOsmosisReplicationTimestamp, HeaderBlock.setOsmosisReplicationSequenceNumber, HeaderBlock.setOsmosisReplicationBaseUrl]

theorem Proto.HeaderBBox.laws : Laws headerBBox headerBBoxRest := by accessor_laws

theorem Proto.HeaderBBox.accessors : Sound headerBBox headerBBoxRest Spec.Pbf.encodeHeaderBBox HeaderBBox.new HeaderBBox.clear where
  history m calls := Proto.HeaderBBox.laws.history calls m
  default m i h := by fin_cases i <;> exact shows_default h
  taken m i l h := by revert l h; fin_cases i <;> intro l h <;> cases h <;> rfl
  others m calls := Proto.HeaderBBox.laws.rest calls m
  all := by
    rintro ⟨a0, a1, a2, a3⟩ ⟨b0, b1, b2, b3⟩ hs hr
    have e0 : a0 = b0 := held_inj (hs ⟨0, by decide⟩)
    have e1 : a1 = b1 := held_inj (hs ⟨1, by decide⟩)
    have e2 : a2 = b2 := held_inj (hs ⟨2, by decide⟩)
    have e3 : a3 = b3 := held_inj (hs ⟨3, by decide⟩)
    subst e0 e1 e2 e3
    rfl
  fresh := ⟨rfl, fun i => by fin_cases i <;> rfl, fun m => rfl⟩
  wire i v := by revert v; fin_cases i <;> intro v <;> simp [headerBBox, HeaderBBox.new, Spec.Pbf.encodeHeaderBBox, Spec.Wire.opt, Spec.Wire.rep, Spec.Wire.packed, HeaderBBox.setLeft, HeaderBBox.setRight, HeaderBBox.setTop, HeaderBBox.setBottom]

theorem Proto.PrimitiveBlock.laws : Laws primitiveBlock primitiveBlockRest := by accessor_laws

theorem Proto.PrimitiveBlock.accessors : Sound primitiveBlock primitiveBlockRest Spec.Pbf.encodePrimitiveBlock PrimitiveBlock.new PrimitiveBlock.clear where
  history m calls := Proto.PrimitiveBlock.laws.history calls m
  default m i h := by fin_cases i <;> exact shows_default h
  taken m i l h := by revert l h; fin_cases i <;> intro l h <;> cases h <;> rfl
  others m calls := Proto.PrimitiveBlock.laws.rest calls m
  all := by
    rintro ⟨a0, a1, a2, a3, a4, a5⟩ ⟨b0, b1, b2, b3, b4, b5⟩ hs hr
    have e2 : a2 = b2 := held_inj (hs ⟨0, by decide⟩)
    have e3 : a3 = b3 := held_inj (hs ⟨1, by decide⟩)
    have e4 : a4 = b4 := held_inj (hs ⟨2, by decide⟩)
    have e5 : a5 = b5 := held_inj (hs ⟨3, by decide⟩)
    have e0 : a0 = b0 := congrArg (fun x => x.1) hr
    have e1 : a1 = b1 := congrArg (fun x => x.2) hr
    subst e0 e1 e2 e3 e4 e5
    rfl
  fresh := ⟨rfl, fun i => by fin_cases i <;> rfl, fun m => rfl⟩
  wire i v := by revert v; fin_cases i <;> intro v <;> simp [primitiveBlock, PrimitiveBlock.new, Spec.Pbf.encodePrimitiveBlock, Spec.Wire.opt, Spec.Wire.rep, Spec.Wire.packed, PrimitiveBlock.setGranularity, PrimitiveBlock.setLatOffset, PrimitiveBlock.setLonOffset, PrimitiveBlock.setDateGranularity]

theorem Proto.PrimitiveGroup.laws : Laws primitiveGroup primitiveGroupRest := by accessor_laws

theorem Proto.PrimitiveGroup.accessors : Sound primitiveGroup primitiveGroupRest Spec.Pbf.encodePrimitiveGroup PrimitiveGroup.new PrimitiveGroup.clear where
  history m calls := Proto.PrimitiveGroup.laws.history calls m
  default m i h := by fin_cases i <;> exact shows_default h
  taken m i l h := by revert l h; fin_cases i <;> intro l h <;> cases h <;> rfl
  others m calls := Proto.PrimitiveGroup.laws.rest calls m
  all := by
    rintro ⟨a0, a1, a2, a3, a4⟩ ⟨b0, b1, b2, b3, b4⟩ hs hr
    have e0 : a0 = b0 := congrArg (fun x => x.1) hr
    have e1 : a1 = b1 := congrArg (fun x => x.2.1) hr
    have e2 : a2 = b2 := congrArg (fun x => x.2.2.1) hr
    have e3 : a3 = b3 := congrArg (fun x => x.2.2.2.1) hr
    have e4 : a4 = b4 := congrArg (fun x => x.2.2.2.2) hr
    subst e0 e1 e2 e3 e4
    rfl
  fresh := ⟨rfl, fun i => by fin_cases i <;> rfl, fun m => rfl⟩
  wire i v := by revert v; fin_cases i <;> intro v <;> simp [primitiveGroup, PrimitiveGroup.new, Spec.Pbf.encodePrimitiveGroup, Spec.Wire.opt, Spec.Wire.rep, Spec.Wire.packed]

theorem Proto.StringTable.laws : Laws stringTable stringTableRest := by accessor_laws

theorem Proto.StringTable.accessors : Sound stringTable stringTableRest Spec.Pbf.encodeStringTable StringTable.new StringTable.clear where
  history m calls := Proto.StringTable.laws.history calls m
  default m i h := by fin_cases i <;> exact shows_default h
  taken m i l h := by revert l h; fin_cases i <;> intro l h <;> cases h <;> rfl
  others m calls := Proto.StringTable.laws.rest calls m
  all := by
    rintro ⟨a0⟩ ⟨b0⟩ hs hr
    have e0 : a0 = b0 := hr
    subst e0
    rfl
  fresh := ⟨rfl, fun i => by fin_cases i <;> rfl, fun m => rfl⟩
  wire i v := by revert v; fin_cases i <;> intro v <;> simp [stringTable, StringTable.new, Spec.Pbf.encodeStringTable, Spec.Wire.opt, Spec.Wire.rep, Spec.Wire.packed]

theorem Proto.Info.laws : Laws info infoRest := by accessor_laws

theorem Proto.Info.accessors : Sound info infoRest Spec.Pbf.encodeInfo Info.new Info.clear where
  history m calls := Proto.Info.laws.history calls m
  default m i h := by fin_cases i <;> exact shows_default h
  taken m i l h := by revert l h; fin_cases i <;> intro l h <;> cases h <;> rfl
  others m calls := Proto.Info.laws.rest calls m
  all := by
    rintro ⟨a0, a1, a2, a3, a4, a5⟩ ⟨b0, b1, b2, b3, b4, b5⟩ hs hr
    have e0 : a0 = b0 := held_inj (hs ⟨0, by decide⟩)
    have e1 : a1 = b1 := held_inj (hs ⟨1, by decide⟩)
    have e2 : a2 = b2 := held_inj (hs ⟨2, by decide⟩)
    have e3 : a3 = b3 := held_inj (hs ⟨3, by decide⟩)
    have e4 : a4 = b4 := held_inj (hs ⟨4, by decide⟩)
    have e5 : a5 = b5 := held_inj (hs ⟨5, by decide⟩)
    subst e0 e1 e2 e3 e4 e5
    rfl
  fresh := ⟨rfl, fun i => by fin_cases i <;> rfl, fun m => rfl⟩
  wire i v := by revert v; fin_cases i <;> intro v <;> simp [info, Info.new, Spec.Pbf.encodeInfo, Spec.Wire.opt, Spec.Wire.rep, Spec.Wire.packed, Info.setVersion, Info.setTimestamp, Info.setChangeset, Info.setUid, Info.setUserSid, Info.setVisible]

theorem Proto.DenseInfo.laws : Laws denseInfo denseInfoRest := by accessor_laws

theorem Proto.DenseInfo.accessors : Sound denseInfo denseInfoRest Spec.Pbf.encodeDenseInfo DenseInfo.new DenseInfo.clear where
  history m calls := Proto.DenseInfo.laws.history calls m
  default m i h := by fin_cases i <;> exact shows_default h
  taken m i l h := by revert l h; fin_cases i <;> intro l h <;> cases h <;> rfl
  others m calls := Proto.DenseInfo.laws.rest calls m
  all := by
    rintro ⟨a0, a1, a2, a3, a4, a5⟩ ⟨b0, b1, b2, b3, b4, b5⟩ hs hr
    have e0 : a0 = b0 := congrArg (fun x => x.1) hr
    have e1 : a1 = b1 := congrArg (fun x => x.2.1) hr
    have e2 : a2 = b2 := congrArg (fun x => x.2.2.1) hr
    have e3 : a3 = b3 := congrArg (fun x => x.2.2.2.1) hr
    have e4 : a4 = b4 := congrArg (fun x => x.2.2.2.2.1) hr
    have e5 : a5 = b5 := congrArg (fun x => x.2.2.2.2.2) hr
    subst e0 e1 e2 e3 e4 e5
    rfl
  fresh := ⟨rfl, fun i => by fin_cases i <;> rfl, fun m => rfl⟩
  wire i v := by revert v; fin_cases i <;> intro v <;> simp [denseInfo, DenseInfo.new, Spec.Pbf.encodeDenseInfo, Spec.Wire.opt, Spec.Wire.rep, Spec.Wire.packed]

theorem Proto.ChangeSet.laws : Laws changeSet changeSetRest := by accessor_laws

theorem Proto.ChangeSet.accessors : Sound changeSet changeSetRest Spec.Pbf.encodeChangeSet ChangeSet.new ChangeSet.clear where
  history m calls := Proto.ChangeSet.laws.history calls m
  default m i h := by fin_cases i <;> exact shows_default h
  taken m i l h := by revert l h; fin_cases i <;> intro l h <;> cases h <;> rfl
  others m calls := Proto.ChangeSet.laws.rest calls m
  all := by
    rintro ⟨a0⟩ ⟨b0⟩ hs hr
    have e0 : a0 = b0 := held_inj (hs ⟨0, by decide⟩)
    subst e0
    rfl
  fresh := ⟨rfl, fun i => by fin_cases i <;> rfl, fun m => rfl⟩
  wire i v := by revert v; fin_cases i <;> intro v <;> simp [changeSet, ChangeSet.new, Spec.Pbf.encodeChangeSet, Spec.Wire.opt, Spec.Wire.rep, Spec.Wire.packed, ChangeSet.setId]

theorem Proto.Node.laws : Laws node nodeRest := by accessor_laws

theorem Proto.Node.accessors : Sound node nodeRest Spec.Pbf.encodeNode Node.new Node.clear where
  history m calls := Proto.Node.laws.history calls m
  default m i h := by fin_cases i <;> exact shows_default h
  taken m i l h := by revert l h; fin_cases i <;> intro l h <;> cases h <;> rfl
  others m calls := Proto.Node.laws.rest calls m
  all := by
    rintro ⟨a0, a1, a2, a3, a4, a5⟩ ⟨b0, b1, b2, b3, b4, b5⟩ hs hr
    have e0 : a0 = b0 := held_inj (hs ⟨0, by decide⟩)
    have e4 : a4 = b4 := held_inj (hs ⟨1, by decide⟩)
    have e5 : a5 = b5 := held_inj (hs ⟨2, by decide⟩)
    have e1 : a1 = b1 := congrArg (fun x => x.1) hr
    have e2 : a2 = b2 := congrArg (fun x => x.2.1) hr
    have e3 : a3 = b3 := congrArg (fun x => x.2.2) hr
    subst e0 e1 e2 e3 e4 e5
    rfl
  fresh := ⟨rfl, fun i => by fin_cases i <;> rfl, fun m => rfl⟩
  wire i v := by revert v; fin_cases i <;> intro v <;> simp [node, Node.new, Spec.Pbf.encodeNode, Spec.Wire.opt, Spec.Wire.rep, Spec.Wire.packed, Node.setId, Node.setLat, Node.setLon]

theorem Proto.DenseNodes.laws : Laws denseNodes denseNodesRest := by accessor_laws

theorem Proto.DenseNodes.accessors : Sound denseNodes denseNodesRest Spec.Pbf.encodeDenseNodes DenseNodes.new DenseNodes.clear where
  history m calls := Proto.DenseNodes.laws.history calls m
  default m i h := by fin_cases i <;> exact shows_default h
  taken m i l h := by revert l h; fin_cases i <;> intro l h <;> cases h <;> rfl
  others m calls := Proto.DenseNodes.laws.rest calls m
  all := by
    rintro ⟨a0, a1, a2, a3, a4⟩ ⟨b0, b1, b2, b3, b4⟩ hs hr
    have e0 : a0 = b0 := congrArg (fun x => x.1) hr
    have e1 : a1 = b1 := congrArg (fun x => x.2.1) hr
    have e2 : a2 = b2 := congrArg (fun x => x.2.2.1) hr
    have e3 : a3 = b3 := congrArg (fun x => x.2.2.2.1) hr
    have e4 : a4 = b4 := congrArg (fun x => x.2.2.2.2) hr
    subst e0 e1 e2 e3 e4
    rfl
  fresh := ⟨rfl, fun i => by fin_cases i <;> rfl, fun m => rfl⟩
  wire i v := by revert v; fin_cases i <;> intro v <;> simp [denseNodes, DenseNodes.new, Spec.Pbf.encodeDenseNodes, Spec.Wire.opt, Spec.Wire.rep, Spec.Wire.packed]

theorem Proto.Way.laws : Laws way wayRest := by accessor_laws

theorem Proto.Way.accessors : Sound way wayRest Spec.Pbf.encodeWay Way.new Way.clear where
  history m calls := Proto.Way.laws.history calls m
  default m i h := by fin_cases i <;> exact shows_default h
  taken m i l h := by revert l h; fin_cases i <;> intro l h <;> cases h <;> rfl
  others m calls := Proto.Way.laws.rest calls m
  all := by
    rintro ⟨a0, a1, a2, a3, a4⟩ ⟨b0, b1, b2, b3, b4⟩ hs hr
    have e0 : a0 = b0 := held_inj (hs ⟨0, by decide⟩)
    have e1 : a1 = b1 := congrArg (fun x => x.1) hr
    have e2 : a2 = b2 := congrArg (fun x => x.2.1) hr
    have e3 : a3 = b3 := congrArg (fun x => x.2.2.1) hr
    have e4 : a4 = b4 := congrArg (fun x => x.2.2.2) hr
    subst e0 e1 e2 e3 e4
    rfl
  fresh := ⟨rfl, fun i => by fin_cases i <;> rfl, fun m => rfl⟩
  wire i v := by revert v; fin_cases i <;> intro v <;> simp [way, Way.new, Spec.Pbf.encodeWay, Spec.Wire.opt, Spec.Wire.rep, Spec.Wire.packed, Way.setId]

theorem Proto.Relation.laws : Laws relation relationRest := by accessor_laws

theorem Proto.Relation.accessors : Sound relation relationRest Spec.Pbf.encodeRelation Relation.new Relation.clear where
  history m calls := Proto.Relation.laws.history calls m
  default m i h := by fin_cases i <;> exact shows_default h
  taken m i l h := by revert l h; fin_cases i <;> intro l h <;> cases h <;> rfl
  others m calls := Proto.Relation.laws.rest calls m
  all := by
    rintro ⟨a0, a1, a2, a3, a4, a5, a6⟩ ⟨b0, b1, b2, b3, b4, b5, b6⟩ hs hr
    have e0 : a0 = b0 := held_inj (hs ⟨0, by decide⟩)
    have e1 : a1 = b1 := congrArg (fun x => x.1) hr
    have e2 : a2 = b2 := congrArg (fun x => x.2.1) hr
    have e3 : a3 = b3 := congrArg (fun x => x.2.2.1) hr
    have e4 : a4 = b4 := congrArg (fun x => x.2.2.2.1) hr
    have e5 : a5 = b5 := congrArg (fun x => x.2.2.2.2.1) hr
    have e6 : a6 = b6 := congrArg (fun x => x.2.2.2.2.2) hr
    subst e0 e1 e2 e3 e4 e5 e6
    rfl
  fresh := ⟨rfl, fun i => by fin_cases i <;> rfl, fun m => rfl⟩
  wire i v := by revert v; fin_cases i <;> intro v <;> simp [relation, Relation.new, Spec.Pbf.encodeRelation, Spec.Wire.opt, Spec.Wire.rep, Spec.Wire.packed, Relation.setId]

end Osmio
