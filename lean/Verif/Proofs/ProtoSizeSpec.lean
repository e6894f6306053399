import Verif.Proofs.ProtoExtra
import Verif.Proofs.ProtoLenSpec
/-! # The computed size of a message is that of the specified encoding (generated by `tools/genproto.py`) -/

namespace Osmio.Proto

open Spec.Wire Spec.Pbf

theorem BlobHeader.has_of (m : BlobHeader) (h : m.isInitialized = true) : hasBlobHeader m := by
  simp only [BlobHeader.isInitialized, Bool.and_eq_true] at h
  obtain ⟨h0, h1⟩ := h
  exact ⟨ne_of_isSome h0, ne_of_isSome h1⟩

theorem BlobHeader.encode_size (m : BlobHeader) (h : m.computeSize < 2 ^ 32 ∨ (encodeBlobHeader m).length < 2 ^ 32) : m.computeSize = (encodeBlobHeader m).length := by
  simp only [BlobHeader.computeSize, encodeBlobHeader, List.length_append] at h ⊢
  refine sum_eq h (optSize_eq' (fun v _ => stringSize_eq')) (fun h => ?_)
  refine sum_eq h (optSize_eq' (fun v _ => bytesSize_eq')) (fun h => ?_)
  exact optSize_eq' (fun v _ _ => numSize_eq' (by decide) (encInt32_lt v) (encInt32_eq v)) h

theorem Blob.has_of (m : Blob) (h : m.isInitialized = true) : hasBlob m := by
  trivial

theorem Blob.encode_size (m : Blob) (h : m.computeSize < 2 ^ 32 ∨ (encodeBlob m).length < 2 ^ 32) : m.computeSize = (encodeBlob m).length := by
  simp only [Blob.computeSize, encodeBlob, List.length_append] at h ⊢
  refine sum_eq h (optSize_eq' (fun v _ => bytesSize_eq')) (fun h => ?_)
  refine sum_eq h (optSize_eq' (fun v _ _ => numSize_eq' (by decide) (encInt32_lt v) (encInt32_eq v))) (fun h => ?_)
  refine sum_eq h (optSize_eq' (fun v _ => bytesSize_eq')) (fun h => ?_)
  refine sum_eq h (optSize_eq' (fun v _ => bytesSize_eq')) (fun h => ?_)
  exact optSize_eq' (fun v _ => bytesSize_eq') h

theorem HeaderBBox.has_of (m : HeaderBBox) (h : m.isInitialized = true) : hasHeaderBBox m := by
  simp only [HeaderBBox.isInitialized, Bool.and_eq_true] at h
  obtain ⟨⟨⟨h0, h1⟩, h2⟩, h3⟩ := h
  exact ⟨ne_of_isSome h0, ne_of_isSome h1, ne_of_isSome h2, ne_of_isSome h3⟩

theorem HeaderBBox.encode_size (m : HeaderBBox) (h : m.computeSize < 2 ^ 32 ∨ (encodeHeaderBBox m).length < 2 ^ 32) : m.computeSize = (encodeHeaderBBox m).length := by
  simp only [HeaderBBox.computeSize, encodeHeaderBBox, List.length_append] at h ⊢
  refine sum_eq h (optSize_eq' (fun v _ _ => numSize_eq' (by decide) (encSint64_lt v) (encSint64_eq v))) (fun h => ?_)
  refine sum_eq h (optSize_eq' (fun v _ _ => numSize_eq' (by decide) (encSint64_lt v) (encSint64_eq v))) (fun h => ?_)
  refine sum_eq h (optSize_eq' (fun v _ _ => numSize_eq' (by decide) (encSint64_lt v) (encSint64_eq v))) (fun h => ?_)
  exact optSize_eq' (fun v _ _ => numSize_eq' (by decide) (encSint64_lt v) (encSint64_eq v)) h

theorem HeaderBlock.has_of (m : HeaderBlock) (h : m.isInitialized = true) : hasHeaderBlock m := by
  simp only [HeaderBlock.isInitialized, Bool.and_eq_true] at h
  have h0 := h
  exact fun v hv => HeaderBBox.has_of v (some_of_all h0 hv)

theorem HeaderBlock.encode_size (m : HeaderBlock) (h : m.computeSize < 2 ^ 32 ∨ (encodeHeaderBlock m).length < 2 ^ 32) : m.computeSize = (encodeHeaderBlock m).length := by
  simp only [HeaderBlock.computeSize, encodeHeaderBlock, List.length_append] at h ⊢
  refine sum_eq h (optSize_eq' (fun v _ => messageSize_eq' (by decide +kernel) (HeaderBBox.encode_size v))) (fun h => ?_)
  refine sum_eq h (repSize_eq' (fun v _ => stringSize_eq')) (fun h => ?_)
  refine sum_eq h (repSize_eq' (fun v _ => stringSize_eq')) (fun h => ?_)
  refine sum_eq h (optSize_eq' (fun v _ => stringSize_eq')) (fun h => ?_)
  refine sum_eq h (optSize_eq' (fun v _ => stringSize_eq')) (fun h => ?_)
  refine sum_eq h (optSize_eq' (fun v _ _ => numSize_eq' (by decide) (encInt64_lt v) (encInt64_eq v))) (fun h => ?_)
  refine sum_eq h (optSize_eq' (fun v _ _ => numSize_eq' (by decide) (encInt64_lt v) (encInt64_eq v))) (fun h => ?_)
  exact optSize_eq' (fun v _ => stringSize_eq') h

theorem StringTable.has_of (m : StringTable) (h : m.isInitialized = true) : hasStringTable m := by
  trivial

theorem StringTable.encode_size (m : StringTable) (h : m.computeSize < 2 ^ 32 ∨ (encodeStringTable m).length < 2 ^ 32) : m.computeSize = (encodeStringTable m).length := by
  simp only [StringTable.computeSize, encodeStringTable, List.length_append] at h ⊢
  exact repSize_eq' (fun v _ => bytesSize_eq') h

theorem Info.has_of (m : Info) (h : m.isInitialized = true) : hasInfo m := by
  trivial

theorem Info.encode_size (m : Info) (h : m.computeSize < 2 ^ 32 ∨ (encodeInfo m).length < 2 ^ 32) : m.computeSize = (encodeInfo m).length := by
  simp only [Info.computeSize, encodeInfo, List.length_append] at h ⊢
  refine sum_eq h (optSize_eq' (fun v _ _ => numSize_eq' (by decide) (encInt32_lt v) (encInt32_eq v))) (fun h => ?_)
  refine sum_eq h (optSize_eq' (fun v _ _ => numSize_eq' (by decide) (encInt64_lt v) (encInt64_eq v))) (fun h => ?_)
  refine sum_eq h (optSize_eq' (fun v _ _ => numSize_eq' (by decide) (encInt64_lt v) (encInt64_eq v))) (fun h => ?_)
  refine sum_eq h (optSize_eq' (fun v _ _ => numSize_eq' (by decide) (encInt32_lt v) (encInt32_eq v))) (fun h => ?_)
  refine sum_eq h (optSize_eq' (fun v _ _ => numSize_eq' (by decide) (encUInt32_lt v) (encUInt32_eq v))) (fun h => ?_)
  exact optSize_eq' (fun v _ _ => (show 1 + 1 = numSize 6 (encBool v) by cases v <;> rfl).trans (numSize_eq' (by decide) (encBool_lt v) (encBool_eq v))) h

theorem Node.has_of (m : Node) (h : m.isInitialized = true) : hasNode m := by
  simp only [Node.isInitialized, Bool.and_eq_true] at h
  obtain ⟨⟨⟨h0, h1⟩, h2⟩, h3⟩ := h
  exact ⟨ne_of_isSome h0, fun v hv => Info.has_of v (some_of_all h3 hv), ne_of_isSome h1, ne_of_isSome h2⟩

theorem Node.encode_size (m : Node) (h : m.computeSize < 2 ^ 32 ∨ (encodeNode m).length < 2 ^ 32) : m.computeSize = (encodeNode m).length := by
  simp only [Node.computeSize, encodeNode, List.length_append] at h ⊢
  refine sum_eq h (optSize_eq' (fun v _ _ => numSize_eq' (by decide) (encSint64_lt v) (encSint64_eq v))) (fun h => ?_)
  refine sum_eq h (packedSize_eq' (by decide) encUInt32_lt encUInt32_eq) (fun h => ?_)
  refine sum_eq h (packedSize_eq' (by decide) encUInt32_lt encUInt32_eq) (fun h => ?_)
  refine sum_eq h (optSize_eq' (fun v _ => messageSize_eq' (by decide +kernel) (Info.encode_size v))) (fun h => ?_)
  refine sum_eq h (optSize_eq' (fun v _ _ => numSize_eq' (by decide) (encSint64_lt v) (encSint64_eq v))) (fun h => ?_)
  exact optSize_eq' (fun v _ _ => numSize_eq' (by decide) (encSint64_lt v) (encSint64_eq v)) h

theorem DenseInfo.has_of (m : DenseInfo) (h : m.isInitialized = true) : hasDenseInfo m := by
  trivial

theorem DenseInfo.encode_size (m : DenseInfo) (h : m.computeSize < 2 ^ 32 ∨ (encodeDenseInfo m).length < 2 ^ 32) : m.computeSize = (encodeDenseInfo m).length := by
  simp only [DenseInfo.computeSize, encodeDenseInfo, List.length_append] at h ⊢
  refine sum_eq h (packedSize_eq' (by decide) encInt32_lt encInt32_eq) (fun h => ?_)
  refine sum_eq h (packedSize_eq' (by decide) encSint64_lt encSint64_eq) (fun h => ?_)
  refine sum_eq h (packedSize_eq' (by decide) encSint64_lt encSint64_eq) (fun h => ?_)
  refine sum_eq h (packedSize_eq' (by decide) encSint32_lt encSint32_eq) (fun h => ?_)
  refine sum_eq h (packedSize_eq' (by decide) encSint32_lt encSint32_eq) (fun h => ?_)
  exact packedSize_eq' (by decide) encBool_lt encBool_eq h

theorem DenseNodes.has_of (m : DenseNodes) (h : m.isInitialized = true) : hasDenseNodes m := by
  exact fun v _ => DenseInfo.has_of v rfl

theorem DenseNodes.encode_size (m : DenseNodes) (h : m.computeSize < 2 ^ 32 ∨ (encodeDenseNodes m).length < 2 ^ 32) : m.computeSize = (encodeDenseNodes m).length := by
  simp only [DenseNodes.computeSize, encodeDenseNodes, List.length_append] at h ⊢
  refine sum_eq h (packedSize_eq' (by decide) encSint64_lt encSint64_eq) (fun h => ?_)
  refine sum_eq h (optSize_eq' (fun v _ => messageSize_eq' (by decide +kernel) (DenseInfo.encode_size v))) (fun h => ?_)
  refine sum_eq h (packedSize_eq' (by decide) encSint64_lt encSint64_eq) (fun h => ?_)
  refine sum_eq h (packedSize_eq' (by decide) encSint64_lt encSint64_eq) (fun h => ?_)
  exact packedSize_eq' (by decide) encInt32_lt encInt32_eq h

theorem Way.has_of (m : Way) (h : m.isInitialized = true) : hasWay m := by
  simp only [Way.isInitialized, Bool.and_eq_true] at h
  obtain ⟨h0, h1⟩ := h
  exact ⟨ne_of_isSome h0, fun v hv => Info.has_of v (some_of_all h1 hv)⟩

theorem Way.encode_size (m : Way) (h : m.computeSize < 2 ^ 32 ∨ (encodeWay m).length < 2 ^ 32) : m.computeSize = (encodeWay m).length := by
  simp only [Way.computeSize, encodeWay, List.length_append] at h ⊢
  refine sum_eq h (optSize_eq' (fun v _ _ => numSize_eq' (by decide) (encInt64_lt v) (encInt64_eq v))) (fun h => ?_)
  refine sum_eq h (packedSize_eq' (by decide) encUInt32_lt encUInt32_eq) (fun h => ?_)
  refine sum_eq h (packedSize_eq' (by decide) encUInt32_lt encUInt32_eq) (fun h => ?_)
  refine sum_eq h (optSize_eq' (fun v _ => messageSize_eq' (by decide +kernel) (Info.encode_size v))) (fun h => ?_)
  exact packedSize_eq' (by decide) encSint64_lt encSint64_eq h

theorem Relation.has_of (m : Relation) (h : m.isInitialized = true) : hasRelation m := by
  simp only [Relation.isInitialized, Bool.and_eq_true] at h
  obtain ⟨h0, h1⟩ := h
  exact ⟨ne_of_isSome h0, fun v hv => Info.has_of v (some_of_all h1 hv)⟩

theorem Relation.encode_size (m : Relation) (h : m.computeSize < 2 ^ 32 ∨ (encodeRelation m).length < 2 ^ 32) : m.computeSize = (encodeRelation m).length := by
  simp only [Relation.computeSize, encodeRelation, List.length_append] at h ⊢
  refine sum_eq h (optSize_eq' (fun v _ _ => numSize_eq' (by decide) (encInt64_lt v) (encInt64_eq v))) (fun h => ?_)
  refine sum_eq h (packedSize_eq' (by decide) encUInt32_lt encUInt32_eq) (fun h => ?_)
  refine sum_eq h (packedSize_eq' (by decide) encUInt32_lt encUInt32_eq) (fun h => ?_)
  refine sum_eq h (optSize_eq' (fun v _ => messageSize_eq' (by decide +kernel) (Info.encode_size v))) (fun h => ?_)
  refine sum_eq h (packedSize_eq' (by decide) encInt32_lt encInt32_eq) (fun h => ?_)
  refine sum_eq h (packedSize_eq' (by decide) encSint64_lt encSint64_eq) (fun h => ?_)
  exact packedSize_eq' (by decide) encInt32_lt encEnum_eq h

theorem ChangeSet.has_of (m : ChangeSet) (h : m.isInitialized = true) : hasChangeSet m := by
  simp only [ChangeSet.isInitialized, Bool.and_eq_true] at h
  have h0 := h
  exact ne_of_isSome h0

theorem ChangeSet.encode_size (m : ChangeSet) (h : m.computeSize < 2 ^ 32 ∨ (encodeChangeSet m).length < 2 ^ 32) : m.computeSize = (encodeChangeSet m).length := by
  simp only [ChangeSet.computeSize, encodeChangeSet, List.length_append] at h ⊢
  exact optSize_eq' (fun v _ _ => numSize_eq' (by decide) (encInt64_lt v) (encInt64_eq v)) h

theorem PrimitiveGroup.has_of (m : PrimitiveGroup) (h : m.isInitialized = true) : hasPrimitiveGroup m := by
  simp only [PrimitiveGroup.isInitialized, Bool.and_eq_true] at h
  obtain ⟨⟨⟨⟨h0, h1⟩, h2⟩, h3⟩, h4⟩ := h
  exact ⟨fun v hv => Node.has_of v (List.all_eq_true.1 h0 v hv), fun v hv => DenseNodes.has_of v (some_of_all h1 hv), fun v hv => Way.has_of v (List.all_eq_true.1 h2 v hv), fun v hv => Relation.has_of v (List.all_eq_true.1 h3 v hv), fun v hv => ChangeSet.has_of v (List.all_eq_true.1 h4 v hv)⟩

theorem PrimitiveGroup.encode_size (m : PrimitiveGroup) (h : m.computeSize < 2 ^ 32 ∨ (encodePrimitiveGroup m).length < 2 ^ 32) : m.computeSize = (encodePrimitiveGroup m).length := by
  simp only [PrimitiveGroup.computeSize, encodePrimitiveGroup, List.length_append] at h ⊢
  refine sum_eq h (repSize_eq' (fun v _ => messageSize_eq' (by decide +kernel) (Node.encode_size v))) (fun h => ?_)
  refine sum_eq h (optSize_eq' (fun v _ => messageSize_eq' (by decide +kernel) (DenseNodes.encode_size v))) (fun h => ?_)
  refine sum_eq h (repSize_eq' (fun v _ => messageSize_eq' (by decide +kernel) (Way.encode_size v))) (fun h => ?_)
  refine sum_eq h (repSize_eq' (fun v _ => messageSize_eq' (by decide +kernel) (Relation.encode_size v))) (fun h => ?_)
  exact repSize_eq' (fun v _ => messageSize_eq' (by decide +kernel) (ChangeSet.encode_size v)) h

theorem PrimitiveBlock.has_of (m : PrimitiveBlock) (h : m.isInitialized = true) : hasPrimitiveBlock m := by
  simp only [PrimitiveBlock.isInitialized, Bool.and_eq_true] at h
  obtain ⟨⟨h0, h1⟩, h2⟩ := h
  exact ⟨ne_of_isSome h0, fun v hv => StringTable.has_of v (some_of_all h1 hv), fun v hv => PrimitiveGroup.has_of v (List.all_eq_true.1 h2 v hv)⟩

theorem PrimitiveBlock.encode_size (m : PrimitiveBlock) (h : m.computeSize < 2 ^ 32 ∨ (encodePrimitiveBlock m).length < 2 ^ 32) : m.computeSize = (encodePrimitiveBlock m).length := by
  simp only [PrimitiveBlock.computeSize, encodePrimitiveBlock, List.length_append] at h ⊢
  refine sum_eq h (optSize_eq' (fun v _ => messageSize_eq' (by decide +kernel) (StringTable.encode_size v))) (fun h => ?_)
  refine sum_eq h (repSize_eq' (fun v _ => messageSize_eq' (by decide +kernel) (PrimitiveGroup.encode_size v))) (fun h => ?_)
  refine sum_eq h (optSize_eq' (fun v _ _ => numSize_eq' (by decide) (encInt32_lt v) (encInt32_eq v))) (fun h => ?_)
  refine sum_eq h (optSize_eq' (fun v _ _ => numSize_eq' (by decide) (encInt64_lt v) (encInt64_eq v))) (fun h => ?_)
  refine sum_eq h (optSize_eq' (fun v _ _ => numSize_eq' (by decide) (encInt64_lt v) (encInt64_eq v))) (fun h => ?_)
  exact optSize_eq' (fun v _ _ => numSize_eq' (by decide) (encInt32_lt v) (encInt32_eq v)) h

end Osmio.Proto
