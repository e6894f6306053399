import Verif.Proofs.ProtoLen
/-! # The computed size of a message is the number of bytes written (generated by `tools/genproto.py`) -/

namespace Osmio.Proto

theorem BlobHeader.size_eq (m : BlobHeader) (h : m.computeSize < 2 ^ 32 ∨ m.write.length < 2 ^ 32) : m.computeSize = m.write.length := by
  simp only [BlobHeader.computeSize, BlobHeader.write, List.length_append] at h ⊢
  refine sum_eq h (optSize_eq (fun v _ => stringSize_eq)) (fun h => ?_)
  refine sum_eq h (optSize_eq (fun v _ => bytesSize_eq)) (fun h => ?_)
  exact optSize_eq (fun v _ _ => numSize_eq) h

theorem Blob.size_eq (m : Blob) (h : m.computeSize < 2 ^ 32 ∨ m.write.length < 2 ^ 32) : m.computeSize = m.write.length := by
  simp only [Blob.computeSize, Blob.write, List.length_append] at h ⊢
  refine sum_eq h (optSize_eq (fun v _ => bytesSize_eq)) (fun h => ?_)
  refine sum_eq h (optSize_eq (fun v _ _ => numSize_eq)) (fun h => ?_)
  refine sum_eq h (optSize_eq (fun v _ => bytesSize_eq)) (fun h => ?_)
  refine sum_eq h (optSize_eq (fun v _ => bytesSize_eq)) (fun h => ?_)
  exact optSize_eq (fun v _ => bytesSize_eq) h

theorem HeaderBBox.size_eq (m : HeaderBBox) (h : m.computeSize < 2 ^ 32 ∨ m.write.length < 2 ^ 32) : m.computeSize = m.write.length := by
  simp only [HeaderBBox.computeSize, HeaderBBox.write, List.length_append] at h ⊢
  refine sum_eq h (optSize_eq (fun v _ _ => numSize_eq)) (fun h => ?_)
  refine sum_eq h (optSize_eq (fun v _ _ => numSize_eq)) (fun h => ?_)
  refine sum_eq h (optSize_eq (fun v _ _ => numSize_eq)) (fun h => ?_)
  exact optSize_eq (fun v _ _ => numSize_eq) h

theorem HeaderBlock.size_eq (m : HeaderBlock) (h : m.computeSize < 2 ^ 32 ∨ m.write.length < 2 ^ 32) : m.computeSize = m.write.length := by
  simp only [HeaderBlock.computeSize, HeaderBlock.write, List.length_append] at h ⊢
  refine sum_eq h (optSize_eq (fun v _ => messageSize_eq (by decide +kernel) (HeaderBBox.size_eq v))) (fun h => ?_)
  refine sum_eq h (repSize_eq (fun v _ => stringSize_eq)) (fun h => ?_)
  refine sum_eq h (repSize_eq (fun v _ => stringSize_eq)) (fun h => ?_)
  refine sum_eq h (optSize_eq (fun v _ => stringSize_eq)) (fun h => ?_)
  refine sum_eq h (optSize_eq (fun v _ => stringSize_eq)) (fun h => ?_)
  refine sum_eq h (optSize_eq (fun v _ _ => numSize_eq)) (fun h => ?_)
  refine sum_eq h (optSize_eq (fun v _ _ => numSize_eq)) (fun h => ?_)
  exact optSize_eq (fun v _ => stringSize_eq) h

theorem StringTable.size_eq (m : StringTable) (h : m.computeSize < 2 ^ 32 ∨ m.write.length < 2 ^ 32) : m.computeSize = m.write.length := by
  simp only [StringTable.computeSize, StringTable.write, List.length_append] at h ⊢
  exact repSize_eq (fun v _ => bytesSize_eq) h

theorem Info.size_eq (m : Info) (h : m.computeSize < 2 ^ 32 ∨ m.write.length < 2 ^ 32) : m.computeSize = m.write.length := by
  simp only [Info.computeSize, Info.write, List.length_append] at h ⊢
  refine sum_eq h (optSize_eq (fun v _ _ => numSize_eq)) (fun h => ?_)
  refine sum_eq h (optSize_eq (fun v _ _ => numSize_eq)) (fun h => ?_)
  refine sum_eq h (optSize_eq (fun v _ _ => numSize_eq)) (fun h => ?_)
  refine sum_eq h (optSize_eq (fun v _ _ => numSize_eq)) (fun h => ?_)
  refine sum_eq h (optSize_eq (fun v _ _ => numSize_eq)) (fun h => ?_)
  exact optSize_eq (fun v _ _ => by cases v <;> rfl) h

theorem Node.size_eq (m : Node) (h : m.computeSize < 2 ^ 32 ∨ m.write.length < 2 ^ 32) : m.computeSize = m.write.length := by
  simp only [Node.computeSize, Node.write, List.length_append] at h ⊢
  refine sum_eq h (optSize_eq (fun v _ _ => numSize_eq)) (fun h => ?_)
  refine sum_eq h (packedSize_eq) (fun h => ?_)
  refine sum_eq h (packedSize_eq) (fun h => ?_)
  refine sum_eq h (optSize_eq (fun v _ => messageSize_eq (by decide +kernel) (Info.size_eq v))) (fun h => ?_)
  refine sum_eq h (optSize_eq (fun v _ _ => numSize_eq)) (fun h => ?_)
  exact optSize_eq (fun v _ _ => numSize_eq) h

theorem DenseInfo.size_eq (m : DenseInfo) (h : m.computeSize < 2 ^ 32 ∨ m.write.length < 2 ^ 32) : m.computeSize = m.write.length := by
  simp only [DenseInfo.computeSize, DenseInfo.write, List.length_append] at h ⊢
  refine sum_eq h (packedSize_eq) (fun h => ?_)
  refine sum_eq h (packedSize_eq) (fun h => ?_)
  refine sum_eq h (packedSize_eq) (fun h => ?_)
  refine sum_eq h (packedSize_eq) (fun h => ?_)
  refine sum_eq h (packedSize_eq) (fun h => ?_)
  exact packedSize_eq h

theorem DenseNodes.size_eq (m : DenseNodes) (h : m.computeSize < 2 ^ 32 ∨ m.write.length < 2 ^ 32) : m.computeSize = m.write.length := by
  simp only [DenseNodes.computeSize, DenseNodes.write, List.length_append] at h ⊢
  refine sum_eq h (packedSize_eq) (fun h => ?_)
  refine sum_eq h (optSize_eq (fun v _ => messageSize_eq (by decide +kernel) (DenseInfo.size_eq v))) (fun h => ?_)
  refine sum_eq h (packedSize_eq) (fun h => ?_)
  refine sum_eq h (packedSize_eq) (fun h => ?_)
  exact packedSize_eq h

theorem Way.size_eq (m : Way) (h : m.computeSize < 2 ^ 32 ∨ m.write.length < 2 ^ 32) : m.computeSize = m.write.length := by
  simp only [Way.computeSize, Way.write, List.length_append] at h ⊢
  refine sum_eq h (optSize_eq (fun v _ _ => numSize_eq)) (fun h => ?_)
  refine sum_eq h (packedSize_eq) (fun h => ?_)
  refine sum_eq h (packedSize_eq) (fun h => ?_)
  refine sum_eq h (optSize_eq (fun v _ => messageSize_eq (by decide +kernel) (Info.size_eq v))) (fun h => ?_)
  exact packedSize_eq h

theorem Relation.size_eq (m : Relation) (h : m.computeSize < 2 ^ 32 ∨ m.write.length < 2 ^ 32) : m.computeSize = m.write.length := by
  simp only [Relation.computeSize, Relation.write, List.length_append] at h ⊢
  refine sum_eq h (optSize_eq (fun v _ _ => numSize_eq)) (fun h => ?_)
  refine sum_eq h (packedSize_eq) (fun h => ?_)
  refine sum_eq h (packedSize_eq) (fun h => ?_)
  refine sum_eq h (optSize_eq (fun v _ => messageSize_eq (by decide +kernel) (Info.size_eq v))) (fun h => ?_)
  refine sum_eq h (packedSize_eq) (fun h => ?_)
  refine sum_eq h (packedSize_eq) (fun h => ?_)
  exact packedSize_eq h

theorem ChangeSet.size_eq (m : ChangeSet) (h : m.computeSize < 2 ^ 32 ∨ m.write.length < 2 ^ 32) : m.computeSize = m.write.length := by
  simp only [ChangeSet.computeSize, ChangeSet.write, List.length_append] at h ⊢
  exact optSize_eq (fun v _ _ => numSize_eq) h

theorem PrimitiveGroup.size_eq (m : PrimitiveGroup) (h : m.computeSize < 2 ^ 32 ∨ m.write.length < 2 ^ 32) : m.computeSize = m.write.length := by
  simp only [PrimitiveGroup.computeSize, PrimitiveGroup.write, List.length_append] at h ⊢
  refine sum_eq h (repSize_eq (fun v _ => messageSize_eq (by decide +kernel) (Node.size_eq v))) (fun h => ?_)
  refine sum_eq h (optSize_eq (fun v _ => messageSize_eq (by decide +kernel) (DenseNodes.size_eq v))) (fun h => ?_)
  refine sum_eq h (repSize_eq (fun v _ => messageSize_eq (by decide +kernel) (Way.size_eq v))) (fun h => ?_)
  refine sum_eq h (repSize_eq (fun v _ => messageSize_eq (by decide +kernel) (Relation.size_eq v))) (fun h => ?_)
  exact repSize_eq (fun v _ => messageSize_eq (by decide +kernel) (ChangeSet.size_eq v)) h

theorem PrimitiveBlock.size_eq (m : PrimitiveBlock) (h : m.computeSize < 2 ^ 32 ∨ m.write.length < 2 ^ 32) : m.computeSize = m.write.length := by
  simp only [PrimitiveBlock.computeSize, PrimitiveBlock.write, List.length_append] at h ⊢
  refine sum_eq h (optSize_eq (fun v _ => messageSize_eq (by decide +kernel) (StringTable.size_eq v))) (fun h => ?_)
  refine sum_eq h (repSize_eq (fun v _ => messageSize_eq (by decide +kernel) (PrimitiveGroup.size_eq v))) (fun h => ?_)
  refine sum_eq h (optSize_eq (fun v _ _ => numSize_eq)) (fun h => ?_)
  refine sum_eq h (optSize_eq (fun v _ _ => numSize_eq)) (fun h => ?_)
  refine sum_eq h (optSize_eq (fun v _ _ => numSize_eq)) (fun h => ?_)
  exact optSize_eq (fun v _ _ => numSize_eq) h

end Osmio.Proto
