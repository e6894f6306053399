import Verif.Proofs.ProtoDecodeMsg
import Verif.Proofs.ProtoSizeSpec
import Verif.Lib.StrLit
/-!
# C98: what any bytes decode to (generated by `tools/gendecode.py`)

`Spec.Pbf.DecodesX bs m`: by the wire format and the `.proto` files the bytes `bs` say `m`; `Spec.Pbf.hasX m`: the required fields are
there. `X.parseFromBytes` is the generated Rust code. Bytes for which there is no such `m` are refused.
-/

namespace Osmio

open Proto

/-- **C98.** Bytes are read as a `BlobHeader` exactly if they say one that has its required fields, and then as that one. -/
theorem C98_blobHeader (bs : Bytes) (m : BlobHeader) : BlobHeader.parseFromBytes bs = some m ↔ Spec.Pbf.DecodesBlobHeader bs m ∧ Spec.Pbf.hasBlobHeader m :=
  read_iff BlobHeader.parse_decodes ⟨m.has_of, m.isInitialized_of⟩ bs

/-- **C98.** Bytes are read as a `Blob` exactly if they say one that has its required fields, and then as that one. -/
theorem C98_blob (bs : Bytes) (m : Blob) : Blob.parseFromBytes bs = some m ↔ Spec.Pbf.DecodesBlob bs m ∧ Spec.Pbf.hasBlob m :=
  read_iff Blob.parse_decodes ⟨m.has_of, m.isInitialized_of⟩ bs

/-- **C98.** Bytes are read as a `HeaderBBox` exactly if they say one that has its required fields, and then as that one. -/
theorem C98_headerBBox (bs : Bytes) (m : HeaderBBox) : HeaderBBox.parseFromBytes bs = some m ↔ Spec.Pbf.DecodesHeaderBBox bs m ∧ Spec.Pbf.hasHeaderBBox m :=
  read_iff HeaderBBox.parse_decodes ⟨m.has_of, m.isInitialized_of⟩ bs

/-- **C98.** Bytes are read as a `HeaderBlock` exactly if they say one that has its required fields, and then as that one. -/
theorem C98_headerBlock (bs : Bytes) (m : HeaderBlock) : HeaderBlock.parseFromBytes bs = some m ↔ Spec.Pbf.DecodesHeaderBlock bs m ∧ Spec.Pbf.hasHeaderBlock m :=
  read_iff HeaderBlock.parse_decodes ⟨m.has_of, m.isInitialized_of⟩ bs

/-- **C98.** Bytes are read as a `StringTable` exactly if they say one that has its required fields, and then as that one. -/
theorem C98_stringTable (bs : Bytes) (m : StringTable) : StringTable.parseFromBytes bs = some m ↔ Spec.Pbf.DecodesStringTable bs m ∧ Spec.Pbf.hasStringTable m :=
  read_iff StringTable.parse_decodes ⟨m.has_of, m.isInitialized_of⟩ bs

/-- **C98.** Bytes are read as a `Info` exactly if they say one that has its required fields, and then as that one. -/
theorem C98_info (bs : Bytes) (m : Info) : Info.parseFromBytes bs = some m ↔ Spec.Pbf.DecodesInfo bs m ∧ Spec.Pbf.hasInfo m :=
  read_iff Info.parse_decodes ⟨m.has_of, m.isInitialized_of⟩ bs

/-- **C98.** Bytes are read as a `Node` exactly if they say one that has its required fields, and then as that one. -/
theorem C98_node (bs : Bytes) (m : Node) : Node.parseFromBytes bs = some m ↔ Spec.Pbf.DecodesNode bs m ∧ Spec.Pbf.hasNode m :=
  read_iff Node.parse_decodes ⟨m.has_of, m.isInitialized_of⟩ bs

/-- **C98.** Bytes are read as a `DenseInfo` exactly if they say one that has its required fields, and then as that one. -/
theorem C98_denseInfo (bs : Bytes) (m : DenseInfo) : DenseInfo.parseFromBytes bs = some m ↔ Spec.Pbf.DecodesDenseInfo bs m ∧ Spec.Pbf.hasDenseInfo m :=
  read_iff DenseInfo.parse_decodes ⟨m.has_of, m.isInitialized_of⟩ bs

/-- **C98.** Bytes are read as a `DenseNodes` exactly if they say one that has its required fields, and then as that one. -/
theorem C98_denseNodes (bs : Bytes) (m : DenseNodes) : DenseNodes.parseFromBytes bs = some m ↔ Spec.Pbf.DecodesDenseNodes bs m ∧ Spec.Pbf.hasDenseNodes m :=
  read_iff DenseNodes.parse_decodes ⟨m.has_of, m.isInitialized_of⟩ bs

/-- **C98.** Bytes are read as a `Way` exactly if they say one that has its required fields, and then as that one. -/
theorem C98_way (bs : Bytes) (m : Way) : Way.parseFromBytes bs = some m ↔ Spec.Pbf.DecodesWay bs m ∧ Spec.Pbf.hasWay m :=
  read_iff Way.parse_decodes ⟨m.has_of, m.isInitialized_of⟩ bs

/-- **C98.** Bytes are read as a `Relation` exactly if they say one that has its required fields, and then as that one. -/
theorem C98_relation (bs : Bytes) (m : Relation) : Relation.parseFromBytes bs = some m ↔ Spec.Pbf.DecodesRelation bs m ∧ Spec.Pbf.hasRelation m :=
  read_iff Relation.parse_decodes ⟨m.has_of, m.isInitialized_of⟩ bs

/-- **C98.** Bytes are read as a `ChangeSet` exactly if they say one that has its required fields, and then as that one. -/
theorem C98_changeSet (bs : Bytes) (m : ChangeSet) : ChangeSet.parseFromBytes bs = some m ↔ Spec.Pbf.DecodesChangeSet bs m ∧ Spec.Pbf.hasChangeSet m :=
  read_iff ChangeSet.parse_decodes ⟨m.has_of, m.isInitialized_of⟩ bs

/-- **C98.** Bytes are read as a `PrimitiveGroup` exactly if they say one that has its required fields, and then as that one. -/
theorem C98_primitiveGroup (bs : Bytes) (m : PrimitiveGroup) : PrimitiveGroup.parseFromBytes bs = some m ↔ Spec.Pbf.DecodesPrimitiveGroup bs m ∧ Spec.Pbf.hasPrimitiveGroup m :=
  read_iff PrimitiveGroup.parse_decodes ⟨m.has_of, m.isInitialized_of⟩ bs

/-- **C98.** Bytes are read as a `PrimitiveBlock` exactly if they say one that has its required fields, and then as that one. -/
theorem C98_primitiveBlock (bs : Bytes) (m : PrimitiveBlock) : PrimitiveBlock.parseFromBytes bs = some m ↔ Spec.Pbf.DecodesPrimitiveBlock bs m ∧ Spec.Pbf.hasPrimitiveBlock m :=
  read_iff PrimitiveBlock.parse_decodes ⟨m.has_of, m.isInitialized_of⟩ bs

/-- A way, with references 3 and 5 (as differences) packed, then the difference 1 by itself, a key in between, an `info` and the id twice:
what its fields say, from the specification alone. -/
example : Spec.Pbf.saysWay
    [⟨8, .varint 7⟩, ⟨66, .len [6, 4]⟩, ⟨18, .len [9]⟩, ⟨64, .varint 2⟩, ⟨34, .len [8, 3]⟩, ⟨8, .varint 300⟩]
    { id := some 300, keys := [9], refs := [3, 2, 1], info := some { version := some 3 } } := by
  have one : ∀ b : UInt8, b.toNat < 128 → Spec.Wire.Varint [b] b.toNat := fun b hb => ⟨.last hb, by simp, by omega⟩
  refine ⟨⟨[7, 300], .cons ⟨7, rfl, show Spec.Wire.int64 7 = 7 by decide +kernel⟩ (.cons ⟨300, rfl, show Spec.Wire.int64 300 = 300 by decide +kernel⟩ .nil), rfl⟩,
    ⟨[[9]], .cons (.inr ⟨rfl, [9], [9], rfl, .cons (one 9 (by decide)) .nil, .cons ?_ .nil⟩) .nil, rfl⟩,
    ⟨[], .nil, rfl⟩,
    ⟨[{ version := some 3 }], .cons ⟨[8, 3], rfl, [⟨8 * 1 + 0, .varint 3⟩], ?_, ?_⟩ .nil, rfl⟩,
    ⟨[[3, 2], [1]], .cons (.inr ⟨rfl, [6, 4], [6, 4], rfl, .cons (one 6 (by decide)) (.cons (one 4 (by decide)) .nil), ?_⟩)
      (.cons (.inl ⟨rfl, 1, ⟨2, rfl, ?_⟩, rfl⟩) .nil), rfl⟩⟩
  · unfold Spec.Wire.IsUInt32; decide +kernel
  · exact .cons (b := [8, 3]) (.plain (k := [8]) ⟨8, one 8 (by decide), .inl ⟨by decide, rfl⟩, by decide, by decide⟩ (.varint (one 3 (by decide)))) .nil
  · exact ⟨⟨[3], .cons ⟨3, rfl, by unfold Spec.Wire.IsInt32; decide +kernel⟩ .nil, rfl⟩, ⟨[], .nil, rfl⟩, ⟨[], .nil, rfl⟩, ⟨[], .nil, rfl⟩, ⟨[], .nil, rfl⟩,
      ⟨[], .nil, rfl⟩⟩
  · exact .cons (show Spec.Wire.sint64 3 = 6 by decide +kernel) (.cons (show Spec.Wire.sint64 2 = 4 by decide +kernel) .nil)
  · show Spec.Wire.sint64 1 = 2; decide +kernel

/-- And what is read from the bytes. -/
example : Way.parseFromBytes [8, 7, 66, 2, 6, 4, 18, 1, 9, 64, 2, 34, 2, 8, 3, 8, 172, 2] =
    some { id := some 300, keys := [9], refs := [3, 2, 1], info := some { version := some 3 } } := by decide +kernel

/-- A message inside that is given twice is the last one; the parts of the first are gone. -/
example : Way.parseFromBytes [8, 7, 34, 2, 8, 3, 34, 2, 32, 5] = some { id := some 7, info := some { uid := some 5 } } := by decide +kernel

/-- A field with another wire type says nothing; then the id is missing, and there is no way. -/
example : Spec.Pbf.saysWay [⟨10, .len [7]⟩] {} ∧ ¬ Spec.Pbf.hasWay {} ∧ Way.parseFromBytes [10, 1, 7] = none :=
  ⟨⟨⟨[], .nil, rfl⟩, ⟨[], .nil, rfl⟩, ⟨[], .nil, rfl⟩, ⟨[], .nil, rfl⟩, ⟨[], .nil, rfl⟩⟩, fun h => h.1 rfl, by decide +kernel⟩

/-- Bytes that are not fields (the length is too large) say nothing at all. -/
example : ¬ ∃ m, Spec.Pbf.DecodesWay [8, 7, 66, 3, 6, 4] m := by
  rintro ⟨m, h⟩
  have e : parse Way.merge {} [8, 7, 66, 3, 6, 4] = none := by decide +kernel
  rw [← Way.parse_decodes, e] at h
  cases h

end Osmio
