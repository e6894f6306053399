import Verif.Proofs.ProtoSizeSpec
/-!
# C73: the computed size of a message is the number of bytes written (generated by `tools/genproto.py`)

The generated code writes a message in two passes: the first computes the sizes of all nested messages, the second writes the bytes, with
the computed sizes as length prefixes. `Spec.Pbf.encodeX` is the encoding of message `X` according to the `.proto` files.
-/

namespace Osmio

open Proto

/-- **C73.** The size computed for a message before it is written is the number of bytes of its encoding. -/
theorem C73_blobHeader_size (m : BlobHeader) (h : (Spec.Pbf.encodeBlobHeader m).length < 2 ^ 32) : m.computeSize = (Spec.Pbf.encodeBlobHeader m).length :=
  m.encode_size (Or.inr h)

/-- **C73.** Written are exactly the messages that have their required fields and no more than 2 GiB, as specified. -/
theorem C73_blobHeader_written (m : BlobHeader) (bs : List UInt8) :
    m.writeToBytes = some bs ↔ Spec.Pbf.hasBlobHeader m ∧ (Spec.Pbf.encodeBlobHeader m).length ≤ 2147483647 ∧ bs = Spec.Pbf.encodeBlobHeader m :=
  written_iff m.write_eq m.size_eq m.encode_size ⟨m.has_of, m.isInitialized_of⟩

/-- **C73.** The size computed for a message before it is written is the number of bytes of its encoding. -/
theorem C73_blob_size (m : Blob) (h : (Spec.Pbf.encodeBlob m).length < 2 ^ 32) : m.computeSize = (Spec.Pbf.encodeBlob m).length :=
  m.encode_size (Or.inr h)

/-- **C73.** Written are exactly the messages that have their required fields and no more than 2 GiB, as specified. -/
theorem C73_blob_written (m : Blob) (bs : List UInt8) :
    m.writeToBytes = some bs ↔ Spec.Pbf.hasBlob m ∧ (Spec.Pbf.encodeBlob m).length ≤ 2147483647 ∧ bs = Spec.Pbf.encodeBlob m :=
  written_iff m.write_eq m.size_eq m.encode_size ⟨m.has_of, m.isInitialized_of⟩

/-- **C73.** The size computed for a message before it is written is the number of bytes of its encoding. -/
theorem C73_headerBBox_size (m : HeaderBBox) (h : (Spec.Pbf.encodeHeaderBBox m).length < 2 ^ 32) : m.computeSize = (Spec.Pbf.encodeHeaderBBox m).length :=
  m.encode_size (Or.inr h)

/-- **C73.** Written are exactly the messages that have their required fields and no more than 2 GiB, as specified. -/
theorem C73_headerBBox_written (m : HeaderBBox) (bs : List UInt8) :
    m.writeToBytes = some bs ↔ Spec.Pbf.hasHeaderBBox m ∧ (Spec.Pbf.encodeHeaderBBox m).length ≤ 2147483647 ∧ bs = Spec.Pbf.encodeHeaderBBox m :=
  written_iff m.write_eq m.size_eq m.encode_size ⟨m.has_of, m.isInitialized_of⟩

/-- **C73.** The size computed for a message before it is written is the number of bytes of its encoding. -/
theorem C73_headerBlock_size (m : HeaderBlock) (h : (Spec.Pbf.encodeHeaderBlock m).length < 2 ^ 32) : m.computeSize = (Spec.Pbf.encodeHeaderBlock m).length :=
  m.encode_size (Or.inr h)

/-- **C73.** Written are exactly the messages that have their required fields and no more than 2 GiB, as specified. -/
theorem C73_headerBlock_written (m : HeaderBlock) (bs : List UInt8) :
    m.writeToBytes = some bs ↔ Spec.Pbf.hasHeaderBlock m ∧ (Spec.Pbf.encodeHeaderBlock m).length ≤ 2147483647 ∧ bs = Spec.Pbf.encodeHeaderBlock m :=
  written_iff m.write_eq m.size_eq m.encode_size ⟨m.has_of, m.isInitialized_of⟩

/-- **C73.** The size computed for a message before it is written is the number of bytes of its encoding. -/
theorem C73_stringTable_size (m : StringTable) (h : (Spec.Pbf.encodeStringTable m).length < 2 ^ 32) : m.computeSize = (Spec.Pbf.encodeStringTable m).length :=
  m.encode_size (Or.inr h)

/-- **C73.** Written are exactly the messages that have their required fields and no more than 2 GiB, as specified. -/
theorem C73_stringTable_written (m : StringTable) (bs : List UInt8) :
    m.writeToBytes = some bs ↔ Spec.Pbf.hasStringTable m ∧ (Spec.Pbf.encodeStringTable m).length ≤ 2147483647 ∧ bs = Spec.Pbf.encodeStringTable m :=
  written_iff m.write_eq m.size_eq m.encode_size ⟨m.has_of, m.isInitialized_of⟩

/-- **C73.** The size computed for a message before it is written is the number of bytes of its encoding. -/
theorem C73_info_size (m : Info) (h : (Spec.Pbf.encodeInfo m).length < 2 ^ 32) : m.computeSize = (Spec.Pbf.encodeInfo m).length :=
  m.encode_size (Or.inr h)

/-- **C73.** Written are exactly the messages that have their required fields and no more than 2 GiB, as specified. -/
theorem C73_info_written (m : Info) (bs : List UInt8) :
    m.writeToBytes = some bs ↔ Spec.Pbf.hasInfo m ∧ (Spec.Pbf.encodeInfo m).length ≤ 2147483647 ∧ bs = Spec.Pbf.encodeInfo m :=
  written_iff m.write_eq m.size_eq m.encode_size ⟨m.has_of, m.isInitialized_of⟩

/-- **C73.** The size computed for a message before it is written is the number of bytes of its encoding. -/
theorem C73_node_size (m : Node) (h : (Spec.Pbf.encodeNode m).length < 2 ^ 32) : m.computeSize = (Spec.Pbf.encodeNode m).length :=
  m.encode_size (Or.inr h)

/-- **C73.** Written are exactly the messages that have their required fields and no more than 2 GiB, as specified. -/
theorem C73_node_written (m : Node) (bs : List UInt8) :
    m.writeToBytes = some bs ↔ Spec.Pbf.hasNode m ∧ (Spec.Pbf.encodeNode m).length ≤ 2147483647 ∧ bs = Spec.Pbf.encodeNode m :=
  written_iff m.write_eq m.size_eq m.encode_size ⟨m.has_of, m.isInitialized_of⟩

/-- **C73.** The size computed for a message before it is written is the number of bytes of its encoding. -/
theorem C73_denseInfo_size (m : DenseInfo) (h : (Spec.Pbf.encodeDenseInfo m).length < 2 ^ 32) : m.computeSize = (Spec.Pbf.encodeDenseInfo m).length :=
  m.encode_size (Or.inr h)

/-- **C73.** Written are exactly the messages that have their required fields and no more than 2 GiB, as specified. -/
theorem C73_denseInfo_written (m : DenseInfo) (bs : List UInt8) :
    m.writeToBytes = some bs ↔ Spec.Pbf.hasDenseInfo m ∧ (Spec.Pbf.encodeDenseInfo m).length ≤ 2147483647 ∧ bs = Spec.Pbf.encodeDenseInfo m :=
  written_iff m.write_eq m.size_eq m.encode_size ⟨m.has_of, m.isInitialized_of⟩

/-- **C73.** The size computed for a message before it is written is the number of bytes of its encoding. -/
theorem C73_denseNodes_size (m : DenseNodes) (h : (Spec.Pbf.encodeDenseNodes m).length < 2 ^ 32) : m.computeSize = (Spec.Pbf.encodeDenseNodes m).length :=
  m.encode_size (Or.inr h)

/-- **C73.** Written are exactly the messages that have their required fields and no more than 2 GiB, as specified. -/
theorem C73_denseNodes_written (m : DenseNodes) (bs : List UInt8) :
    m.writeToBytes = some bs ↔ Spec.Pbf.hasDenseNodes m ∧ (Spec.Pbf.encodeDenseNodes m).length ≤ 2147483647 ∧ bs = Spec.Pbf.encodeDenseNodes m :=
  written_iff m.write_eq m.size_eq m.encode_size ⟨m.has_of, m.isInitialized_of⟩

/-- **C73.** The size computed for a message before it is written is the number of bytes of its encoding. -/
theorem C73_way_size (m : Way) (h : (Spec.Pbf.encodeWay m).length < 2 ^ 32) : m.computeSize = (Spec.Pbf.encodeWay m).length :=
  m.encode_size (Or.inr h)

/-- **C73.** Written are exactly the messages that have their required fields and no more than 2 GiB, as specified. -/
theorem C73_way_written (m : Way) (bs : List UInt8) :
    m.writeToBytes = some bs ↔ Spec.Pbf.hasWay m ∧ (Spec.Pbf.encodeWay m).length ≤ 2147483647 ∧ bs = Spec.Pbf.encodeWay m :=
  written_iff m.write_eq m.size_eq m.encode_size ⟨m.has_of, m.isInitialized_of⟩

/-- **C73.** The size computed for a message before it is written is the number of bytes of its encoding. -/
theorem C73_relation_size (m : Relation) (h : (Spec.Pbf.encodeRelation m).length < 2 ^ 32) : m.computeSize = (Spec.Pbf.encodeRelation m).length :=
  m.encode_size (Or.inr h)

/-- **C73.** Written are exactly the messages that have their required fields and no more than 2 GiB, as specified. -/
theorem C73_relation_written (m : Relation) (bs : List UInt8) :
    m.writeToBytes = some bs ↔ Spec.Pbf.hasRelation m ∧ (Spec.Pbf.encodeRelation m).length ≤ 2147483647 ∧ bs = Spec.Pbf.encodeRelation m :=
  written_iff m.write_eq m.size_eq m.encode_size ⟨m.has_of, m.isInitialized_of⟩

/-- **C73.** The size computed for a message before it is written is the number of bytes of its encoding. -/
theorem C73_changeSet_size (m : ChangeSet) (h : (Spec.Pbf.encodeChangeSet m).length < 2 ^ 32) : m.computeSize = (Spec.Pbf.encodeChangeSet m).length :=
  m.encode_size (Or.inr h)

/-- **C73.** Written are exactly the messages that have their required fields and no more than 2 GiB, as specified. -/
theorem C73_changeSet_written (m : ChangeSet) (bs : List UInt8) :
    m.writeToBytes = some bs ↔ Spec.Pbf.hasChangeSet m ∧ (Spec.Pbf.encodeChangeSet m).length ≤ 2147483647 ∧ bs = Spec.Pbf.encodeChangeSet m :=
  written_iff m.write_eq m.size_eq m.encode_size ⟨m.has_of, m.isInitialized_of⟩

/-- **C73.** The size computed for a message before it is written is the number of bytes of its encoding. -/
theorem C73_primitiveGroup_size (m : PrimitiveGroup) (h : (Spec.Pbf.encodePrimitiveGroup m).length < 2 ^ 32) : m.computeSize = (Spec.Pbf.encodePrimitiveGroup m).length :=
  m.encode_size (Or.inr h)

/-- **C73.** Written are exactly the messages that have their required fields and no more than 2 GiB, as specified. -/
theorem C73_primitiveGroup_written (m : PrimitiveGroup) (bs : List UInt8) :
    m.writeToBytes = some bs ↔ Spec.Pbf.hasPrimitiveGroup m ∧ (Spec.Pbf.encodePrimitiveGroup m).length ≤ 2147483647 ∧ bs = Spec.Pbf.encodePrimitiveGroup m :=
  written_iff m.write_eq m.size_eq m.encode_size ⟨m.has_of, m.isInitialized_of⟩

/-- **C73.** The size computed for a message before it is written is the number of bytes of its encoding. -/
theorem C73_primitiveBlock_size (m : PrimitiveBlock) (h : (Spec.Pbf.encodePrimitiveBlock m).length < 2 ^ 32) : m.computeSize = (Spec.Pbf.encodePrimitiveBlock m).length :=
  m.encode_size (Or.inr h)

/-- **C73.** Written are exactly the messages that have their required fields and no more than 2 GiB, as specified. -/
theorem C73_primitiveBlock_written (m : PrimitiveBlock) (bs : List UInt8) :
    m.writeToBytes = some bs ↔ Spec.Pbf.hasPrimitiveBlock m ∧ (Spec.Pbf.encodePrimitiveBlock m).length ≤ 2147483647 ∧ bs = Spec.Pbf.encodePrimitiveBlock m :=
  written_iff m.write_eq m.size_eq m.encode_size ⟨m.has_of, m.isInitialized_of⟩

/-- A block with one dense node, one tag and metadata, and its size. -/
def exampleSized : PrimitiveBlock :=
  { stringtable := some { s := [[], [97], [98], [117]] }
    primitivegroup := [{ dense := some {
      id := [-5], lat := [10], lon := [-10], keysVals := [1, 2, 0]
      denseinfo := some { version := [1], timestamp := [1000], changeset := [7], uid := [9], userSid := [3] } } }] }

example : exampleSized.computeSize = 49 ∧ exampleSized.write.length = 49 ∧ exampleSized.writeToBytes = some exampleSized.write := by
  decide +kernel

/-- A message without a required field is not written. -/
example : ({ datasize := some 300 } : BlobHeader).writeToBytes = none := by decide +kernel

/-- Sizes at the boundaries of the varints. -/
example : ({ id := some 1, refs := List.replicate 127 1 } : Way).computeSize = 2 + 2 + 127 ∧
    ({ id := some 1, refs := List.replicate 128 1 } : Way).computeSize = 2 + 3 + 128 := by decide +kernel

end Osmio
