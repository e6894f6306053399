import Verif.Lib.StrLit
import Verif.Proofs.ProtoExtra
import Verif.Proofs.ProtoMsg
/-!
# C50: messages decode what was encoded (generated by `tools/genproto.py`)

`Spec.Pbf.encodeX` is the encoding of message `X` according to the `.proto` files; `X.parseFromBytes` is the generated Rust code.
-/

namespace Osmio

open Proto

/-- **C50.** The specified encoding of a message with its required fields parses to that message (a message has at most 2 GiB). -/
theorem C50_blobHeader_roundtrip (m : BlobHeader) (h : Spec.Pbf.hasBlobHeader m) (hl : (Spec.Pbf.encodeBlobHeader m).length ≤ 2147483647) :
    BlobHeader.parseFromBytes (Spec.Pbf.encodeBlobHeader m) = some m :=
  BlobHeader.parse_writeToBytes (by
    unfold BlobHeader.writeToBytes
    have e := m.write_eq hl
    have hs := m.size_eq (Or.inr (by rw [e]; omega))
    rw [if_pos ⟨m.isInitialized_of h, by rw [hs, e]; exact hl, hs.symm⟩, e])

/-- **C50.** Fields that are not in the message's definition are skipped, between any two fields. -/
theorem C50_blobHeader_unknown (pre post u : Bytes) (fs : List Field) (f : Field) (hp : readFields pre = some fs)
    (hu : readField u = some (f, [])) (hf : f.tag / 8 ∉ [1, 2, 3]) :
    BlobHeader.parseFromBytes (pre ++ u ++ post) = BlobHeader.parseFromBytes (pre ++ post) := by
  unfold BlobHeader.parseFromBytes
  rw [parse_unknown (fun m => BlobHeader.merge_unknown m f hf) hp hu]

/-- **C50.** The order of two fields with different numbers does not matter. -/
theorem C50_blobHeader_order (pre post x y : Bytes) (fs : List Field) (f g : Field) (hp : readFields pre = some fs)
    (hx : readField x = some (f, [])) (hy : readField y = some (g, [])) (hn : f.tag / 8 ≠ g.tag / 8) :
    BlobHeader.parseFromBytes (pre ++ x ++ y ++ post) = BlobHeader.parseFromBytes (pre ++ y ++ x ++ post) := by
  unfold BlobHeader.parseFromBytes
  rw [parse_swap (fun m => BlobHeader.merge_comm m f g hn) hp hx hy]

/-- **C50.** The specified encoding of a message with its required fields parses to that message (a message has at most 2 GiB). -/
theorem C50_blob_roundtrip (m : Blob) (h : Spec.Pbf.hasBlob m) (hl : (Spec.Pbf.encodeBlob m).length ≤ 2147483647) :
    Blob.parseFromBytes (Spec.Pbf.encodeBlob m) = some m :=
  Blob.parse_writeToBytes (by
    unfold Blob.writeToBytes
    have e := m.write_eq hl
    have hs := m.size_eq (Or.inr (by rw [e]; omega))
    rw [if_pos ⟨m.isInitialized_of h, by rw [hs, e]; exact hl, hs.symm⟩, e])

/-- **C50.** Fields that are not in the message's definition are skipped, between any two fields. -/
theorem C50_blob_unknown (pre post u : Bytes) (fs : List Field) (f : Field) (hp : readFields pre = some fs)
    (hu : readField u = some (f, [])) (hf : f.tag / 8 ∉ [1, 2, 3, 4, 5]) :
    Blob.parseFromBytes (pre ++ u ++ post) = Blob.parseFromBytes (pre ++ post) := by
  unfold Blob.parseFromBytes
  rw [parse_unknown (fun m => Blob.merge_unknown m f hf) hp hu]

/-- **C50.** The order of two fields with different numbers does not matter. -/
theorem C50_blob_order (pre post x y : Bytes) (fs : List Field) (f g : Field) (hp : readFields pre = some fs)
    (hx : readField x = some (f, [])) (hy : readField y = some (g, [])) (hn : f.tag / 8 ≠ g.tag / 8) :
    Blob.parseFromBytes (pre ++ x ++ y ++ post) = Blob.parseFromBytes (pre ++ y ++ x ++ post) := by
  unfold Blob.parseFromBytes
  rw [parse_swap (fun m => Blob.merge_comm m f g hn) hp hx hy]

/-- **C50.** The specified encoding of a message with its required fields parses to that message (a message has at most 2 GiB). -/
theorem C50_headerBBox_roundtrip (m : HeaderBBox) (h : Spec.Pbf.hasHeaderBBox m) (hl : (Spec.Pbf.encodeHeaderBBox m).length ≤ 2147483647) :
    HeaderBBox.parseFromBytes (Spec.Pbf.encodeHeaderBBox m) = some m :=
  HeaderBBox.parse_writeToBytes (by
    unfold HeaderBBox.writeToBytes
    have e := m.write_eq hl
    have hs := m.size_eq (Or.inr (by rw [e]; omega))
    rw [if_pos ⟨m.isInitialized_of h, by rw [hs, e]; exact hl, hs.symm⟩, e])

/-- **C50.** Fields that are not in the message's definition are skipped, between any two fields. -/
theorem C50_headerBBox_unknown (pre post u : Bytes) (fs : List Field) (f : Field) (hp : readFields pre = some fs)
    (hu : readField u = some (f, [])) (hf : f.tag / 8 ∉ [1, 2, 3, 4]) :
    HeaderBBox.parseFromBytes (pre ++ u ++ post) = HeaderBBox.parseFromBytes (pre ++ post) := by
  unfold HeaderBBox.parseFromBytes
  rw [parse_unknown (fun m => HeaderBBox.merge_unknown m f hf) hp hu]

/-- **C50.** The order of two fields with different numbers does not matter. -/
theorem C50_headerBBox_order (pre post x y : Bytes) (fs : List Field) (f g : Field) (hp : readFields pre = some fs)
    (hx : readField x = some (f, [])) (hy : readField y = some (g, [])) (hn : f.tag / 8 ≠ g.tag / 8) :
    HeaderBBox.parseFromBytes (pre ++ x ++ y ++ post) = HeaderBBox.parseFromBytes (pre ++ y ++ x ++ post) := by
  unfold HeaderBBox.parseFromBytes
  rw [parse_swap (fun m => HeaderBBox.merge_comm m f g hn) hp hx hy]

/-- **C50.** The specified encoding of a message with its required fields parses to that message (a message has at most 2 GiB). -/
theorem C50_headerBlock_roundtrip (m : HeaderBlock) (h : Spec.Pbf.hasHeaderBlock m) (hl : (Spec.Pbf.encodeHeaderBlock m).length ≤ 2147483647) :
    HeaderBlock.parseFromBytes (Spec.Pbf.encodeHeaderBlock m) = some m :=
  HeaderBlock.parse_writeToBytes (by
    unfold HeaderBlock.writeToBytes
    have e := m.write_eq hl
    have hs := m.size_eq (Or.inr (by rw [e]; omega))
    rw [if_pos ⟨m.isInitialized_of h, by rw [hs, e]; exact hl, hs.symm⟩, e])

/-- **C50.** Fields that are not in the message's definition are skipped, between any two fields. -/
theorem C50_headerBlock_unknown (pre post u : Bytes) (fs : List Field) (f : Field) (hp : readFields pre = some fs)
    (hu : readField u = some (f, [])) (hf : f.tag / 8 ∉ [1, 4, 5, 16, 17, 32, 33, 34]) :
    HeaderBlock.parseFromBytes (pre ++ u ++ post) = HeaderBlock.parseFromBytes (pre ++ post) := by
  unfold HeaderBlock.parseFromBytes
  rw [parse_unknown (fun m => HeaderBlock.merge_unknown m f hf) hp hu]

/-- **C50.** The order of two fields with different numbers does not matter. -/
theorem C50_headerBlock_order (pre post x y : Bytes) (fs : List Field) (f g : Field) (hp : readFields pre = some fs)
    (hx : readField x = some (f, [])) (hy : readField y = some (g, [])) (hn : f.tag / 8 ≠ g.tag / 8) :
    HeaderBlock.parseFromBytes (pre ++ x ++ y ++ post) = HeaderBlock.parseFromBytes (pre ++ y ++ x ++ post) := by
  unfold HeaderBlock.parseFromBytes
  rw [parse_swap (fun m => HeaderBlock.merge_comm m f g hn) hp hx hy]

/-- **C50.** The specified encoding of a message with its required fields parses to that message (a message has at most 2 GiB). -/
theorem C50_stringTable_roundtrip (m : StringTable) (h : Spec.Pbf.hasStringTable m) (hl : (Spec.Pbf.encodeStringTable m).length ≤ 2147483647) :
    StringTable.parseFromBytes (Spec.Pbf.encodeStringTable m) = some m :=
  StringTable.parse_writeToBytes (by
    unfold StringTable.writeToBytes
    have e := m.write_eq hl
    have hs := m.size_eq (Or.inr (by rw [e]; omega))
    rw [if_pos ⟨m.isInitialized_of h, by rw [hs, e]; exact hl, hs.symm⟩, e])

/-- **C50.** Fields that are not in the message's definition are skipped, between any two fields. -/
theorem C50_stringTable_unknown (pre post u : Bytes) (fs : List Field) (f : Field) (hp : readFields pre = some fs)
    (hu : readField u = some (f, [])) (hf : f.tag / 8 ∉ [1]) :
    StringTable.parseFromBytes (pre ++ u ++ post) = StringTable.parseFromBytes (pre ++ post) := by
  unfold StringTable.parseFromBytes
  rw [parse_unknown (fun m => StringTable.merge_unknown m f hf) hp hu]

/-- **C50.** The order of two fields with different numbers does not matter. -/
theorem C50_stringTable_order (pre post x y : Bytes) (fs : List Field) (f g : Field) (hp : readFields pre = some fs)
    (hx : readField x = some (f, [])) (hy : readField y = some (g, [])) (hn : f.tag / 8 ≠ g.tag / 8) :
    StringTable.parseFromBytes (pre ++ x ++ y ++ post) = StringTable.parseFromBytes (pre ++ y ++ x ++ post) := by
  unfold StringTable.parseFromBytes
  rw [parse_swap (fun m => StringTable.merge_comm m f g hn) hp hx hy]

/-- **C50.** The specified encoding of a message with its required fields parses to that message (a message has at most 2 GiB). -/
theorem C50_info_roundtrip (m : Info) (h : Spec.Pbf.hasInfo m) (hl : (Spec.Pbf.encodeInfo m).length ≤ 2147483647) :
    Info.parseFromBytes (Spec.Pbf.encodeInfo m) = some m :=
  Info.parse_writeToBytes (by
    unfold Info.writeToBytes
    have e := m.write_eq hl
    have hs := m.size_eq (Or.inr (by rw [e]; omega))
    rw [if_pos ⟨m.isInitialized_of h, by rw [hs, e]; exact hl, hs.symm⟩, e])

/-- **C50.** Fields that are not in the message's definition are skipped, between any two fields. -/
theorem C50_info_unknown (pre post u : Bytes) (fs : List Field) (f : Field) (hp : readFields pre = some fs)
    (hu : readField u = some (f, [])) (hf : f.tag / 8 ∉ [1, 2, 3, 4, 5, 6]) :
    Info.parseFromBytes (pre ++ u ++ post) = Info.parseFromBytes (pre ++ post) := by
  unfold Info.parseFromBytes
  rw [parse_unknown (fun m => Info.merge_unknown m f hf) hp hu]

/-- **C50.** The order of two fields with different numbers does not matter. -/
theorem C50_info_order (pre post x y : Bytes) (fs : List Field) (f g : Field) (hp : readFields pre = some fs)
    (hx : readField x = some (f, [])) (hy : readField y = some (g, [])) (hn : f.tag / 8 ≠ g.tag / 8) :
    Info.parseFromBytes (pre ++ x ++ y ++ post) = Info.parseFromBytes (pre ++ y ++ x ++ post) := by
  unfold Info.parseFromBytes
  rw [parse_swap (fun m => Info.merge_comm m f g hn) hp hx hy]

/-- **C50.** The specified encoding of a message with its required fields parses to that message (a message has at most 2 GiB). -/
theorem C50_node_roundtrip (m : Node) (h : Spec.Pbf.hasNode m) (hl : (Spec.Pbf.encodeNode m).length ≤ 2147483647) :
    Node.parseFromBytes (Spec.Pbf.encodeNode m) = some m :=
  Node.parse_writeToBytes (by
    unfold Node.writeToBytes
    have e := m.write_eq hl
    have hs := m.size_eq (Or.inr (by rw [e]; omega))
    rw [if_pos ⟨m.isInitialized_of h, by rw [hs, e]; exact hl, hs.symm⟩, e])

/-- **C50.** Fields that are not in the message's definition are skipped, between any two fields. -/
theorem C50_node_unknown (pre post u : Bytes) (fs : List Field) (f : Field) (hp : readFields pre = some fs)
    (hu : readField u = some (f, [])) (hf : f.tag / 8 ∉ [1, 2, 3, 4, 8, 9]) :
    Node.parseFromBytes (pre ++ u ++ post) = Node.parseFromBytes (pre ++ post) := by
  unfold Node.parseFromBytes
  rw [parse_unknown (fun m => Node.merge_unknown m f hf) hp hu]

/-- **C50.** The order of two fields with different numbers does not matter. -/
theorem C50_node_order (pre post x y : Bytes) (fs : List Field) (f g : Field) (hp : readFields pre = some fs)
    (hx : readField x = some (f, [])) (hy : readField y = some (g, [])) (hn : f.tag / 8 ≠ g.tag / 8) :
    Node.parseFromBytes (pre ++ x ++ y ++ post) = Node.parseFromBytes (pre ++ y ++ x ++ post) := by
  unfold Node.parseFromBytes
  rw [parse_swap (fun m => Node.merge_comm m f g hn) hp hx hy]

/-- **C50.** The numbers of `keys` can be packed or not; both are the same to a reader, wherever they are. -/
theorem C50_node_keys_unpacked (pre post : Bytes) (l : List UInt32) (fs : List Field)
    (hp : readFields pre = some fs) (hl : (Spec.Wire.packed 2 Spec.Wire.uint32 l).length ≤ 2147483647) :
    Node.parseFromBytes (pre ++ Spec.Wire.rep l (fun v => Spec.Wire.number 2 (Spec.Wire.uint32 v)) ++ post) =
      Node.parseFromBytes (pre ++ Spec.Wire.packed 2 Spec.Wire.uint32 l ++ post) := by
  unfold Node.parseFromBytes
  rw [parse_same (fun m => Node.unpacked_keys m l) (fun m => Node.packed_keys m l hl) hp]

/-- **C50.** The numbers of `vals` can be packed or not; both are the same to a reader, wherever they are. -/
theorem C50_node_vals_unpacked (pre post : Bytes) (l : List UInt32) (fs : List Field)
    (hp : readFields pre = some fs) (hl : (Spec.Wire.packed 3 Spec.Wire.uint32 l).length ≤ 2147483647) :
    Node.parseFromBytes (pre ++ Spec.Wire.rep l (fun v => Spec.Wire.number 3 (Spec.Wire.uint32 v)) ++ post) =
      Node.parseFromBytes (pre ++ Spec.Wire.packed 3 Spec.Wire.uint32 l ++ post) := by
  unfold Node.parseFromBytes
  rw [parse_same (fun m => Node.unpacked_vals m l) (fun m => Node.packed_vals m l hl) hp]

/-- **C50.** The specified encoding of a message with its required fields parses to that message (a message has at most 2 GiB). -/
theorem C50_denseInfo_roundtrip (m : DenseInfo) (h : Spec.Pbf.hasDenseInfo m) (hl : (Spec.Pbf.encodeDenseInfo m).length ≤ 2147483647) :
    DenseInfo.parseFromBytes (Spec.Pbf.encodeDenseInfo m) = some m :=
  DenseInfo.parse_writeToBytes (by
    unfold DenseInfo.writeToBytes
    have e := m.write_eq hl
    have hs := m.size_eq (Or.inr (by rw [e]; omega))
    rw [if_pos ⟨m.isInitialized_of h, by rw [hs, e]; exact hl, hs.symm⟩, e])

/-- **C50.** Fields that are not in the message's definition are skipped, between any two fields. -/
theorem C50_denseInfo_unknown (pre post u : Bytes) (fs : List Field) (f : Field) (hp : readFields pre = some fs)
    (hu : readField u = some (f, [])) (hf : f.tag / 8 ∉ [1, 2, 3, 4, 5, 6]) :
    DenseInfo.parseFromBytes (pre ++ u ++ post) = DenseInfo.parseFromBytes (pre ++ post) := by
  unfold DenseInfo.parseFromBytes
  rw [parse_unknown (fun m => DenseInfo.merge_unknown m f hf) hp hu]

/-- **C50.** The order of two fields with different numbers does not matter. -/
theorem C50_denseInfo_order (pre post x y : Bytes) (fs : List Field) (f g : Field) (hp : readFields pre = some fs)
    (hx : readField x = some (f, [])) (hy : readField y = some (g, [])) (hn : f.tag / 8 ≠ g.tag / 8) :
    DenseInfo.parseFromBytes (pre ++ x ++ y ++ post) = DenseInfo.parseFromBytes (pre ++ y ++ x ++ post) := by
  unfold DenseInfo.parseFromBytes
  rw [parse_swap (fun m => DenseInfo.merge_comm m f g hn) hp hx hy]

/-- **C50.** The numbers of `version` can be packed or not; both are the same to a reader, wherever they are. -/
theorem C50_denseInfo_version_unpacked (pre post : Bytes) (l : List Int32) (fs : List Field)
    (hp : readFields pre = some fs) (hl : (Spec.Wire.packed 1 Spec.Wire.int32 l).length ≤ 2147483647) :
    DenseInfo.parseFromBytes (pre ++ Spec.Wire.rep l (fun v => Spec.Wire.number 1 (Spec.Wire.int32 v)) ++ post) =
      DenseInfo.parseFromBytes (pre ++ Spec.Wire.packed 1 Spec.Wire.int32 l ++ post) := by
  unfold DenseInfo.parseFromBytes
  rw [parse_same (fun m => DenseInfo.unpacked_version m l) (fun m => DenseInfo.packed_version m l hl) hp]

/-- **C50.** The numbers of `timestamp` can be packed or not; both are the same to a reader, wherever they are. -/
theorem C50_denseInfo_timestamp_unpacked (pre post : Bytes) (l : List Int64) (fs : List Field)
    (hp : readFields pre = some fs) (hl : (Spec.Wire.packed 2 Spec.Wire.sint64 l).length ≤ 2147483647) :
    DenseInfo.parseFromBytes (pre ++ Spec.Wire.rep l (fun v => Spec.Wire.number 2 (Spec.Wire.sint64 v)) ++ post) =
      DenseInfo.parseFromBytes (pre ++ Spec.Wire.packed 2 Spec.Wire.sint64 l ++ post) := by
  unfold DenseInfo.parseFromBytes
  rw [parse_same (fun m => DenseInfo.unpacked_timestamp m l) (fun m => DenseInfo.packed_timestamp m l hl) hp]

/-- **C50.** The numbers of `changeset` can be packed or not; both are the same to a reader, wherever they are. -/
theorem C50_denseInfo_changeset_unpacked (pre post : Bytes) (l : List Int64) (fs : List Field)
    (hp : readFields pre = some fs) (hl : (Spec.Wire.packed 3 Spec.Wire.sint64 l).length ≤ 2147483647) :
    DenseInfo.parseFromBytes (pre ++ Spec.Wire.rep l (fun v => Spec.Wire.number 3 (Spec.Wire.sint64 v)) ++ post) =
      DenseInfo.parseFromBytes (pre ++ Spec.Wire.packed 3 Spec.Wire.sint64 l ++ post) := by
  unfold DenseInfo.parseFromBytes
  rw [parse_same (fun m => DenseInfo.unpacked_changeset m l) (fun m => DenseInfo.packed_changeset m l hl) hp]

/-- **C50.** The numbers of `uid` can be packed or not; both are the same to a reader, wherever they are. -/
theorem C50_denseInfo_uid_unpacked (pre post : Bytes) (l : List Int32) (fs : List Field)
    (hp : readFields pre = some fs) (hl : (Spec.Wire.packed 4 Spec.Wire.sint32 l).length ≤ 2147483647) :
    DenseInfo.parseFromBytes (pre ++ Spec.Wire.rep l (fun v => Spec.Wire.number 4 (Spec.Wire.sint32 v)) ++ post) =
      DenseInfo.parseFromBytes (pre ++ Spec.Wire.packed 4 Spec.Wire.sint32 l ++ post) := by
  unfold DenseInfo.parseFromBytes
  rw [parse_same (fun m => DenseInfo.unpacked_uid m l) (fun m => DenseInfo.packed_uid m l hl) hp]

/-- **C50.** The numbers of `user_sid` can be packed or not; both are the same to a reader, wherever they are. -/
theorem C50_denseInfo_userSid_unpacked (pre post : Bytes) (l : List Int32) (fs : List Field)
    (hp : readFields pre = some fs) (hl : (Spec.Wire.packed 5 Spec.Wire.sint32 l).length ≤ 2147483647) :
    DenseInfo.parseFromBytes (pre ++ Spec.Wire.rep l (fun v => Spec.Wire.number 5 (Spec.Wire.sint32 v)) ++ post) =
      DenseInfo.parseFromBytes (pre ++ Spec.Wire.packed 5 Spec.Wire.sint32 l ++ post) := by
  unfold DenseInfo.parseFromBytes
  rw [parse_same (fun m => DenseInfo.unpacked_userSid m l) (fun m => DenseInfo.packed_userSid m l hl) hp]

/-- **C50.** The numbers of `visible` can be packed or not; both are the same to a reader, wherever they are. -/
theorem C50_denseInfo_visible_unpacked (pre post : Bytes) (l : List Bool) (fs : List Field)
    (hp : readFields pre = some fs) (hl : (Spec.Wire.packed 6 Spec.Wire.bool l).length ≤ 2147483647) :
    DenseInfo.parseFromBytes (pre ++ Spec.Wire.rep l (fun v => Spec.Wire.number 6 (Spec.Wire.bool v)) ++ post) =
      DenseInfo.parseFromBytes (pre ++ Spec.Wire.packed 6 Spec.Wire.bool l ++ post) := by
  unfold DenseInfo.parseFromBytes
  rw [parse_same (fun m => DenseInfo.unpacked_visible m l) (fun m => DenseInfo.packed_visible m l hl) hp]

/-- **C50.** The specified encoding of a message with its required fields parses to that message (a message has at most 2 GiB). -/
theorem C50_denseNodes_roundtrip (m : DenseNodes) (h : Spec.Pbf.hasDenseNodes m) (hl : (Spec.Pbf.encodeDenseNodes m).length ≤ 2147483647) :
    DenseNodes.parseFromBytes (Spec.Pbf.encodeDenseNodes m) = some m :=
  DenseNodes.parse_writeToBytes (by
    unfold DenseNodes.writeToBytes
    have e := m.write_eq hl
    have hs := m.size_eq (Or.inr (by rw [e]; omega))
    rw [if_pos ⟨m.isInitialized_of h, by rw [hs, e]; exact hl, hs.symm⟩, e])

/-- **C50.** Fields that are not in the message's definition are skipped, between any two fields. -/
theorem C50_denseNodes_unknown (pre post u : Bytes) (fs : List Field) (f : Field) (hp : readFields pre = some fs)
    (hu : readField u = some (f, [])) (hf : f.tag / 8 ∉ [1, 5, 8, 9, 10]) :
    DenseNodes.parseFromBytes (pre ++ u ++ post) = DenseNodes.parseFromBytes (pre ++ post) := by
  unfold DenseNodes.parseFromBytes
  rw [parse_unknown (fun m => DenseNodes.merge_unknown m f hf) hp hu]

/-- **C50.** The order of two fields with different numbers does not matter. -/
theorem C50_denseNodes_order (pre post x y : Bytes) (fs : List Field) (f g : Field) (hp : readFields pre = some fs)
    (hx : readField x = some (f, [])) (hy : readField y = some (g, [])) (hn : f.tag / 8 ≠ g.tag / 8) :
    DenseNodes.parseFromBytes (pre ++ x ++ y ++ post) = DenseNodes.parseFromBytes (pre ++ y ++ x ++ post) := by
  unfold DenseNodes.parseFromBytes
  rw [parse_swap (fun m => DenseNodes.merge_comm m f g hn) hp hx hy]

/-- **C50.** The numbers of `id` can be packed or not; both are the same to a reader, wherever they are. -/
theorem C50_denseNodes_id_unpacked (pre post : Bytes) (l : List Int64) (fs : List Field)
    (hp : readFields pre = some fs) (hl : (Spec.Wire.packed 1 Spec.Wire.sint64 l).length ≤ 2147483647) :
    DenseNodes.parseFromBytes (pre ++ Spec.Wire.rep l (fun v => Spec.Wire.number 1 (Spec.Wire.sint64 v)) ++ post) =
      DenseNodes.parseFromBytes (pre ++ Spec.Wire.packed 1 Spec.Wire.sint64 l ++ post) := by
  unfold DenseNodes.parseFromBytes
  rw [parse_same (fun m => DenseNodes.unpacked_id m l) (fun m => DenseNodes.packed_id m l hl) hp]

/-- **C50.** The numbers of `lat` can be packed or not; both are the same to a reader, wherever they are. -/
theorem C50_denseNodes_lat_unpacked (pre post : Bytes) (l : List Int64) (fs : List Field)
    (hp : readFields pre = some fs) (hl : (Spec.Wire.packed 8 Spec.Wire.sint64 l).length ≤ 2147483647) :
    DenseNodes.parseFromBytes (pre ++ Spec.Wire.rep l (fun v => Spec.Wire.number 8 (Spec.Wire.sint64 v)) ++ post) =
      DenseNodes.parseFromBytes (pre ++ Spec.Wire.packed 8 Spec.Wire.sint64 l ++ post) := by
  unfold DenseNodes.parseFromBytes
  rw [parse_same (fun m => DenseNodes.unpacked_lat m l) (fun m => DenseNodes.packed_lat m l hl) hp]

/-- **C50.** The numbers of `lon` can be packed or not; both are the same to a reader, wherever they are. -/
theorem C50_denseNodes_lon_unpacked (pre post : Bytes) (l : List Int64) (fs : List Field)
    (hp : readFields pre = some fs) (hl : (Spec.Wire.packed 9 Spec.Wire.sint64 l).length ≤ 2147483647) :
    DenseNodes.parseFromBytes (pre ++ Spec.Wire.rep l (fun v => Spec.Wire.number 9 (Spec.Wire.sint64 v)) ++ post) =
      DenseNodes.parseFromBytes (pre ++ Spec.Wire.packed 9 Spec.Wire.sint64 l ++ post) := by
  unfold DenseNodes.parseFromBytes
  rw [parse_same (fun m => DenseNodes.unpacked_lon m l) (fun m => DenseNodes.packed_lon m l hl) hp]

/-- **C50.** The numbers of `keys_vals` can be packed or not; both are the same to a reader, wherever they are. -/
theorem C50_denseNodes_keysVals_unpacked (pre post : Bytes) (l : List Int32) (fs : List Field)
    (hp : readFields pre = some fs) (hl : (Spec.Wire.packed 10 Spec.Wire.int32 l).length ≤ 2147483647) :
    DenseNodes.parseFromBytes (pre ++ Spec.Wire.rep l (fun v => Spec.Wire.number 10 (Spec.Wire.int32 v)) ++ post) =
      DenseNodes.parseFromBytes (pre ++ Spec.Wire.packed 10 Spec.Wire.int32 l ++ post) := by
  unfold DenseNodes.parseFromBytes
  rw [parse_same (fun m => DenseNodes.unpacked_keysVals m l) (fun m => DenseNodes.packed_keysVals m l hl) hp]

/-- **C50.** The specified encoding of a message with its required fields parses to that message (a message has at most 2 GiB). -/
theorem C50_way_roundtrip (m : Way) (h : Spec.Pbf.hasWay m) (hl : (Spec.Pbf.encodeWay m).length ≤ 2147483647) :
    Way.parseFromBytes (Spec.Pbf.encodeWay m) = some m :=
  Way.parse_writeToBytes (by
    unfold Way.writeToBytes
    have e := m.write_eq hl
    have hs := m.size_eq (Or.inr (by rw [e]; omega))
    rw [if_pos ⟨m.isInitialized_of h, by rw [hs, e]; exact hl, hs.symm⟩, e])

/-- **C50.** Fields that are not in the message's definition are skipped, between any two fields. -/
theorem C50_way_unknown (pre post u : Bytes) (fs : List Field) (f : Field) (hp : readFields pre = some fs)
    (hu : readField u = some (f, [])) (hf : f.tag / 8 ∉ [1, 2, 3, 4, 8]) :
    Way.parseFromBytes (pre ++ u ++ post) = Way.parseFromBytes (pre ++ post) := by
  unfold Way.parseFromBytes
  rw [parse_unknown (fun m => Way.merge_unknown m f hf) hp hu]

/-- **C50.** The order of two fields with different numbers does not matter. -/
theorem C50_way_order (pre post x y : Bytes) (fs : List Field) (f g : Field) (hp : readFields pre = some fs)
    (hx : readField x = some (f, [])) (hy : readField y = some (g, [])) (hn : f.tag / 8 ≠ g.tag / 8) :
    Way.parseFromBytes (pre ++ x ++ y ++ post) = Way.parseFromBytes (pre ++ y ++ x ++ post) := by
  unfold Way.parseFromBytes
  rw [parse_swap (fun m => Way.merge_comm m f g hn) hp hx hy]

/-- **C50.** The numbers of `keys` can be packed or not; both are the same to a reader, wherever they are. -/
theorem C50_way_keys_unpacked (pre post : Bytes) (l : List UInt32) (fs : List Field)
    (hp : readFields pre = some fs) (hl : (Spec.Wire.packed 2 Spec.Wire.uint32 l).length ≤ 2147483647) :
    Way.parseFromBytes (pre ++ Spec.Wire.rep l (fun v => Spec.Wire.number 2 (Spec.Wire.uint32 v)) ++ post) =
      Way.parseFromBytes (pre ++ Spec.Wire.packed 2 Spec.Wire.uint32 l ++ post) := by
  unfold Way.parseFromBytes
  rw [parse_same (fun m => Way.unpacked_keys m l) (fun m => Way.packed_keys m l hl) hp]

/-- **C50.** The numbers of `vals` can be packed or not; both are the same to a reader, wherever they are. -/
theorem C50_way_vals_unpacked (pre post : Bytes) (l : List UInt32) (fs : List Field)
    (hp : readFields pre = some fs) (hl : (Spec.Wire.packed 3 Spec.Wire.uint32 l).length ≤ 2147483647) :
    Way.parseFromBytes (pre ++ Spec.Wire.rep l (fun v => Spec.Wire.number 3 (Spec.Wire.uint32 v)) ++ post) =
      Way.parseFromBytes (pre ++ Spec.Wire.packed 3 Spec.Wire.uint32 l ++ post) := by
  unfold Way.parseFromBytes
  rw [parse_same (fun m => Way.unpacked_vals m l) (fun m => Way.packed_vals m l hl) hp]

/-- **C50.** The numbers of `refs` can be packed or not; both are the same to a reader, wherever they are. -/
theorem C50_way_refs_unpacked (pre post : Bytes) (l : List Int64) (fs : List Field)
    (hp : readFields pre = some fs) (hl : (Spec.Wire.packed 8 Spec.Wire.sint64 l).length ≤ 2147483647) :
    Way.parseFromBytes (pre ++ Spec.Wire.rep l (fun v => Spec.Wire.number 8 (Spec.Wire.sint64 v)) ++ post) =
      Way.parseFromBytes (pre ++ Spec.Wire.packed 8 Spec.Wire.sint64 l ++ post) := by
  unfold Way.parseFromBytes
  rw [parse_same (fun m => Way.unpacked_refs m l) (fun m => Way.packed_refs m l hl) hp]

/-- **C50.** The specified encoding of a message with its required fields parses to that message (a message has at most 2 GiB). -/
theorem C50_relation_roundtrip (m : Relation) (h : Spec.Pbf.hasRelation m) (hl : (Spec.Pbf.encodeRelation m).length ≤ 2147483647) :
    Relation.parseFromBytes (Spec.Pbf.encodeRelation m) = some m :=
  Relation.parse_writeToBytes (by
    unfold Relation.writeToBytes
    have e := m.write_eq hl
    have hs := m.size_eq (Or.inr (by rw [e]; omega))
    rw [if_pos ⟨m.isInitialized_of h, by rw [hs, e]; exact hl, hs.symm⟩, e])

/-- **C50.** Fields that are not in the message's definition are skipped, between any two fields. -/
theorem C50_relation_unknown (pre post u : Bytes) (fs : List Field) (f : Field) (hp : readFields pre = some fs)
    (hu : readField u = some (f, [])) (hf : f.tag / 8 ∉ [1, 2, 3, 4, 8, 9, 10]) :
    Relation.parseFromBytes (pre ++ u ++ post) = Relation.parseFromBytes (pre ++ post) := by
  unfold Relation.parseFromBytes
  rw [parse_unknown (fun m => Relation.merge_unknown m f hf) hp hu]

/-- **C50.** The order of two fields with different numbers does not matter. -/
theorem C50_relation_order (pre post x y : Bytes) (fs : List Field) (f g : Field) (hp : readFields pre = some fs)
    (hx : readField x = some (f, [])) (hy : readField y = some (g, [])) (hn : f.tag / 8 ≠ g.tag / 8) :
    Relation.parseFromBytes (pre ++ x ++ y ++ post) = Relation.parseFromBytes (pre ++ y ++ x ++ post) := by
  unfold Relation.parseFromBytes
  rw [parse_swap (fun m => Relation.merge_comm m f g hn) hp hx hy]

/-- **C50.** The numbers of `keys` can be packed or not; both are the same to a reader, wherever they are. -/
theorem C50_relation_keys_unpacked (pre post : Bytes) (l : List UInt32) (fs : List Field)
    (hp : readFields pre = some fs) (hl : (Spec.Wire.packed 2 Spec.Wire.uint32 l).length ≤ 2147483647) :
    Relation.parseFromBytes (pre ++ Spec.Wire.rep l (fun v => Spec.Wire.number 2 (Spec.Wire.uint32 v)) ++ post) =
      Relation.parseFromBytes (pre ++ Spec.Wire.packed 2 Spec.Wire.uint32 l ++ post) := by
  unfold Relation.parseFromBytes
  rw [parse_same (fun m => Relation.unpacked_keys m l) (fun m => Relation.packed_keys m l hl) hp]

/-- **C50.** The numbers of `vals` can be packed or not; both are the same to a reader, wherever they are. -/
theorem C50_relation_vals_unpacked (pre post : Bytes) (l : List UInt32) (fs : List Field)
    (hp : readFields pre = some fs) (hl : (Spec.Wire.packed 3 Spec.Wire.uint32 l).length ≤ 2147483647) :
    Relation.parseFromBytes (pre ++ Spec.Wire.rep l (fun v => Spec.Wire.number 3 (Spec.Wire.uint32 v)) ++ post) =
      Relation.parseFromBytes (pre ++ Spec.Wire.packed 3 Spec.Wire.uint32 l ++ post) := by
  unfold Relation.parseFromBytes
  rw [parse_same (fun m => Relation.unpacked_vals m l) (fun m => Relation.packed_vals m l hl) hp]

/-- **C50.** The numbers of `roles_sid` can be packed or not; both are the same to a reader, wherever they are. -/
theorem C50_relation_rolesSid_unpacked (pre post : Bytes) (l : List Int32) (fs : List Field)
    (hp : readFields pre = some fs) (hl : (Spec.Wire.packed 8 Spec.Wire.int32 l).length ≤ 2147483647) :
    Relation.parseFromBytes (pre ++ Spec.Wire.rep l (fun v => Spec.Wire.number 8 (Spec.Wire.int32 v)) ++ post) =
      Relation.parseFromBytes (pre ++ Spec.Wire.packed 8 Spec.Wire.int32 l ++ post) := by
  unfold Relation.parseFromBytes
  rw [parse_same (fun m => Relation.unpacked_rolesSid m l) (fun m => Relation.packed_rolesSid m l hl) hp]

/-- **C50.** The numbers of `memids` can be packed or not; both are the same to a reader, wherever they are. -/
theorem C50_relation_memids_unpacked (pre post : Bytes) (l : List Int64) (fs : List Field)
    (hp : readFields pre = some fs) (hl : (Spec.Wire.packed 9 Spec.Wire.sint64 l).length ≤ 2147483647) :
    Relation.parseFromBytes (pre ++ Spec.Wire.rep l (fun v => Spec.Wire.number 9 (Spec.Wire.sint64 v)) ++ post) =
      Relation.parseFromBytes (pre ++ Spec.Wire.packed 9 Spec.Wire.sint64 l ++ post) := by
  unfold Relation.parseFromBytes
  rw [parse_same (fun m => Relation.unpacked_memids m l) (fun m => Relation.packed_memids m l hl) hp]

/-- **C50.** The numbers of `types` can be packed or not; both are the same to a reader, wherever they are. -/
theorem C50_relation_types_unpacked (pre post : Bytes) (l : List Int32) (fs : List Field)
    (hp : readFields pre = some fs) (hl : (Spec.Wire.packed 10 Spec.Wire.enum l).length ≤ 2147483647) :
    Relation.parseFromBytes (pre ++ Spec.Wire.rep l (fun v => Spec.Wire.number 10 (Spec.Wire.enum v)) ++ post) =
      Relation.parseFromBytes (pre ++ Spec.Wire.packed 10 Spec.Wire.enum l ++ post) := by
  unfold Relation.parseFromBytes
  rw [parse_same (fun m => Relation.unpacked_types m l) (fun m => Relation.packed_types m l hl) hp]

/-- **C50.** The specified encoding of a message with its required fields parses to that message (a message has at most 2 GiB). -/
theorem C50_changeSet_roundtrip (m : ChangeSet) (h : Spec.Pbf.hasChangeSet m) (hl : (Spec.Pbf.encodeChangeSet m).length ≤ 2147483647) :
    ChangeSet.parseFromBytes (Spec.Pbf.encodeChangeSet m) = some m :=
  ChangeSet.parse_writeToBytes (by
    unfold ChangeSet.writeToBytes
    have e := m.write_eq hl
    have hs := m.size_eq (Or.inr (by rw [e]; omega))
    rw [if_pos ⟨m.isInitialized_of h, by rw [hs, e]; exact hl, hs.symm⟩, e])

/-- **C50.** Fields that are not in the message's definition are skipped, between any two fields. -/
theorem C50_changeSet_unknown (pre post u : Bytes) (fs : List Field) (f : Field) (hp : readFields pre = some fs)
    (hu : readField u = some (f, [])) (hf : f.tag / 8 ∉ [1]) :
    ChangeSet.parseFromBytes (pre ++ u ++ post) = ChangeSet.parseFromBytes (pre ++ post) := by
  unfold ChangeSet.parseFromBytes
  rw [parse_unknown (fun m => ChangeSet.merge_unknown m f hf) hp hu]

/-- **C50.** The order of two fields with different numbers does not matter. -/
theorem C50_changeSet_order (pre post x y : Bytes) (fs : List Field) (f g : Field) (hp : readFields pre = some fs)
    (hx : readField x = some (f, [])) (hy : readField y = some (g, [])) (hn : f.tag / 8 ≠ g.tag / 8) :
    ChangeSet.parseFromBytes (pre ++ x ++ y ++ post) = ChangeSet.parseFromBytes (pre ++ y ++ x ++ post) := by
  unfold ChangeSet.parseFromBytes
  rw [parse_swap (fun m => ChangeSet.merge_comm m f g hn) hp hx hy]

/-- **C50.** The specified encoding of a message with its required fields parses to that message (a message has at most 2 GiB). -/
theorem C50_primitiveGroup_roundtrip (m : PrimitiveGroup) (h : Spec.Pbf.hasPrimitiveGroup m) (hl : (Spec.Pbf.encodePrimitiveGroup m).length ≤ 2147483647) :
    PrimitiveGroup.parseFromBytes (Spec.Pbf.encodePrimitiveGroup m) = some m :=
  PrimitiveGroup.parse_writeToBytes (by
    unfold PrimitiveGroup.writeToBytes
    have e := m.write_eq hl
    have hs := m.size_eq (Or.inr (by rw [e]; omega))
    rw [if_pos ⟨m.isInitialized_of h, by rw [hs, e]; exact hl, hs.symm⟩, e])

/-- **C50.** Fields that are not in the message's definition are skipped, between any two fields. -/
theorem C50_primitiveGroup_unknown (pre post u : Bytes) (fs : List Field) (f : Field) (hp : readFields pre = some fs)
    (hu : readField u = some (f, [])) (hf : f.tag / 8 ∉ [1, 2, 3, 4, 5]) :
    PrimitiveGroup.parseFromBytes (pre ++ u ++ post) = PrimitiveGroup.parseFromBytes (pre ++ post) := by
  unfold PrimitiveGroup.parseFromBytes
  rw [parse_unknown (fun m => PrimitiveGroup.merge_unknown m f hf) hp hu]

/-- **C50.** The order of two fields with different numbers does not matter. -/
theorem C50_primitiveGroup_order (pre post x y : Bytes) (fs : List Field) (f g : Field) (hp : readFields pre = some fs)
    (hx : readField x = some (f, [])) (hy : readField y = some (g, [])) (hn : f.tag / 8 ≠ g.tag / 8) :
    PrimitiveGroup.parseFromBytes (pre ++ x ++ y ++ post) = PrimitiveGroup.parseFromBytes (pre ++ y ++ x ++ post) := by
  unfold PrimitiveGroup.parseFromBytes
  rw [parse_swap (fun m => PrimitiveGroup.merge_comm m f g hn) hp hx hy]

/-- **C50.** The specified encoding of a message with its required fields parses to that message (a message has at most 2 GiB). -/
theorem C50_primitiveBlock_roundtrip (m : PrimitiveBlock) (h : Spec.Pbf.hasPrimitiveBlock m) (hl : (Spec.Pbf.encodePrimitiveBlock m).length ≤ 2147483647) :
    PrimitiveBlock.parseFromBytes (Spec.Pbf.encodePrimitiveBlock m) = some m :=
  PrimitiveBlock.parse_writeToBytes (by
    unfold PrimitiveBlock.writeToBytes
    have e := m.write_eq hl
    have hs := m.size_eq (Or.inr (by rw [e]; omega))
    rw [if_pos ⟨m.isInitialized_of h, by rw [hs, e]; exact hl, hs.symm⟩, e])

/-- **C50.** Fields that are not in the message's definition are skipped, between any two fields. -/
theorem C50_primitiveBlock_unknown (pre post u : Bytes) (fs : List Field) (f : Field) (hp : readFields pre = some fs)
    (hu : readField u = some (f, [])) (hf : f.tag / 8 ∉ [1, 2, 17, 19, 20, 18]) :
    PrimitiveBlock.parseFromBytes (pre ++ u ++ post) = PrimitiveBlock.parseFromBytes (pre ++ post) := by
  unfold PrimitiveBlock.parseFromBytes
  rw [parse_unknown (fun m => PrimitiveBlock.merge_unknown m f hf) hp hu]

/-- **C50.** The order of two fields with different numbers does not matter. -/
theorem C50_primitiveBlock_order (pre post x y : Bytes) (fs : List Field) (f g : Field) (hp : readFields pre = some fs)
    (hx : readField x = some (f, [])) (hy : readField y = some (g, [])) (hn : f.tag / 8 ≠ g.tag / 8) :
    PrimitiveBlock.parseFromBytes (pre ++ x ++ y ++ post) = PrimitiveBlock.parseFromBytes (pre ++ y ++ x ++ post) := by
  unfold PrimitiveBlock.parseFromBytes
  rw [parse_swap (fun m => PrimitiveBlock.merge_comm m f g hn) hp hx hy]

/-- The usual example of a varint: 300 is `AC 02`. -/
example : Spec.Wire.varint 300 = [0xAC, 0x02] := by rw [← writeVarint_eq (by decide)]; decide +kernel

/-- -1 takes ten bytes as `int32`, and one as `sint32`. -/
example : Spec.Wire.varint (Spec.Wire.int32 (-1)) = [0xFF, 0xFF, 0xFF, 0xFF, 0xFF, 0xFF, 0xFF, 0xFF, 0xFF, 0x01] ∧
    Spec.Wire.varint (Spec.Wire.sint32 (-1)) = [0x01] := by
  constructor
  · rw [← writeVarint_eq (by decide)]; decide +kernel
  · rw [← writeVarint_eq (by decide)]; decide +kernel

/-- A blob header as it is in real files. -/
def exampleHeader : BlobHeader := { type_ := some (str% "OSMData"), datasize := some 300 }

example : Spec.Pbf.hasBlobHeader exampleHeader := ⟨by decide, by decide⟩

/-- Its bytes (as any other protocol buffer library would write them) are the specified ones. -/
example : Spec.Pbf.encodeBlobHeader exampleHeader = [0x0A, 7, 79, 83, 77, 68, 97, 116, 97, 0x18, 0xAC, 0x02] := by
  have h : exampleHeader.write = [0x0A, 7, 79, 83, 77, 68, 97, 116, 97, 0x18, 0xAC, 0x02] := by decide +kernel
  have h2 : (Spec.Pbf.encodeBlobHeader exampleHeader).length ≤ 2147483647 := by
    simp only [Spec.Pbf.encodeBlobHeader, Spec.Wire.opt, Spec.Wire.delimited, Spec.Wire.number, exampleHeader]
    repeat rw [← writeVarint_eq (by decide)]
    decide +kernel
  rw [← BlobHeader.write_eq _ h2, h]

example : BlobHeader.parseFromBytes [0x0A, 7, 79, 83, 77, 68, 97, 116, 97, 0x18, 0xAC, 0x02] = some exampleHeader := by
  decide +kernel

/-- The hypotheses of the theorems on unknown fields, order and packing hold for real bytes: an unknown field 9 between `type` and
`datasize`. -/
example : readFields [0x0A, 7, 79, 83, 77, 68, 97, 116, 97] = some [⟨10, .len [79, 83, 77, 68, 97, 116, 97]⟩] ∧
    readField [0x48, 0x05] = some (⟨72, .varint 5⟩, []) ∧ 72 / 8 ∉ [1, 2, 3] ∧
    BlobHeader.parseFromBytes [0x0A, 7, 79, 83, 77, 68, 97, 116, 97, 0x48, 0x05, 0x18, 0xAC, 0x02] = some exampleHeader := by
  decide +kernel

/-- A block with one dense node, one tag and metadata. -/
def exampleBlock : PrimitiveBlock :=
  { stringtable := some { s := [[], [97], [98], [117]] }
    primitivegroup := [{ dense := some {
      id := [-5], lat := [10], lon := [-10], keysVals := [1, 2, 0]
      denseinfo := some { version := [1], timestamp := [1000], changeset := [7], uid := [9], userSid := [3] } } }] }

example : Spec.Pbf.hasPrimitiveBlock exampleBlock := by
  refine ⟨by decide, fun v h => trivial, fun v h => ?_⟩
  simp only [exampleBlock, List.mem_singleton] at h
  subst h
  exact ⟨fun v h => absurd h (List.not_mem_nil), fun v h => fun v h => trivial, fun v h => absurd h (List.not_mem_nil),
    fun v h => absurd h (List.not_mem_nil), fun v h => absurd h (List.not_mem_nil)⟩

example : PrimitiveBlock.parseFromBytes exampleBlock.write = some exampleBlock := by decide +kernel

/-- Required fields are checked: without a string table there is no block. -/
theorem C50_required_checked (m : PrimitiveBlock) (bs : Bytes) (h : PrimitiveBlock.parseFromBytes bs = some m) :
    m.stringtable ≠ none := by
  intro e
  unfold PrimitiveBlock.parseFromBytes at h
  obtain ⟨m', _, h2⟩ := Option.bind_eq_some_iff.1 h
  split at h2
  · rename_i h3
    cases h2
    rw [PrimitiveBlock.isInitialized, e] at h3
    cases h3
  · cases h2

end Osmio
