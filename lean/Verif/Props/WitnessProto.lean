import Verif.Props.Proto
import Verif.Props.ProtoSize
import Verif.Proofs.ProtoLenSpec
/-! Concrete messages and bytes that meet the hypotheses of the theorems on messages, C50 and C73 (written by `tools/genwitness.py`). -/

namespace Osmio.ProtoEx
open Proto

/-- Two packed numbers are few bytes. -/
theorem packed_two {α : Type} {field : Nat} {num : α → Nat} {a b : α} (hf : field * 8 + 2 < 2 ^ 64) (ha : num a < 2 ^ 64) (hb : num b < 2 ^ 64) :
    (Spec.Wire.packed field num [a, b]).length ≤ 2147483647 := by
  have size : ∀ n, varintSize n ≤ 10 := fun n => by unfold varintSize; repeat (first | split | omega)
  have va := varint_length ha
  have vb := varint_length hb
  have vf := varint_length hf
  have sa := size (num a)
  have sb := size (num b)
  have sf := size (field * 8 + 2)
  have hl : ((([a, b] : List α).map fun x => Spec.Wire.varint (num x)).flatten).length ≤ 20 := by
    simp; omega
  have vl := varint_length (n := ((([a, b] : List α).map fun x => Spec.Wire.varint (num x)).flatten).length) (by omega)
  have sl := size ((([a, b] : List α).map fun x => Spec.Wire.varint (num x)).flatten).length
  rw [Spec.Wire.packed, Spec.Wire.delimited, List.length_append, List.length_append]
  omega

/-- A `BlobHeader`. -/
def blobHeaderEx : BlobHeader := { type_ := some (str% "OSMData"), indexdata := some [1, 2], datasize := some 300 }

/-- `C50_blobHeader_roundtrip` and `C73_blobHeader_size`: it is written, so it has its required fields, and its encoding is short. -/
example : BlobHeader.parseFromBytes (Spec.Pbf.encodeBlobHeader blobHeaderEx) = some blobHeaderEx ∧ blobHeaderEx.computeSize = (Spec.Pbf.encodeBlobHeader blobHeaderEx).length := by
  obtain ⟨h, hl, -⟩ := (C73_blobHeader_written blobHeaderEx blobHeaderEx.write).1 (by decide +kernel)
  exact ⟨C50_blobHeader_roundtrip blobHeaderEx h hl, C73_blobHeader_size blobHeaderEx (by omega)⟩

/-- `C50_blobHeader_unknown`: a field 99 in it. -/
example : BlobHeader.parseFromBytes ([10, 7, 79, 83, 77, 68, 97, 116, 97] ++ [152, 6, 5] ++ [18, 2, 1, 2, 24, 172, 2]) = BlobHeader.parseFromBytes ([10, 7, 79, 83, 77, 68, 97, 116, 97] ++ [18, 2, 1, 2, 24, 172, 2]) :=
  C50_blobHeader_unknown _ _ _ [⟨10, .len [79, 83, 77, 68, 97, 116, 97]⟩] ⟨792, .varint 5⟩ (by decide +kernel) (by decide +kernel) (by decide)

/-- `C50_blobHeader_order`: two of its fields in the other order. -/
example : BlobHeader.parseFromBytes ([10, 7, 79, 83, 77, 68, 97, 116, 97] ++ [18, 2, 1, 2] ++ [24, 172, 2] ++ []) = BlobHeader.parseFromBytes ([10, 7, 79, 83, 77, 68, 97, 116, 97] ++ [24, 172, 2] ++ [18, 2, 1, 2] ++ []) :=
  C50_blobHeader_order _ _ _ _ [⟨10, .len [79, 83, 77, 68, 97, 116, 97]⟩] ⟨18, .len [1, 2]⟩ ⟨24, .varint 300⟩ (by decide +kernel) (by decide +kernel) (by decide +kernel) (by decide)

/-- A `Blob`. -/
def blobEx : Blob := { rawSize := some 5, zlibData := some [120, 156, 1] }

/-- `C50_blob_roundtrip` and `C73_blob_size`: it is written, so it has its required fields, and its encoding is short. -/
example : Blob.parseFromBytes (Spec.Pbf.encodeBlob blobEx) = some blobEx ∧ blobEx.computeSize = (Spec.Pbf.encodeBlob blobEx).length := by
  obtain ⟨h, hl, -⟩ := (C73_blob_written blobEx blobEx.write).1 (by decide +kernel)
  exact ⟨C50_blob_roundtrip blobEx h hl, C73_blob_size blobEx (by omega)⟩

/-- `C50_blob_unknown`: a field 99 in it. -/
example : Blob.parseFromBytes ([16, 5] ++ [152, 6, 5] ++ [26, 3, 120, 156, 1, 10, 1, 7]) = Blob.parseFromBytes ([16, 5] ++ [26, 3, 120, 156, 1, 10, 1, 7]) :=
  C50_blob_unknown _ _ _ [⟨16, .varint 5⟩] ⟨792, .varint 5⟩ (by decide +kernel) (by decide +kernel) (by decide)

/-- `C50_blob_order`: two of its fields in the other order. -/
example : Blob.parseFromBytes ([16, 5] ++ [26, 3, 120, 156, 1] ++ [10, 1, 7] ++ []) = Blob.parseFromBytes ([16, 5] ++ [10, 1, 7] ++ [26, 3, 120, 156, 1] ++ []) :=
  C50_blob_order _ _ _ _ [⟨16, .varint 5⟩] ⟨26, .len [120, 156, 1]⟩ ⟨10, .len [7]⟩ (by decide +kernel) (by decide +kernel) (by decide +kernel) (by decide)

/-- A `HeaderBBox`. -/
def headerBBoxEx : HeaderBBox := { left := some (-5), right := some 7, top := some 9000000000, bottom := some 0 }

/-- `C50_headerBBox_roundtrip` and `C73_headerBBox_size`: it is written, so it has its required fields, and its encoding is short. -/
example : HeaderBBox.parseFromBytes (Spec.Pbf.encodeHeaderBBox headerBBoxEx) = some headerBBoxEx ∧ headerBBoxEx.computeSize = (Spec.Pbf.encodeHeaderBBox headerBBoxEx).length := by
  obtain ⟨h, hl, -⟩ := (C73_headerBBox_written headerBBoxEx headerBBoxEx.write).1 (by decide +kernel)
  exact ⟨C50_headerBBox_roundtrip headerBBoxEx h hl, C73_headerBBox_size headerBBoxEx (by omega)⟩

/-- `C50_headerBBox_unknown`: a field 99 in it. -/
example : HeaderBBox.parseFromBytes ([8, 9, 16, 14] ++ [152, 6, 5] ++ [24, 128, 232, 136, 135, 67, 32, 0]) = HeaderBBox.parseFromBytes ([8, 9, 16, 14] ++ [24, 128, 232, 136, 135, 67, 32, 0]) :=
  C50_headerBBox_unknown _ _ _ [⟨8, .varint 9⟩, ⟨16, .varint 14⟩] ⟨792, .varint 5⟩ (by decide +kernel) (by decide +kernel) (by decide)

/-- `C50_headerBBox_order`: two of its fields in the other order. -/
example : HeaderBBox.parseFromBytes ([8, 9, 16, 14] ++ [24, 128, 232, 136, 135, 67] ++ [32, 0] ++ []) = HeaderBBox.parseFromBytes ([8, 9, 16, 14] ++ [32, 0] ++ [24, 128, 232, 136, 135, 67] ++ []) :=
  C50_headerBBox_order _ _ _ _ [⟨8, .varint 9⟩, ⟨16, .varint 14⟩] ⟨24, .varint 18000000000⟩ ⟨32, .varint 0⟩ (by decide +kernel) (by decide +kernel) (by decide +kernel) (by decide)

/-- A `HeaderBlock`. -/
def headerBlockEx : HeaderBlock := { requiredFeatures := [str% "OsmSchema-V0.6", str% "DenseNodes"], writingprogram := some (str% "x"), osmosisReplicationTimestamp := some 1600000000 }

/-- `C50_headerBlock_roundtrip` and `C73_headerBlock_size`: it is written, so it has its required fields, and its encoding is short. -/
example : HeaderBlock.parseFromBytes (Spec.Pbf.encodeHeaderBlock headerBlockEx) = some headerBlockEx ∧ headerBlockEx.computeSize = (Spec.Pbf.encodeHeaderBlock headerBlockEx).length := by
  obtain ⟨h, hl, -⟩ := (C73_headerBlock_written headerBlockEx headerBlockEx.write).1 (by decide +kernel)
  exact ⟨C50_headerBlock_roundtrip headerBlockEx h hl, C73_headerBlock_size headerBlockEx (by omega)⟩

/-- `C50_headerBlock_unknown`: a field 99 in it. -/
example : HeaderBlock.parseFromBytes ([34, 10, 68, 101, 110, 115, 101, 78, 111, 100, 101, 115] ++ [152, 6, 5] ++ [130, 1, 1, 120, 128, 2, 128, 160, 248, 250, 5]) = HeaderBlock.parseFromBytes ([34, 10, 68, 101, 110, 115, 101, 78, 111, 100, 101, 115] ++ [130, 1, 1, 120, 128, 2, 128, 160, 248, 250, 5]) :=
  C50_headerBlock_unknown _ _ _ [⟨34, .len [68, 101, 110, 115, 101, 78, 111, 100, 101, 115]⟩] ⟨792, .varint 5⟩ (by decide +kernel) (by decide +kernel) (by decide)

/-- `C50_headerBlock_order`: two of its fields in the other order. -/
example : HeaderBlock.parseFromBytes ([34, 10, 68, 101, 110, 115, 101, 78, 111, 100, 101, 115] ++ [130, 1, 1, 120] ++ [128, 2, 128, 160, 248, 250, 5] ++ []) = HeaderBlock.parseFromBytes ([34, 10, 68, 101, 110, 115, 101, 78, 111, 100, 101, 115] ++ [128, 2, 128, 160, 248, 250, 5] ++ [130, 1, 1, 120] ++ []) :=
  C50_headerBlock_order _ _ _ _ [⟨34, .len [68, 101, 110, 115, 101, 78, 111, 100, 101, 115]⟩] ⟨130, .len [120]⟩ ⟨256, .varint 1600000000⟩ (by decide +kernel) (by decide +kernel) (by decide +kernel) (by decide)

/-- A `StringTable`. -/
def stringTableEx : StringTable := { s := [[], [97], [98, 99]] }

/-- `C50_stringTable_roundtrip` and `C73_stringTable_size`: it is written, so it has its required fields, and its encoding is short. -/
example : StringTable.parseFromBytes (Spec.Pbf.encodeStringTable stringTableEx) = some stringTableEx ∧ stringTableEx.computeSize = (Spec.Pbf.encodeStringTable stringTableEx).length := by
  obtain ⟨h, hl, -⟩ := (C73_stringTable_written stringTableEx stringTableEx.write).1 (by decide +kernel)
  exact ⟨C50_stringTable_roundtrip stringTableEx h hl, C73_stringTable_size stringTableEx (by omega)⟩

/-- `C50_stringTable_unknown`: a field 99 in it. -/
example : StringTable.parseFromBytes ([10, 0] ++ [152, 6, 5] ++ [10, 0, 10, 1, 97]) = StringTable.parseFromBytes ([10, 0] ++ [10, 0, 10, 1, 97]) :=
  C50_stringTable_unknown _ _ _ [⟨10, .len []⟩] ⟨792, .varint 5⟩ (by decide +kernel) (by decide +kernel) (by decide)

/-- `C50_stringTable_order`: two of its fields in the other order. -/
example : StringTable.parseFromBytes ([10, 0] ++ [10, 0] ++ [152, 6, 5] ++ []) = StringTable.parseFromBytes ([10, 0] ++ [152, 6, 5] ++ [10, 0] ++ []) :=
  C50_stringTable_order _ _ _ _ [⟨10, .len []⟩] ⟨10, .len []⟩ ⟨792, .varint 5⟩ (by decide +kernel) (by decide +kernel) (by decide +kernel) (by decide)

/-- A `Info`. -/
def infoEx : Info := { version := some 3, timestamp := some 1000, changeset := some 77, uid := some 9, userSid := some 3, visible := some true }

/-- `C50_info_roundtrip` and `C73_info_size`: it is written, so it has its required fields, and its encoding is short. -/
example : Info.parseFromBytes (Spec.Pbf.encodeInfo infoEx) = some infoEx ∧ infoEx.computeSize = (Spec.Pbf.encodeInfo infoEx).length := by
  obtain ⟨h, hl, -⟩ := (C73_info_written infoEx infoEx.write).1 (by decide +kernel)
  exact ⟨C50_info_roundtrip infoEx h hl, C73_info_size infoEx (by omega)⟩

/-- `C50_info_unknown`: a field 99 in it. -/
example : Info.parseFromBytes ([8, 3, 16, 232, 7] ++ [152, 6, 5] ++ [24, 77, 48, 1]) = Info.parseFromBytes ([8, 3, 16, 232, 7] ++ [24, 77, 48, 1]) :=
  C50_info_unknown _ _ _ [⟨8, .varint 3⟩, ⟨16, .varint 1000⟩] ⟨792, .varint 5⟩ (by decide +kernel) (by decide +kernel) (by decide)

/-- `C50_info_order`: two of its fields in the other order. -/
example : Info.parseFromBytes ([8, 3, 16, 232, 7] ++ [24, 77] ++ [48, 1] ++ []) = Info.parseFromBytes ([8, 3, 16, 232, 7] ++ [48, 1] ++ [24, 77] ++ []) :=
  C50_info_order _ _ _ _ [⟨8, .varint 3⟩, ⟨16, .varint 1000⟩] ⟨24, .varint 77⟩ ⟨48, .varint 1⟩ (by decide +kernel) (by decide +kernel) (by decide +kernel) (by decide)

/-- A `Node`. -/
def nodeEx : Node := { id := some (-5), keys := [1, 300], vals := [2, 4], info := some { version := some 3 }, lat := some 10, lon := some (-10) }

/-- `C50_node_roundtrip` and `C73_node_size`: it is written, so it has its required fields, and its encoding is short. -/
example : Node.parseFromBytes (Spec.Pbf.encodeNode nodeEx) = some nodeEx ∧ nodeEx.computeSize = (Spec.Pbf.encodeNode nodeEx).length := by
  obtain ⟨h, hl, -⟩ := (C73_node_written nodeEx nodeEx.write).1 (by decide +kernel)
  exact ⟨C50_node_roundtrip nodeEx h hl, C73_node_size nodeEx (by omega)⟩

/-- `C50_node_unknown`: a field 99 in it. -/
example : Node.parseFromBytes ([8, 9, 18, 1, 1, 26, 1, 2] ++ [152, 6, 5] ++ [64, 20, 72, 19]) = Node.parseFromBytes ([8, 9, 18, 1, 1, 26, 1, 2] ++ [64, 20, 72, 19]) :=
  C50_node_unknown _ _ _ [⟨8, .varint 9⟩, ⟨18, .len [1]⟩, ⟨26, .len [2]⟩] ⟨792, .varint 5⟩ (by decide +kernel) (by decide +kernel) (by decide)

/-- `C50_node_order`: two of its fields in the other order. -/
example : Node.parseFromBytes ([8, 9, 18, 1, 1, 26, 1, 2] ++ [64, 20] ++ [72, 19] ++ []) = Node.parseFromBytes ([8, 9, 18, 1, 1, 26, 1, 2] ++ [72, 19] ++ [64, 20] ++ []) :=
  C50_node_order _ _ _ _ [⟨8, .varint 9⟩, ⟨18, .len [1]⟩, ⟨26, .len [2]⟩] ⟨64, .varint 20⟩ ⟨72, .varint 19⟩ (by decide +kernel) (by decide +kernel) (by decide +kernel) (by decide)

/-- `C50_node_keys_unpacked`: two numbers in two fields, after other fields. -/
example : Node.parseFromBytes ([8, 9, 18, 1, 1, 26, 1, 2] ++ Spec.Wire.rep [1, 300] (fun v => Spec.Wire.number 2 (Spec.Wire.uint32 v)) ++ [72, 19]) =
    Node.parseFromBytes ([8, 9, 18, 1, 1, 26, 1, 2] ++ Spec.Wire.packed 2 Spec.Wire.uint32 [1, 300] ++ [72, 19]) :=
  C50_node_keys_unpacked _ _ _ [⟨8, .varint 9⟩, ⟨18, .len [1]⟩, ⟨26, .len [2]⟩] (by decide +kernel) (packed_two (by decide) (by decide) (by decide))

/-- `C50_node_vals_unpacked`: two numbers in two fields, after other fields. -/
example : Node.parseFromBytes ([8, 9, 18, 1, 1, 26, 1, 2] ++ Spec.Wire.rep [1, 300] (fun v => Spec.Wire.number 3 (Spec.Wire.uint32 v)) ++ [72, 19]) =
    Node.parseFromBytes ([8, 9, 18, 1, 1, 26, 1, 2] ++ Spec.Wire.packed 3 Spec.Wire.uint32 [1, 300] ++ [72, 19]) :=
  C50_node_vals_unpacked _ _ _ [⟨8, .varint 9⟩, ⟨18, .len [1]⟩, ⟨26, .len [2]⟩] (by decide +kernel) (packed_two (by decide) (by decide) (by decide))

/-- A `DenseInfo`. -/
def denseInfoEx : DenseInfo := { version := [1, 2], timestamp := [1000, -3], changeset := [7, 0], uid := [9, -9], userSid := [3, 0], visible := [true, false] }

/-- `C50_denseInfo_roundtrip` and `C73_denseInfo_size`: it is written, so it has its required fields, and its encoding is short. -/
example : DenseInfo.parseFromBytes (Spec.Pbf.encodeDenseInfo denseInfoEx) = some denseInfoEx ∧ denseInfoEx.computeSize = (Spec.Pbf.encodeDenseInfo denseInfoEx).length := by
  obtain ⟨h, hl, -⟩ := (C73_denseInfo_written denseInfoEx denseInfoEx.write).1 (by decide +kernel)
  exact ⟨C50_denseInfo_roundtrip denseInfoEx h hl, C73_denseInfo_size denseInfoEx (by omega)⟩

/-- `C50_denseInfo_unknown`: a field 99 in it. -/
example : DenseInfo.parseFromBytes ([10, 2, 1, 2] ++ [152, 6, 5] ++ [34, 2, 18, 17, 50, 2, 1, 0]) = DenseInfo.parseFromBytes ([10, 2, 1, 2] ++ [34, 2, 18, 17, 50, 2, 1, 0]) :=
  C50_denseInfo_unknown _ _ _ [⟨10, .len [1, 2]⟩] ⟨792, .varint 5⟩ (by decide +kernel) (by decide +kernel) (by decide)

/-- `C50_denseInfo_order`: two of its fields in the other order. -/
example : DenseInfo.parseFromBytes ([10, 2, 1, 2] ++ [34, 2, 18, 17] ++ [50, 2, 1, 0] ++ []) = DenseInfo.parseFromBytes ([10, 2, 1, 2] ++ [50, 2, 1, 0] ++ [34, 2, 18, 17] ++ []) :=
  C50_denseInfo_order _ _ _ _ [⟨10, .len [1, 2]⟩] ⟨34, .len [18, 17]⟩ ⟨50, .len [1, 0]⟩ (by decide +kernel) (by decide +kernel) (by decide +kernel) (by decide)

/-- `C50_denseInfo_version_unpacked`: two numbers in two fields, after other fields. -/
example : DenseInfo.parseFromBytes ([10, 2, 1, 2] ++ Spec.Wire.rep [3, -1] (fun v => Spec.Wire.number 1 (Spec.Wire.int32 v)) ++ [50, 2, 1, 0]) =
    DenseInfo.parseFromBytes ([10, 2, 1, 2] ++ Spec.Wire.packed 1 Spec.Wire.int32 [3, -1] ++ [50, 2, 1, 0]) :=
  C50_denseInfo_version_unpacked _ _ _ [⟨10, .len [1, 2]⟩] (by decide +kernel) (packed_two (by decide) (by decide) (by decide))

/-- `C50_denseInfo_timestamp_unpacked`: two numbers in two fields, after other fields. -/
example : DenseInfo.parseFromBytes ([10, 2, 1, 2] ++ Spec.Wire.rep [1000, -3] (fun v => Spec.Wire.number 2 (Spec.Wire.sint64 v)) ++ [50, 2, 1, 0]) =
    DenseInfo.parseFromBytes ([10, 2, 1, 2] ++ Spec.Wire.packed 2 Spec.Wire.sint64 [1000, -3] ++ [50, 2, 1, 0]) :=
  C50_denseInfo_timestamp_unpacked _ _ _ [⟨10, .len [1, 2]⟩] (by decide +kernel) (packed_two (by decide) (by decide) (by decide))

/-- `C50_denseInfo_changeset_unpacked`: two numbers in two fields, after other fields. -/
example : DenseInfo.parseFromBytes ([10, 2, 1, 2] ++ Spec.Wire.rep [7, -7] (fun v => Spec.Wire.number 3 (Spec.Wire.sint64 v)) ++ [50, 2, 1, 0]) =
    DenseInfo.parseFromBytes ([10, 2, 1, 2] ++ Spec.Wire.packed 3 Spec.Wire.sint64 [7, -7] ++ [50, 2, 1, 0]) :=
  C50_denseInfo_changeset_unpacked _ _ _ [⟨10, .len [1, 2]⟩] (by decide +kernel) (packed_two (by decide) (by decide) (by decide))

/-- `C50_denseInfo_uid_unpacked`: two numbers in two fields, after other fields. -/
example : DenseInfo.parseFromBytes ([10, 2, 1, 2] ++ Spec.Wire.rep [9, -9] (fun v => Spec.Wire.number 4 (Spec.Wire.sint32 v)) ++ [50, 2, 1, 0]) =
    DenseInfo.parseFromBytes ([10, 2, 1, 2] ++ Spec.Wire.packed 4 Spec.Wire.sint32 [9, -9] ++ [50, 2, 1, 0]) :=
  C50_denseInfo_uid_unpacked _ _ _ [⟨10, .len [1, 2]⟩] (by decide +kernel) (packed_two (by decide) (by decide) (by decide))

/-- `C50_denseInfo_userSid_unpacked`: two numbers in two fields, after other fields. -/
example : DenseInfo.parseFromBytes ([10, 2, 1, 2] ++ Spec.Wire.rep [3, -3] (fun v => Spec.Wire.number 5 (Spec.Wire.sint32 v)) ++ [50, 2, 1, 0]) =
    DenseInfo.parseFromBytes ([10, 2, 1, 2] ++ Spec.Wire.packed 5 Spec.Wire.sint32 [3, -3] ++ [50, 2, 1, 0]) :=
  C50_denseInfo_userSid_unpacked _ _ _ [⟨10, .len [1, 2]⟩] (by decide +kernel) (packed_two (by decide) (by decide) (by decide))

/-- `C50_denseInfo_visible_unpacked`: two numbers in two fields, after other fields. -/
example : DenseInfo.parseFromBytes ([10, 2, 1, 2] ++ Spec.Wire.rep [true, false] (fun v => Spec.Wire.number 6 (Spec.Wire.bool v)) ++ [50, 2, 1, 0]) =
    DenseInfo.parseFromBytes ([10, 2, 1, 2] ++ Spec.Wire.packed 6 Spec.Wire.bool [true, false] ++ [50, 2, 1, 0]) :=
  C50_denseInfo_visible_unpacked _ _ _ [⟨10, .len [1, 2]⟩] (by decide +kernel) (packed_two (by decide) (by decide) (by decide))

/-- A `DenseNodes`. -/
def denseNodesEx : DenseNodes := { id := [-5, 1], denseinfo := some { version := [1, 1] }, lat := [10, 3], lon := [-10, 300], keysVals := [1, 2, 0, 0] }

/-- `C50_denseNodes_roundtrip` and `C73_denseNodes_size`: it is written, so it has its required fields, and its encoding is short. -/
example : DenseNodes.parseFromBytes (Spec.Pbf.encodeDenseNodes denseNodesEx) = some denseNodesEx ∧ denseNodesEx.computeSize = (Spec.Pbf.encodeDenseNodes denseNodesEx).length := by
  obtain ⟨h, hl, -⟩ := (C73_denseNodes_written denseNodesEx denseNodesEx.write).1 (by decide +kernel)
  exact ⟨C50_denseNodes_roundtrip denseNodesEx h hl, C73_denseNodes_size denseNodesEx (by omega)⟩

/-- `C50_denseNodes_unknown`: a field 99 in it. -/
example : DenseNodes.parseFromBytes ([10, 2, 9, 2, 66, 2, 20, 6] ++ [152, 6, 5] ++ [74, 2, 19, 6, 82, 4, 1, 2, 0, 0]) = DenseNodes.parseFromBytes ([10, 2, 9, 2, 66, 2, 20, 6] ++ [74, 2, 19, 6, 82, 4, 1, 2, 0, 0]) :=
  C50_denseNodes_unknown _ _ _ [⟨10, .len [9, 2]⟩, ⟨66, .len [20, 6]⟩] ⟨792, .varint 5⟩ (by decide +kernel) (by decide +kernel) (by decide)

/-- `C50_denseNodes_order`: two of its fields in the other order. -/
example : DenseNodes.parseFromBytes ([10, 2, 9, 2, 66, 2, 20, 6] ++ [74, 2, 19, 6] ++ [82, 4, 1, 2, 0, 0] ++ []) = DenseNodes.parseFromBytes ([10, 2, 9, 2, 66, 2, 20, 6] ++ [82, 4, 1, 2, 0, 0] ++ [74, 2, 19, 6] ++ []) :=
  C50_denseNodes_order _ _ _ _ [⟨10, .len [9, 2]⟩, ⟨66, .len [20, 6]⟩] ⟨74, .len [19, 6]⟩ ⟨82, .len [1, 2, 0, 0]⟩ (by decide +kernel) (by decide +kernel) (by decide +kernel) (by decide)

/-- `C50_denseNodes_id_unpacked`: two numbers in two fields, after other fields. -/
example : DenseNodes.parseFromBytes ([10, 2, 9, 2, 66, 2, 20, 6] ++ Spec.Wire.rep [5, -300] (fun v => Spec.Wire.number 1 (Spec.Wire.sint64 v)) ++ [82, 4, 1, 2, 0, 0]) =
    DenseNodes.parseFromBytes ([10, 2, 9, 2, 66, 2, 20, 6] ++ Spec.Wire.packed 1 Spec.Wire.sint64 [5, -300] ++ [82, 4, 1, 2, 0, 0]) :=
  C50_denseNodes_id_unpacked _ _ _ [⟨10, .len [9, 2]⟩, ⟨66, .len [20, 6]⟩] (by decide +kernel) (packed_two (by decide) (by decide) (by decide))

/-- `C50_denseNodes_lat_unpacked`: two numbers in two fields, after other fields. -/
example : DenseNodes.parseFromBytes ([10, 2, 9, 2, 66, 2, 20, 6] ++ Spec.Wire.rep [5, -300] (fun v => Spec.Wire.number 8 (Spec.Wire.sint64 v)) ++ [82, 4, 1, 2, 0, 0]) =
    DenseNodes.parseFromBytes ([10, 2, 9, 2, 66, 2, 20, 6] ++ Spec.Wire.packed 8 Spec.Wire.sint64 [5, -300] ++ [82, 4, 1, 2, 0, 0]) :=
  C50_denseNodes_lat_unpacked _ _ _ [⟨10, .len [9, 2]⟩, ⟨66, .len [20, 6]⟩] (by decide +kernel) (packed_two (by decide) (by decide) (by decide))

/-- `C50_denseNodes_lon_unpacked`: two numbers in two fields, after other fields. -/
example : DenseNodes.parseFromBytes ([10, 2, 9, 2, 66, 2, 20, 6] ++ Spec.Wire.rep [5, -300] (fun v => Spec.Wire.number 9 (Spec.Wire.sint64 v)) ++ [82, 4, 1, 2, 0, 0]) =
    DenseNodes.parseFromBytes ([10, 2, 9, 2, 66, 2, 20, 6] ++ Spec.Wire.packed 9 Spec.Wire.sint64 [5, -300] ++ [82, 4, 1, 2, 0, 0]) :=
  C50_denseNodes_lon_unpacked _ _ _ [⟨10, .len [9, 2]⟩, ⟨66, .len [20, 6]⟩] (by decide +kernel) (packed_two (by decide) (by decide) (by decide))

/-- `C50_denseNodes_keysVals_unpacked`: two numbers in two fields, after other fields. -/
example : DenseNodes.parseFromBytes ([10, 2, 9, 2, 66, 2, 20, 6] ++ Spec.Wire.rep [3, 4] (fun v => Spec.Wire.number 10 (Spec.Wire.int32 v)) ++ [82, 4, 1, 2, 0, 0]) =
    DenseNodes.parseFromBytes ([10, 2, 9, 2, 66, 2, 20, 6] ++ Spec.Wire.packed 10 Spec.Wire.int32 [3, 4] ++ [82, 4, 1, 2, 0, 0]) :=
  C50_denseNodes_keysVals_unpacked _ _ _ [⟨10, .len [9, 2]⟩, ⟨66, .len [20, 6]⟩] (by decide +kernel) (packed_two (by decide) (by decide) (by decide))

/-- A `Way`. -/
def wayEx : Way := { id := some 7, keys := [1], vals := [2], info := some { version := some 3, visible := some true }, refs := [5, -2, 300] }

/-- `C50_way_roundtrip` and `C73_way_size`: it is written, so it has its required fields, and its encoding is short. -/
example : Way.parseFromBytes (Spec.Pbf.encodeWay wayEx) = some wayEx ∧ wayEx.computeSize = (Spec.Pbf.encodeWay wayEx).length := by
  obtain ⟨h, hl, -⟩ := (C73_way_written wayEx wayEx.write).1 (by decide +kernel)
  exact ⟨C50_way_roundtrip wayEx h hl, C73_way_size wayEx (by omega)⟩

/-- `C50_way_unknown`: a field 99 in it. -/
example : Way.parseFromBytes ([8, 7, 18, 1, 1] ++ [152, 6, 5] ++ [34, 13, 8, 3, 16, 232, 7, 24, 77, 32, 9, 40, 3, 48, 1, 66, 2, 10, 3]) = Way.parseFromBytes ([8, 7, 18, 1, 1] ++ [34, 13, 8, 3, 16, 232, 7, 24, 77, 32, 9, 40, 3, 48, 1, 66, 2, 10, 3]) :=
  C50_way_unknown _ _ _ [⟨8, .varint 7⟩, ⟨18, .len [1]⟩] ⟨792, .varint 5⟩ (by decide +kernel) (by decide +kernel) (by decide)

/-- `C50_way_order`: two of its fields in the other order. -/
example : Way.parseFromBytes ([8, 7, 18, 1, 1] ++ [34, 13, 8, 3, 16, 232, 7, 24, 77, 32, 9, 40, 3, 48, 1] ++ [66, 2, 10, 3] ++ []) = Way.parseFromBytes ([8, 7, 18, 1, 1] ++ [66, 2, 10, 3] ++ [34, 13, 8, 3, 16, 232, 7, 24, 77, 32, 9, 40, 3, 48, 1] ++ []) :=
  C50_way_order _ _ _ _ [⟨8, .varint 7⟩, ⟨18, .len [1]⟩] ⟨34, .len [8, 3, 16, 232, 7, 24, 77, 32, 9, 40, 3, 48, 1]⟩ ⟨66, .len [10, 3]⟩ (by decide +kernel) (by decide +kernel) (by decide +kernel) (by decide)

/-- `C50_way_keys_unpacked`: two numbers in two fields, after other fields. -/
example : Way.parseFromBytes ([8, 7, 18, 1, 1] ++ Spec.Wire.rep [1, 300] (fun v => Spec.Wire.number 2 (Spec.Wire.uint32 v)) ++ [66, 2, 10, 3]) =
    Way.parseFromBytes ([8, 7, 18, 1, 1] ++ Spec.Wire.packed 2 Spec.Wire.uint32 [1, 300] ++ [66, 2, 10, 3]) :=
  C50_way_keys_unpacked _ _ _ [⟨8, .varint 7⟩, ⟨18, .len [1]⟩] (by decide +kernel) (packed_two (by decide) (by decide) (by decide))

/-- `C50_way_vals_unpacked`: two numbers in two fields, after other fields. -/
example : Way.parseFromBytes ([8, 7, 18, 1, 1] ++ Spec.Wire.rep [1, 300] (fun v => Spec.Wire.number 3 (Spec.Wire.uint32 v)) ++ [66, 2, 10, 3]) =
    Way.parseFromBytes ([8, 7, 18, 1, 1] ++ Spec.Wire.packed 3 Spec.Wire.uint32 [1, 300] ++ [66, 2, 10, 3]) :=
  C50_way_vals_unpacked _ _ _ [⟨8, .varint 7⟩, ⟨18, .len [1]⟩] (by decide +kernel) (packed_two (by decide) (by decide) (by decide))

/-- `C50_way_refs_unpacked`: two numbers in two fields, after other fields. -/
example : Way.parseFromBytes ([8, 7, 18, 1, 1] ++ Spec.Wire.rep [5, -300] (fun v => Spec.Wire.number 8 (Spec.Wire.sint64 v)) ++ [66, 2, 10, 3]) =
    Way.parseFromBytes ([8, 7, 18, 1, 1] ++ Spec.Wire.packed 8 Spec.Wire.sint64 [5, -300] ++ [66, 2, 10, 3]) :=
  C50_way_refs_unpacked _ _ _ [⟨8, .varint 7⟩, ⟨18, .len [1]⟩] (by decide +kernel) (packed_two (by decide) (by decide) (by decide))

/-- A `Relation`. -/
def relationEx : Relation := { id := some 8, keys := [1], vals := [2], info := some { version := some 3 }, rolesSid := [0, 4], memids := [5, -2], types := [0, 2] }

/-- `C50_relation_roundtrip` and `C73_relation_size`: it is written, so it has its required fields, and its encoding is short. -/
example : Relation.parseFromBytes (Spec.Pbf.encodeRelation relationEx) = some relationEx ∧ relationEx.computeSize = (Spec.Pbf.encodeRelation relationEx).length := by
  obtain ⟨h, hl, -⟩ := (C73_relation_written relationEx relationEx.write).1 (by decide +kernel)
  exact ⟨C50_relation_roundtrip relationEx h hl, C73_relation_size relationEx (by omega)⟩

/-- `C50_relation_unknown`: a field 99 in it. -/
example : Relation.parseFromBytes ([8, 8, 66, 2, 0, 4] ++ [152, 6, 5] ++ [74, 2, 10, 3, 82, 2, 0, 2]) = Relation.parseFromBytes ([8, 8, 66, 2, 0, 4] ++ [74, 2, 10, 3, 82, 2, 0, 2]) :=
  C50_relation_unknown _ _ _ [⟨8, .varint 8⟩, ⟨66, .len [0, 4]⟩] ⟨792, .varint 5⟩ (by decide +kernel) (by decide +kernel) (by decide)

/-- `C50_relation_order`: two of its fields in the other order. -/
example : Relation.parseFromBytes ([8, 8, 66, 2, 0, 4] ++ [74, 2, 10, 3] ++ [82, 2, 0, 2] ++ []) = Relation.parseFromBytes ([8, 8, 66, 2, 0, 4] ++ [82, 2, 0, 2] ++ [74, 2, 10, 3] ++ []) :=
  C50_relation_order _ _ _ _ [⟨8, .varint 8⟩, ⟨66, .len [0, 4]⟩] ⟨74, .len [10, 3]⟩ ⟨82, .len [0, 2]⟩ (by decide +kernel) (by decide +kernel) (by decide +kernel) (by decide)

/-- `C50_relation_keys_unpacked`: two numbers in two fields, after other fields. -/
example : Relation.parseFromBytes ([8, 8, 66, 2, 0, 4] ++ Spec.Wire.rep [1, 300] (fun v => Spec.Wire.number 2 (Spec.Wire.uint32 v)) ++ [82, 2, 0, 2]) =
    Relation.parseFromBytes ([8, 8, 66, 2, 0, 4] ++ Spec.Wire.packed 2 Spec.Wire.uint32 [1, 300] ++ [82, 2, 0, 2]) :=
  C50_relation_keys_unpacked _ _ _ [⟨8, .varint 8⟩, ⟨66, .len [0, 4]⟩] (by decide +kernel) (packed_two (by decide) (by decide) (by decide))

/-- `C50_relation_vals_unpacked`: two numbers in two fields, after other fields. -/
example : Relation.parseFromBytes ([8, 8, 66, 2, 0, 4] ++ Spec.Wire.rep [1, 300] (fun v => Spec.Wire.number 3 (Spec.Wire.uint32 v)) ++ [82, 2, 0, 2]) =
    Relation.parseFromBytes ([8, 8, 66, 2, 0, 4] ++ Spec.Wire.packed 3 Spec.Wire.uint32 [1, 300] ++ [82, 2, 0, 2]) :=
  C50_relation_vals_unpacked _ _ _ [⟨8, .varint 8⟩, ⟨66, .len [0, 4]⟩] (by decide +kernel) (packed_two (by decide) (by decide) (by decide))

/-- `C50_relation_rolesSid_unpacked`: two numbers in two fields, after other fields. -/
example : Relation.parseFromBytes ([8, 8, 66, 2, 0, 4] ++ Spec.Wire.rep [3, 4] (fun v => Spec.Wire.number 8 (Spec.Wire.int32 v)) ++ [82, 2, 0, 2]) =
    Relation.parseFromBytes ([8, 8, 66, 2, 0, 4] ++ Spec.Wire.packed 8 Spec.Wire.int32 [3, 4] ++ [82, 2, 0, 2]) :=
  C50_relation_rolesSid_unpacked _ _ _ [⟨8, .varint 8⟩, ⟨66, .len [0, 4]⟩] (by decide +kernel) (packed_two (by decide) (by decide) (by decide))

/-- `C50_relation_memids_unpacked`: two numbers in two fields, after other fields. -/
example : Relation.parseFromBytes ([8, 8, 66, 2, 0, 4] ++ Spec.Wire.rep [5, -300] (fun v => Spec.Wire.number 9 (Spec.Wire.sint64 v)) ++ [82, 2, 0, 2]) =
    Relation.parseFromBytes ([8, 8, 66, 2, 0, 4] ++ Spec.Wire.packed 9 Spec.Wire.sint64 [5, -300] ++ [82, 2, 0, 2]) :=
  C50_relation_memids_unpacked _ _ _ [⟨8, .varint 8⟩, ⟨66, .len [0, 4]⟩] (by decide +kernel) (packed_two (by decide) (by decide) (by decide))

/-- `C50_relation_types_unpacked`: two numbers in two fields, after other fields. -/
example : Relation.parseFromBytes ([8, 8, 66, 2, 0, 4] ++ Spec.Wire.rep [0, 2] (fun v => Spec.Wire.number 10 (Spec.Wire.enum v)) ++ [82, 2, 0, 2]) =
    Relation.parseFromBytes ([8, 8, 66, 2, 0, 4] ++ Spec.Wire.packed 10 Spec.Wire.enum [0, 2] ++ [82, 2, 0, 2]) :=
  C50_relation_types_unpacked _ _ _ [⟨8, .varint 8⟩, ⟨66, .len [0, 4]⟩] (by decide +kernel) (packed_two (by decide) (by decide) (by decide))

/-- A `ChangeSet`. -/
def changeSetEx : ChangeSet := { id := some (-1) }

/-- `C50_changeSet_roundtrip` and `C73_changeSet_size`: it is written, so it has its required fields, and its encoding is short. -/
example : ChangeSet.parseFromBytes (Spec.Pbf.encodeChangeSet changeSetEx) = some changeSetEx ∧ changeSetEx.computeSize = (Spec.Pbf.encodeChangeSet changeSetEx).length := by
  obtain ⟨h, hl, -⟩ := (C73_changeSet_written changeSetEx changeSetEx.write).1 (by decide +kernel)
  exact ⟨C50_changeSet_roundtrip changeSetEx h hl, C73_changeSet_size changeSetEx (by omega)⟩

/-- `C50_changeSet_unknown`: a field 99 in it. -/
example : ChangeSet.parseFromBytes ([8, 5] ++ [152, 6, 5] ++ [8, 5, 8, 6]) = ChangeSet.parseFromBytes ([8, 5] ++ [8, 5, 8, 6]) :=
  C50_changeSet_unknown _ _ _ [⟨8, .varint 5⟩] ⟨792, .varint 5⟩ (by decide +kernel) (by decide +kernel) (by decide)

/-- `C50_changeSet_order`: two of its fields in the other order. -/
example : ChangeSet.parseFromBytes ([8, 5] ++ [8, 5] ++ [152, 6, 5] ++ []) = ChangeSet.parseFromBytes ([8, 5] ++ [152, 6, 5] ++ [8, 5] ++ []) :=
  C50_changeSet_order _ _ _ _ [⟨8, .varint 5⟩] ⟨8, .varint 5⟩ ⟨792, .varint 5⟩ (by decide +kernel) (by decide +kernel) (by decide +kernel) (by decide)

/-- A `PrimitiveGroup`. -/
def primitiveGroupEx : PrimitiveGroup := { ways := [{ id := some 7, refs := [5, -2] }, { id := some 8 }], relations := [{ id := some 9, types := [1], memids := [7], rolesSid := [0] }] }

/-- `C50_primitiveGroup_roundtrip` and `C73_primitiveGroup_size`: it is written, so it has its required fields, and its encoding is short. -/
example : PrimitiveGroup.parseFromBytes (Spec.Pbf.encodePrimitiveGroup primitiveGroupEx) = some primitiveGroupEx ∧ primitiveGroupEx.computeSize = (Spec.Pbf.encodePrimitiveGroup primitiveGroupEx).length := by
  obtain ⟨h, hl, -⟩ := (C73_primitiveGroup_written primitiveGroupEx primitiveGroupEx.write).1 (by decide +kernel)
  exact ⟨C50_primitiveGroup_roundtrip primitiveGroupEx h hl, C73_primitiveGroup_size primitiveGroupEx (by omega)⟩

/-- `C50_primitiveGroup_unknown`: a field 99 in it. -/
example : PrimitiveGroup.parseFromBytes ([26, 6, 8, 7, 66, 2, 10, 3] ++ [152, 6, 5] ++ [18, 3, 10, 1, 2, 34, 2, 8, 9]) = PrimitiveGroup.parseFromBytes ([26, 6, 8, 7, 66, 2, 10, 3] ++ [18, 3, 10, 1, 2, 34, 2, 8, 9]) :=
  C50_primitiveGroup_unknown _ _ _ [⟨26, .len [8, 7, 66, 2, 10, 3]⟩] ⟨792, .varint 5⟩ (by decide +kernel) (by decide +kernel) (by decide)

/-- `C50_primitiveGroup_order`: two of its fields in the other order. -/
example : PrimitiveGroup.parseFromBytes ([26, 6, 8, 7, 66, 2, 10, 3] ++ [18, 3, 10, 1, 2] ++ [34, 2, 8, 9] ++ []) = PrimitiveGroup.parseFromBytes ([26, 6, 8, 7, 66, 2, 10, 3] ++ [34, 2, 8, 9] ++ [18, 3, 10, 1, 2] ++ []) :=
  C50_primitiveGroup_order _ _ _ _ [⟨26, .len [8, 7, 66, 2, 10, 3]⟩] ⟨18, .len [10, 1, 2]⟩ ⟨34, .len [8, 9]⟩ (by decide +kernel) (by decide +kernel) (by decide +kernel) (by decide)

/-- A `PrimitiveBlock`. -/
def primitiveBlockEx : PrimitiveBlock := { stringtable := some { s := [[], [97]] }, primitivegroup := [{ ways := [{ id := some 7 }] }], granularity := some 1000, latOffset := some (-5) }

/-- `C50_primitiveBlock_roundtrip` and `C73_primitiveBlock_size`: it is written, so it has its required fields, and its encoding is short. -/
example : PrimitiveBlock.parseFromBytes (Spec.Pbf.encodePrimitiveBlock primitiveBlockEx) = some primitiveBlockEx ∧ primitiveBlockEx.computeSize = (Spec.Pbf.encodePrimitiveBlock primitiveBlockEx).length := by
  obtain ⟨h, hl, -⟩ := (C73_primitiveBlock_written primitiveBlockEx primitiveBlockEx.write).1 (by decide +kernel)
  exact ⟨C50_primitiveBlock_roundtrip primitiveBlockEx h hl, C73_primitiveBlock_size primitiveBlockEx (by omega)⟩

/-- `C50_primitiveBlock_unknown`: a field 99 in it. -/
example : PrimitiveBlock.parseFromBytes ([10, 3, 10, 1, 97] ++ [152, 6, 5] ++ [136, 1, 232, 7, 18, 4, 26, 2, 8, 7]) = PrimitiveBlock.parseFromBytes ([10, 3, 10, 1, 97] ++ [136, 1, 232, 7, 18, 4, 26, 2, 8, 7]) :=
  C50_primitiveBlock_unknown _ _ _ [⟨10, .len [10, 1, 97]⟩] ⟨792, .varint 5⟩ (by decide +kernel) (by decide +kernel) (by decide)

/-- `C50_primitiveBlock_order`: two of its fields in the other order. -/
example : PrimitiveBlock.parseFromBytes ([10, 3, 10, 1, 97] ++ [136, 1, 232, 7] ++ [18, 4, 26, 2, 8, 7] ++ []) = PrimitiveBlock.parseFromBytes ([10, 3, 10, 1, 97] ++ [18, 4, 26, 2, 8, 7] ++ [136, 1, 232, 7] ++ []) :=
  C50_primitiveBlock_order _ _ _ _ [⟨10, .len [10, 1, 97]⟩] ⟨136, .varint 1000⟩ ⟨18, .len [26, 2, 8, 7]⟩ (by decide +kernel) (by decide +kernel) (by decide +kernel) (by decide)

/-- `C50_required_checked`: the block above is read back, so it has a string table. -/
example : primitiveBlockEx.stringtable ≠ none :=
  C50_required_checked primitiveBlockEx primitiveBlockEx.write (by decide +kernel)

end Osmio.ProtoEx
