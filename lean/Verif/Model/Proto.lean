import Verif.Lib.Protobuf
/-!
# Model: the generated message code (`src/stringpbf/fileformat.rs`, `src/stringpbf/osmformat.rs`)

`src/arcpbf` has identical copies of both files. Each message has `merge` (one round of the loop of `merge_from`), `isInitialized`,
`computeSize` (what it returns is also what `cached_size` holds, as a `u32`), `write` (`write_to_with_cached_sizes`),
`parseFromBytes` and `writeToBytes`. Unknown fields, which the code keeps and writes again but osmio never looks at, are dropped. `MessageField` is `Option`. Enum values are kept as numbers (`EnumOrUnknown`). Generated by `tools/genproto.py`.
-/

namespace Osmio.Proto

/-- What is written for an `int32` (sign extended to 64 bits); in every `write_to_with_cached_sizes` of `src/stringpbf/osmformat.rs` and `src/stringpbf/fileformat.rs`, for example `src/stringpbf/fileformat.rs:221-233`. -/
def encInt32 (x : Int32) : Nat := unsigned64 x.toInt
/-- What is written for an `int64`; in every `write_to_with_cached_sizes` of `src/stringpbf/osmformat.rs` and `src/stringpbf/fileformat.rs`, for example `src/stringpbf/fileformat.rs:221-233`. -/
def encInt64 (x : Int64) : Nat := unsigned64 x.toInt
/-- What is written for a `uint32`; in every `write_to_with_cached_sizes` of `src/stringpbf/osmformat.rs` and `src/stringpbf/fileformat.rs`, for example `src/stringpbf/fileformat.rs:221-233`. -/
def encUInt32 (x : UInt32) : Nat := x.toNat
/-- What is written for a `bool`; in every `write_to_with_cached_sizes` of `src/stringpbf/osmformat.rs` and `src/stringpbf/fileformat.rs`, for example `src/stringpbf/fileformat.rs:221-233`. -/
def encBool (x : Bool) : Nat := x.toNat
/-- What is written for a `sint32`; in every `write_to_with_cached_sizes` of `src/stringpbf/osmformat.rs` and `src/stringpbf/fileformat.rs`, for example `src/stringpbf/fileformat.rs:221-233`. -/
def encSint32 (x : Int32) : Nat := zigZag x.toInt
/-- What is written for a `sint64`; in every `write_to_with_cached_sizes` of `src/stringpbf/osmformat.rs` and `src/stringpbf/fileformat.rs`, for example `src/stringpbf/fileformat.rs:221-233`. -/
def encSint64 (x : Int64) : Nat := zigZag x.toInt

/-- `src/stringpbf/fileformat.rs:29-40` -/
structure BlobHeader where
  type_ : Option Str := none
  indexdata : Option Bytes := none
  datasize : Option Int32 := none
  deriving DecidableEq

/-- `src/stringpbf/fileformat.rs:173-181` -/
def BlobHeader.isInitialized (m : BlobHeader) : Bool := m.type_.isSome && m.datasize.isSome
/-- `src/stringpbf/fileformat.rs:183-201` -/
def BlobHeader.merge (m : BlobHeader) (f : Field) : Option BlobHeader :=
  if f.tag = 10 then (f.string).map fun v => { m with type_ := some v } else
  if f.tag = 18 then (f.bytes).map fun v => { m with indexdata := some v } else
  if f.tag = 24 then (f.num asInt32).map fun v => { m with datasize := some v } else
  some m
/-- `src/stringpbf/fileformat.rs:205-219` -/
def BlobHeader.computeSize (m : BlobHeader) : Nat :=
  optSize m.type_ (fun v => stringSize 1 v) +
  (optSize m.indexdata (fun v => bytesSize 2 v) +
  (optSize m.datasize (fun v => numSize 3 (encInt32 v))))
/-- `src/stringpbf/fileformat.rs:221-233` -/
def BlobHeader.write (m : BlobHeader) : Bytes :=
  writeOpt m.type_ (fun v => writeLen 1 (Utf8.encode v)) ++
  (writeOpt m.indexdata (fun v => writeLen 2 v) ++
  (writeOpt m.datasize (fun v => writeNum 3 (encInt32 v))))
/-- `Message::parse_from_bytes`: with the check for required fields; `src/stringpbf/fileformat.rs:183-201`. -/
def BlobHeader.parseFromBytes (bs : Bytes) : Option BlobHeader :=
  (parse BlobHeader.merge {} bs).bind fun m => if m.isInitialized then some m else none
/-- `Message::write_to_bytes`: the message must have its required fields and at most 2 GiB. The bytes go to a vector of the computed size,
it is a panic (here `none` too) if there are more or less of them; `src/stringpbf/fileformat.rs:221-233`. -/
def BlobHeader.writeToBytes (m : BlobHeader) : Option Bytes :=
  if m.isInitialized = true ∧ m.computeSize ≤ 2147483647 ∧ m.write.length = m.computeSize then some m.write else none

/-- `src/stringpbf/fileformat.rs:284-302` -/
structure Blob where
  raw : Option Bytes := none
  rawSize : Option Int32 := none
  zlibData : Option Bytes := none
  lzmaData : Option Bytes := none
  obsoleteBzip2Data : Option Bytes := none
  deriving DecidableEq

/-- `src/stringpbf/fileformat.rs:517-519` -/
def Blob.isInitialized (_ : Blob) : Bool := true
/-- `src/stringpbf/fileformat.rs:521-545` -/
def Blob.merge (m : Blob) (f : Field) : Option Blob :=
  if f.tag = 10 then (f.bytes).map fun v => { m with raw := some v } else
  if f.tag = 16 then (f.num asInt32).map fun v => { m with rawSize := some v } else
  if f.tag = 26 then (f.bytes).map fun v => { m with zlibData := some v } else
  if f.tag = 34 then (f.bytes).map fun v => { m with lzmaData := some v } else
  if f.tag = 42 then (f.bytes).map fun v => { m with obsoleteBzip2Data := some v } else
  some m
/-- `src/stringpbf/fileformat.rs:549-569` -/
def Blob.computeSize (m : Blob) : Nat :=
  optSize m.raw (fun v => bytesSize 1 v) +
  (optSize m.rawSize (fun v => numSize 2 (encInt32 v)) +
  (optSize m.zlibData (fun v => bytesSize 3 v) +
  (optSize m.lzmaData (fun v => bytesSize 4 v) +
  (optSize m.obsoleteBzip2Data (fun v => bytesSize 5 v)))))
/-- `src/stringpbf/fileformat.rs:571-589` -/
def Blob.write (m : Blob) : Bytes :=
  writeOpt m.raw (fun v => writeLen 1 v) ++
  (writeOpt m.rawSize (fun v => writeNum 2 (encInt32 v)) ++
  (writeOpt m.zlibData (fun v => writeLen 3 v) ++
  (writeOpt m.lzmaData (fun v => writeLen 4 v) ++
  (writeOpt m.obsoleteBzip2Data (fun v => writeLen 5 v)))))
/-- `Message::parse_from_bytes`: with the check for required fields; `src/stringpbf/fileformat.rs:521-545`. -/
def Blob.parseFromBytes (bs : Bytes) : Option Blob :=
  (parse Blob.merge {} bs).bind fun m => if m.isInitialized then some m else none
/-- `Message::write_to_bytes`: the message must have its required fields and at most 2 GiB. The bytes go to a vector of the computed size,
it is a panic (here `none` too) if there are more or less of them; `src/stringpbf/fileformat.rs:571-589`. -/
def Blob.writeToBytes (m : Blob) : Option Bytes :=
  if m.isInitialized = true ∧ m.computeSize ≤ 2147483647 ∧ m.write.length = m.computeSize then some m.write else none

/-- `src/stringpbf/osmformat.rs:369-382` -/
structure HeaderBBox where
  left : Option Int64 := none
  right : Option Int64 := none
  top : Option Int64 := none
  bottom : Option Int64 := none
  deriving DecidableEq

/-- `src/stringpbf/osmformat.rs:475-489` -/
def HeaderBBox.isInitialized (m : HeaderBBox) : Bool := m.left.isSome && m.right.isSome && m.top.isSome && m.bottom.isSome
/-- `src/stringpbf/osmformat.rs:491-512` -/
def HeaderBBox.merge (m : HeaderBBox) (f : Field) : Option HeaderBBox :=
  if f.tag = 8 then (f.num zigZag64).map fun v => { m with left := some v } else
  if f.tag = 16 then (f.num zigZag64).map fun v => { m with right := some v } else
  if f.tag = 24 then (f.num zigZag64).map fun v => { m with top := some v } else
  if f.tag = 32 then (f.num zigZag64).map fun v => { m with bottom := some v } else
  some m
/-- `src/stringpbf/osmformat.rs:516-533` -/
def HeaderBBox.computeSize (m : HeaderBBox) : Nat :=
  optSize m.left (fun v => numSize 1 (encSint64 v)) +
  (optSize m.right (fun v => numSize 2 (encSint64 v)) +
  (optSize m.top (fun v => numSize 3 (encSint64 v)) +
  (optSize m.bottom (fun v => numSize 4 (encSint64 v)))))
/-- `src/stringpbf/osmformat.rs:535-550` -/
def HeaderBBox.write (m : HeaderBBox) : Bytes :=
  writeOpt m.left (fun v => writeNum 1 (encSint64 v)) ++
  (writeOpt m.right (fun v => writeNum 2 (encSint64 v)) ++
  (writeOpt m.top (fun v => writeNum 3 (encSint64 v)) ++
  (writeOpt m.bottom (fun v => writeNum 4 (encSint64 v)))))
/-- `Message::parse_from_bytes`: with the check for required fields; `src/stringpbf/osmformat.rs:491-512`. -/
def HeaderBBox.parseFromBytes (bs : Bytes) : Option HeaderBBox :=
  (parse HeaderBBox.merge {} bs).bind fun m => if m.isInitialized then some m else none
/-- `Message::write_to_bytes`: the message must have its required fields and at most 2 GiB. The bytes go to a vector of the computed size,
it is a panic (here `none` too) if there are more or less of them; `src/stringpbf/osmformat.rs:535-550`. -/
def HeaderBBox.writeToBytes (m : HeaderBBox) : Option Bytes :=
  if m.isInitialized = true ∧ m.computeSize ≤ 2147483647 ∧ m.write.length = m.computeSize then some m.write else none

/-- `src/stringpbf/osmformat.rs:30-57` -/
structure HeaderBlock where
  bbox : Option HeaderBBox := none
  requiredFeatures : List Str := []
  optionalFeatures : List Str := []
  writingprogram : Option Str := none
  source : Option Str := none
  osmosisReplicationTimestamp : Option Int64 := none
  osmosisReplicationSequenceNumber : Option Int64 := none
  osmosisReplicationBaseUrl : Option Str := none
  deriving DecidableEq

/-- `src/stringpbf/osmformat.rs:220-227` -/
def HeaderBlock.isInitialized (m : HeaderBlock) : Bool := m.bbox.all HeaderBBox.isInitialized
/-- `src/stringpbf/osmformat.rs:229-262` -/
def HeaderBlock.merge (m : HeaderBlock) (f : Field) : Option HeaderBlock :=
  if f.tag = 10 then (f.message HeaderBBox.merge {}).map fun v => { m with bbox := some v } else
  if f.tag = 34 then (f.string).map fun v => { m with requiredFeatures := m.requiredFeatures ++ [v] } else
  if f.tag = 42 then (f.string).map fun v => { m with optionalFeatures := m.optionalFeatures ++ [v] } else
  if f.tag = 130 then (f.string).map fun v => { m with writingprogram := some v } else
  if f.tag = 138 then (f.string).map fun v => { m with source := some v } else
  if f.tag = 256 then (f.num asInt64).map fun v => { m with osmosisReplicationTimestamp := some v } else
  if f.tag = 264 then (f.num asInt64).map fun v => { m with osmosisReplicationSequenceNumber := some v } else
  if f.tag = 274 then (f.string).map fun v => { m with osmosisReplicationBaseUrl := some v } else
  some m
/-- `src/stringpbf/osmformat.rs:266-296` -/
def HeaderBlock.computeSize (m : HeaderBlock) : Nat :=
  optSize m.bbox (fun v => messageSize 1 v.computeSize) +
  (repSize m.requiredFeatures (fun v => stringSize 4 v) +
  (repSize m.optionalFeatures (fun v => stringSize 5 v) +
  (optSize m.writingprogram (fun v => stringSize 16 v) +
  (optSize m.source (fun v => stringSize 17 v) +
  (optSize m.osmosisReplicationTimestamp (fun v => numSize 32 (encInt64 v)) +
  (optSize m.osmosisReplicationSequenceNumber (fun v => numSize 33 (encInt64 v)) +
  (optSize m.osmosisReplicationBaseUrl (fun v => stringSize 34 v))))))))
/-- `src/stringpbf/osmformat.rs:298-325` -/
def HeaderBlock.write (m : HeaderBlock) : Bytes :=
  writeOpt m.bbox (fun v => writeMessage 1 v.computeSize v.write) ++
  (m.requiredFeatures.flatMap (fun v => writeLen 4 (Utf8.encode v)) ++
  (m.optionalFeatures.flatMap (fun v => writeLen 5 (Utf8.encode v)) ++
  (writeOpt m.writingprogram (fun v => writeLen 16 (Utf8.encode v)) ++
  (writeOpt m.source (fun v => writeLen 17 (Utf8.encode v)) ++
  (writeOpt m.osmosisReplicationTimestamp (fun v => writeNum 32 (encInt64 v)) ++
  (writeOpt m.osmosisReplicationSequenceNumber (fun v => writeNum 33 (encInt64 v)) ++
  (writeOpt m.osmosisReplicationBaseUrl (fun v => writeLen 34 (Utf8.encode v)))))))))
/-- `Message::parse_from_bytes`: with the check for required fields; `src/stringpbf/osmformat.rs:229-262`. -/
def HeaderBlock.parseFromBytes (bs : Bytes) : Option HeaderBlock :=
  (parse HeaderBlock.merge {} bs).bind fun m => if m.isInitialized then some m else none
/-- `Message::write_to_bytes`: the message must have its required fields and at most 2 GiB. The bytes go to a vector of the computed size,
it is a panic (here `none` too) if there are more or less of them; `src/stringpbf/osmformat.rs:298-325`. -/
def HeaderBlock.writeToBytes (m : HeaderBlock) : Option Bytes :=
  if m.isInitialized = true ∧ m.computeSize ≤ 2147483647 ∧ m.write.length = m.computeSize then some m.write else none

/-- `src/stringpbf/osmformat.rs:1013-1020` -/
structure StringTable where
  s : List Bytes := []
  deriving DecidableEq

/-- `src/stringpbf/osmformat.rs:1037-1039` -/
def StringTable.isInitialized (_ : StringTable) : Bool := true
/-- `src/stringpbf/osmformat.rs:1041-1053` -/
def StringTable.merge (m : StringTable) (f : Field) : Option StringTable :=
  if f.tag = 10 then (f.bytes).map fun v => { m with s := m.s ++ [v] } else
  some m
/-- `src/stringpbf/osmformat.rs:1057-1065` -/
def StringTable.computeSize (m : StringTable) : Nat :=
  repSize m.s (fun v => bytesSize 1 v)
/-- `src/stringpbf/osmformat.rs:1067-1073` -/
def StringTable.write (m : StringTable) : Bytes :=
  m.s.flatMap (fun v => writeLen 1 v)
/-- `Message::parse_from_bytes`: with the check for required fields; `src/stringpbf/osmformat.rs:1041-1053`. -/
def StringTable.parseFromBytes (bs : Bytes) : Option StringTable :=
  (parse StringTable.merge {} bs).bind fun m => if m.isInitialized then some m else none
/-- `Message::write_to_bytes`: the message must have its required fields and at most 2 GiB. The bytes go to a vector of the computed size,
it is a panic (here `none` too) if there are more or less of them; `src/stringpbf/osmformat.rs:1067-1073`. -/
def StringTable.writeToBytes (m : StringTable) : Option Bytes :=
  if m.isInitialized = true ∧ m.computeSize ≤ 2147483647 ∧ m.write.length = m.computeSize then some m.write else none

/-- `src/stringpbf/osmformat.rs:1104-1129` -/
structure Info where
  version : Option Int32 := none
  timestamp : Option Int64 := none
  changeset : Option Int64 := none
  uid : Option Int32 := none
  userSid : Option UInt32 := none
  visible : Option Bool := none
  deriving DecidableEq

/-- `src/stringpbf/osmformat.rs:1260-1262` -/
def Info.isInitialized (_ : Info) : Bool := true
/-- `src/stringpbf/osmformat.rs:1264-1291` -/
def Info.merge (m : Info) (f : Field) : Option Info :=
  if f.tag = 8 then (f.num asInt32).map fun v => { m with version := some v } else
  if f.tag = 16 then (f.num asInt64).map fun v => { m with timestamp := some v } else
  if f.tag = 24 then (f.num asInt64).map fun v => { m with changeset := some v } else
  if f.tag = 32 then (f.num asInt32).map fun v => { m with uid := some v } else
  if f.tag = 40 then (f.num asUInt32).map fun v => { m with userSid := some v } else
  if f.tag = 48 then (f.num asBool).map fun v => { m with visible := some v } else
  some m
/-- `src/stringpbf/osmformat.rs:1295-1318` -/
def Info.computeSize (m : Info) : Nat :=
  optSize m.version (fun v => numSize 1 (encInt32 v)) +
  (optSize m.timestamp (fun v => numSize 2 (encInt64 v)) +
  (optSize m.changeset (fun v => numSize 3 (encInt64 v)) +
  (optSize m.uid (fun v => numSize 4 (encInt32 v)) +
  (optSize m.userSid (fun v => numSize 5 (encUInt32 v)) +
  (optSize m.visible (fun _ => 1 + 1))))))
/-- `src/stringpbf/osmformat.rs:1320-1341` -/
def Info.write (m : Info) : Bytes :=
  writeOpt m.version (fun v => writeNum 1 (encInt32 v)) ++
  (writeOpt m.timestamp (fun v => writeNum 2 (encInt64 v)) ++
  (writeOpt m.changeset (fun v => writeNum 3 (encInt64 v)) ++
  (writeOpt m.uid (fun v => writeNum 4 (encInt32 v)) ++
  (writeOpt m.userSid (fun v => writeNum 5 (encUInt32 v)) ++
  (writeOpt m.visible (fun v => writeNum 6 (encBool v)))))))
/-- `Message::parse_from_bytes`: with the check for required fields; `src/stringpbf/osmformat.rs:1264-1291`. -/
def Info.parseFromBytes (bs : Bytes) : Option Info :=
  (parse Info.merge {} bs).bind fun m => if m.isInitialized then some m else none
/-- `Message::write_to_bytes`: the message must have its required fields and at most 2 GiB. The bytes go to a vector of the computed size,
it is a panic (here `none` too) if there are more or less of them; `src/stringpbf/osmformat.rs:1320-1341`. -/
def Info.writeToBytes (m : Info) : Option Bytes :=
  if m.isInitialized = true ∧ m.computeSize ≤ 2147483647 ∧ m.write.length = m.computeSize then some m.write else none

/-- `src/stringpbf/osmformat.rs:1653-1671` -/
structure Node where
  id : Option Int64 := none
  keys : List UInt32 := []
  vals : List UInt32 := []
  info : Option Info := none
  lat : Option Int64 := none
  lon : Option Int64 := none
  deriving DecidableEq

/-- `src/stringpbf/osmformat.rs:1745-1761` -/
def Node.isInitialized (m : Node) : Bool := m.id.isSome && m.lat.isSome && m.lon.isSome && m.info.all Info.isInitialized
/-- `src/stringpbf/osmformat.rs:1763-1796` -/
def Node.merge (m : Node) (f : Field) : Option Node :=
  if f.tag = 8 then (f.num zigZag64).map fun v => { m with id := some v } else
  if f.tag = 18 then (f.packed asUInt32).map fun v => { m with keys := m.keys ++ v } else
  if f.tag = 16 then (f.num asUInt32).map fun v => { m with keys := m.keys ++ [v] } else
  if f.tag = 26 then (f.packed asUInt32).map fun v => { m with vals := m.vals ++ v } else
  if f.tag = 24 then (f.num asUInt32).map fun v => { m with vals := m.vals ++ [v] } else
  if f.tag = 34 then (f.message Info.merge {}).map fun v => { m with info := some v } else
  if f.tag = 64 then (f.num zigZag64).map fun v => { m with lat := some v } else
  if f.tag = 72 then (f.num zigZag64).map fun v => { m with lon := some v } else
  some m
/-- `src/stringpbf/osmformat.rs:1800-1820` -/
def Node.computeSize (m : Node) : Nat :=
  optSize m.id (fun v => numSize 1 (encSint64 v)) +
  (packedSize 2 encUInt32 m.keys +
  (packedSize 3 encUInt32 m.vals +
  (optSize m.info (fun v => messageSize 1 v.computeSize) +
  (optSize m.lat (fun v => numSize 8 (encSint64 v)) +
  (optSize m.lon (fun v => numSize 9 (encSint64 v)))))))
/-- `src/stringpbf/osmformat.rs:1822-1839` -/
def Node.write (m : Node) : Bytes :=
  writeOpt m.id (fun v => writeNum 1 (encSint64 v)) ++
  (writePacked 2 encUInt32 m.keys ++
  (writePacked 3 encUInt32 m.vals ++
  (writeOpt m.info (fun v => writeMessage 4 v.computeSize v.write) ++
  (writeOpt m.lat (fun v => writeNum 8 (encSint64 v)) ++
  (writeOpt m.lon (fun v => writeNum 9 (encSint64 v)))))))
/-- `Message::parse_from_bytes`: with the check for required fields; `src/stringpbf/osmformat.rs:1763-1796`. -/
def Node.parseFromBytes (bs : Bytes) : Option Node :=
  (parse Node.merge {} bs).bind fun m => if m.isInitialized then some m else none
/-- `Message::write_to_bytes`: the message must have its required fields and at most 2 GiB. The bytes go to a vector of the computed size,
it is a panic (here `none` too) if there are more or less of them; `src/stringpbf/osmformat.rs:1822-1839`. -/
def Node.writeToBytes (m : Node) : Option Bytes :=
  if m.isInitialized = true ∧ m.computeSize ≤ 2147483647 ∧ m.write.length = m.computeSize then some m.write else none

/-- `src/stringpbf/osmformat.rs:1382-1407` -/
structure DenseInfo where
  version : List Int32 := []
  timestamp : List Int64 := []
  changeset : List Int64 := []
  uid : List Int32 := []
  userSid : List Int32 := []
  visible : List Bool := []
  deriving DecidableEq

/-- `src/stringpbf/osmformat.rs:1424-1426` -/
def DenseInfo.isInitialized (_ : DenseInfo) : Bool := true
/-- `src/stringpbf/osmformat.rs:1428-1473` -/
def DenseInfo.merge (m : DenseInfo) (f : Field) : Option DenseInfo :=
  if f.tag = 10 then (f.packed asInt32).map fun v => { m with version := m.version ++ v } else
  if f.tag = 8 then (f.num asInt32).map fun v => { m with version := m.version ++ [v] } else
  if f.tag = 18 then (f.packed zigZag64).map fun v => { m with timestamp := m.timestamp ++ v } else
  if f.tag = 16 then (f.num zigZag64).map fun v => { m with timestamp := m.timestamp ++ [v] } else
  if f.tag = 26 then (f.packed zigZag64).map fun v => { m with changeset := m.changeset ++ v } else
  if f.tag = 24 then (f.num zigZag64).map fun v => { m with changeset := m.changeset ++ [v] } else
  if f.tag = 34 then (f.packed zigZag32).map fun v => { m with uid := m.uid ++ v } else
  if f.tag = 32 then (f.num zigZag32).map fun v => { m with uid := m.uid ++ [v] } else
  if f.tag = 42 then (f.packed zigZag32).map fun v => { m with userSid := m.userSid ++ v } else
  if f.tag = 40 then (f.num zigZag32).map fun v => { m with userSid := m.userSid ++ [v] } else
  if f.tag = 50 then (f.packed asBool).map fun v => { m with visible := m.visible ++ v } else
  if f.tag = 48 then (f.num asBool).map fun v => { m with visible := m.visible ++ [v] } else
  some m
/-- `src/stringpbf/osmformat.rs:1477-1488` -/
def DenseInfo.computeSize (m : DenseInfo) : Nat :=
  packedSize 1 encInt32 m.version +
  (packedSize 2 encSint64 m.timestamp +
  (packedSize 3 encSint64 m.changeset +
  (packedSize 4 encSint32 m.uid +
  (packedSize 5 encSint32 m.userSid +
  (packedSize 6 encBool m.visible)))))
/-- `src/stringpbf/osmformat.rs:1490-1499` -/
def DenseInfo.write (m : DenseInfo) : Bytes :=
  writePacked 1 encInt32 m.version ++
  (writePacked 2 encSint64 m.timestamp ++
  (writePacked 3 encSint64 m.changeset ++
  (writePacked 4 encSint32 m.uid ++
  (writePacked 5 encSint32 m.userSid ++
  (writePacked 6 encBool m.visible)))))
/-- `Message::parse_from_bytes`: with the check for required fields; `src/stringpbf/osmformat.rs:1428-1473`. -/
def DenseInfo.parseFromBytes (bs : Bytes) : Option DenseInfo :=
  (parse DenseInfo.merge {} bs).bind fun m => if m.isInitialized then some m else none
/-- `Message::write_to_bytes`: the message must have its required fields and at most 2 GiB. The bytes go to a vector of the computed size,
it is a panic (here `none` too) if there are more or less of them; `src/stringpbf/osmformat.rs:1490-1499`. -/
def DenseInfo.writeToBytes (m : DenseInfo) : Option Bytes :=
  if m.isInitialized = true ∧ m.computeSize ≤ 2147483647 ∧ m.write.length = m.computeSize then some m.write else none

/-- `src/stringpbf/osmformat.rs:1879-1896` -/
structure DenseNodes where
  id : List Int64 := []
  denseinfo : Option DenseInfo := none
  lat : List Int64 := []
  lon : List Int64 := []
  keysVals : List Int32 := []
  deriving DecidableEq

/-- `src/stringpbf/osmformat.rs:1913-1915` -/
def DenseNodes.isInitialized (_ : DenseNodes) : Bool := true
/-- `src/stringpbf/osmformat.rs:1917-1953` -/
def DenseNodes.merge (m : DenseNodes) (f : Field) : Option DenseNodes :=
  if f.tag = 10 then (f.packed zigZag64).map fun v => { m with id := m.id ++ v } else
  if f.tag = 8 then (f.num zigZag64).map fun v => { m with id := m.id ++ [v] } else
  if f.tag = 42 then (f.message DenseInfo.merge {}).map fun v => { m with denseinfo := some v } else
  if f.tag = 66 then (f.packed zigZag64).map fun v => { m with lat := m.lat ++ v } else
  if f.tag = 64 then (f.num zigZag64).map fun v => { m with lat := m.lat ++ [v] } else
  if f.tag = 74 then (f.packed zigZag64).map fun v => { m with lon := m.lon ++ v } else
  if f.tag = 72 then (f.num zigZag64).map fun v => { m with lon := m.lon ++ [v] } else
  if f.tag = 82 then (f.packed asInt32).map fun v => { m with keysVals := m.keysVals ++ v } else
  if f.tag = 80 then (f.num asInt32).map fun v => { m with keysVals := m.keysVals ++ [v] } else
  some m
/-- `src/stringpbf/osmformat.rs:1957-1970` -/
def DenseNodes.computeSize (m : DenseNodes) : Nat :=
  packedSize 1 encSint64 m.id +
  (optSize m.denseinfo (fun v => messageSize 1 v.computeSize) +
  (packedSize 8 encSint64 m.lat +
  (packedSize 9 encSint64 m.lon +
  (packedSize 10 encInt32 m.keysVals))))
/-- `src/stringpbf/osmformat.rs:1972-1982` -/
def DenseNodes.write (m : DenseNodes) : Bytes :=
  writePacked 1 encSint64 m.id ++
  (writeOpt m.denseinfo (fun v => writeMessage 5 v.computeSize v.write) ++
  (writePacked 8 encSint64 m.lat ++
  (writePacked 9 encSint64 m.lon ++
  (writePacked 10 encInt32 m.keysVals))))
/-- `Message::parse_from_bytes`: with the check for required fields; `src/stringpbf/osmformat.rs:1917-1953`. -/
def DenseNodes.parseFromBytes (bs : Bytes) : Option DenseNodes :=
  (parse DenseNodes.merge {} bs).bind fun m => if m.isInitialized then some m else none
/-- `Message::write_to_bytes`: the message must have its required fields and at most 2 GiB. The bytes go to a vector of the computed size,
it is a panic (here `none` too) if there are more or less of them; `src/stringpbf/osmformat.rs:1972-1982`. -/
def DenseNodes.writeToBytes (m : DenseNodes) : Option Bytes :=
  if m.isInitialized = true ∧ m.computeSize ≤ 2147483647 ∧ m.write.length = m.computeSize then some m.write else none

/-- `src/stringpbf/osmformat.rs:2020-2036` -/
structure Way where
  id : Option Int64 := none
  keys : List UInt32 := []
  vals : List UInt32 := []
  info : Option Info := none
  refs : List Int64 := []
  deriving DecidableEq

/-- `src/stringpbf/osmformat.rs:2072-2082` -/
def Way.isInitialized (m : Way) : Bool := m.id.isSome && m.info.all Info.isInitialized
/-- `src/stringpbf/osmformat.rs:2084-2117` -/
def Way.merge (m : Way) (f : Field) : Option Way :=
  if f.tag = 8 then (f.num asInt64).map fun v => { m with id := some v } else
  if f.tag = 18 then (f.packed asUInt32).map fun v => { m with keys := m.keys ++ v } else
  if f.tag = 16 then (f.num asUInt32).map fun v => { m with keys := m.keys ++ [v] } else
  if f.tag = 26 then (f.packed asUInt32).map fun v => { m with vals := m.vals ++ v } else
  if f.tag = 24 then (f.num asUInt32).map fun v => { m with vals := m.vals ++ [v] } else
  if f.tag = 34 then (f.message Info.merge {}).map fun v => { m with info := some v } else
  if f.tag = 66 then (f.packed zigZag64).map fun v => { m with refs := m.refs ++ v } else
  if f.tag = 64 then (f.num zigZag64).map fun v => { m with refs := m.refs ++ [v] } else
  some m
/-- `src/stringpbf/osmformat.rs:2121-2136` -/
def Way.computeSize (m : Way) : Nat :=
  optSize m.id (fun v => numSize 1 (encInt64 v)) +
  (packedSize 2 encUInt32 m.keys +
  (packedSize 3 encUInt32 m.vals +
  (optSize m.info (fun v => messageSize 1 v.computeSize) +
  (packedSize 8 encSint64 m.refs))))
/-- `src/stringpbf/osmformat.rs:2138-2150` -/
def Way.write (m : Way) : Bytes :=
  writeOpt m.id (fun v => writeNum 1 (encInt64 v)) ++
  (writePacked 2 encUInt32 m.keys ++
  (writePacked 3 encUInt32 m.vals ++
  (writeOpt m.info (fun v => writeMessage 4 v.computeSize v.write) ++
  (writePacked 8 encSint64 m.refs))))
/-- `Message::parse_from_bytes`: with the check for required fields; `src/stringpbf/osmformat.rs:2084-2117`. -/
def Way.parseFromBytes (bs : Bytes) : Option Way :=
  (parse Way.merge {} bs).bind fun m => if m.isInitialized then some m else none
/-- `Message::write_to_bytes`: the message must have its required fields and at most 2 GiB. The bytes go to a vector of the computed size,
it is a panic (here `none` too) if there are more or less of them; `src/stringpbf/osmformat.rs:2138-2150`. -/
def Way.writeToBytes (m : Way) : Option Bytes :=
  if m.isInitialized = true ∧ m.computeSize ≤ 2147483647 ∧ m.write.length = m.computeSize then some m.write else none

/-- `src/stringpbf/osmformat.rs:2188-2209` -/
structure Relation where
  id : Option Int64 := none
  keys : List UInt32 := []
  vals : List UInt32 := []
  info : Option Info := none
  rolesSid : List Int32 := []
  memids : List Int64 := []
  types : List Int32 := []
  deriving DecidableEq

/-- `src/stringpbf/osmformat.rs:2245-2255` -/
def Relation.isInitialized (m : Relation) : Bool := m.id.isSome && m.info.all Info.isInitialized
/-- `src/stringpbf/osmformat.rs:2257-2302` -/
def Relation.merge (m : Relation) (f : Field) : Option Relation :=
  if f.tag = 8 then (f.num asInt64).map fun v => { m with id := some v } else
  if f.tag = 18 then (f.packed asUInt32).map fun v => { m with keys := m.keys ++ v } else
  if f.tag = 16 then (f.num asUInt32).map fun v => { m with keys := m.keys ++ [v] } else
  if f.tag = 26 then (f.packed asUInt32).map fun v => { m with vals := m.vals ++ v } else
  if f.tag = 24 then (f.num asUInt32).map fun v => { m with vals := m.vals ++ [v] } else
  if f.tag = 34 then (f.message Info.merge {}).map fun v => { m with info := some v } else
  if f.tag = 66 then (f.packed asInt32).map fun v => { m with rolesSid := m.rolesSid ++ v } else
  if f.tag = 64 then (f.num asInt32).map fun v => { m with rolesSid := m.rolesSid ++ [v] } else
  if f.tag = 74 then (f.packed zigZag64).map fun v => { m with memids := m.memids ++ v } else
  if f.tag = 72 then (f.num zigZag64).map fun v => { m with memids := m.memids ++ [v] } else
  if f.tag = 80 then (f.num asInt32).map fun v => { m with types := m.types ++ [v] } else
  if f.tag = 82 then (f.packed asInt32).map fun v => { m with types := m.types ++ v } else
  some m
/-- `src/stringpbf/osmformat.rs:2306-2323` -/
def Relation.computeSize (m : Relation) : Nat :=
  optSize m.id (fun v => numSize 1 (encInt64 v)) +
  (packedSize 2 encUInt32 m.keys +
  (packedSize 3 encUInt32 m.vals +
  (optSize m.info (fun v => messageSize 1 v.computeSize) +
  (packedSize 8 encInt32 m.rolesSid +
  (packedSize 9 encSint64 m.memids +
  (packedSize 10 encInt32 m.types))))))
/-- `src/stringpbf/osmformat.rs:2325-2339` -/
def Relation.write (m : Relation) : Bytes :=
  writeOpt m.id (fun v => writeNum 1 (encInt64 v)) ++
  (writePacked 2 encUInt32 m.keys ++
  (writePacked 3 encUInt32 m.vals ++
  (writeOpt m.info (fun v => writeMessage 4 v.computeSize v.write) ++
  (writePacked 8 encInt32 m.rolesSid ++
  (writePacked 9 encSint64 m.memids ++
  (writePacked 10 encInt32 m.types))))))
/-- `Message::parse_from_bytes`: with the check for required fields; `src/stringpbf/osmformat.rs:2257-2302`. -/
def Relation.parseFromBytes (bs : Bytes) : Option Relation :=
  (parse Relation.merge {} bs).bind fun m => if m.isInitialized then some m else none
/-- `Message::write_to_bytes`: the message must have its required fields and at most 2 GiB. The bytes go to a vector of the computed size,
it is a panic (here `none` too) if there are more or less of them; `src/stringpbf/osmformat.rs:2325-2339`. -/
def Relation.writeToBytes (m : Relation) : Option Bytes :=
  if m.isInitialized = true ∧ m.computeSize ≤ 2147483647 ∧ m.write.length = m.computeSize then some m.write else none

/-- `src/stringpbf/osmformat.rs:1541-1548` -/
structure ChangeSet where
  id : Option Int64 := none
  deriving DecidableEq

/-- `src/stringpbf/osmformat.rs:1584-1589` -/
def ChangeSet.isInitialized (m : ChangeSet) : Bool := m.id.isSome
/-- `src/stringpbf/osmformat.rs:1591-1603` -/
def ChangeSet.merge (m : ChangeSet) (f : Field) : Option ChangeSet :=
  if f.tag = 8 then (f.num asInt64).map fun v => { m with id := some v } else
  some m
/-- `src/stringpbf/osmformat.rs:1607-1615` -/
def ChangeSet.computeSize (m : ChangeSet) : Nat :=
  optSize m.id (fun v => numSize 1 (encInt64 v))
/-- `src/stringpbf/osmformat.rs:1617-1623` -/
def ChangeSet.write (m : ChangeSet) : Bytes :=
  writeOpt m.id (fun v => writeNum 1 (encInt64 v))
/-- `Message::parse_from_bytes`: with the check for required fields; `src/stringpbf/osmformat.rs:1591-1603`. -/
def ChangeSet.parseFromBytes (bs : Bytes) : Option ChangeSet :=
  (parse ChangeSet.merge {} bs).bind fun m => if m.isInitialized then some m else none
/-- `Message::write_to_bytes`: the message must have its required fields and at most 2 GiB. The bytes go to a vector of the computed size,
it is a panic (here `none` too) if there are more or less of them; `src/stringpbf/osmformat.rs:1617-1623`. -/
def ChangeSet.writeToBytes (m : ChangeSet) : Option Bytes :=
  if m.isInitialized = true ∧ m.computeSize ≤ 2147483647 ∧ m.write.length = m.computeSize then some m.write else none

/-- `src/stringpbf/osmformat.rs:836-851` -/
structure PrimitiveGroup where
  nodes : List Node := []
  dense : Option DenseNodes := none
  ways : List Way := []
  relations : List Relation := []
  changesets : List ChangeSet := []
  deriving DecidableEq

/-- `src/stringpbf/osmformat.rs:868-895` -/
def PrimitiveGroup.isInitialized (m : PrimitiveGroup) : Bool := m.nodes.all Node.isInitialized && m.dense.all DenseNodes.isInitialized && m.ways.all Way.isInitialized && m.relations.all Relation.isInitialized && m.changesets.all ChangeSet.isInitialized
/-- `src/stringpbf/osmformat.rs:897-921` -/
def PrimitiveGroup.merge (m : PrimitiveGroup) (f : Field) : Option PrimitiveGroup :=
  if f.tag = 10 then (f.message Node.merge {}).map fun v => { m with nodes := m.nodes ++ [v] } else
  if f.tag = 18 then (f.message DenseNodes.merge {}).map fun v => { m with dense := some v } else
  if f.tag = 26 then (f.message Way.merge {}).map fun v => { m with ways := m.ways ++ [v] } else
  if f.tag = 34 then (f.message Relation.merge {}).map fun v => { m with relations := m.relations ++ [v] } else
  if f.tag = 42 then (f.message ChangeSet.merge {}).map fun v => { m with changesets := m.changesets ++ [v] } else
  some m
/-- `src/stringpbf/osmformat.rs:925-950` -/
def PrimitiveGroup.computeSize (m : PrimitiveGroup) : Nat :=
  repSize m.nodes (fun v => messageSize 1 v.computeSize) +
  (optSize m.dense (fun v => messageSize 1 v.computeSize) +
  (repSize m.ways (fun v => messageSize 1 v.computeSize) +
  (repSize m.relations (fun v => messageSize 1 v.computeSize) +
  (repSize m.changesets (fun v => messageSize 1 v.computeSize)))))
/-- `src/stringpbf/osmformat.rs:952-970` -/
def PrimitiveGroup.write (m : PrimitiveGroup) : Bytes :=
  m.nodes.flatMap (fun v => writeMessage 1 v.computeSize v.write) ++
  (writeOpt m.dense (fun v => writeMessage 2 v.computeSize v.write) ++
  (m.ways.flatMap (fun v => writeMessage 3 v.computeSize v.write) ++
  (m.relations.flatMap (fun v => writeMessage 4 v.computeSize v.write) ++
  (m.changesets.flatMap (fun v => writeMessage 5 v.computeSize v.write)))))
/-- `Message::parse_from_bytes`: with the check for required fields; `src/stringpbf/osmformat.rs:897-921`. -/
def PrimitiveGroup.parseFromBytes (bs : Bytes) : Option PrimitiveGroup :=
  (parse PrimitiveGroup.merge {} bs).bind fun m => if m.isInitialized then some m else none
/-- `Message::write_to_bytes`: the message must have its required fields and at most 2 GiB. The bytes go to a vector of the computed size,
it is a panic (here `none` too) if there are more or less of them; `src/stringpbf/osmformat.rs:952-970`. -/
def PrimitiveGroup.writeToBytes (m : PrimitiveGroup) : Option Bytes :=
  if m.isInitialized = true ∧ m.computeSize ≤ 2147483647 ∧ m.write.length = m.computeSize then some m.write else none

/-- `src/stringpbf/osmformat.rs:586-606` -/
structure PrimitiveBlock where
  stringtable : Option StringTable := none
  primitivegroup : List PrimitiveGroup := []
  granularity : Option Int32 := none
  latOffset : Option Int64 := none
  lonOffset : Option Int64 := none
  dateGranularity : Option Int32 := none
  deriving DecidableEq

/-- `src/stringpbf/osmformat.rs:699-714` -/
def PrimitiveBlock.isInitialized (m : PrimitiveBlock) : Bool := m.stringtable.isSome && m.stringtable.all StringTable.isInitialized && m.primitivegroup.all PrimitiveGroup.isInitialized
/-- `src/stringpbf/osmformat.rs:716-743` -/
def PrimitiveBlock.merge (m : PrimitiveBlock) (f : Field) : Option PrimitiveBlock :=
  if f.tag = 10 then (f.message StringTable.merge {}).map fun v => { m with stringtable := some v } else
  if f.tag = 18 then (f.message PrimitiveGroup.merge {}).map fun v => { m with primitivegroup := m.primitivegroup ++ [v] } else
  if f.tag = 136 then (f.num asInt32).map fun v => { m with granularity := some v } else
  if f.tag = 152 then (f.num asInt64).map fun v => { m with latOffset := some v } else
  if f.tag = 160 then (f.num asInt64).map fun v => { m with lonOffset := some v } else
  if f.tag = 144 then (f.num asInt32).map fun v => { m with dateGranularity := some v } else
  some m
/-- `src/stringpbf/osmformat.rs:747-772` -/
def PrimitiveBlock.computeSize (m : PrimitiveBlock) : Nat :=
  optSize m.stringtable (fun v => messageSize 1 v.computeSize) +
  (repSize m.primitivegroup (fun v => messageSize 1 v.computeSize) +
  (optSize m.granularity (fun v => numSize 17 (encInt32 v)) +
  (optSize m.latOffset (fun v => numSize 19 (encInt64 v)) +
  (optSize m.lonOffset (fun v => numSize 20 (encInt64 v)) +
  (optSize m.dateGranularity (fun v => numSize 18 (encInt32 v)))))))
/-- `src/stringpbf/osmformat.rs:774-795` -/
def PrimitiveBlock.write (m : PrimitiveBlock) : Bytes :=
  writeOpt m.stringtable (fun v => writeMessage 1 v.computeSize v.write) ++
  (m.primitivegroup.flatMap (fun v => writeMessage 2 v.computeSize v.write) ++
  (writeOpt m.granularity (fun v => writeNum 17 (encInt32 v)) ++
  (writeOpt m.latOffset (fun v => writeNum 19 (encInt64 v)) ++
  (writeOpt m.lonOffset (fun v => writeNum 20 (encInt64 v)) ++
  (writeOpt m.dateGranularity (fun v => writeNum 18 (encInt32 v)))))))
/-- `Message::parse_from_bytes`: with the check for required fields; `src/stringpbf/osmformat.rs:716-743`. -/
def PrimitiveBlock.parseFromBytes (bs : Bytes) : Option PrimitiveBlock :=
  (parse PrimitiveBlock.merge {} bs).bind fun m => if m.isInitialized then some m else none
/-- `Message::write_to_bytes`: the message must have its required fields and at most 2 GiB. The bytes go to a vector of the computed size,
it is a panic (here `none` too) if there are more or less of them; `src/stringpbf/osmformat.rs:774-795`. -/
def PrimitiveBlock.writeToBytes (m : PrimitiveBlock) : Option Bytes :=
  if m.isInitialized = true ∧ m.computeSize ≤ 2147483647 ∧ m.write.length = m.computeSize then some m.write else none

end Osmio.Proto
