import Verif.Spec.WireValues
import Verif.Model.Proto
/-!
# Specification: what a message of the OSM PBF format says

Written from `src/stringpbf/fileformat.proto` and `src/stringpbf/osmformat.proto` by `tools/gendecode.py`, one line for each line of a
message there: field number and type. The message types are those of `Verif.Model.Proto`, which come from the Rust code.
-/

namespace Osmio.Spec.Pbf

open Wire Proto

/-- `message BlobHeader`: what its fields say. -/
def saysBlobHeader (fs : List Field) (m : BlobHeader) : Prop :=
  Single 1 AsText fs m.type_ ∧
  Single 2 AsBytes fs m.indexdata ∧
  SingleNumber 3 IsInt32 fs m.datasize

/-- `message BlobHeader`: what the bytes say. -/
def DecodesBlobHeader (bs : List UInt8) (m : BlobHeader) : Prop := ∃ fs, Fields bs fs ∧ saysBlobHeader fs m

/-- `message Blob`: what its fields say. -/
def saysBlob (fs : List Field) (m : Blob) : Prop :=
  Single 1 AsBytes fs m.raw ∧
  SingleNumber 2 IsInt32 fs m.rawSize ∧
  Single 3 AsBytes fs m.zlibData ∧
  Single 4 AsBytes fs m.lzmaData ∧
  Single 5 AsBytes fs m.obsoleteBzip2Data

/-- `message Blob`: what the bytes say. -/
def DecodesBlob (bs : List UInt8) (m : Blob) : Prop := ∃ fs, Fields bs fs ∧ saysBlob fs m

/-- `message HeaderBBox`: what its fields say. -/
def saysHeaderBBox (fs : List Field) (m : HeaderBBox) : Prop :=
  SingleNumber 1 IsSint64 fs m.left ∧
  SingleNumber 2 IsSint64 fs m.right ∧
  SingleNumber 3 IsSint64 fs m.top ∧
  SingleNumber 4 IsSint64 fs m.bottom

/-- `message HeaderBBox`: what the bytes say. -/
def DecodesHeaderBBox (bs : List UInt8) (m : HeaderBBox) : Prop := ∃ fs, Fields bs fs ∧ saysHeaderBBox fs m

/-- `message HeaderBlock`: what its fields say. -/
def saysHeaderBlock (fs : List Field) (m : HeaderBlock) : Prop :=
  Single 1 (AsMessage DecodesHeaderBBox) fs m.bbox ∧
  Many 4 AsText fs m.requiredFeatures ∧
  Many 5 AsText fs m.optionalFeatures ∧
  Single 16 AsText fs m.writingprogram ∧
  Single 17 AsText fs m.source ∧
  SingleNumber 32 IsInt64 fs m.osmosisReplicationTimestamp ∧
  SingleNumber 33 IsInt64 fs m.osmosisReplicationSequenceNumber ∧
  Single 34 AsText fs m.osmosisReplicationBaseUrl

/-- `message HeaderBlock`: what the bytes say. -/
def DecodesHeaderBlock (bs : List UInt8) (m : HeaderBlock) : Prop := ∃ fs, Fields bs fs ∧ saysHeaderBlock fs m

/-- `message StringTable`: what its fields say. -/
def saysStringTable (fs : List Field) (m : StringTable) : Prop :=
  Many 1 AsBytes fs m.s

/-- `message StringTable`: what the bytes say. -/
def DecodesStringTable (bs : List UInt8) (m : StringTable) : Prop := ∃ fs, Fields bs fs ∧ saysStringTable fs m

/-- `message Info`: what its fields say. -/
def saysInfo (fs : List Field) (m : Info) : Prop :=
  SingleNumber 1 IsInt32 fs m.version ∧
  SingleNumber 2 IsInt64 fs m.timestamp ∧
  SingleNumber 3 IsInt64 fs m.changeset ∧
  SingleNumber 4 IsInt32 fs m.uid ∧
  SingleNumber 5 IsUInt32 fs m.userSid ∧
  SingleNumber 6 IsBool fs m.visible

/-- `message Info`: what the bytes say. -/
def DecodesInfo (bs : List UInt8) (m : Info) : Prop := ∃ fs, Fields bs fs ∧ saysInfo fs m

/-- `message Node`: what its fields say. -/
def saysNode (fs : List Field) (m : Node) : Prop :=
  SingleNumber 1 IsSint64 fs m.id ∧
  ManyNumbers 2 IsUInt32 fs m.keys ∧
  ManyNumbers 3 IsUInt32 fs m.vals ∧
  Single 4 (AsMessage DecodesInfo) fs m.info ∧
  SingleNumber 8 IsSint64 fs m.lat ∧
  SingleNumber 9 IsSint64 fs m.lon

/-- `message Node`: what the bytes say. -/
def DecodesNode (bs : List UInt8) (m : Node) : Prop := ∃ fs, Fields bs fs ∧ saysNode fs m

/-- `message DenseInfo`: what its fields say. -/
def saysDenseInfo (fs : List Field) (m : DenseInfo) : Prop :=
  ManyNumbers 1 IsInt32 fs m.version ∧
  ManyNumbers 2 IsSint64 fs m.timestamp ∧
  ManyNumbers 3 IsSint64 fs m.changeset ∧
  ManyNumbers 4 IsSint32 fs m.uid ∧
  ManyNumbers 5 IsSint32 fs m.userSid ∧
  ManyNumbers 6 IsBool fs m.visible

/-- `message DenseInfo`: what the bytes say. -/
def DecodesDenseInfo (bs : List UInt8) (m : DenseInfo) : Prop := ∃ fs, Fields bs fs ∧ saysDenseInfo fs m

/-- `message DenseNodes`: what its fields say. -/
def saysDenseNodes (fs : List Field) (m : DenseNodes) : Prop :=
  ManyNumbers 1 IsSint64 fs m.id ∧
  Single 5 (AsMessage DecodesDenseInfo) fs m.denseinfo ∧
  ManyNumbers 8 IsSint64 fs m.lat ∧
  ManyNumbers 9 IsSint64 fs m.lon ∧
  ManyNumbers 10 IsInt32 fs m.keysVals

/-- `message DenseNodes`: what the bytes say. -/
def DecodesDenseNodes (bs : List UInt8) (m : DenseNodes) : Prop := ∃ fs, Fields bs fs ∧ saysDenseNodes fs m

/-- `message Way`: what its fields say. -/
def saysWay (fs : List Field) (m : Way) : Prop :=
  SingleNumber 1 IsInt64 fs m.id ∧
  ManyNumbers 2 IsUInt32 fs m.keys ∧
  ManyNumbers 3 IsUInt32 fs m.vals ∧
  Single 4 (AsMessage DecodesInfo) fs m.info ∧
  ManyNumbers 8 IsSint64 fs m.refs

/-- `message Way`: what the bytes say. -/
def DecodesWay (bs : List UInt8) (m : Way) : Prop := ∃ fs, Fields bs fs ∧ saysWay fs m

/-- `message Relation`: what its fields say. -/
def saysRelation (fs : List Field) (m : Relation) : Prop :=
  SingleNumber 1 IsInt64 fs m.id ∧
  ManyNumbers 2 IsUInt32 fs m.keys ∧
  ManyNumbers 3 IsUInt32 fs m.vals ∧
  Single 4 (AsMessage DecodesInfo) fs m.info ∧
  ManyNumbers 8 IsInt32 fs m.rolesSid ∧
  ManyNumbers 9 IsSint64 fs m.memids ∧
  ManyNumbers 10 IsInt32 fs m.types

/-- `message Relation`: what the bytes say. -/
def DecodesRelation (bs : List UInt8) (m : Relation) : Prop := ∃ fs, Fields bs fs ∧ saysRelation fs m

/-- `message ChangeSet`: what its fields say. -/
def saysChangeSet (fs : List Field) (m : ChangeSet) : Prop :=
  SingleNumber 1 IsInt64 fs m.id

/-- `message ChangeSet`: what the bytes say. -/
def DecodesChangeSet (bs : List UInt8) (m : ChangeSet) : Prop := ∃ fs, Fields bs fs ∧ saysChangeSet fs m

/-- `message PrimitiveGroup`: what its fields say. -/
def saysPrimitiveGroup (fs : List Field) (m : PrimitiveGroup) : Prop :=
  Many 1 (AsMessage DecodesNode) fs m.nodes ∧
  Single 2 (AsMessage DecodesDenseNodes) fs m.dense ∧
  Many 3 (AsMessage DecodesWay) fs m.ways ∧
  Many 4 (AsMessage DecodesRelation) fs m.relations ∧
  Many 5 (AsMessage DecodesChangeSet) fs m.changesets

/-- `message PrimitiveGroup`: what the bytes say. -/
def DecodesPrimitiveGroup (bs : List UInt8) (m : PrimitiveGroup) : Prop := ∃ fs, Fields bs fs ∧ saysPrimitiveGroup fs m

/-- `message PrimitiveBlock`: what its fields say. -/
def saysPrimitiveBlock (fs : List Field) (m : PrimitiveBlock) : Prop :=
  Single 1 (AsMessage DecodesStringTable) fs m.stringtable ∧
  Many 2 (AsMessage DecodesPrimitiveGroup) fs m.primitivegroup ∧
  SingleNumber 17 IsInt32 fs m.granularity ∧
  SingleNumber 19 IsInt64 fs m.latOffset ∧
  SingleNumber 20 IsInt64 fs m.lonOffset ∧
  SingleNumber 18 IsInt32 fs m.dateGranularity

/-- `message PrimitiveBlock`: what the bytes say. -/
def DecodesPrimitiveBlock (bs : List UInt8) (m : PrimitiveBlock) : Prop := ∃ fs, Fields bs fs ∧ saysPrimitiveBlock fs m

end Osmio.Spec.Pbf
