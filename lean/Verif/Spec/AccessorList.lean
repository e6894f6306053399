import Verif.Spec.Accessors
import Verif.Model.Accessors
import Verif.Spec.PbfSchema
/-!
# Specification: the singular fields of the OSM PBF messages and their accessors

Written from `src/stringpbf/fileformat.proto` and `src/stringpbf/osmformat.proto` by `tools/genaccess.py`: one line for each field there that is not repeated
and has no message type, with its type, default value, number and encoding, next to the names of its accessors. `rest` are the other fields, which have no accessors.
-/

namespace Osmio.Spec.Access

open Proto Wire

/-- `message BlobHeader` -/
def blobHeader : List (Member BlobHeader) :=
  [⟨Str, [], fun v => delimited 1 (Utf8.encode v),
    BlobHeader.getType, BlobHeader.hasType, BlobHeader.setType, BlobHeader.clearType, some ⟨BlobHeader.mutType, BlobHeader.takeType⟩⟩,
   ⟨Bytes, [], fun v => delimited 2 v,
    BlobHeader.getIndexdata, BlobHeader.hasIndexdata, BlobHeader.setIndexdata, BlobHeader.clearIndexdata, some ⟨BlobHeader.mutIndexdata, BlobHeader.takeIndexdata⟩⟩,
   ⟨Int32, 0, fun v => number 3 (int32 v),
    BlobHeader.getDatasize, BlobHeader.hasDatasize, BlobHeader.setDatasize, BlobHeader.clearDatasize, none⟩]
/-- The fields of `message BlobHeader` that are repeated or messages. -/
def blobHeaderRest (m : BlobHeader) := (fun _ => ()) m

/-- `message Blob` -/
def blob : List (Member Blob) :=
  [⟨Bytes, [], fun v => delimited 1 v,
    Blob.getRaw, Blob.hasRaw, Blob.setRaw, Blob.clearRaw, some ⟨Blob.mutRaw, Blob.takeRaw⟩⟩,
   ⟨Int32, 0, fun v => number 2 (int32 v),
    Blob.getRawSize, Blob.hasRawSize, Blob.setRawSize, Blob.clearRawSize, none⟩,
   ⟨Bytes, [], fun v => delimited 3 v,
    Blob.getZlibData, Blob.hasZlibData, Blob.setZlibData, Blob.clearZlibData, some ⟨Blob.mutZlibData, Blob.takeZlibData⟩⟩,
   ⟨Bytes, [], fun v => delimited 4 v,
    Blob.getLzmaData, Blob.hasLzmaData, Blob.setLzmaData, Blob.clearLzmaData, some ⟨Blob.mutLzmaData, Blob.takeLzmaData⟩⟩,
   ⟨Bytes, [], fun v => delimited 5 v,
    Blob.getObsoleteBzip2Data, Blob.hasObsoleteBzip2Data, Blob.setObsoleteBzip2Data, Blob.clearObsoleteBzip2Data, some ⟨Blob.mutObsoleteBzip2Data, Blob.takeObsoleteBzip2Data⟩⟩]
/-- The fields of `message Blob` that are repeated or messages. -/
def blobRest (m : Blob) := (fun _ => ()) m

/-- `message HeaderBlock` -/
def headerBlock : List (Member HeaderBlock) :=
  [⟨Str, [], fun v => delimited 16 (Utf8.encode v),
    HeaderBlock.getWritingprogram, HeaderBlock.hasWritingprogram, HeaderBlock.setWritingprogram, HeaderBlock.clearWritingprogram, some ⟨HeaderBlock.mutWritingprogram, HeaderBlock.takeWritingprogram⟩⟩,
   ⟨Str, [], fun v => delimited 17 (Utf8.encode v),
    HeaderBlock.getSource, HeaderBlock.hasSource, HeaderBlock.setSource, HeaderBlock.clearSource, some ⟨HeaderBlock.mutSource, HeaderBlock.takeSource⟩⟩,
   ⟨Int64, 0, fun v => number 32 (int64 v),
    HeaderBlock.getOsmosisReplicationTimestamp, HeaderBlock.hasOsmosisReplicationTimestamp, HeaderBlock.setOsmosisReplicationTimestamp, HeaderBlock.clearOsmosisReplicationTimestamp, none⟩,
   ⟨Int64, 0, fun v => number 33 (int64 v),
    HeaderBlock.getOsmosisReplicationSequenceNumber, HeaderBlock.hasOsmosisReplicationSequenceNumber, HeaderBlock.setOsmosisReplicationSequenceNumber, HeaderBlock.clearOsmosisReplicationSequenceNumber, none⟩,
   ⟨Str, [], fun v => delimited 34 (Utf8.encode v),
    HeaderBlock.getOsmosisReplicationBaseUrl, HeaderBlock.hasOsmosisReplicationBaseUrl, HeaderBlock.setOsmosisReplicationBaseUrl, HeaderBlock.clearOsmosisReplicationBaseUrl, some ⟨HeaderBlock.mutOsmosisReplicationBaseUrl, HeaderBlock.takeOsmosisReplicationBaseUrl⟩⟩]
/-- The fields of `message HeaderBlock` that are repeated or messages. -/
def headerBlockRest (m : HeaderBlock) := (m.bbox, m.requiredFeatures, m.optionalFeatures)

/-- `message HeaderBBox` -/
def headerBBox : List (Member HeaderBBox) :=
  [⟨Int64, 0, fun v => number 1 (sint64 v),
    HeaderBBox.getLeft, HeaderBBox.hasLeft, HeaderBBox.setLeft, HeaderBBox.clearLeft, none⟩,
   ⟨Int64, 0, fun v => number 2 (sint64 v),
    HeaderBBox.getRight, HeaderBBox.hasRight, HeaderBBox.setRight, HeaderBBox.clearRight, none⟩,
   ⟨Int64, 0, fun v => number 3 (sint64 v),
    HeaderBBox.getTop, HeaderBBox.hasTop, HeaderBBox.setTop, HeaderBBox.clearTop, none⟩,
   ⟨Int64, 0, fun v => number 4 (sint64 v),
    HeaderBBox.getBottom, HeaderBBox.hasBottom, HeaderBBox.setBottom, HeaderBBox.clearBottom, none⟩]
/-- The fields of `message HeaderBBox` that are repeated or messages. -/
def headerBBoxRest (m : HeaderBBox) := (fun _ => ()) m

/-- `message PrimitiveBlock` -/
def primitiveBlock : List (Member PrimitiveBlock) :=
  [⟨Int32, 100, fun v => number 17 (int32 v),
    PrimitiveBlock.getGranularity, PrimitiveBlock.hasGranularity, PrimitiveBlock.setGranularity, PrimitiveBlock.clearGranularity, none⟩,
   ⟨Int64, 0, fun v => number 19 (int64 v),
    PrimitiveBlock.getLatOffset, PrimitiveBlock.hasLatOffset, PrimitiveBlock.setLatOffset, PrimitiveBlock.clearLatOffset, none⟩,
   ⟨Int64, 0, fun v => number 20 (int64 v),
    PrimitiveBlock.getLonOffset, PrimitiveBlock.hasLonOffset, PrimitiveBlock.setLonOffset, PrimitiveBlock.clearLonOffset, none⟩,
   ⟨Int32, 1000, fun v => number 18 (int32 v),
    PrimitiveBlock.getDateGranularity, PrimitiveBlock.hasDateGranularity, PrimitiveBlock.setDateGranularity, PrimitiveBlock.clearDateGranularity, none⟩]
/-- The fields of `message PrimitiveBlock` that are repeated or messages. -/
def primitiveBlockRest (m : PrimitiveBlock) := (m.stringtable, m.primitivegroup)

/-- `message PrimitiveGroup` -/
def primitiveGroup : List (Member PrimitiveGroup) :=
  []
/-- The fields of `message PrimitiveGroup` that are repeated or messages. -/
def primitiveGroupRest (m : PrimitiveGroup) := (m.nodes, m.dense, m.ways, m.relations, m.changesets)

/-- `message StringTable` -/
def stringTable : List (Member StringTable) :=
  []
/-- The fields of `message StringTable` that are repeated or messages. -/
def stringTableRest (m : StringTable) := (m.s)

/-- `message Info` -/
def info : List (Member Info) :=
  [⟨Int32, -1, fun v => number 1 (int32 v),
    Info.getVersion, Info.hasVersion, Info.setVersion, Info.clearVersion, none⟩,
   ⟨Int64, 0, fun v => number 2 (int64 v),
    Info.getTimestamp, Info.hasTimestamp, Info.setTimestamp, Info.clearTimestamp, none⟩,
   ⟨Int64, 0, fun v => number 3 (int64 v),
    Info.getChangeset, Info.hasChangeset, Info.setChangeset, Info.clearChangeset, none⟩,
   ⟨Int32, 0, fun v => number 4 (int32 v),
    Info.getUid, Info.hasUid, Info.setUid, Info.clearUid, none⟩,
   ⟨UInt32, 0, fun v => number 5 (uint32 v),
    Info.getUserSid, Info.hasUserSid, Info.setUserSid, Info.clearUserSid, none⟩,
   ⟨Bool, false, fun v => number 6 (bool v),
    Info.getVisible, Info.hasVisible, Info.setVisible, Info.clearVisible, none⟩]
/-- The fields of `message Info` that are repeated or messages. -/
def infoRest (m : Info) := (fun _ => ()) m

/-- `message DenseInfo` -/
def denseInfo : List (Member DenseInfo) :=
  []
/-- The fields of `message DenseInfo` that are repeated or messages. -/
def denseInfoRest (m : DenseInfo) := (m.version, m.timestamp, m.changeset, m.uid, m.userSid, m.visible)

/-- `message ChangeSet` -/
def changeSet : List (Member ChangeSet) :=
  [⟨Int64, 0, fun v => number 1 (int64 v),
    ChangeSet.getId, ChangeSet.hasId, ChangeSet.setId, ChangeSet.clearId, none⟩]
/-- The fields of `message ChangeSet` that are repeated or messages. -/
def changeSetRest (m : ChangeSet) := (fun _ => ()) m

/-- `message Node` -/
def node : List (Member Node) :=
  [⟨Int64, 0, fun v => number 1 (sint64 v),
    Node.getId, Node.hasId, Node.setId, Node.clearId, none⟩,
   ⟨Int64, 0, fun v => number 8 (sint64 v),
    Node.getLat, Node.hasLat, Node.setLat, Node.clearLat, none⟩,
   ⟨Int64, 0, fun v => number 9 (sint64 v),
    Node.getLon, Node.hasLon, Node.setLon, Node.clearLon, none⟩]
/-- The fields of `message Node` that are repeated or messages. -/
def nodeRest (m : Node) := (m.keys, m.vals, m.info)

/-- `message DenseNodes` -/
def denseNodes : List (Member DenseNodes) :=
  []
/-- The fields of `message DenseNodes` that are repeated or messages. -/
def denseNodesRest (m : DenseNodes) := (m.id, m.denseinfo, m.lat, m.lon, m.keysVals)

/-- `message Way` -/
def way : List (Member Way) :=
  [⟨Int64, 0, fun v => number 1 (int64 v),
    Way.getId, Way.hasId, Way.setId, Way.clearId, none⟩]
/-- The fields of `message Way` that are repeated or messages. -/
def wayRest (m : Way) := (m.keys, m.vals, m.info, m.refs)

/-- `message Relation` -/
def relation : List (Member Relation) :=
  [⟨Int64, 0, fun v => number 1 (int64 v),
    Relation.getId, Relation.hasId, Relation.setId, Relation.clearId, none⟩]
/-- The fields of `message Relation` that are repeated or messages. -/
def relationRest (m : Relation) := (m.keys, m.vals, m.info, m.rolesSid, m.memids, m.types)

/-- `enum MemberType` -/
def memberTypes : List (Str × Int32) := [(str% "NODE", 0), (str% "WAY", 1), (str% "RELATION", 2)]

end Osmio.Spec.Access
