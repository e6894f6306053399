import Verif.Spec.Wire
import Verif.Model.Proto
/-!
# Specification: the encoding of the OSM PBF messages

Written from `src/stringpbf/fileformat.proto` and `src/stringpbf/osmformat.proto` by `tools/genproto.py`, one line for each line of a
message there: field number and type. The message types are those of `Verif.Model.Proto`, which come from the Rust code.
-/

namespace Osmio.Spec.Pbf

open Wire Proto

/-- `message BlobHeader` -/
def encodeBlobHeader (m : BlobHeader) : List UInt8 :=
  opt m.type_ (fun v => delimited 1 (Utf8.encode v)) ++
  (opt m.indexdata (fun v => delimited 2 v) ++
  (opt m.datasize (fun v => number 3 (int32 v))))

/-- The required fields of `message BlobHeader` are there. -/
def hasBlobHeader (m : BlobHeader) : Prop :=
  m.type_ ≠ none ∧ m.datasize ≠ none

/-- `message Blob` -/
def encodeBlob (m : Blob) : List UInt8 :=
  opt m.raw (fun v => delimited 1 v) ++
  (opt m.rawSize (fun v => number 2 (int32 v)) ++
  (opt m.zlibData (fun v => delimited 3 v) ++
  (opt m.lzmaData (fun v => delimited 4 v) ++
  (opt m.obsoleteBzip2Data (fun v => delimited 5 v)))))

/-- The required fields of `message Blob` are there. -/
def hasBlob (_ : Blob) : Prop :=
  True

/-- `message HeaderBBox` -/
def encodeHeaderBBox (m : HeaderBBox) : List UInt8 :=
  opt m.left (fun v => number 1 (sint64 v)) ++
  (opt m.right (fun v => number 2 (sint64 v)) ++
  (opt m.top (fun v => number 3 (sint64 v)) ++
  (opt m.bottom (fun v => number 4 (sint64 v)))))

/-- The required fields of `message HeaderBBox` are there. -/
def hasHeaderBBox (m : HeaderBBox) : Prop :=
  m.left ≠ none ∧ m.right ≠ none ∧ m.top ≠ none ∧ m.bottom ≠ none

/-- `message HeaderBlock` -/
def encodeHeaderBlock (m : HeaderBlock) : List UInt8 :=
  opt m.bbox (fun v => delimited 1 (encodeHeaderBBox v)) ++
  (rep m.requiredFeatures (fun v => delimited 4 (Utf8.encode v)) ++
  (rep m.optionalFeatures (fun v => delimited 5 (Utf8.encode v)) ++
  (opt m.writingprogram (fun v => delimited 16 (Utf8.encode v)) ++
  (opt m.source (fun v => delimited 17 (Utf8.encode v)) ++
  (opt m.osmosisReplicationTimestamp (fun v => number 32 (int64 v)) ++
  (opt m.osmosisReplicationSequenceNumber (fun v => number 33 (int64 v)) ++
  (opt m.osmosisReplicationBaseUrl (fun v => delimited 34 (Utf8.encode v)))))))))

/-- The required fields of `message HeaderBlock` are there. -/
def hasHeaderBlock (m : HeaderBlock) : Prop :=
  (∀ v, m.bbox = some v → hasHeaderBBox v)

/-- `message StringTable` -/
def encodeStringTable (m : StringTable) : List UInt8 :=
  rep m.s (fun v => delimited 1 v)

/-- The required fields of `message StringTable` are there. -/
def hasStringTable (_ : StringTable) : Prop :=
  True

/-- `message Info` -/
def encodeInfo (m : Info) : List UInt8 :=
  opt m.version (fun v => number 1 (int32 v)) ++
  (opt m.timestamp (fun v => number 2 (int64 v)) ++
  (opt m.changeset (fun v => number 3 (int64 v)) ++
  (opt m.uid (fun v => number 4 (int32 v)) ++
  (opt m.userSid (fun v => number 5 (uint32 v)) ++
  (opt m.visible (fun v => number 6 (bool v)))))))

/-- The required fields of `message Info` are there. -/
def hasInfo (_ : Info) : Prop :=
  True

/-- `message Node` -/
def encodeNode (m : Node) : List UInt8 :=
  opt m.id (fun v => number 1 (sint64 v)) ++
  (packed 2 uint32 m.keys ++
  (packed 3 uint32 m.vals ++
  (opt m.info (fun v => delimited 4 (encodeInfo v)) ++
  (opt m.lat (fun v => number 8 (sint64 v)) ++
  (opt m.lon (fun v => number 9 (sint64 v)))))))

/-- The required fields of `message Node` are there. -/
def hasNode (m : Node) : Prop :=
  m.id ≠ none ∧ (∀ v, m.info = some v → hasInfo v) ∧ m.lat ≠ none ∧ m.lon ≠ none

/-- `message DenseInfo` -/
def encodeDenseInfo (m : DenseInfo) : List UInt8 :=
  packed 1 int32 m.version ++
  (packed 2 sint64 m.timestamp ++
  (packed 3 sint64 m.changeset ++
  (packed 4 sint32 m.uid ++
  (packed 5 sint32 m.userSid ++
  (packed 6 bool m.visible)))))

/-- The required fields of `message DenseInfo` are there. -/
def hasDenseInfo (_ : DenseInfo) : Prop :=
  True

/-- `message DenseNodes` -/
def encodeDenseNodes (m : DenseNodes) : List UInt8 :=
  packed 1 sint64 m.id ++
  (opt m.denseinfo (fun v => delimited 5 (encodeDenseInfo v)) ++
  (packed 8 sint64 m.lat ++
  (packed 9 sint64 m.lon ++
  (packed 10 int32 m.keysVals))))

/-- The required fields of `message DenseNodes` are there. -/
def hasDenseNodes (m : DenseNodes) : Prop :=
  (∀ v, m.denseinfo = some v → hasDenseInfo v)

/-- `message Way` -/
def encodeWay (m : Way) : List UInt8 :=
  opt m.id (fun v => number 1 (int64 v)) ++
  (packed 2 uint32 m.keys ++
  (packed 3 uint32 m.vals ++
  (opt m.info (fun v => delimited 4 (encodeInfo v)) ++
  (packed 8 sint64 m.refs))))

/-- The required fields of `message Way` are there. -/
def hasWay (m : Way) : Prop :=
  m.id ≠ none ∧ (∀ v, m.info = some v → hasInfo v)

/-- `message Relation` -/
def encodeRelation (m : Relation) : List UInt8 :=
  opt m.id (fun v => number 1 (int64 v)) ++
  (packed 2 uint32 m.keys ++
  (packed 3 uint32 m.vals ++
  (opt m.info (fun v => delimited 4 (encodeInfo v)) ++
  (packed 8 int32 m.rolesSid ++
  (packed 9 sint64 m.memids ++
  (packed 10 enum m.types))))))

/-- The required fields of `message Relation` are there. -/
def hasRelation (m : Relation) : Prop :=
  m.id ≠ none ∧ (∀ v, m.info = some v → hasInfo v)

/-- `message ChangeSet` -/
def encodeChangeSet (m : ChangeSet) : List UInt8 :=
  opt m.id (fun v => number 1 (int64 v))

/-- The required fields of `message ChangeSet` are there. -/
def hasChangeSet (m : ChangeSet) : Prop :=
  m.id ≠ none

/-- `message PrimitiveGroup` -/
def encodePrimitiveGroup (m : PrimitiveGroup) : List UInt8 :=
  rep m.nodes (fun v => delimited 1 (encodeNode v)) ++
  (opt m.dense (fun v => delimited 2 (encodeDenseNodes v)) ++
  (rep m.ways (fun v => delimited 3 (encodeWay v)) ++
  (rep m.relations (fun v => delimited 4 (encodeRelation v)) ++
  (rep m.changesets (fun v => delimited 5 (encodeChangeSet v))))))

/-- The required fields of `message PrimitiveGroup` are there. -/
def hasPrimitiveGroup (m : PrimitiveGroup) : Prop :=
  (∀ v, v ∈ m.nodes → hasNode v) ∧ (∀ v, m.dense = some v → hasDenseNodes v) ∧ (∀ v, v ∈ m.ways → hasWay v) ∧ (∀ v, v ∈ m.relations → hasRelation v) ∧ (∀ v, v ∈ m.changesets → hasChangeSet v)

/-- `message PrimitiveBlock` -/
def encodePrimitiveBlock (m : PrimitiveBlock) : List UInt8 :=
  opt m.stringtable (fun v => delimited 1 (encodeStringTable v)) ++
  (rep m.primitivegroup (fun v => delimited 2 (encodePrimitiveGroup v)) ++
  (opt m.granularity (fun v => number 17 (int32 v)) ++
  (opt m.latOffset (fun v => number 19 (int64 v)) ++
  (opt m.lonOffset (fun v => number 20 (int64 v)) ++
  (opt m.dateGranularity (fun v => number 18 (int32 v)))))))

/-- The required fields of `message PrimitiveBlock` are there. -/
def hasPrimitiveBlock (m : PrimitiveBlock) : Prop :=
  m.stringtable ≠ none ∧ (∀ v, m.stringtable = some v → hasStringTable v) ∧ (∀ v, v ∈ m.primitivegroup → hasPrimitiveGroup v)

end Osmio.Spec.Pbf
