import Verif.Model.StringPbf
import Verif.Model.ArcPbf
import Verif.Model.NodePos
import Verif.Model.Family
import Verif.Spec.Drain
import Verif.Spec.PbfBlock
import Verif.Spec.PbfSchema
/-!
# Specification: PBF files and what the readers make of them

A file is a sequence of frames: the length of a header in four bytes, the header, and as much data as the header says.
-/

namespace Osmio.Spec.Pbf

/-- The two readers of objects: `stringpbf::PBFReader` and `arcpbf::PBFReader`. -/
inductive Which where
  | owned
  | shared
  deriving DecidableEq

/-- What a reader makes of a block (`none`: it panics). -/
def Which.objects (r : Which) (b : Build) (block : Proto.PrimitiveBlock) : Option (List ObjData) :=
  match r with
  | .owned =>
    match StringPbf.decodeBlock b block (true, true, true) with
    | (os, none) => some (os.map objData)
    | (_, some _) => none
  | .shared =>
    match ArcPbf.decodeBlock b block with
    | .ok os => some (os.map objData)
    | .error _ => none

/-- What the reader of positions makes of a block. -/
def positions (b : Build) (block : Proto.PrimitiveBlock) : Option (List (ObjId × (Lat × Lon))) :=
  match NodePos.decodeBlock b block with
  | (xs, none) => some xs
  | (_, some _) => none

/-- The nodes among some objects, with their positions. -/
def positionsOf (ds : List ObjData) : List (ObjId × (Lat × Lon)) :=
  ds.filterMap fun d => if d.view.kind = .node then d.pos.map (d.view.id, ·) else none

/-- A group with objects of one kind only, as the format requires. -/
def OneKind (g : Proto.PrimitiveGroup) : Prop :=
  (g.dense ≠ none ∧ g.ways = [] ∧ g.relations = []) ∨ (g.dense = none ∧ g.ways ≠ [] ∧ g.relations = []) ∨
    (g.dense = none ∧ g.ways = [] ∧ g.relations ≠ [])

/-- A group whose nodes, if it has any, are all that it has, and that is not entirely empty. -/
def NodesAlone (g : Proto.PrimitiveGroup) : Prop :=
  (∀ dense, g.dense = some dense → dense.id ≠ [] → g.ways = [] ∧ g.relations = []) ∧ (g.dense = none → g.ways ≠ [] ∨ g.relations ≠ [])

/-- A number in four bytes, the most significant first. -/
def be32 (n : Nat) : Proto.Bytes :=
  [UInt8.ofNat (n / 16777216), UInt8.ofNat (n / 65536), UInt8.ofNat (n / 256), UInt8.ofNat n]

/-- A frame of a file. -/
structure Frame where
  header : Proto.Bytes
  data : Proto.Bytes

/-- Its bytes. -/
def Frame.bytes (f : Frame) : Proto.Bytes := be32 f.header.length ++ (f.header ++ f.data)

/-- The bytes of a file. -/
def fileBytes (fs : List Frame) : Proto.Bytes := fs.flatMap Frame.bytes

/-- A source that gives these bytes without an error. -/
def source (bs : Proto.Bytes) : Source := bs.map some

/-- The frame has this header, which states the right size. -/
def Framed (f : Frame) (h : Proto.BlobHeader) : Prop :=
  f.header.length < 4294967296 ∧ Proto.BlobHeader.parseFromBytes f.header = some h ∧
    ∃ n, h.datasize = some n ∧ n.toInt = f.data.length

/-- A blob holds data compressed with zlib. -/
def ZlibStored (zlib : Proto.Bytes → Option Proto.Bytes) (blob : Proto.Blob) (data : Proto.Bytes) : Prop :=
  ∃ z n, blob.raw = none ∧ blob.zlibData = some z ∧ zlib z = some data ∧ blob.rawSize = some n ∧ n.toInt = data.length

/-- A blob holds data as it is. -/
def RawStored (blob : Proto.Blob) (data : Proto.Bytes) : Prop := blob.raw = some data

/-- What is in a frame: something the readers pass over (`none`), or a block. -/
inductive FrameIs (stored : Proto.Blob → Proto.Bytes → Prop) (f : Frame) : Option Proto.PrimitiveBlock → Prop
  | other (h : Proto.BlobHeader) : Framed f h → h.type_ ≠ some (str% "OSMData") → FrameIs stored f none
  | block (h : Proto.BlobHeader) (blob : Proto.Blob) (data : Proto.Bytes) (block : Proto.PrimitiveBlock) :
      Framed f h → h.type_ = some (str% "OSMData") → Proto.Blob.parseFromBytes f.data = some blob → stored blob data →
      Proto.PrimitiveBlock.parseFromBytes data = some block → FrameIs stored f (some block)

/-- The objects of a frame as a reader sees them: none if the frame is not data, else those of its block. -/
inductive FrameReads (r : Which) (zlib : Proto.Bytes → Option Proto.Bytes) (b : Build) (f : Frame) : List ObjData → Prop
  | other : FrameIs (ZlibStored zlib) f none → FrameReads r zlib b f []
  | block (block : Proto.PrimitiveBlock) (ds : List ObjData) :
      FrameIs (ZlibStored zlib) f (some block) → r.objects b block = some ds → FrameReads r zlib b f ds

/-- Reading a source to the end, or to a panic, with a new reader shows these objects. -/
def Reads (r : Which) (zlib : Proto.Bytes → Option Proto.Bytes) (b : Build) (src : Source) (ds : List ObjData) (e : Option Panic) :
    Prop :=
  match r with
  | .owned => ∃ os s', Drain (StringPbf.PBFReader.next zlib b) (StringPbf.PBFReader.new src) os e s' ∧ os.map objData = ds
  | .shared => ∃ os s', Drain (ArcPbf.PBFReader.next zlib b) (ArcPbf.PBFReader.new src) os e s' ∧ os.map objData = ds

/-- The same for the reader of positions. -/
def ReadsPositions (zlib : Proto.Bytes → Option Proto.Bytes) (b : Build) (src : Source) (xs : List (ObjId × (Lat × Lon)))
    (e : Option Panic) : Prop :=
  ∃ s', Drain (NodePos.Reader.next zlib b) (NodePos.Reader.new src) xs e s'

/-! ## Writing a file -/

/-- The frame of a blob. -/
def frameOf (type_ : Str) (blob : Proto.Blob) : Frame :=
  { header := encodeBlobHeader { type_ := some type_, datasize := some (Int32.ofNat (encodeBlob blob).length) }
    data := encodeBlob blob }

/-- The frame is one of those a message can be as long as. -/
def Frame.Fits (f : Frame) : Prop := f.header.length ≤ 2147483647 ∧ f.data.length ≤ 2147483647

/-- A block compressed with zlib. -/
def zlibBlob (deflate : Proto.Bytes → Proto.Bytes) (block : Proto.PrimitiveBlock) : Proto.Blob :=
  { rawSize := some (Int32.ofNat (encodePrimitiveBlock block).length), zlibData := some (deflate (encodePrimitiveBlock block)) }

/-- A block as it is. -/
def rawBlob (block : Proto.PrimitiveBlock) : Proto.Blob := { raw := some (encodePrimitiveBlock block) }

/-- A frame of a file that follows the format, with these objects: one that is not data, whatever is in it, or a well formed block. -/
inductive Written (deflate : Proto.Bytes → Proto.Bytes) : Frame → Option Proto.PrimitiveBlock → List ObjData → Prop
  | other (type_ : Str) (blob : Proto.Blob) : type_ ≠ str% "OSMData" → (frameOf type_ blob).Fits →
      Written deflate (frameOf type_ blob) none []
  | block (block : Proto.PrimitiveBlock) (ds : List ObjData) : hasPrimitiveBlock block → IsBlock block ds →
      (encodePrimitiveBlock block).length ≤ 2147483647 → (frameOf (str% "OSMData") (zlibBlob deflate block)).Fits →
      Written deflate (frameOf (str% "OSMData") (zlibBlob deflate block)) (some block) ds

/-- After `n` objects have been taken from a reader of the frames `fs` with the objects `dss`, followed by `tail`, the stream has been read
up to the end of the first frame up to which there are `n` objects, no further. -/
def ReadNoFurther (fs : List Frame) (dss : List (List ObjData)) (tail : Source) (n : Nat) (left : Source) : Prop :=
  ∃ m, m ≤ fs.length ∧ left = source (fileBytes (fs.drop m)) ++ tail ∧
    n ≤ (dss.take m).flatten.length ∧ ∀ m' < m, (dss.take m').flatten.length < n

end Osmio.Spec.Pbf
