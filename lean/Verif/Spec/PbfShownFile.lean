import Verif.Spec.PbfShown
import Verif.Spec.PbfChecked
import Verif.Spec.PbfDecode
/-!
# Specification: what the bytes of a PBF file look like to a reader

From the bytes of a file to the objects, for any bytes: frames, their headers, blobs and blocks by the wire format (`Spec/PbfDecode.lean`),
and the objects of a block by the formulas of `Spec/PbfShown.lean`. Nothing here refers to the readers.
-/

namespace Osmio.Spec.Pbf

/-- A frame with a header of this type, that states the right size. -/
def HeaderSays (f : Frame) (type_ : Str) : Prop :=
  f.header.length < 4294967296 ∧ ∃ h n, DecodesBlobHeader f.header h ∧ h.type_ = some type_ ∧ h.datasize = some n ∧
    n.toInt = f.data.length

/-- The data of a blob that is compressed with zlib. -/
def Unpacked (zlib : Proto.Bytes → Option Proto.Bytes) (blob : Proto.Blob) (data : Proto.Bytes) : Prop :=
  blob.raw = none ∧ ∃ z, blob.zlibData = some z ∧ zlib z = some data

/-- The data of a blob as a reader gets it. The shared-string reader wants to know the size in advance, and takes data that is not
compressed. -/
def DataIn (r : Which) (zlib : Proto.Bytes → Option Proto.Bytes) (blob : Proto.Blob) (data : Proto.Bytes) : Prop :=
  match r with
  | .owned => Unpacked zlib blob data
  | .shared => blob.raw = some data ∨ (Unpacked zlib blob data ∧ ∃ n, blob.rawSize = some n ∧ 0 ≤ n.toInt)

/-- A blob the owned-string reader passes over: it has no data, or has it in a form other than as it is or with zlib, or zlib gives nothing. -/
def PassedOver (zlib : Proto.Bytes → Option Proto.Bytes) (blob : Proto.Blob) : Prop :=
  blob.raw = some [] ∨ (blob.raw = none ∧ blob.zlibData = none) ∨ Unpacked zlib blob []

/-- The objects of a frame. -/
inductive FrameShown (r : Which) (zlib : Proto.Bytes → Option Proto.Bytes) (b : Build) (f : Frame) : List ObjData → Prop
  | other (type_ : Str) : HeaderSays f type_ → type_ ≠ str% "OSMData" → FrameShown r zlib b f []
  | nothing (blob : Proto.Blob) : r = .owned → HeaderSays f (str% "OSMData") → DecodesBlob f.data blob → PassedOver zlib blob →
      FrameShown r zlib b f []
  | block (blob : Proto.Blob) (data : Proto.Bytes) (block : Proto.PrimitiveBlock) (ds : List ObjData) :
      HeaderSays f (str% "OSMData") → DecodesBlob f.data blob → DataIn r zlib blob data →
      DecodesPrimitiveBlock data block → hasPrimitiveBlock block → ReadableIn b r block → BlockShown block ds → FrameShown r zlib b f ds

/-- The objects of a file: those of its frames, in order. Up to three more bytes may follow. -/
def FileShown (r : Which) (zlib : Proto.Bytes → Option Proto.Bytes) (b : Build) (bs : Proto.Bytes) (ds : List ObjData) : Prop :=
  ∃ fs tail dss, bs = fileBytes fs ++ tail ∧ tail.length < 4 ∧ List.Forall₂ (FrameShown r zlib b) fs dss ∧ ds = dss.flatten

/-! ## Positions -/

/-- The position of a node. -/
def shownPosition (b : Proto.PrimitiveBlock) (dense : Proto.DenseNodes) (i : Nat) : ObjId × (Lat × Lon) :=
  (Int64.ofInt (runningSum (ints dense.id) i),
    (⟨shownCoord (granularity b) (latOffset b) (runningSum (ints dense.lat) i)⟩,
     ⟨shownCoord (granularity b) (lonOffset b) (runningSum (ints dense.lon) i)⟩))

/-- The positions of a group: none if it has ways or relations. -/
inductive GroupPositions (b : Proto.PrimitiveBlock) (g : Proto.PrimitiveGroup) : List (ObjId × (Lat × Lon)) → Prop
  | other : g.ways ≠ [] ∨ g.relations ≠ [] → GroupPositions b g []
  | dense (dense : Proto.DenseNodes) : g.ways = [] → g.relations = [] → g.dense = some dense →
      GroupPositions b g ((List.range dense.id.length).map (shownPosition b dense))

/-- The positions of a frame. -/
inductive FramePositions (zlib : Proto.Bytes → Option Proto.Bytes) (b : Build) (f : Frame) : List (ObjId × (Lat × Lon)) → Prop
  | other (type_ : Str) : HeaderSays f type_ → type_ ≠ str% "OSMData" → FramePositions zlib b f []
  | block (blob : Proto.Blob) (data : Proto.Bytes) (block : Proto.PrimitiveBlock) (xss : List (List (ObjId × (Lat × Lon)))) :
      HeaderSays f (str% "OSMData") → DecodesBlob f.data blob → Unpacked zlib blob data →
      DecodesPrimitiveBlock data block → hasPrimitiveBlock block → (∀ g ∈ block.primitivegroup, PosReadableIn b block g) →
      List.Forall₂ (GroupPositions block) block.primitivegroup xss → FramePositions zlib b f xss.flatten

/-- The positions of a file. -/
def FilePositions (zlib : Proto.Bytes → Option Proto.Bytes) (b : Build) (bs : Proto.Bytes) (xs : List (ObjId × (Lat × Lon))) : Prop :=
  ∃ fs tail xss, bs = fileBytes fs ++ tail ∧ tail.length < 4 ∧ List.Forall₂ (FramePositions zlib b) fs xss ∧ xs = xss.flatten

end Osmio.Spec.Pbf
