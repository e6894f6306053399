import Verif.Spec.PbfFile
import Verif.Spec.Zlib
/-!
# Specification: data blocks of PBF files as zlib streams
-/

namespace Osmio.Spec.Pbf

/-- A decompressor that gives back what a stream of the format stands for. Nothing is said of what it makes of other bytes. -/
def Decompresses (zlib : Proto.Bytes → Option Proto.Bytes) : Prop := ∀ p x, Zlib.Stream p x → zlib p = some x

/-- A blob holds data in a zlib stream, and states the size of the data. -/
def Deflated (blob : Proto.Blob) (data : Proto.Bytes) : Prop :=
  ∃ p n, blob.raw = none ∧ blob.zlibData = some p ∧ Zlib.Stream p data ∧ blob.rawSize = some n ∧ n.toInt = data.length

/-- What is in a frame: something other than data (`none`), or some data. -/
inductive FrameHolds (f : Frame) : Option Proto.Bytes → Prop
  | other (h : Proto.BlobHeader) : Framed f h → h.type_ ≠ some (str% "OSMData") → FrameHolds f none
  | data (h : Proto.BlobHeader) (blob : Proto.Blob) (data : Proto.Bytes) : Framed f h → h.type_ = some (str% "OSMData") →
      Proto.Blob.parseFromBytes f.data = some blob → Deflated blob data → FrameHolds f (some data)

/-- A frame of a file that follows the format, with these objects. Its encoder may have compressed the block in any way. -/
inductive Compressed : Frame → Option Proto.PrimitiveBlock → List ObjData → Prop
  | other (type_ : Str) (blob : Proto.Blob) : type_ ≠ str% "OSMData" → (frameOf type_ blob).Fits → Compressed (frameOf type_ blob) none []
  | block (block : Proto.PrimitiveBlock) (ds : List ObjData) (p : Proto.Bytes) : hasPrimitiveBlock block → IsBlock block ds →
      (encodePrimitiveBlock block).length ≤ 2147483647 → Zlib.Stream p (encodePrimitiveBlock block) →
      (frameOf (str% "OSMData") (zlibBlob (fun _ => p) block)).Fits →
      Compressed (frameOf (str% "OSMData") (zlibBlob (fun _ => p) block)) (some block) ds

end Osmio.Spec.Pbf
