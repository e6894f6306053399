import Verif.Spec.PbfFile
import Verif.Model.PbfMemory
/-! # Specification: the memory asked for in reading PBF -/

namespace Osmio.Spec.Pbf

/-- What is asked for in a number of calls of `next`, in order. -/
def askedIn {σ Obj : Type} (next : σ → Res (Option Obj) × σ) (asked : σ → List Nat) : Nat → σ → List Nat
  | 0, _ => []
  | k + 1, r => asked r ++ askedIn next asked k (next r).2

/-- Buffers of these sizes, one after another, can be filled from `n` bytes, but perhaps for one more at the end. That one has less than
4 GiB. -/
def FilledButLast (n : Nat) (asks : List Nat) : Prop :=
  ∃ filled last, asks = filled ++ last ∧ filled.sum ≤ n ∧ (last = [] ∨ ∃ y, last = [y] ∧ y < 4294967296)

/-- The buffers for some frames: one for each header, and one for each piece of data. -/
def buffersOf (fs : List Frame) : List Nat := fs.flatMap fun f => [f.header.length, f.data.length]

/-- The size of the data in a frame, if it is data compressed with zlib that states its right size. -/
inductive FrameSize (zlib : Proto.Bytes → Option Proto.Bytes) (f : Frame) : List Nat → Prop
  | other (h : Proto.BlobHeader) : Framed f h → h.type_ ≠ some (str% "OSMData") → FrameSize zlib f []
  | data (h : Proto.BlobHeader) (blob : Proto.Blob) (data : Proto.Bytes) :
      Framed f h → h.type_ = some (str% "OSMData") → Proto.Blob.parseFromBytes f.data = some blob → ZlibStored zlib blob data →
      FrameSize zlib f [data.length]

end Osmio.Spec.Pbf
