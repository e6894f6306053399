import Verif.Lib.Machine
import Verif.Model.LatLon
/-!
# Model: `src/nodestore.rs`

This module is not compiled into the crate (no `mod nodestore` in `src/lib.rs`). The file is the list of its bytes. The disk does not fail, the
reader opens the file after the writer has been dropped (so `BufWriter` has written everything: `Model/NodeStoreBuffered` has the buffer, and `C59_buffered` shows this), and a file cannot reach `2^63` bytes
(`lseek` and `write` fail there).
-/

namespace Osmio.NodeStore

/-- `src/nodestore.rs:47` -/
def SENTINEL : Int32 := 2147483647

/-- `write_i32::<BigEndian>`; `src/nodestore.rs:33`, `36`, `42` and `43`. -/
def be32 (x : Int32) : List UInt8 :=
  [UInt8.ofNat (x.toUInt32.toNat / 2 ^ 24), UInt8.ofNat (x.toUInt32.toNat / 2 ^ 16), UInt8.ofNat (x.toUInt32.toNat / 2 ^ 8),
   UInt8.ofNat x.toUInt32.toNat]

/-- Write bytes at a position of a file; a gap is filled with zeros; `src/nodestore.rs:30-43`, `seek` and what is written after it. -/
def writeAt (file : List UInt8) (pos : Nat) (bytes : List UInt8) : List UInt8 :=
  file.take pos ++ List.replicate (pos - file.length) 0 ++ bytes ++ file.drop (pos + bytes.length)

/-- `src/nodestore.rs:9-12` -/
structure Writer where
  maxNodeId : Nat
  file : List UInt8

/-- `NodeStoreWriter::create` (`src/nodestore.rs:19-25`) -/
def Writer.create : Writer := ⟨0, []⟩

/-- The loop that writes empty entries at the end of the file (`src/nodestore.rs:30-38`). -/
def fill : Nat → List UInt8 → List UInt8
  | 0, file => file
  | n + 1, file => fill n (file ++ be32 SENTINEL ++ be32 SENTINEL)

/-- `NodeStoreWriter::set` (`src/nodestore.rs:27-44`) -/
def Writer.set (w : Writer) (nodeId : Nat) (lat : Lat) (lon : Lon) : Res Writer :=
  if 8 * (nodeId + 1) ≥ 2 ^ 63 then .error .unwrap
  else
    let w := if w.maxNodeId < nodeId then ⟨nodeId, fill (nodeId - w.maxNodeId) w.file⟩ else w
    .ok ⟨w.maxNodeId, writeAt w.file (nodeId * 8) (be32 lat.inner ++ be32 lon.inner)⟩

/-- `read_i32::<BigEndian>().unwrap()` at a position; `src/nodestore.rs:57` and `58`. -/
def readI32 (file : List UInt8) (pos : Nat) : Res Int32 :=
  if file.length < pos + 4 then .error .unwrap
  else .ok (UInt32.ofNat (fromBe ((file.drop pos).take 4))).toInt32

/-- `node_id * 8` on `u64` (`src/nodestore.rs:56`). -/
def position (b : Build) (nodeId : UInt64) : Res Nat :=
  if nodeId.toNat * 8 < 2 ^ 64 then .ok (nodeId.toNat * 8)
  else match b with
    | .debug => .error .overflow
    | .release => .ok (nodeId.toNat * 8 % 2 ^ 64)

/-- What follows the seek (`src/nodestore.rs:56-63`). A seek to `2^63` or more fails; so does a read past the end, with the same effect. -/
def readEntry (file : List UInt8) (pos : Nat) : Res (Option (Lat × Lon)) := do
  let lat ← readI32 file pos
  let lon ← readI32 file (pos + 4)
  if lat = SENTINEL ∨ lon = SENTINEL then .ok none else .ok (some (⟨lat⟩, ⟨lon⟩))

/-- `NodeStoreReader::get` (`src/nodestore.rs:55-64`) -/
def get (b : Build) (file : List UInt8) (nodeId : UInt64) : Res (Option (Lat × Lon)) := do
  let pos ← position b nodeId
  readEntry file pos

end Osmio.NodeStore
