import Verif.Model.NodeStore
/-!
# Model: `NodeStoreWriter` (`src/nodestore.rs`) with its `BufWriter`

`Model/NodeStore.lean` writes to the file at once. Here the writes go through a `BufWriter` of any capacity, as in the code. The disk does not fail and takes all of what it is given.
-/

namespace Osmio.NodeStore

/-- A `BufWriter<fs::File>` (`src/nodestore.rs:11`): the file, where it is written next, and the buffer. -/
structure BufFile where
  file : List UInt8
  pos : Nat
  buf : List UInt8

namespace BufFile

/-- `BufWriter::flush_buf`, as `seek` and the drop do it; `src/nodestore.rs:30` and `41`. -/
def flush (b : BufFile) : BufFile := if b.buf = [] then b else ⟨writeAt b.file b.pos b.buf, b.pos + b.buf.length, []⟩

/-- `write_all` of `BufWriter`; `src/nodestore.rs:33`, `36`, `42` and `43`, below `write_i32`. -/
def put (capacity : Nat) (b : BufFile) (bytes : List UInt8) : BufFile :=
  if bytes.length < capacity - b.buf.length then { b with buf := b.buf ++ bytes }
  else
    let b := if bytes.length > capacity - b.buf.length then b.flush else b
    if bytes.length ≥ capacity then { b with file := writeAt b.file b.pos bytes, pos := b.pos + bytes.length }
    else { b with buf := b.buf ++ bytes }

/-- `seek(SeekFrom::Start(pos))`; `src/nodestore.rs:41`. -/
def seekStart (b : BufFile) (pos : Nat) : BufFile := { b.flush with pos := pos }

/-- `seek(SeekFrom::End(0))`; `src/nodestore.rs:30`. -/
def seekEnd (b : BufFile) : BufFile := { b.flush with pos := b.flush.file.length }

end BufFile

/-- `src/nodestore.rs:9-12` -/
structure BufferedWriter where
  maxNodeId : Nat
  fp : BufFile

/-- `NodeStoreWriter::create` (`src/nodestore.rs:19-25`) -/
def BufferedWriter.create : BufferedWriter := ⟨0, ⟨[], 0, []⟩⟩

/-- The loop that writes empty entries (`src/nodestore.rs:31-38`). -/
def fillBuffered (capacity : Nat) : Nat → BufFile → BufFile
  | 0, b => b
  | n + 1, b => fillBuffered capacity n ((b.put capacity (be32 SENTINEL)).put capacity (be32 SENTINEL))

/-- `NodeStoreWriter::set` (`src/nodestore.rs:27-44`). As in `Writer.set`, the panic at `2^63` comes first. -/
def BufferedWriter.set (capacity : Nat) (w : BufferedWriter) (nodeId : Nat) (lat : Lat) (lon : Lon) : Res BufferedWriter :=
  if 8 * (nodeId + 1) ≥ 2 ^ 63 then .error .unwrap
  else
    let w := if w.maxNodeId < nodeId then ⟨nodeId, fillBuffered capacity (nodeId - w.maxNodeId) w.fp.seekEnd⟩ else w
    .ok ⟨w.maxNodeId, (((w.fp.seekStart (nodeId * 8)).put capacity (be32 lat.inner)).put capacity (be32 lon.inner))⟩

/-- A sequence of `set` calls; `src/nodestore.rs:27-44`. -/
def setAllBuffered (capacity : Nat) : BufferedWriter → List (Nat × Lat × Lon) → Res BufferedWriter
  | w, [] => .ok w
  | w, (id, lat, lon) :: ops => do
    let w ← w.set capacity id lat lon
    setAllBuffered capacity w ops

/-- The file once the writer has been dropped; `src/nodestore.rs:9-12`, the drop of `fp`. -/
def BufferedWriter.dropped (w : BufferedWriter) : List UInt8 := w.fp.flush.file

end Osmio.NodeStore
