import Verif.Model.NodePos
import Verif.Model.ArcPbf
import Verif.Model.NodeChain
/-!
# Model: the bodies of the loops that the other modules bound

`while` and `loop` in the code have no bound. The functions of the other modules have one, which is chosen so that it is never reached. Here are the
bodies of these loops, so that this can be said: each either goes on (`inl`) or leaves the loop (`inr`).
-/

namespace Osmio

/-- The body of the `loop` of `get_next_osmdata_blob` (`src/stringpbf/mod.rs:62-86`). -/
def StringPbf.blobRound (src : Source) : Source ⊕ (Res (Option Proto.Blob) × Source) :=
  match StringPbf.readBlob src with
  | (.ok (some none), src) => .inl src
  | (.ok (some (some blob)), src) => .inr (.ok (some blob), src)
  | (.ok none, src) => .inr (.ok none, src)
  | (.error p, src) => .inr (.error p, src)

/-- The body of the `loop` of `get_next_osmdata_blob` (`src/arcpbf/mod.rs:57-81`). -/
def ArcPbf.blobRound (src : Source) : Source ⊕ (Res (Option Proto.Blob) × Source) :=
  match ArcPbf.readBlob src with
  | (.ok (some none), src) => .inl src
  | (.ok (some (some blob)), src) => .inr (.ok (some blob), src)
  | (.ok none, src) => .inr (.ok none, src)
  | (.error p, src) => .inr (.error p, src)

/-- The `while` loop of `PBFReader::next` and what follows it (`src/stringpbf/mod.rs:546-567`). -/
def StringPbf.PBFReader.nextRound (zlib : Proto.Bytes → Option Proto.Bytes) (b : Build) (r : StringPbf.PBFReader) :
    StringPbf.PBFReader ⊕ (Res (Option StringOSMObj) × StringPbf.PBFReader) :=
  match r.buffer with
  | o :: os => .inr (.ok (some o), { r with buffer := os })
  | [] =>
    match StringPbf.getNextOsmdataBlob r.src with
    | (.error p, src) => .inr (.error p, { r with src := src })
    | (.ok none, src) => .inr (.ok none, { r with src := src })
    | (.ok (some blob), src) =>
      match StringPbf.decodeBlob zlib b r.filter blob with
      | (os, some p) => .inr (.error p, { r with src := src, buffer := os })
      | (os, none) => .inl { r with src := src, buffer := os }

/-- The `while` loop of `PBFReader::next` and what follows it (`src/arcpbf/mod.rs:519-540`). -/
def ArcPbf.PBFReader.nextRound (zlib : Proto.Bytes → Option Proto.Bytes) (b : Build) (r : ArcPbf.PBFReader) :
    ArcPbf.PBFReader ⊕ (Res (Option ArcOSMObj) × ArcPbf.PBFReader) :=
  match r.buffer.getLast? with
  | some o => .inr (.ok (some o), { r with buffer := r.buffer.dropLast })
  | none =>
    match ArcPbf.getNextOsmdataBlob r.src with
    | (.error p, src) => .inr (.error p, { r with src := src })
    | (.ok none, src) => .inr (.ok none, { r with src := src })
    | (.ok (some blob), src) =>
      match ArcPbf.decodeBlob zlib b blob with
      | .error p => .inr (.error p, { r with src := src })
      | .ok objs => .inl { r with src := src, buffer := objs.reverse }

/-- The `while` loop of `PBFNodePositionReader::next` and what follows it (`src/stringpbf/node_id_pos.rs:56-71`). -/
def NodePos.Reader.nextRound (zlib : Proto.Bytes → Option Proto.Bytes) (b : Build) (r : NodePos.Reader) :
    NodePos.Reader ⊕ (Res (Option NodePos.NodeIdPos) × NodePos.Reader) :=
  match r.buffer with
  | o :: os => .inr (.ok (some o), { r with buffer := os })
  | [] =>
    match StringPbf.getNextOsmdataBlob r.src with
    | (.error p, src) => .inr (.error p, { r with src := src })
    | (.ok none, src) => .inr (.ok none, { r with src := src })
    | (.ok (some blob), src) =>
      match NodePos.decodeBlob zlib b blob with
      | (os, some p) => .inr (.error p, { r with src := src, buffer := os })
      | (os, none) => .inl { r with src := src, buffer := os }

/-- The body of the `loop` of `decode_bytes_to_nodes` (`src/nodechain.rs:54-78`). The state is `last`, what the cursor has left, and `results`. -/
def NodeChain.decodeRound (b : Build) (first : UInt64) (s : UInt64 × List UInt8 × List UInt64) :
    (UInt64 × List UInt8 × List UInt64) ⊕ Res (List UInt64) :=
  match s with
  | (last, bytes, results) =>
    match bytes with
    | [] => .inr (.ok results)
    | num :: bytes =>
      if num = 0x81 then .inl (last, bytes, results ++ [first])
      else if num = 0xFF then
        match NodeChain.readU64 bytes with
        | .ok (next, bytes) => .inl (next, bytes, results ++ [next])
        | .error p => .inr (.error p)
      else if num = 0 then .inl (last, bytes, results ++ [last])
      else
        match b.i64 (NodeChain.asI64 last + NodeChain.asI8 num) with
        | .ok newNum => .inl (newNum.toUInt64, bytes, results ++ [newNum.toUInt64])
        | .error p => .inr (.error p)

end Osmio
