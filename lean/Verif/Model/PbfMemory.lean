import Verif.Model.NodePos
import Verif.Model.ArcPbf
/-!
# Model: the buffers the PBF readers ask for

The sizes of the buffers that hold a header or the data of a block (`vec![0; n]`), in the order in which they are asked for, and the capacity
that the reader of shared objects reserves before it decompresses a block. Other memory is for what has been read: it is not counted. Asking for more than
`isize::MAX` bytes panics and is not counted.
-/

namespace Osmio

/-- `src/stringpbf/mod.rs:65-76`: the buffers of one round of the loop of `get_next_osmdata_blob`. -/
def StringPbf.asked (src : Source) : List Nat :=
  match readExact 4 src with
  | (none, _) => []
  | (some size, src) =>
    fromBe size ::
      match readExact (fromBe size) src with
      | (none, _) => []
      | (some headerBytes, _) =>
        match Proto.BlobHeader.parseFromBytes headerBytes with
        | none => []
        | some header => if (header.datasize.getD 0).toInt < 0 then [] else [(header.datasize.getD 0).toInt.toNat]

/-- `src/arcpbf/mod.rs:60-71`: the same for the reader of shared objects. -/
def ArcPbf.asked (src : Source) : List Nat :=
  match readExact 4 src with
  | (none, _) => []
  | (some size, src) =>
    fromBe size ::
      match readExact (fromBe size) src with
      | (none, _) => []
      | (some headerBytes, _) =>
        match Proto.BlobHeader.parseFromBytes headerBytes with
        | none => []
        | some header =>
          match header.datasize with
          | none => []
          | some datasize => if datasize.toInt < 0 then [] else [datasize.toInt.toNat]

/-- `src/stringpbf/mod.rs:61-87`: the buffers of a call of `get_next_osmdata_blob`. The number bounds the rounds, as in `getNextOsmdataBlobAux`. -/
def StringPbf.askedForBlob : Nat → Source → List Nat
  | 0, _ => []
  | n + 1, src =>
    StringPbf.asked src ++
      match StringPbf.readBlob src with
      | (.ok (some none), src) => StringPbf.askedForBlob n src
      | _ => []

/-- `src/arcpbf/mod.rs:56-82` -/
def ArcPbf.askedForBlob : Nat → Source → List Nat
  | 0, _ => []
  | n + 1, src =>
    ArcPbf.asked src ++
      match ArcPbf.readBlob src with
      | (.ok (some none), src) => ArcPbf.askedForBlob n src
      | _ => []

/-- `src/stringpbf/mod.rs:545-568`: the buffers of a call of `next`, as in `PBFReader.nextAux`. -/
def StringPbf.PBFReader.askedAux (zlib : Proto.Bytes → Option Proto.Bytes) (b : Build) : Nat → StringPbf.PBFReader → List Nat
  | n, r =>
    match r.buffer with
    | _ :: _ => []
    | [] =>
      match n with
      | 0 => []
      | n + 1 =>
        StringPbf.askedForBlob (r.src.length + 1) r.src ++
          match StringPbf.getNextOsmdataBlob r.src with
          | (.ok (some blob), src) =>
            match StringPbf.decodeBlob zlib b r.filter blob with
            | (_, some _) => []
            | (os, none) => StringPbf.PBFReader.askedAux zlib b n { r with src := src, buffer := os }
          | _ => []

/-- `src/stringpbf/mod.rs:545-568` -/
def StringPbf.PBFReader.asked (zlib : Proto.Bytes → Option Proto.Bytes) (b : Build) (r : StringPbf.PBFReader) : List Nat :=
  StringPbf.PBFReader.askedAux zlib b (r.src.length + 1) r

/-- `src/stringpbf/node_id_pos.rs:54-72`: the buffers of a call of `next` of the reader of positions, as in `Reader.nextAux`. -/
def NodePos.Reader.askedAux (zlib : Proto.Bytes → Option Proto.Bytes) (b : Build) : Nat → NodePos.Reader → List Nat
  | n, r =>
    match r.buffer with
    | _ :: _ => []
    | [] =>
      match n with
      | 0 => []
      | n + 1 =>
        StringPbf.askedForBlob (r.src.length + 1) r.src ++
          match StringPbf.getNextOsmdataBlob r.src with
          | (.ok (some blob), src) =>
            match NodePos.decodeBlob zlib b blob with
            | (_, some _) => []
            | (os, none) => NodePos.Reader.askedAux zlib b n { r with src := src, buffer := os }
          | _ => []

/-- `src/stringpbf/node_id_pos.rs:54-72` -/
def NodePos.Reader.asked (zlib : Proto.Bytes → Option Proto.Bytes) (b : Build) (r : NodePos.Reader) : List Nat :=
  NodePos.Reader.askedAux zlib b (r.src.length + 1) r

/-- `src/arcpbf/mod.rs:518-541`: the buffers of a call of `next`, as in `PBFReader.nextAux`. -/
def ArcPbf.PBFReader.askedAux (zlib : Proto.Bytes → Option Proto.Bytes) (b : Build) : Nat → ArcPbf.PBFReader → List Nat
  | n, r =>
    match r.buffer.getLast? with
    | some _ => []
    | none =>
      match n with
      | 0 => []
      | n + 1 =>
        ArcPbf.askedForBlob (r.src.length + 1) r.src ++
          match ArcPbf.getNextOsmdataBlob r.src with
          | (.ok (some blob), src) =>
            match ArcPbf.decodeBlob zlib b blob with
            | .error _ => []
            | .ok objs => ArcPbf.PBFReader.askedAux zlib b n { r with src := src, buffer := objs.reverse }
          | _ => []

/-- `src/arcpbf/mod.rs:518-541` -/
def ArcPbf.PBFReader.asked (zlib : Proto.Bytes → Option Proto.Bytes) (b : Build) (r : ArcPbf.PBFReader) : List Nat :=
  ArcPbf.PBFReader.askedAux zlib b (r.src.length + 1) r

/-- `src/arcpbf/mod.rs:34`: the capacity reserved for the data of a blob before it is decompressed. -/
def ArcPbf.reservedFor (blob : Proto.Blob) : List Nat :=
  match blob.raw with
  | some _ => []
  | none =>
    match blob.zlibData with
    | none => []
    | some _ =>
      match blob.rawSize with
      | none => []
      | some size => if size.toInt < 0 then [] else [size.toInt.toNat]

/-- `src/arcpbf/mod.rs:518-541`: the capacities reserved in a call of `next`, as in `PBFReader.nextAux`. -/
def ArcPbf.PBFReader.reservedAux (zlib : Proto.Bytes → Option Proto.Bytes) (b : Build) : Nat → ArcPbf.PBFReader → List Nat
  | n, r =>
    match r.buffer.getLast? with
    | some _ => []
    | none =>
      match n with
      | 0 => []
      | n + 1 =>
        match ArcPbf.getNextOsmdataBlob r.src with
        | (.ok (some blob), src) =>
          ArcPbf.reservedFor blob ++
            match ArcPbf.decodeBlob zlib b blob with
            | .error _ => []
            | .ok objs => ArcPbf.PBFReader.reservedAux zlib b n { r with src := src, buffer := objs.reverse }
        | _ => []

/-- `src/arcpbf/mod.rs:518-541` -/
def ArcPbf.PBFReader.reserved (zlib : Proto.Bytes → Option Proto.Bytes) (b : Build) (r : ArcPbf.PBFReader) : List Nat :=
  ArcPbf.PBFReader.reservedAux zlib b (r.src.length + 1) r

end Osmio
