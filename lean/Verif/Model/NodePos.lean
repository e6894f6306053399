import Verif.Model.StringPbf
/-!
# Model: `src/stringpbf/node_id_pos.rs`

As in `Model/StringPbf.lean`, a function that pushes to the reader's buffer returns what it pushed and whether it then panicked.
-/

namespace Osmio.NodePos

/-- `src/stringpbf/node_id_pos.rs:12` -/
abbrev NodeIdPos := ObjId × (Lat × Lon)

/-- What the loop knows of the previous node (`src/stringpbf/node_id_pos.rs:94-97`). -/
structure State where
  lastId : Int64 := 0
  lastRawLat : Int32 := 0
  lastRawLon : Int32 := 0

/-- `src/stringpbf/node_id_pos.rs:104-110`: a coordinate from its delta. -/
def rawCoord (b : Build) (delta : Int64) (last : Int32) : Res Int32 := do
  let x ← b.i64 (delta.toInt + last.toInt)
  expectI32 x

/-- `src/stringpbf/node_id_pos.rs:112-121`: units of the block to units of the crate. -/
def internalCoord (b : Build) (granularity : Int32) (offset : Int64) (raw : Int32) : Res Int32 := do
  let scaleFactor := granularity.toInt.tdiv COORD_PRECISION_NANOS
  let x ← b.i32 (raw.toInt * scaleFactor)
  let internalOffset := offset.toInt.tdiv COORD_PRECISION_NANOS
  b.i32 (x.toInt + (Int32.ofInt internalOffset).toInt)

/-- `src/stringpbf/node_id_pos.rs:99-125`: one round of the loop. -/
def step (b : Build) (dense : Proto.DenseNodes) (granularity : Int32) (latOffset lonOffset : Int64) (i : Nat) (s : State) :
    Res (NodeIdPos × State) := do
  let did ← index dense.id i
  let id ← b.i64 (did.toInt + s.lastId.toInt)
  let dlat ← index dense.lat i
  let rawLat ← rawCoord b dlat s.lastRawLat
  let dlon ← index dense.lon i
  let rawLon ← rawCoord b dlon s.lastRawLon
  let lat ← internalCoord b granularity latOffset rawLat
  let lon ← internalCoord b granularity lonOffset rawLon
  .ok ((id, (⟨lat⟩, ⟨lon⟩)), { lastId := id, lastRawLat := rawLat, lastRawLon := rawLon })

/-- The loop `for index in 0..num_nodes` (`src/stringpbf/node_id_pos.rs:99`), with the number of rounds to go. -/
def loop (step : Nat → State → Res (NodeIdPos × State)) : Nat → Nat → State → List NodeIdPos × Option Panic
  | 0, _, _ => ([], none)
  | n + 1, i, s =>
    match step i s with
    | .ok (x, s) => (x :: (loop step n (i + 1) s).1, (loop step n (i + 1) s).2)
    | .error p => ([], some p)

/-- `src/stringpbf/node_id_pos.rs:82-128`: one group. -/
def decodeGroup (b : Build) (granularity : Int32) (latOffset lonOffset : Int64) (group : Proto.PrimitiveGroup) :
    List NodeIdPos × Option Panic :=
  if group.nodes ≠ [] then ([], some .unimplemented)
  else if group.ways ≠ [] ∨ group.relations ≠ [] then ([], none)
  else
    match group.dense with
    | some dense => loop (step b dense granularity latOffset lonOffset) dense.id.length 0 {}
    | none => ([], some .unreachable)

/-- The loop over the groups (`src/stringpbf/node_id_pos.rs:81-129`). -/
def decodeGroups (decode : Proto.PrimitiveGroup → List NodeIdPos × Option Panic) :
    List Proto.PrimitiveGroup → List NodeIdPos × Option Panic
  | [] => ([], none)
  | g :: gs =>
    match decode g with
    | (xs, some p) => (xs, some p)
    | (xs, none) => (xs ++ (decodeGroups decode gs).1, (decodeGroups decode gs).2)

/-- `src/stringpbf/node_id_pos.rs:75-132` -/
def decodeBlock (b : Build) (block : Proto.PrimitiveBlock) : List NodeIdPos × Option Panic :=
  decodeGroups (decodeGroup b block.granularityOr block.latOffsetOr block.lonOffsetOr) block.primitivegroup

/-- `src/stringpbf/node_id_pos.rs:23-26` -/
structure Reader where
  src : Source
  buffer : List NodeIdPos

/-- `src/stringpbf/node_id_pos.rs:30-40` -/
def Reader.new (src : Source) : Reader := ⟨src, []⟩

/-- The positions of a blob (`src/stringpbf/node_id_pos.rs:63-68`). -/
def decodeBlob (zlib : Proto.Bytes → Option Proto.Bytes) (b : Build) (blob : Proto.Blob) : List NodeIdPos × Option Panic :=
  match StringPbf.blobRawData zlib blob with
  | .error p => ([], some p)
  | .ok data =>
    match Proto.PrimitiveBlock.parseFromBytes data with
    | none => ([], some .unwrap)
    | some block => decodeBlock b block

/-- `src/stringpbf/node_id_pos.rs:54-72`. The first argument bounds the rounds of the loop; each takes four bytes at least. -/
def Reader.nextAux (zlib : Proto.Bytes → Option Proto.Bytes) (b : Build) : Nat → Reader → Res (Option NodeIdPos) × Reader
  | n, r =>
    match r.buffer with
    | o :: os => (.ok (some o), { r with buffer := os })
    | [] =>
      match n with
      | 0 => (.ok none, r)
      | n + 1 =>
        match StringPbf.getNextOsmdataBlob r.src with
        | (.error p, src) => (.error p, { r with src := src })
        | (.ok none, src) => (.ok none, { r with src := src })
        | (.ok (some blob), src) =>
          match decodeBlob zlib b blob with
          | (os, some p) => (.error p, { r with src := src, buffer := os })
          | (os, none) => Reader.nextAux zlib b n { r with src := src, buffer := os }

/-- `src/stringpbf/node_id_pos.rs:54-72` -/
def Reader.next (zlib : Proto.Bytes → Option Proto.Bytes) (b : Build) (r : Reader) : Res (Option NodeIdPos) × Reader :=
  Reader.nextAux zlib b (r.src.length + 1) r

end Osmio.NodePos
