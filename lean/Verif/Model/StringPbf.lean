import Verif.Lib.Machine
import Verif.Lib.StrLit
import Verif.Model.Proto
import Verif.Model.LatLon
import Verif.Model.StringTypes
/-!
# Model: `src/stringpbf/mod.rs`

The reader's parameter `zlib` is the decompressor (`flate2::read::ZlibDecoder::read_to_end`; `none` is an error). `reserve`, capacities and the
returned object counts, which nobody uses, are left out. A function that pushes to a sink returns what it pushed, and whether it then
panicked (the sink is the reader's buffer, so after a caught panic these objects are still there).
-/

namespace Osmio

/-- `PrimitiveBlock::granularity` (`src/stringpbf/osmformat.rs:621`) -/
def Proto.PrimitiveBlock.granularityOr (m : Proto.PrimitiveBlock) : Int32 := m.granularity.getD 100
/-- `PrimitiveBlock::lat_offset` (`src/stringpbf/osmformat.rs:640`) -/
def Proto.PrimitiveBlock.latOffsetOr (m : Proto.PrimitiveBlock) : Int64 := m.latOffset.getD 0
/-- `PrimitiveBlock::lon_offset` (`src/stringpbf/osmformat.rs:659`) -/
def Proto.PrimitiveBlock.lonOffsetOr (m : Proto.PrimitiveBlock) : Int64 := m.lonOffset.getD 0
/-- `PrimitiveBlock::date_granularity` (`src/stringpbf/osmformat.rs:678`) -/
def Proto.PrimitiveBlock.dateGranularityOr (m : Proto.PrimitiveBlock) : Int32 := m.dateGranularity.getD 1000

namespace StringPbf

/-- `src/stringpbf/mod.rs:29`: nodes, ways, relations -/
abbrev ObjectFilter := Bool × Bool × Bool

/-- `src/stringpbf/mod.rs:35-46`: the content of the buffer. -/
def blobRawData (zlib : Proto.Bytes → Option Proto.Bytes) (blob : Proto.Blob) : Res Proto.Bytes :=
  match blob.raw with
  | some raw => if raw.length = 0 then .ok [] else .error .sliceLen
  | none =>
    match blob.zlibData with
    | some z => unwrap (zlib z)
    | none => .ok []

/-- What the body of the loop of `get_next_osmdata_blob` does (`src/stringpbf/mod.rs:63-85`): a panic, the end, a blob, or
`continue` (`some none`). -/
def readBlob (src : Source) : Res (Option (Option Proto.Blob)) × Source :=
  match readExact 4 src with
  | (none, src) => (.ok none, src)
  | (some size, src) =>
    match readExact (fromBe size) src with
    | (none, src) => (.error .unwrap, src)
    | (some headerBytes, src) =>
      match Proto.BlobHeader.parseFromBytes headerBytes with
      | none => (.error .unwrap, src)
      | some header =>
        if (header.datasize.getD 0).toInt < 0 then (.error .capacity, src)
        else
          match readExact (header.datasize.getD 0).toInt.toNat src with
          | (none, src) => (.error .unwrap, src)
          | (some blobBytes, src) =>
            match header.type_ with
            | none => (.error .unwrap, src)
            | some t =>
              if t ≠ str% "OSMData" then (.ok (some none), src)
              else
                match Proto.Blob.parseFromBytes blobBytes with
                | none => (.error .unwrap, src)
                | some blob => (.ok (some (some blob)), src)

/-- `src/stringpbf/mod.rs:61-87`. The first argument bounds the rounds of the loop; each takes four bytes at least. -/
def getNextOsmdataBlobAux : Nat → Source → Res (Option Proto.Blob) × Source
  | 0, src => (.ok none, src)
  | n + 1, src =>
    match readBlob src with
    | (.ok (some none), src) => getNextOsmdataBlobAux n src
    | (.ok (some (some blob)), src) => (.ok (some blob), src)
    | (.ok none, src) => (.ok none, src)
    | (.error p, src) => (.error p, src)

/-- `src/stringpbf/mod.rs:61-87` -/
def getNextOsmdataBlob (src : Source) : Res (Option Proto.Blob) × Source := getNextOsmdataBlobAux (src.length + 1) src

/-- What the dense loop knows of the previous node (`src/stringpbf/mod.rs:128-139`). `keysVals` is what is left of `keys_vals` from
`keys_vals_index` on. -/
structure DenseState where
  keysVals : List Int32
  lastId : Int64 := 0
  lastRawLat : Int32 := 0
  lastRawLon : Int32 := 0
  lastTimestamp : Int32 := 0
  lastChangeset : Int64 := 0
  lastUid : Int32 := 0
  lastUserSid : Int32 := 0

/-- `src/stringpbf/mod.rs:146-152`: a coordinate from its delta. -/
def rawCoord (b : Build) (delta : Int64) (last : Int32) : Res Int32 := do
  let x ← b.i64 (delta.toInt + last.toInt)
  expectI32 x

/-- `src/stringpbf/mod.rs:154-163`: units of the block to units of the crate. -/
def internalCoord (b : Build) (granularity : Int32) (offset : Int64) (raw : Int32) : Res Int32 := do
  let scaleFactor := granularity.toInt.tdiv COORD_PRECISION_NANOS
  let x ← b.i32 (raw.toInt * scaleFactor)
  let internalOffset := offset.toInt.tdiv COORD_PRECISION_NANOS
  b.i32 (x.toInt + (Int32.ofInt internalOffset).toInt)

/-- `src/stringpbf/mod.rs:165-182`: the tags of a node and what is left of `keys_vals`. -/
def denseTags (table : List Str) : List Int32 → Res (List (Str × Str) × List Int32)
  | [] => .error .index
  | next :: r =>
    if next = 0 then .ok ([], r)
    else
      match r with
      | [] => .error .index
      | val :: r => do
        let k ← indexI32 table next
        let v ← indexI32 table val
        let (tags, r) ← denseTags table r
        .ok ((k, v) :: tags, r)

/-- `src/stringpbf/mod.rs:186-189`: a field that is stored as a difference. -/
def delta32 (b : Build) (l : List Int32) (i : Nat) (last : Int32) : Res Int32 := do
  let d ← index l i
  b.i32 (d.toInt + last.toInt)

/-- `src/stringpbf/mod.rs:143-144` and 184-185. -/
def delta64 (b : Build) (l : List Int64) (i : Nat) (last : Int64) : Res Int64 := do
  let d ← index l i
  b.i64 (d.toInt + last.toInt)

/-- `src/stringpbf/mod.rs:190-192`; `dateGranularity` is in seconds. -/
def denseTimestamp (b : Build) (dateGranularity : Int32) (l : List Int64) (i : Nat) (last : Int32) : Res Int32 := do
  let d ← index l i
  let t ← b.i32 ((Int32.ofInt d.toInt).toInt + last.toInt)
  b.i32 (t.toInt * dateGranularity.toInt)

/-- `assert!` (`src/stringpbf/mod.rs:194`, 236, 301) -/
def assert (c : Bool) : Res Unit := if c then .ok () else .error .assertion

/-- `src/stringpbf/mod.rs:141-208`: one round of the loop. -/
def denseNode (b : Build) (dense : Proto.DenseNodes) (granularity : Int32) (latOffset lonOffset : Int64)
    (dateGranularity : Int32) (table : List Str) (i : Nat) (s : DenseState) : Res (StringNode × DenseState) := do
  let info := dense.denseinfo.getD {}
  let id ← delta64 b dense.id i s.lastId
  let dlat ← index dense.lat i
  let rawLat ← rawCoord b dlat s.lastRawLat
  let dlon ← index dense.lon i
  let rawLon ← rawCoord b dlon s.lastRawLon
  let lat ← internalCoord b granularity latOffset rawLat
  let lon ← internalCoord b granularity lonOffset rawLon
  let (tags, keysVals) ← denseTags table s.keysVals
  let changeset ← delta64 b info.changeset i s.lastChangeset
  let uid ← delta32 b info.uid i s.lastUid
  let userSid ← delta32 b info.userSid i s.lastUserSid
  let timestamp ← denseTimestamp b dateGranularity info.timestamp i s.lastTimestamp
  assert (decide (uid.toInt < 2147483647))
  let user ← indexI32 table userSid
  let version ← index info.version i
  .ok ({ id_ := id
         tags_ := tags
         latLon_ := some (⟨lat⟩, ⟨lon⟩)
         deleted_ := !(info.visible[i]?.getD true)
         changesetId_ := some (UInt32.ofInt changeset.toInt)
         uid_ := some (UInt32.ofInt uid.toInt)
         user_ := some user
         version_ := some (UInt32.ofInt version.toInt)
         timestamp_ := some (.epoch (Int64.ofInt timestamp.toInt)) },
       { keysVals := keysVals, lastId := id, lastRawLat := rawLat, lastRawLon := rawLon, lastTimestamp := timestamp,
         lastChangeset := changeset, lastUid := uid, lastUserSid := userSid })

/-- The loop `for index in 0..num_nodes` (`src/stringpbf/mod.rs:141`), with the number of rounds to go. -/
def denseLoop (step : Nat → DenseState → Res (StringNode × DenseState)) : Nat → Nat → DenseState →
    List StringOSMObj × Option Panic
  | 0, _, _ => ([], none)
  | n + 1, i, s =>
    match step i s with
    | .ok (node, s) => (.node node :: (denseLoop step n (i + 1) s).1, (denseLoop step n (i + 1) s).2)
    | .error p => ([], some p)

/-- `src/stringpbf/mod.rs:102-211` -/
def decodeDenseNodes (b : Build) (dense : Proto.DenseNodes) (granularity : Int32) (latOffset lonOffset : Int64)
    (dateGranularity : Int32) (table : List Str) : List StringOSMObj × Option Panic :=
  denseLoop (denseNode b dense granularity latOffset lonOffset dateGranularity table) dense.id.length 0
    { keysVals := dense.keysVals }

/-- `src/stringpbf/mod.rs:228-237` and 293-302 (after the assertion on the lengths): pairs looked up in the string table. -/
def zipTags (table : List Str) : List UInt32 → List UInt32 → Res (List (Str × Str))
  | k :: ks, v :: vs => do
    let k ← index table k.toNat
    let v ← index table v.toNat
    let r ← zipTags table ks vs
    .ok ((k, v) :: r)
  | _, _ => .ok []

/-- `last_id += nid` (`src/stringpbf/mod.rs:245-248`, 315-318) -/
def runningSums (b : Build) (last : Int64) : List Int64 → Res (List Int64)
  | [] => .ok []
  | d :: ds => do
    let x ← b.i64 (last.toInt + d.toInt)
    let r ← runningSums b x ds
    .ok (x :: r)

/-- `src/stringpbf/mod.rs:239-249` and 309-319 -/
def undelta (b : Build) : List Int64 → Res (List ObjId)
  | [] => .ok []
  | d :: ds => do
    let r ← runningSums b d ds
    .ok (d :: r)

/-- `src/stringpbf/mod.rs:224-274`: one way. `MessageField` gives the default message if there is no info. -/
def decodeWay (b : Build) (table : List Str) (way : Proto.Way) : Res StringWay := do
  let info := way.info.getD {}
  let id ← unwrap way.id
  assert (way.keys.length == way.vals.length)
  let tags ← zipTags table way.keys way.vals
  let nodes ← undelta b way.refs
  let timestamp ← unwrap info.timestamp
  let changeset ← unwrap info.changeset
  let uid ← unwrap info.uid
  let userSid ← unwrap info.userSid
  let user ← index table userSid.toNat
  let version ← unwrap info.version
  .ok { id_ := id
        tags_ := tags
        nodes_ := nodes
        deleted_ := !(info.visible.getD false)
        changesetId_ := some (UInt32.ofInt changeset.toInt)
        uid_ := some (UInt32.ofInt uid.toInt)
        user_ := some user
        version_ := some (UInt32.ofInt version.toInt)
        timestamp_ := some (.epoch timestamp) }

/-- `src/stringpbf/mod.rs:213-276` -/
def decodeWays (b : Build) (table : List Str) (ways : List Proto.Way) : List StringOSMObj × Option Panic :=
  runAll (fun w => (decodeWay b table w).map .way) ways

/-- `EnumOrUnknown::unwrap` and `src/stringpbf/mod.rs:323-331` -/
def memberType (t : Int32) : Res OSMObjectType :=
  if t.toInt = 0 then .ok .node
  else if t.toInt = 1 then .ok .way
  else if t.toInt = 2 then .ok .relation
  else .error .unwrap

/-- `src/stringpbf/mod.rs:304-307` and 333-337: `member_types.zip(member_ids).zip(roles)`, until one of the iterators ends. -/
def zipMembers (table : List Str) : List Int32 → List ObjId → List Int32 → Res (List (OSMObjectType × ObjId × Str))
  | t :: ts, id :: ids, r :: rs => do
    let ty ← memberType t
    let role ← indexI32 table r
    let rest ← zipMembers table ts ids rs
    .ok ((ty, id, role) :: rest)
  | ts, ids, rs => surplus memberType (zipPeeks true [ts.length, ids.length, rs.length]) ts

/-- `src/stringpbf/mod.rs:290-358`: one relation. -/
def decodeRelation (b : Build) (table : List Str) (rel : Proto.Relation) : Res StringRelation := do
  let info := rel.info.getD {}
  let id := rel.id.getD 0
  assert (rel.keys.length == rel.vals.length)
  let tags ← zipTags table rel.keys rel.vals
  let memberIds ← undelta b rel.memids
  let members ← zipMembers table rel.types memberIds rel.rolesSid
  let timestamp ← unwrap info.timestamp
  let changeset ← unwrap info.changeset
  let uid ← unwrap info.uid
  let userSid ← unwrap info.userSid
  let user ← index table userSid.toNat
  let version ← unwrap info.version
  .ok { id_ := id
        tags_ := tags
        members_ := members
        deleted_ := !(info.visible.getD false)
        changesetId_ := some (UInt32.ofInt changeset.toInt)
        uid_ := some (UInt32.ofInt uid.toInt)
        user_ := some user
        version_ := some (UInt32.ofInt version.toInt)
        timestamp_ := some (.epoch timestamp) }

/-- `src/stringpbf/mod.rs:278-360` -/
def decodeRelations (b : Build) (table : List Str) (rels : List Proto.Relation) : List StringOSMObj × Option Panic :=
  runAll (fun r => (decodeRelation b table r).map .relation) rels

/-- `src/stringpbf/mod.rs:376-381` (and the three copies, 393-396, 408-411, 423-426) -/
def stringTable : List Proto.Bytes → Res (List Str)
  | [] => .ok []
  | s :: ss => do
    let t ← unwrap (Utf8.decode s)
    let r ← stringTable ss
    .ok (t :: r)

/-- Go on with the string table, if it is valid (`src/stringpbf/mod.rs:376-381` and its copies). -/
def withTable (raw : Proto.StringTable) (f : List Str → List StringOSMObj × Option Panic) : List StringOSMObj × Option Panic :=
  match stringTable raw.s with
  | .ok t => f t
  | .error p => ([], some p)

/-- `src/stringpbf/mod.rs:363-442` -/
def decodeGroup (b : Build) (group : Proto.PrimitiveGroup) (granularity : Int32) (latOffset lonOffset : Int64)
    (dateGranularity : Int32) (raw : Proto.StringTable) (filter : ObjectFilter) : List StringOSMObj × Option Panic :=
  let dateGranularity := Int32.ofInt (dateGranularity.toInt.tdiv 1000)
  if group.nodes ≠ [] ∧ filter.1 = true then withTable raw fun _ => ([], some .unimplemented)
  else if group.dense.isSome = true ∧ filter.1 = true then
    withTable raw fun t => decodeDenseNodes b (group.dense.getD {}) granularity latOffset lonOffset dateGranularity t
  else if group.ways ≠ [] ∧ filter.2.1 = true then withTable raw fun t => decodeWays b t group.ways
  else if group.relations ≠ [] ∧ filter.2.2 = true then withTable raw fun t => decodeRelations b t group.relations
  else ([], none)

/-- `src/stringpbf/mod.rs:444-471` -/
def decodeBlock (b : Build) (block : Proto.PrimitiveBlock) (filter : ObjectFilter) : List StringOSMObj × Option Panic :=
  match block.stringtable with
  | none => ([], some .unwrap)
  | some raw =>
    match block.primitivegroup with
    | [g] => decodeGroup b g block.granularityOr block.latOffsetOr block.lonOffsetOr block.dateGranularityOr raw filter
    | _ => ([], some .assertion)

/-- `src/stringpbf/mod.rs:482-487` -/
structure PBFReader where
  src : Source
  buffer : List StringOSMObj
  sortedAssumption : Bool
  filter : ObjectFilter

/-- `src/stringpbf/mod.rs:521-528` -/
def PBFReader.new (src : Source) : PBFReader := ⟨src, [], false, (true, true, true)⟩

/-- `src/stringpbf/mod.rs:491-494`: the change `nodes()` makes before it goes on with `objects()`. -/
def PBFReader.nodes (r : PBFReader) : PBFReader := { r with filter := (true, false, false) }
/-- `src/stringpbf/mod.rs:497-500` -/
def PBFReader.ways (r : PBFReader) : PBFReader := { r with filter := (false, true, false) }
/-- `src/stringpbf/mod.rs:503-506` -/
def PBFReader.relations (r : PBFReader) : PBFReader := { r with filter := (false, false, true) }

/-- `src/stringpbf/mod.rs:537-543` and 53-59: `inner` and `into_inner`. A `Read` is what it has yet to give. -/
def PBFReader.intoInner (r : PBFReader) : Source := r.src

/-- `src/stringpbf/mod.rs:530-532` -/
def PBFReader.setSortedAssumption (r : PBFReader) (x : Bool) : PBFReader := { r with sortedAssumption := x }
/-- `src/stringpbf/mod.rs:533-535` -/
def PBFReader.getSortedAssumption (r : PBFReader) : Bool := r.sortedAssumption

/-- The objects of a blob (`src/stringpbf/mod.rs:554-564`). -/
def decodeBlob (zlib : Proto.Bytes → Option Proto.Bytes) (b : Build) (filter : ObjectFilter) (blob : Proto.Blob) :
    List StringOSMObj × Option Panic :=
  match blobRawData zlib blob with
  | .error p => ([], some p)
  | .ok data =>
    if data = [] then ([], none)
    else
      match Proto.PrimitiveBlock.parseFromBytes data with
      | none => ([], some .unwrap)
      | some block => decodeBlock b block filter

/-- `src/stringpbf/mod.rs:545-568`. The first argument bounds the rounds of the loop; each takes four bytes at least. -/
def PBFReader.nextAux (zlib : Proto.Bytes → Option Proto.Bytes) (b : Build) : Nat → PBFReader →
    Res (Option StringOSMObj) × PBFReader
  | n, r =>
    match r.buffer with
    | o :: os => (.ok (some o), { r with buffer := os })
    | [] =>
      match n with
      | 0 => (.ok none, r)
      | n + 1 =>
        match getNextOsmdataBlob r.src with
        | (.error p, src) => (.error p, { r with src := src })
        | (.ok none, src) => (.ok none, { r with src := src })
        | (.ok (some blob), src) =>
          match decodeBlob zlib b r.filter blob with
          | (os, some p) => (.error p, { r with src := src, buffer := os })
          | (os, none) => PBFReader.nextAux zlib b n { r with src := src, buffer := os }

/-- `src/stringpbf/mod.rs:545-568` -/
def PBFReader.next (zlib : Proto.Bytes → Option Proto.Bytes) (b : Build) (r : PBFReader) : Res (Option StringOSMObj) × PBFReader :=
  PBFReader.nextAux zlib b (r.src.length + 1) r

end StringPbf
end Osmio
