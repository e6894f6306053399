import Verif.Lib.Machine
import Verif.Lib.StrLit
import Verif.Model.Proto
import Verif.Model.LatLon
import Verif.Model.StringPbf
import Verif.Model.ArcTypes
/-!
# Model: `src/arcpbf/mod.rs`

The reader's parameter `zlib` is the decompressor, as in `Model/StringPbf.lean`. The objects of a block are collected in a local vector, so a panic
loses them. Members of `src/arcpbf/osmformat.rs` and `fileformat.rs` are those of `src/stringpbf` (the files are identical).
-/

namespace Osmio.ArcPbf

/-- `src/arcpbf/mod.rs:27-41` -/
def blobRawData (zlib : Proto.Bytes → Option Proto.Bytes) (blob : Proto.Blob) : Res (Option Proto.Bytes) :=
  match blob.raw with
  | some raw => .ok (some raw)
  | none =>
    match blob.zlibData with
    | some z => do
      let size ← unwrap blob.rawSize
      if size.toInt < 0 then .error .capacity else .ok (zlib z)
    | none => .ok none

/-- What the body of the loop of `get_next_osmdata_blob` does (`src/arcpbf/mod.rs:58-80`): a panic, the end, a blob, or
`continue` (`some none`). -/
def readBlob (src : Source) : Res (Option (Option Proto.Blob)) × Source :=
  match readExact 4 src with
  | (none, src) => (.ok none, src)
  | (some size, src) =>
    match readExact (fromBe size) src with
    | (none, src) => (.error .unwrap, src)
    | (some headerBytes, src) =>
      match Proto.BlobHeader.parseFromBytes headerBytes with
      | none => (.error .unwrap, src)
      | some header =>
        match header.datasize with
        | none => (.error .unwrap, src)
        | some datasize =>
          if datasize.toInt < 0 then (.error .capacity, src)
          else
            match readExact datasize.toInt.toNat src with
            | (none, src) => (.error .unwrap, src)
            | (some blobBytes, src) =>
              match header.type_ with
              | none => (.error .unwrap, src)
              | some t =>
                if t ≠ str% "OSMData" then (.ok (some none), src)
                else
                  match Proto.Blob.parseFromBytes blobBytes with
                  | none => (.error .unwrap, src)
                  | some blob => (.ok (some (some blob)), src)

/-- `src/arcpbf/mod.rs:56-82`. The first argument bounds the rounds of the loop; each takes four bytes at least. -/
def getNextOsmdataBlobAux : Nat → Source → Res (Option Proto.Blob) × Source
  | 0, src => (.ok none, src)
  | n + 1, src =>
    match readBlob src with
    | (.ok (some none), src) => getNextOsmdataBlobAux n src
    | (.ok (some (some blob)), src) => (.ok (some blob), src)
    | (.ok none, src) => (.ok none, src)
    | (.error p, src) => (.error p, src)

/-- `src/arcpbf/mod.rs:56-82` -/
def getNextOsmdataBlob (src : Source) : Res (Option Proto.Blob) × Source := getNextOsmdataBlobAux (src.length + 1) src

/-- What the dense loop knows of the previous node (`src/arcpbf/mod.rs:122-134`). `keysVals` is what is left of `keys_vals` from
`keys_vals_index` on. -/
structure DenseState where
  keysVals : List Int32
  lastId : Int64 := 0
  lastRawLat : Int32 := 0
  lastRawLon : Int32 := 0
  lastTimestamp : Int32 := 0
  lastChangeset : Int64 := 0
  lastUid : Int32 := 0
  lastUserSid : Int32 := 0

/-- `src/arcpbf/mod.rs:141-147`: a coordinate from its delta. -/
def rawCoord (b : Build) (delta : Int64) (last : Int32) : Res Int32 := do
  let x ← b.i64 (delta.toInt + last.toInt)
  expectI32 x

/-- `src/arcpbf/mod.rs:149-158`: units of the block to units of the crate. -/
def internalCoord (b : Build) (granularity : Int32) (offset : Int64) (raw : Int32) : Res Int32 := do
  let scaleFactor := granularity.toInt.tdiv COORD_PRECISION_NANOS
  let x ← b.i32 (raw.toInt * scaleFactor)
  let internalOffset := offset.toInt.tdiv COORD_PRECISION_NANOS
  b.i32 (x.toInt + (Int32.ofInt internalOffset).toInt)

/-- `src/arcpbf/mod.rs:163-177`: the pairs of a node and what is left of `keys_vals`. -/
def densePairs : List Int32 → Res (List (Int32 × Int32) × List Int32)
  | [] => .error .index
  | next :: r =>
    if next = 0 then .ok ([], r)
    else
      match r with
      | [] => .error .index
      | val :: r => do
        let (pairs, r) ← densePairs r
        .ok ((next, val) :: pairs, r)

/-- `src/arcpbf/mod.rs:187-190` (and 246-249, 317-320): add a pair, unless one of its strings was not valid. -/
def consSome (k v : Option Str) (r : List (Str × Str)) : List (Str × Str) :=
  match k, v with
  | some k, some v => (k, v) :: r
  | _, _ => r

/-- `src/arcpbf/mod.rs:179-192` -/
def denseTags (table : List (Option Str)) : List (Int32 × Int32) → Res (List (Str × Str))
  | [] => .ok []
  | (k, v) :: r => do
    let k ← indexI32 table k
    let v ← indexI32 table v
    let r ← denseTags table r
    .ok (consSome k v r)

/-- `src/arcpbf/mod.rs:160-193`: the tags, and what is left of `keys_vals`. -/
def nodeTags (hasTags : Bool) (table : List (Option Str)) (keysVals : List Int32) :
    Res (Option (List (Str × Str)) × List Int32) :=
  if hasTags then do
    let (pairs, r) ← densePairs keysVals
    let tags ← denseTags table pairs
    .ok (some tags, r)
  else .ok (none, keysVals)

/-- `src/arcpbf/mod.rs:197-200`: a field that is stored as a difference. -/
def delta32 (b : Build) (l : List Int32) (i : Nat) (last : Int32) : Res Int32 := do
  let d ← index l i
  b.i32 (d.toInt + last.toInt)

/-- `src/arcpbf/mod.rs:138-139` and 195-196. -/
def delta64 (b : Build) (l : List Int64) (i : Nat) (last : Int64) : Res Int64 := do
  let d ← index l i
  b.i64 (d.toInt + last.toInt)

/-- `src/arcpbf/mod.rs:201-203`; `dateGranularity` is in seconds. -/
def denseTimestamp (b : Build) (dateGranularity : Int32) (l : List Int64) (i : Nat) (last : Int32) : Res Int32 := do
  let d ← index l i
  let t ← b.i32 ((Int32.ofInt d.toInt).toInt + last.toInt)
  b.i32 (t.toInt * dateGranularity.toInt)

/-- `src/arcpbf/mod.rs:136-218`: one round of the loop. -/
def denseNode (b : Build) (dense : Proto.DenseNodes) (granularity : Int32) (latOffset lonOffset : Int64)
    (dateGranularity : Int32) (table : List (Option Str)) (i : Nat) (s : DenseState) : Res (ArcNode × DenseState) := do
  let info := dense.denseinfo.getD {}
  let id ← delta64 b dense.id i s.lastId
  let dlat ← index dense.lat i
  let rawLat ← rawCoord b dlat s.lastRawLat
  let dlon ← index dense.lon i
  let rawLon ← rawCoord b dlon s.lastRawLon
  let lat ← internalCoord b granularity latOffset rawLat
  let lon ← internalCoord b granularity lonOffset rawLon
  let (tags, keysVals) ← nodeTags (!dense.keysVals.isEmpty) table s.keysVals
  let changeset ← delta64 b info.changeset i s.lastChangeset
  let uid ← delta32 b info.uid i s.lastUid
  let userSid ← delta32 b info.userSid i s.lastUserSid
  let timestamp ← denseTimestamp b dateGranularity info.timestamp i s.lastTimestamp
  StringPbf.assert (decide (uid.toInt < 2147483647))
  let userOpt ← indexI32 table userSid
  let user ← unwrap userOpt
  let version ← index info.version i
  .ok ({ id_ := id
         tags_ := tags
         latLon_ := some (⟨lat⟩, ⟨lon⟩)
         deleted_ := !(info.visible[i]?.getD true)
         changesetId_ := some (UInt32.ofInt changeset.toInt)
         uid_ := some (UInt32.ofInt uid.toInt)
         user_ := some user
         version_ := some (UInt32.ofInt version.toInt)
         timestamp_ := some (.epoch (Int64.ofInt timestamp.toInt)) },
       { keysVals := keysVals, lastId := id, lastRawLat := rawLat, lastRawLon := rawLon, lastTimestamp := timestamp,
         lastChangeset := changeset, lastUid := uid, lastUserSid := userSid })

/-- The loop `for index in 0..num_nodes` (`src/arcpbf/mod.rs:136`), with the number of rounds to go. -/
def denseLoop (step : Nat → DenseState → Res (ArcNode × DenseState)) : Nat → Nat → DenseState → Res (List ArcOSMObj)
  | 0, _, _ => .ok []
  | n + 1, i, s => do
    let (node, s) ← step i s
    let r ← denseLoop step n (i + 1) s
    .ok (.node node :: r)

/-- `src/arcpbf/mod.rs:97-221` -/
def decodeDenseNodes (b : Build) (dense : Proto.DenseNodes) (granularity : Int32) (latOffset lonOffset : Int64)
    (dateGranularity : Int32) (table : List (Option Str)) : Res (List ArcOSMObj) :=
  denseLoop (denseNode b dense granularity latOffset lonOffset dateGranularity table) dense.id.length 0
    { keysVals := dense.keysVals }

/-- `src/arcpbf/mod.rs:236-250` and 307-321: `keys.zip(vals)`, until one of the iterators ends. -/
def zipTags (table : List (Option Str)) : List UInt32 → List UInt32 → Res (List (Str × Str))
  | k :: ks, v :: vs => do
    let key ← index table k.toNat
    let val ← index table v.toNat
    let r ← zipTags table ks vs
    .ok (consSome key val r)
  | ks, vs => surplus (fun k => index table k.toNat) (zipPeeks false [ks.length, vs.length]) ks

/-- `last_id += nid` (`src/arcpbf/mod.rs:258-261`, 334-337) -/
def runningSums (b : Build) (last : Int64) : List Int64 → Res (List Int64)
  | [] => .ok []
  | d :: ds => do
    let x ← b.i64 (last.toInt + d.toInt)
    let r ← runningSums b x ds
    .ok (x :: r)

/-- `src/arcpbf/mod.rs:252-262` and 328-338 -/
def undelta (b : Build) : List Int64 → Res (List ObjId)
  | [] => .ok []
  | d :: ds => do
    let r ← runningSums b d ds
    .ok (d :: r)

/-- `src/arcpbf/mod.rs:233-291`: one way. -/
def decodeWay (b : Build) (table : List (Option Str)) (way : Proto.Way) : Res ArcWay := do
  let info := way.info.getD {}
  let id := way.id.getD 0
  let tags ← zipTags table way.keys way.vals
  let nodes ← undelta b way.refs
  let timestamp ← unwrap info.timestamp
  let visible ← unwrap info.visible
  let changeset ← unwrap info.changeset
  let uid ← unwrap info.uid
  let userSid ← unwrap info.userSid
  let userOpt ← index table userSid.toNat
  let user ← unwrap userOpt
  let version ← unwrap info.version
  .ok { id_ := id
        tags_ := tags
        nodes_ := nodes
        deleted_ := !visible
        changesetId_ := some (UInt32.ofInt changeset.toInt)
        uid_ := some (UInt32.ofInt uid.toInt)
        user_ := some user
        version_ := some (UInt32.ofInt version.toInt)
        timestamp_ := some (.epoch timestamp) }

/-- The results of a function that may panic, in order: `for x in l { results.push(f(x)) }` (`src/arcpbf/mod.rs:233`, 304). -/
def forAll {α β : Type} (f : α → Res β) : List α → Res (List β)
  | [] => .ok []
  | a :: l => do
    let x ← f a
    let r ← forAll f l
    .ok (x :: r)

/-- `src/arcpbf/mod.rs:223-292` -/
def decodeWays (b : Build) (table : List (Option Str)) (ways : List Proto.Way) : Res (List ArcOSMObj) :=
  forAll (fun w => (decodeWay b table w).map .way) ways

/-- `EnumOrUnknown::unwrap` and `src/arcpbf/mod.rs:342-350` -/
def memberType (t : Int32) : Res OSMObjectType :=
  if t.toInt = 0 then .ok .node
  else if t.toInt = 1 then .ok .way
  else if t.toInt = 2 then .ok .relation
  else .error .unwrap

/-- `src/arcpbf/mod.rs:355`: members whose role is not valid UTF-8 are left out. -/
def consMember (t : OSMObjectType) (id : ObjId) (role : Option Str) (r : List (OSMObjectType × ObjId × Str)) :
    List (OSMObjectType × ObjId × Str) :=
  match role with
  | some role => (t, id, role) :: r
  | none => r

/-- `src/arcpbf/mod.rs:323-326` and 352-356: `member_types.zip(member_ids).zip(roles)`, until one of the iterators ends. -/
def zipMembers (table : List (Option Str)) : List Int32 → List ObjId → List Int32 → Res (List (OSMObjectType × ObjId × Str))
  | t :: ts, id :: ids, r :: rs => do
    let ty ← memberType t
    let role ← indexI32 table r
    let rest ← zipMembers table ts ids rs
    .ok (consMember ty id role rest)
  | ts, ids, rs => surplus memberType (zipPeeks false [ts.length, ids.length, rs.length]) ts

/-- `src/arcpbf/mod.rs:304-380`: one relation. -/
def decodeRelation (b : Build) (table : List (Option Str)) (rel : Proto.Relation) : Res ArcRelation := do
  let info := rel.info.getD {}
  let id := rel.id.getD 0
  let tags ← zipTags table rel.keys rel.vals
  let memberIds ← undelta b rel.memids
  let members ← zipMembers table rel.types memberIds rel.rolesSid
  let timestamp ← unwrap info.timestamp
  let visible ← unwrap info.visible
  let changeset ← unwrap info.changeset
  let uid ← unwrap info.uid
  let userSid ← unwrap info.userSid
  let userOpt ← index table userSid.toNat
  let user ← unwrap userOpt
  let version ← unwrap info.version
  .ok { id_ := id
        tags_ := tags
        members_ := members
        deleted_ := !visible
        changesetId_ := some (UInt32.ofInt changeset.toInt)
        uid_ := some (UInt32.ofInt uid.toInt)
        user_ := some user
        version_ := some (UInt32.ofInt version.toInt)
        timestamp_ := some (.epoch timestamp) }

/-- `src/arcpbf/mod.rs:294-381` -/
def decodeRelations (b : Build) (table : List (Option Str)) (rels : List Proto.Relation) : Res (List ArcOSMObj) :=
  forAll (fun r => (decodeRelation b table r).map .relation) rels

/-- `src/arcpbf/mod.rs:383-436` -/
def decodeGroup (b : Build) (group : Proto.PrimitiveGroup) (granularity : Int32) (latOffset lonOffset : Int64)
    (dateGranularity : Int32) (table : List (Option Str)) : Res (List ArcOSMObj) :=
  let dateGranularity := Int32.ofInt (dateGranularity.toInt.tdiv 1000)
  if group.nodes ≠ [] then .error .unimplemented
  else if group.dense.isSome = true then
    decodeDenseNodes b (group.dense.getD {}) granularity latOffset lonOffset dateGranularity table
  else if group.ways ≠ [] then decodeWays b table group.ways
  else if group.relations ≠ [] then decodeRelations b table group.relations
  else .error .unreachable

/-- The groups of a block (`src/arcpbf/mod.rs:453-463`). -/
def decodeGroups (decode : Proto.PrimitiveGroup → Res (List ArcOSMObj)) : List Proto.PrimitiveGroup → Res (List ArcOSMObj)
  | [] => .ok []
  | g :: gs => do
    let os ← decode g
    let r ← decodeGroups decode gs
    .ok (os ++ r)

/-- `src/arcpbf/mod.rs:439-444`; without a string table `MessageField` gives an empty one. -/
def stringTable (block : Proto.PrimitiveBlock) : List (Option Str) := (block.stringtable.getD {}).s.map Utf8.decode

/-- `src/arcpbf/mod.rs:438-466` -/
def decodeBlock (b : Build) (block : Proto.PrimitiveBlock) : Res (List ArcOSMObj) :=
  decodeGroups (fun g =>
    decodeGroup b g block.granularityOr block.latOffsetOr block.lonOffsetOr block.dateGranularityOr (stringTable block))
    block.primitivegroup

/-- `src/arcpbf/mod.rs:477-481` -/
structure PBFReader where
  src : Source
  buffer : List ArcOSMObj
  sortedAssumption : Bool

/-- `src/arcpbf/mod.rs:495-501` -/
def PBFReader.new (src : Source) : PBFReader := ⟨src, [], false⟩

/-- `src/arcpbf/mod.rs:510-516` and 48-54: `inner` and `into_inner`. A `Read` is what it has yet to give. -/
def PBFReader.intoInner (r : PBFReader) : Source := r.src

/-- `src/arcpbf/mod.rs:503-505` -/
def PBFReader.setSortedAssumption (r : PBFReader) (x : Bool) : PBFReader := { r with sortedAssumption := x }
/-- `src/arcpbf/mod.rs:506-508` -/
def PBFReader.getSortedAssumption (r : PBFReader) : Bool := r.sortedAssumption

/-- The objects of a blob (`src/arcpbf/mod.rs:526-531`). -/
def decodeBlob (zlib : Proto.Bytes → Option Proto.Bytes) (b : Build) (blob : Proto.Blob) : Res (List ArcOSMObj) := do
  let dataOpt ← blobRawData zlib blob
  let data ← unwrap dataOpt
  let block ← unwrap (Proto.PrimitiveBlock.parseFromBytes data)
  decodeBlock b block

/-- `src/arcpbf/mod.rs:518-541`. The first argument bounds the rounds of the loop; each takes four bytes at least. The buffer is in reverse
order, and `pop` takes from its end. -/
def PBFReader.nextAux (zlib : Proto.Bytes → Option Proto.Bytes) (b : Build) : Nat → PBFReader →
    Res (Option ArcOSMObj) × PBFReader
  | n, r =>
    match r.buffer.getLast? with
    | some o => (.ok (some o), { r with buffer := r.buffer.dropLast })
    | none =>
      match n with
      | 0 => (.ok none, r)
      | n + 1 =>
        match getNextOsmdataBlob r.src with
        | (.error p, src) => (.error p, { r with src := src })
        | (.ok none, src) => (.ok none, { r with src := src })
        | (.ok (some blob), src) =>
          match decodeBlob zlib b blob with
          | .error p => (.error p, { r with src := src })
          | .ok objs => PBFReader.nextAux zlib b n { r with src := src, buffer := objs.reverse }

/-- `src/arcpbf/mod.rs:518-541` -/
def PBFReader.next (zlib : Proto.Bytes → Option Proto.Bytes) (b : Build) (r : PBFReader) : Res (Option ArcOSMObj) × PBFReader :=
  PBFReader.nextAux zlib b (r.src.length + 1) r

end Osmio.ArcPbf
