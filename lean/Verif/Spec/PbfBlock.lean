import Verif.Model.Proto
import Mathlib.Data.List.Forall2
import Verif.Spec.XmlText
/-!
# Specification: what a block of a PBF file says

Written from the comments in `src/stringpbf/osmformat.proto`. Nothing here refers to the decoders.
-/

namespace Osmio.Spec.Pbf

/-- The sum of the elements up to and including the `i`-th. -/
def runningSum (l : List Int) (i : Nat) : Int := (l.take (i + 1)).sum

/-- Numbers added up where after every step the sum is multiplied by `k`, so that what was added early is multiplied often. -/
def compounded (k : Int) (l : List Int) : Int := l.foldl (fun t d => (t + d) * k) 0

/-- All running sums. -/
def runningSums (l : List Int) : List Int := (List.range l.length).map (runningSum l)

/-- What an encoder stores: each number less the one before (the first less 0). -/
def differences : Int → List Int → List Int
  | _, [] => []
  | last, x :: xs => (x - last) :: differences x xs

/-- The range of `i64`. -/
def FitsI64 (x : Int) : Prop := -9223372036854775808 ≤ x ∧ x ≤ 9223372036854775807
/-- The range of `i32`. -/
def FitsI32 (x : Int) : Prop := -2147483648 ≤ x ∧ x ≤ 2147483647
/-- The range of `u32`. -/
def FitsU32 (x : Int) : Prop := 0 ≤ x ∧ x ≤ 4294967295

instance (x : Int) : Decidable (FitsI64 x) := inferInstanceAs (Decidable (_ ∧ _))
instance (x : Int) : Decidable (FitsI32 x) := inferInstanceAs (Decidable (_ ∧ _))
instance (x : Int) : Decidable (FitsU32 x) := inferInstanceAs (Decidable (_ ∧ _))

/-- The numbers of a list of `i64`. -/
def ints (l : List Int64) : List Int := l.map Int64.toInt
/-- The numbers of a list of `i32`. -/
def ints32 (l : List Int32) : List Int := l.map Int32.toInt

/-- A string of the string table. -/
def stringAt (t : Proto.StringTable) (i : Int) : Option Str :=
  if i < 0 then none else (t.s[i.toNat]?).bind Utf8.decode

/-- All strings of the table are text. -/
def TableValid (t : Proto.StringTable) : Prop := ∀ s ∈ t.s, Utf8.decode s ≠ none

/-- The strings at two positions. -/
def PairAt (t : Proto.StringTable) (k v : Int) (kv : Str × Str) : Prop := stringAt t k = some kv.1 ∧ stringAt t v = some kv.2

/-- `keys_vals` of dense nodes: for each node its keys and values in turn, then a 0. -/
def keysValsOf (segs : List (List (Int32 × Int32))) : List Int32 :=
  segs.flatMap fun seg => seg.flatMap (fun kv => [kv.1, kv.2]) ++ [0]

/-- `keys_vals` holds these tags for the nodes. It may be left out if no node has a tag. -/
def HasTags (keysVals : List Int32) (segs : List (List (Int32 × Int32))) : Prop :=
  (∀ seg ∈ segs, ∀ kv ∈ seg, kv.1 ≠ 0) ∧ (keysVals = keysValsOf segs ∨ (keysVals = [] ∧ ∀ seg ∈ segs, seg = []))

/-- The metadata of an `Info` message. -/
structure HasInfo (t : Proto.StringTable) (i : Proto.Info) (v : View) : Prop where
  version : ∃ x y, i.version = some x ∧ v.version = some y ∧ (y.toNat : Int) = x.toInt
  timestamp : ∃ x, i.timestamp = some x ∧ v.timestamp = some (.epoch x)
  changeset : ∃ x y, i.changeset = some x ∧ v.changesetId = some y ∧ (y.toNat : Int) = x.toInt
  uid : ∃ x y, i.uid = some x ∧ v.uid = some y ∧ (y.toNat : Int) = x.toInt
  user : ∃ x s, i.userSid = some x ∧ stringAt t x.toNat = some s ∧ v.user = some s
  visible : ∃ x, i.visible = some x ∧ v.deleted = !x

/-- The tags of a message with keys and values. -/
def HasPairs (t : Proto.StringTable) (keys vals : List UInt32) (tags : List (Str × Str)) : Prop :=
  keys.length = vals.length ∧
    List.Forall₂ (fun (kv : UInt32 × UInt32) tag => PairAt t kv.1.toNat kv.2.toNat tag) (keys.zip vals) tags

/-- A `Way` message says this. -/
structure IsWay (t : Proto.StringTable) (w : Proto.Way) (d : ObjData) : Prop where
  kind : d.view.kind = .way
  id : w.id = some d.view.id
  tags : HasPairs t w.keys w.vals d.view.tags
  info : ∃ i, w.info = some i ∧ HasInfo t i d.view
  nodes : d.nodes.map Int64.toInt = runningSums (ints w.refs)
  pos : d.pos = none
  members : d.members = []

/-- The kind of a member (`enum MemberType`). -/
def memberKind : OSMObjectType → Int
  | .node => 0
  | .way => 1
  | .relation => 2

/-- A `Relation` message says this. -/
structure IsRelation (t : Proto.StringTable) (r : Proto.Relation) (d : ObjData) : Prop where
  kind : d.view.kind = .relation
  id : r.id = some d.view.id
  tags : HasPairs t r.keys r.vals d.view.tags
  info : ∃ i, r.info = some i ∧ HasInfo t i d.view
  types : d.members.map (fun m => memberKind m.1) = ints32 r.types
  ids : d.members.map (fun m => m.2.1.toInt) = runningSums (ints r.memids)
  roles : d.members.map (fun m => some m.2.2) = r.rolesSid.map (fun x => stringAt t x.toInt)
  pos : d.pos = none
  nodes : d.nodes = []

/-- The granularity of a block, in nanodegrees. -/
def granularity (b : Proto.PrimitiveBlock) : Int := (b.granularity.getD 100).toInt
/-- The offsets of a block, in nanodegrees. -/
def latOffset (b : Proto.PrimitiveBlock) : Int := (b.latOffset.getD 0).toInt
def lonOffset (b : Proto.PrimitiveBlock) : Int := (b.lonOffset.getD 0).toInt
/-- The granularity of dates, in milliseconds. -/
def dateGranularity (b : Proto.PrimitiveBlock) : Int := (b.dateGranularity.getD 1000).toInt

/-- "Nanodegrees of latitude: lat_offset + granularity * lat". -/
def nanoLat (b : Proto.PrimitiveBlock) (dense : Proto.DenseNodes) (i : Nat) : Int :=
  latOffset b + granularity b * runningSum (ints dense.lat) i
def nanoLon (b : Proto.PrimitiveBlock) (dense : Proto.DenseNodes) (i : Nat) : Int :=
  lonOffset b + granularity b * runningSum (ints dense.lon) i

/-- The `i`-th of a list of dense nodes, whose tags are at these positions, says this. -/
structure IsDenseNode (b : Proto.PrimitiveBlock) (t : Proto.StringTable) (dense : Proto.DenseNodes) (info : Proto.DenseInfo)
    (i : Nat) (seg : List (Int32 × Int32)) (d : ObjData) : Prop where
  kind : d.view.kind = .node
  id : d.view.id.toInt = runningSum (ints dense.id) i
  lat : ∃ p, d.pos = some p ∧ p.1.inner.toInt * 100 = nanoLat b dense i ∧ p.2.inner.toInt * 100 = nanoLon b dense i
  tags : List.Forall₂ (fun (kv : Int32 × Int32) tag => PairAt t kv.1.toInt kv.2.toInt tag) seg d.view.tags
  version : ∃ x y, info.version[i]? = some x ∧ d.view.version = some y ∧ (y.toNat : Int) = x.toInt
  timestamp : ∃ x, d.view.timestamp = some (.epoch x) ∧ x.toInt * 1000 = runningSum (ints info.timestamp) i * dateGranularity b
  changeset : ∃ y, d.view.changesetId = some y ∧ (y.toNat : Int) = runningSum (ints info.changeset) i
  uid : ∃ y, d.view.uid = some y ∧ (y.toNat : Int) = runningSum (ints32 info.uid) i
  user : ∃ s, stringAt t (runningSum (ints32 info.userSid) i) = some s ∧ d.view.user = some s
  visible : d.view.deleted = !(info.visible[i]?.getD true)
  nodes : d.nodes = []
  members : d.members = []

/-- The numbers of a list of dense nodes are in the ranges the readers work with: coordinates that are whole multiples of 100
nanodegrees, within the range of `i32`, dates in whole seconds until 2038. -/
structure DenseInRange (b : Proto.PrimitiveBlock) (dense : Proto.DenseNodes) (info : Proto.DenseInfo) : Prop where
  gran : granularity b % 100 = 0
  latOff : latOffset b % 100 = 0 ∧ FitsI32 (latOffset b / 100)
  lonOff : lonOffset b % 100 = 0 ∧ FitsI32 (lonOffset b / 100)
  dateGran : dateGranularity b = 1000
  lat : ∀ i < dense.id.length, FitsI32 (runningSum (ints dense.lat) i) ∧
    FitsI32 (granularity b / 100 * runningSum (ints dense.lat) i)
  lon : ∀ i < dense.id.length, FitsI32 (runningSum (ints dense.lon) i) ∧
    FitsI32 (granularity b / 100 * runningSum (ints dense.lon) i)
  timestampDelta : ∀ x ∈ info.timestamp, FitsI32 x.toInt
  timestamp : ∀ i < dense.id.length, FitsI32 (runningSum (ints info.timestamp) i)
  uid : ∀ i < dense.id.length, runningSum (ints32 info.uid) i < 2147483647
  user : ∀ i < dense.id.length, FitsI32 (runningSum (ints32 info.userSid) i)
  latLength : dense.id.length ≤ dense.lat.length
  lonLength : dense.id.length ≤ dense.lon.length
  timestampLength : dense.id.length ≤ info.timestamp.length
  changesetLength : dense.id.length ≤ info.changeset.length
  uidLength : dense.id.length ≤ info.uid.length
  userLength : dense.id.length ≤ info.userSid.length

/-- A `DenseNodes` message says this. -/
structure IsDense (b : Proto.PrimitiveBlock) (t : Proto.StringTable) (dense : Proto.DenseNodes) (info : Proto.DenseInfo)
    (segs : List (List (Int32 × Int32))) (ds : List ObjData) : Prop where
  hasInfo : dense.denseinfo = some info
  range : DenseInRange b dense info
  tags : HasTags dense.keysVals segs
  segsLength : segs.length = dense.id.length
  length : ds.length = dense.id.length
  node : ∀ i seg d, segs[i]? = some seg → ds[i]? = some d → IsDenseNode b t dense info i seg d

/-- A group says this. A group has objects of one kind only. -/
inductive IsGroup (b : Proto.PrimitiveBlock) (t : Proto.StringTable) (g : Proto.PrimitiveGroup) (ds : List ObjData) : Prop
  | dense (dense : Proto.DenseNodes) (info : Proto.DenseInfo) (segs : List (List (Int32 × Int32))) :
      g.nodes = [] → g.dense = some dense → g.ways = [] → g.relations = [] → IsDense b t dense info segs ds → IsGroup b t g ds
  | ways : g.nodes = [] → g.dense = none → g.ways ≠ [] → g.relations = [] → List.Forall₂ (IsWay t) g.ways ds → IsGroup b t g ds
  | relations : g.nodes = [] → g.dense = none → g.ways = [] → g.relations ≠ [] →
      List.Forall₂ (IsRelation t) g.relations ds → IsGroup b t g ds

/-- A block says this: the objects of its groups, in order. -/
structure IsBlock (b : Proto.PrimitiveBlock) (ds : List ObjData) : Prop where
  table : ∃ t, b.stringtable = some t ∧ TableValid t ∧
    ∃ dss, List.Forall₂ (IsGroup b t) b.primitivegroup dss ∧ ds = dss.flatten

/-- These objects are those of a group, and each is related to its message: `D` says how the objects are related to a `DenseNodes`
message, `W` and `R` relate an object to a `Way` or `Relation` message. The readers look at one kind of objects in a group: dense
nodes if there are any, else ways, else relations. -/
inductive EachInGroup (D : Proto.DenseNodes → List ObjData → Prop) (W : Proto.Way → ObjData → Prop)
    (R : Proto.Relation → ObjData → Prop) (g : Proto.PrimitiveGroup) (ds : List ObjData) : Prop
  | dense (dense : Proto.DenseNodes) : g.dense = some dense → ds.length = dense.id.length → D dense ds → EachInGroup D W R g ds
  | ways : g.dense = none → g.ways ≠ [] → List.Forall₂ W g.ways ds → EachInGroup D W R g ds
  | relations : g.dense = none → g.ways = [] → g.relations ≠ [] → List.Forall₂ R g.relations ds → EachInGroup D W R g ds
  | empty : g.dense = none → g.ways = [] → g.relations = [] → ds = [] → EachInGroup D W R g ds

/-- These objects are those of the groups of a block, in order, and each is related to its message. -/
def EachObject (D : Proto.DenseNodes → List ObjData → Prop) (W : Proto.Way → ObjData → Prop)
    (R : Proto.Relation → ObjData → Prop) (b : Proto.PrimitiveBlock) (ds : List ObjData) : Prop :=
  ∃ dss, List.Forall₂ (EachInGroup D W R) b.primitivegroup dss ∧ ds = dss.flatten

end Osmio.Spec.Pbf
