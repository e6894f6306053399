import Verif.Spec.PbfFile
/-!
# Specification: the blocks the PBF readers can read

Exactly what the two readers of objects need of a block, in a build without overflow checks. Nothing here refers to the decoders.
-/

namespace Osmio.Spec.Pbf

/-- A position in the string table. -/
def InTable (t : Proto.StringTable) (i : Int) : Prop := 0 ≤ i ∧ i < t.s.length

/-- A position in the string table with a text. -/
def TextAt (t : Proto.StringTable) (i : Int) : Prop := ∃ s, stringAt t i = some s

/-- All metadata is there. -/
structure InfoThere (r : Which) (t : Proto.StringTable) (i : Proto.Info) : Prop where
  version : i.version ≠ none
  timestamp : i.timestamp ≠ none
  changeset : i.changeset ≠ none
  uid : i.uid ≠ none
  user : ∃ sid, i.userSid = some sid ∧ TextAt t sid.toNat
  visible : r = .shared → i.visible ≠ none

/-- The owned-string reader consumes the members of a relation as a whole, the shared-string reader one by one. -/
def Which.whole : Which → Bool
  | .owned => true
  | .shared => false

/-- Keys and values are positions in the string table. (The shared-string reader stops at the end of the shorter list; `zip` may have it
look up one more key.) -/
structure PairsThere (r : Which) (t : Proto.StringTable) (keys vals : List UInt32) : Prop where
  length : r = .owned → keys.length = vals.length
  key : ∀ i k, keys[i]? = some k → i < vals.length → InTable t k.toNat
  val : ∀ i v, vals[i]? = some v → i < keys.length → InTable t v.toNat
  surplus : ∀ k, keys[vals.length]? = some k → zipPeeks false [keys.length - vals.length, 0] = true → InTable t k.toNat

/-- A way that can be read. -/
structure WayReadable (r : Which) (t : Proto.StringTable) (w : Proto.Way) : Prop where
  id : r = .owned → w.id ≠ none
  tags : PairsThere r t w.keys w.vals
  info : InfoThere r t (w.info.getD {})

/-- A relation that can be read. (Its members end with the shortest list; `zip` may look at one more type.) -/
structure RelationReadable (r : Which) (t : Proto.StringTable) (w : Proto.Relation) : Prop where
  tags : PairsThere r t w.keys w.vals
  types : ∀ i x, w.types[i]? = some x → i < w.memids.length → i < w.rolesSid.length → 0 ≤ x.toInt ∧ x.toInt ≤ 2
  roles : ∀ i x, w.rolesSid[i]? = some x → i < w.memids.length → i < w.types.length → InTable t x.toInt
  surplus : ∀ n x, n = min w.memids.length w.rolesSid.length → w.types[n]? = some x →
    zipPeeks r.whole [w.types.length - n, w.memids.length - n, w.rolesSid.length - n] = true → 0 ≤ x.toInt ∧ x.toInt ≤ 2
  info : InfoThere r t (w.info.getD {})

/-- `x as i32` -/
def wrap32 (x : Int) : Int := x.bmod 4294967296

/-- A list of dense nodes that can be read. -/
structure DenseReadable (r : Which) (t : Proto.StringTable) (dense : Proto.DenseNodes) (info : Proto.DenseInfo) : Prop where
  lat : dense.id.length ≤ dense.lat.length
  lon : dense.id.length ≤ dense.lon.length
  version : dense.id.length ≤ info.version.length
  timestamp : dense.id.length ≤ info.timestamp.length
  changeset : dense.id.length ≤ info.changeset.length
  uid : dense.id.length ≤ info.uid.length
  userSid : dense.id.length ≤ info.userSid.length
  latFits : ∀ i < dense.id.length, FitsI32 (runningSum (ints dense.lat) i)
  lonFits : ∀ i < dense.id.length, FitsI32 (runningSum (ints dense.lon) i)
  uidFits : ∀ i < dense.id.length, wrap32 (runningSum (ints32 info.uid) i) ≠ 2147483647
  user : ∀ i < dense.id.length, TextAt t (wrap32 (runningSum (ints32 info.userSid) i))
  tags : (r = .shared ∧ dense.keysVals = []) ∨
    ∃ (segs : List (List (Int32 × Int32))) (rest : List Int32), segs.length = dense.id.length ∧
      dense.keysVals = keysValsOf segs ++ rest ∧
      ∀ seg ∈ segs, ∀ kv ∈ seg, kv.1 ≠ 0 ∧ InTable t kv.1.toInt ∧ InTable t kv.2.toInt

/-- A group that can be read. The readers look at dense nodes if there are any, else at ways, else at relations. The shared-string reader
does not accept a group without any of them. -/
inductive GroupReadable (r : Which) (t : Proto.StringTable) (g : Proto.PrimitiveGroup) : Prop
  | dense (dense : Proto.DenseNodes) : g.nodes = [] → g.dense = some dense → DenseReadable r t dense (dense.denseinfo.getD {}) →
      (r = .owned → TableValid t) → GroupReadable r t g
  | ways : g.nodes = [] → g.dense = none → g.ways ≠ [] → (∀ w ∈ g.ways, WayReadable r t w) → (r = .owned → TableValid t) →
      GroupReadable r t g
  | relations : g.nodes = [] → g.dense = none → g.ways = [] → g.relations ≠ [] → (∀ w ∈ g.relations, RelationReadable r t w) →
      (r = .owned → TableValid t) → GroupReadable r t g
  | empty : r = .owned → g.nodes = [] → g.dense = none → g.ways = [] → g.relations = [] → GroupReadable r t g

/-- A block that can be read. -/
structure BlockReadable (r : Which) (block : Proto.PrimitiveBlock) : Prop where
  table : r = .owned → block.stringtable ≠ none
  single : r = .owned → block.primitivegroup.length = 1
  groups : ∀ g ∈ block.primitivegroup, GroupReadable r (block.stringtable.getD {}) g

/-- A group the reader of positions can read. It passes over groups with ways or relations. -/
inductive PosGroupReadable (g : Proto.PrimitiveGroup) : Prop
  | other : g.nodes = [] → g.ways ≠ [] ∨ g.relations ≠ [] → PosGroupReadable g
  | dense (dense : Proto.DenseNodes) : g.nodes = [] → g.ways = [] → g.relations = [] → g.dense = some dense →
      dense.id.length ≤ dense.lat.length → dense.id.length ≤ dense.lon.length →
      (∀ i < dense.id.length, FitsI32 (runningSum (ints dense.lat) i)) →
      (∀ i < dense.id.length, FitsI32 (runningSum (ints dense.lon) i)) → PosGroupReadable g

end Osmio.Spec.Pbf
