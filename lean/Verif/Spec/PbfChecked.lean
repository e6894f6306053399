import Verif.Spec.PbfReadable
/-!
# Specification: the numbers a build with overflow checks accepts

Exactly what such a build needs of a block, besides what every build needs (`Spec/PbfReadable.lean`). Nothing here refers to the decoders.
-/

namespace Osmio.Spec.Pbf

/-- The numbers worked out for the position of node `i`. Coordinates are counted in units of 100 nanodegrees, rounding towards zero. -/
structure PosFits (block : Proto.PrimitiveBlock) (dense : Proto.DenseNodes) (i : Nat) : Prop where
  id : FitsI64 (runningSum (ints dense.id) i)
  latUnits : FitsI32 (runningSum (ints dense.lat) i * (granularity block).tdiv 100)
  lonUnits : FitsI32 (runningSum (ints dense.lon) i * (granularity block).tdiv 100)
  lat : FitsI32 (runningSum (ints dense.lat) i * (granularity block).tdiv 100 + wrap32 ((latOffset block).tdiv 100))
  lon : FitsI32 (runningSum (ints dense.lon) i * (granularity block).tdiv 100 + wrap32 ((lonOffset block).tdiv 100))

/-- What is added for the dates. -/
def dateSteps (info : Proto.DenseInfo) : List Int := (ints info.timestamp).map wrap32

/-- The numbers worked out for the metadata of node `i`. -/
structure MetaFits (block : Proto.PrimitiveBlock) (info : Proto.DenseInfo) (i : Nat) : Prop where
  changeset : FitsI64 (runningSum (ints info.changeset) i)
  uid : FitsI32 (runningSum (ints32 info.uid) i)
  user : FitsI32 (runningSum (ints32 info.userSid) i)
  dateSum : ∀ d, (dateSteps info)[i]? = some d →
    FitsI32 (compounded ((dateGranularity block).tdiv 1000) ((dateSteps info).take i) + d)
  date : FitsI32 (compounded ((dateGranularity block).tdiv 1000) ((dateSteps info).take (i + 1)))

/-- The numbers worked out for a group. The readers look at dense nodes if there are any, else at ways, else at relations. -/
structure GroupFits (block : Proto.PrimitiveBlock) (g : Proto.PrimitiveGroup) : Prop where
  dense : ∀ dense, g.dense = some dense → ∀ i < dense.id.length, PosFits block dense i ∧ MetaFits block (dense.denseinfo.getD {}) i
  ways : g.dense = none → ∀ w ∈ g.ways, ∀ x ∈ runningSums (ints w.refs), FitsI64 x
  relations : g.dense = none → g.ways = [] → ∀ w ∈ g.relations, ∀ x ∈ runningSums (ints w.memids), FitsI64 x

/-- All numbers worked out for a block are in the ranges of their types. -/
def BlockFits (block : Proto.PrimitiveBlock) : Prop := ∀ g ∈ block.primitivegroup, GroupFits block g

/-- The same for the reader of positions. It passes over groups with ways or relations. -/
def PosGroupFits (block : Proto.PrimitiveBlock) (g : Proto.PrimitiveGroup) : Prop :=
  g.ways = [] → g.relations = [] → ∀ dense, g.dense = some dense → ∀ i < dense.id.length, PosFits block dense i

/-- A block that a reader, built in this way, can read. -/
def ReadableIn (b : Build) (r : Which) (block : Proto.PrimitiveBlock) : Prop := BlockReadable r block ∧ (b = .debug → BlockFits block)

/-- A group that the reader of positions, built in this way, can read. -/
def PosReadableIn (b : Build) (block : Proto.PrimitiveBlock) (g : Proto.PrimitiveGroup) : Prop :=
  PosGroupReadable g ∧ (b = .debug → PosGroupFits block g)

end Osmio.Spec.Pbf
