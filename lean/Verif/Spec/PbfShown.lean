import Verif.Spec.PbfReadable
/-!
# Specification: what the objects of a block look like

For each object of a block the readers can read, all that its getters give, as formulas over the fields of the messages (for builds
without overflow checks, where sums wrap around). Nothing here refers to the decoders.
-/

namespace Osmio.Spec.Pbf

/-- The texts at two positions, if both are text. -/
def textPair (t : Proto.StringTable) (k v : Int) : Option (Str × Str) :=
  (stringAt t k).bind fun k => (stringAt t v).map fun v => (k, v)

/-- The tags of a way or relation: the pairs of keys and values, without those that are not text. -/
def shownTags (t : Proto.StringTable) (keys vals : List UInt32) : List (Str × Str) :=
  (keys.zip vals).filterMap fun kv => textPair t kv.1.toNat kv.2.toNat

/-- The tags of a dense node: the same for its segment of `keys_vals`. -/
def shownDenseTags (t : Proto.StringTable) (seg : List (Int32 × Int32)) : List (Str × Str) :=
  seg.filterMap fun kv => textPair t kv.1.toInt kv.2.toInt

/-- Is it deleted? The owned-string reader takes a missing `visible` as false. (The other one does not accept it.) -/
def shownDeleted (i : Proto.Info) : Bool := !(i.visible.getD false)

/-- The common part of a way or relation. -/
def shownView (kind : OSMObjectType) (t : Proto.StringTable) (id : Option Int64) (keys vals : List UInt32) (i : Proto.Info) : View where
  id := id.getD 0
  version := i.version.map fun x => UInt32.ofInt x.toInt
  deleted := shownDeleted i
  changesetId := i.changeset.map fun x => UInt32.ofInt x.toInt
  timestamp := i.timestamp.map .epoch
  uid := i.uid.map fun x => UInt32.ofInt x.toInt
  user := i.userSid.bind fun x => stringAt t x.toNat
  tags := shownTags t keys vals
  kind := kind

/-- A way. -/
def shownWay (t : Proto.StringTable) (w : Proto.Way) : ObjData where
  view := shownView .way t w.id w.keys w.vals (w.info.getD {})
  pos := none
  nodes := (runningSums (ints w.refs)).map Int64.ofInt
  members := []

/-- The kind of a member. -/
def kindOf (x : Int) : Option OSMObjectType :=
  if x = 0 then some .node else if x = 1 then some .way else if x = 2 then some .relation else none

/-- The members of a relation: types, ids and roles side by side as far as the shortest list goes, without those whose role is not text. -/
def shownMembers (t : Proto.StringTable) (w : Proto.Relation) : List (OSMObjectType × ObjId × Str) :=
  ((w.types.zip ((runningSums (ints w.memids)).map Int64.ofInt)).zip w.rolesSid).filterMap fun x =>
    (kindOf x.1.1.toInt).bind fun kind => (stringAt t x.2.toInt).map fun role => (kind, x.1.2, role)

/-- A relation. -/
def shownRelation (t : Proto.StringTable) (w : Proto.Relation) : ObjData where
  view := shownView .relation t w.id w.keys w.vals (w.info.getD {})
  pos := none
  nodes := []
  members := shownMembers t w

/-- Units of the file to units of 100 nanodegrees. -/
def shownCoord (granularity offset raw : Int) : Int32 := Int32.ofInt (raw * granularity.tdiv 100 + offset.tdiv 100)

/-- The `i`-th of a list of dense nodes, with this segment of `keys_vals`. -/
def shownNode (b : Proto.PrimitiveBlock) (t : Proto.StringTable) (dense : Proto.DenseNodes) (i : Nat) (seg : List (Int32 × Int32)) :
    ObjData where
  view := {
    id := Int64.ofInt (runningSum (ints dense.id) i)
    version := (dense.denseinfo.getD {}).version[i]?.map fun x => UInt32.ofInt x.toInt
    deleted := !((dense.denseinfo.getD {}).visible[i]?.getD true)
    changesetId := some (UInt32.ofInt (runningSum (ints (dense.denseinfo.getD {}).changeset) i))
    timestamp := some (.epoch (Int64.ofInt (wrap32
      (compounded ((dateGranularity b).tdiv 1000) ((ints (dense.denseinfo.getD {}).timestamp).take (i + 1))))))
    uid := some (UInt32.ofInt (runningSum (ints32 (dense.denseinfo.getD {}).uid) i))
    user := stringAt t (wrap32 (runningSum (ints32 (dense.denseinfo.getD {}).userSid) i))
    tags := shownDenseTags t seg
    kind := .node }
  pos := some (⟨shownCoord (granularity b) (latOffset b) (runningSum (ints dense.lat) i)⟩,
    ⟨shownCoord (granularity b) (lonOffset b) (runningSum (ints dense.lon) i)⟩)
  nodes := []
  members := []

/-- `keys_vals` gives these segments to the nodes: one each, in order, whatever comes after them; or it is empty and there are no tags. -/
def Segments (keysVals : List Int32) (segs : List (List (Int32 × Int32))) : Prop :=
  (∀ seg ∈ segs, ∀ kv ∈ seg, kv.1 ≠ 0) ∧ ((∃ rest, keysVals = keysValsOf segs ++ rest) ∨ (keysVals = [] ∧ ∀ seg ∈ segs, seg = []))

/-- The objects of a group: its dense nodes if there are any, else its ways, else its relations. -/
inductive GroupShown (b : Proto.PrimitiveBlock) (t : Proto.StringTable) (g : Proto.PrimitiveGroup) : List ObjData → Prop
  | dense (dense : Proto.DenseNodes) (segs : List (List (Int32 × Int32))) : g.dense = some dense →
      segs.length = dense.id.length → Segments dense.keysVals segs →
      GroupShown b t g (segs.mapIdx (shownNode b t dense))
  | ways : g.dense = none → g.ways ≠ [] → GroupShown b t g (g.ways.map (shownWay t))
  | relations : g.dense = none → g.ways = [] → GroupShown b t g (g.relations.map (shownRelation t))

/-- The objects of a block: those of its groups, in order. -/
def BlockShown (b : Proto.PrimitiveBlock) (ds : List ObjData) : Prop :=
  ∃ dss, List.Forall₂ (GroupShown b (b.stringtable.getD {})) b.primitivegroup dss ∧ ds = dss.flatten

end Osmio.Spec.Pbf
