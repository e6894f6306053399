import Verif.Spec.PbfResume
/-!
# Specification: the methods `nodes()`, `ways()` and `relations()` of the owned-string reader, on any bytes

These methods make the reader look at one kind of object only. What comes of any bytes: what would come if the groups of each block had no other objects.
Only the last section refers to the reader.
-/

namespace Osmio.Spec.Pbf

/-! ## One kind of object -/

/-- A group without the objects of the other two kinds. -/
def onlyGroup (k : OSMObjectType) (g : Proto.PrimitiveGroup) : Proto.PrimitiveGroup :=
  match k with
  | .node => { g with ways := [], relations := [] }
  | .way => { g with nodes := [], dense := none, relations := [] }
  | .relation => { g with nodes := [], dense := none, ways := [] }

/-- A block without them. -/
def only (k : OSMObjectType) (block : Proto.PrimitiveBlock) : Proto.PrimitiveBlock :=
  { block with primitivegroup := block.primitivegroup.map (onlyGroup k) }

/-- A group that has no objects of this kind. -/
def Lacks (k : OSMObjectType) (g : Proto.PrimitiveGroup) : Prop :=
  match k with
  | .node => g.nodes = [] ∧ g.dense = none
  | .way => g.ways = []
  | .relation => g.relations = []

/-! ## Files -/

/-- The objects of this kind in a frame. -/
inductive KindShown (k : OSMObjectType) (zlib : Proto.Bytes → Option Proto.Bytes) (b : Build) (f : Frame) : List ObjData → Prop
  | other (type_ : Str) : HeaderSays f type_ → type_ ≠ str% "OSMData" → KindShown k zlib b f []
  | nothing (blob : Proto.Blob) : HeaderSays f (str% "OSMData") → DecodesBlob f.data blob → PassedOver zlib blob → KindShown k zlib b f []
  | block (blob : Proto.Blob) (data : Proto.Bytes) (block : Proto.PrimitiveBlock) (ds : List ObjData) :
      HeaderSays f (str% "OSMData") → DecodesBlob f.data blob → Unpacked zlib blob data →
      DecodesPrimitiveBlock data block → hasPrimitiveBlock block → ReadableIn b .owned (only k block) → BlockShown (only k block) ds → KindShown k zlib b f ds

/-- The objects of this kind in a file. -/
def KindFile (k : OSMObjectType) (zlib : Proto.Bytes → Option Proto.Bytes) (b : Build) (bs : Proto.Bytes) (ds : List ObjData) : Prop :=
  ∃ fs tail dss, bs = fileBytes fs ++ tail ∧ tail.length < 4 ∧ List.Forall₂ (KindShown k zlib b) fs dss ∧ ds = dss.flatten

/-- What a blob gives to a caller that goes on after panics. -/
inductive KindGives (k : OSMObjectType) (zlib : Proto.Bytes → Option Proto.Bytes) (b : Build) (blob : Proto.Blob) : List (Option ObjData) → Prop
  | nothing : PassedOver zlib blob → KindGives k zlib b blob []
  | block (data : Proto.Bytes) (block : Proto.PrimitiveBlock) (ds : List ObjData) : Unpacked zlib blob data → DecodesPrimitiveBlock data block →
      hasPrimitiveBlock block → ReadableIn b .owned (only k block) → BlockShown (only k block) ds → KindGives k zlib b blob (ds.map some)
  | lost : ¬ PassedOver zlib blob → (∀ data block, Unpacked zlib blob data → DecodesPrimitiveBlock data block → ¬ hasPrimitiveBlock block) →
      KindGives k zlib b blob [none]
  | unreadable (data : Proto.Bytes) (block : Proto.PrimitiveBlock) (ds : List ObjData) : Unpacked zlib blob data →
      DecodesPrimitiveBlock data block → hasPrimitiveBlock block → ¬ ReadableIn b .owned (only k block) → Before b (only k block) ds →
      KindGives k zlib b blob (none :: ds.map some)

/-! ## The methods -/

/-- The reader after the call of the method. -/
def method (k : OSMObjectType) (r : StringPbf.PBFReader) : StringPbf.PBFReader :=
  match k with
  | .node => r.nodes
  | .way => r.ways
  | .relation => r.relations

/-- What `filter_map(|o| o.into_node())`, or `into_way` or `into_relation`, makes of an object. -/
def picked (k : OSMObjectType) (o : StringOSMObj) : Option ObjData :=
  match k with
  | .node => (OSMObjT.intoNode o).map fun n => objData (StringOSMObj.node n)
  | .way => (OSMObjT.intoWay o).map fun n => objData (StringOSMObj.way n)
  | .relation => (OSMObjT.intoRelation o).map fun n => objData (StringOSMObj.relation n)

/-- The same if a panic may have come instead, which is passed on. -/
def pickedOrPanic (k : OSMObjectType) : Option StringOSMObj → Option (Option ObjData)
  | none => some none
  | some o => (picked k o).map some

/-- A loop over the iterator, with a new reader, shows these objects up to the end or a panic. -/
def KindReads (k : OSMObjectType) (zlib : Proto.Bytes → Option Proto.Bytes) (b : Build) (src : Source) (ds : List ObjData) (e : Option Panic) : Prop :=
  ∃ os s', Drain (StringPbf.PBFReader.next zlib b) (method k (StringPbf.PBFReader.new src)) os e s' ∧ os.filterMap (picked k) = ds

/-- Calling the iterator until it returns `None`, going on after each panic. -/
def KindResumes (k : OSMObjectType) (zlib : Proto.Bytes → Option Proto.Bytes) (b : Build) (src : Source) (gs : List (Option ObjData)) : Prop :=
  ∃ os, Resumed (StringPbf.PBFReader.next zlib b) (method k (StringPbf.PBFReader.new src)) os ∧
    os.filterMap (pickedOrPanic k) = gs

end Osmio.Spec.Pbf
