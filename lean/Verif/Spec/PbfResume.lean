import Verif.Spec.PbfDamage
import Verif.Spec.Drain
/-!
# Specification: going on after a panic

A reader is called until it returns `None`, and the caller catches every panic and calls again. What comes, for any bytes. Only the last section refers to
the readers.
-/

namespace Osmio.Spec

/-- Calling `next` until it returns `None`, going on after each panic: the objects, and `none` for a panic. -/
inductive Resumed {σ Obj : Type} (next : σ → Res (Option Obj) × σ) : σ → List (Option Obj) → Prop
  | done {s s' : σ} : next s = (.ok none, s') → Resumed next s []
  | panic {s s1 : σ} {p : Panic} {gs : List (Option Obj)} : next s = (.error p, s1) → Resumed next s1 gs → Resumed next s (none :: gs)
  | more {s s1 : σ} {o : Obj} {gs : List (Option Obj)} : next s = (.ok (some o), s1) → Resumed next s1 gs → Resumed next s (some o :: gs)

namespace Pbf

/-! ## The beginning of a block -/

/-- A group with its first `k` objects only. -/
def cutGroup (k : Nat) (g : Proto.PrimitiveGroup) : Proto.PrimitiveGroup :=
  { g with dense := g.dense.map fun d => { d with id := d.id.take k }, ways := g.ways.take k, relations := g.relations.take k }

/-- A block with the first `k` objects of each group only. -/
def cutBlock (k : Nat) (block : Proto.PrimitiveBlock) : Proto.PrimitiveBlock :=
  { block with primitivegroup := block.primitivegroup.map (cutGroup k) }

/-- The objects of a block before the first that the owned-string reader cannot read. -/
inductive Before (b : Build) (block : Proto.PrimitiveBlock) : List ObjData → Prop
  | nothing : (∀ k, ¬ ReadableIn b .owned (cutBlock k block)) → Before b block []
  | first (k : Nat) (ds : List ObjData) : ReadableIn b .owned (cutBlock k block) → ¬ ReadableIn b .owned (cutBlock (k + 1) block) →
      BlockShown (cutBlock k block) ds → Before b block ds

/-- The positions of a group before the first that cannot be read. -/
inductive PositionsBefore (b : Build) (block : Proto.PrimitiveBlock) (g : Proto.PrimitiveGroup) : List (ObjId × (Lat × Lon)) → Prop
  | nothing : (∀ k, ¬ PosReadableIn b block (cutGroup k g)) → PositionsBefore b block g []
  | first (k : Nat) (xs : List (ObjId × (Lat × Lon))) : PosReadableIn b block (cutGroup k g) → ¬ PosReadableIn b block (cutGroup (k + 1) g) →
      GroupPositions block (cutGroup k g) xs → PositionsBefore b block g xs

/-! ## Blobs and frames -/

/-- What a blob gives. If a block cannot be read, there is a panic, and after it the owned-string reader gives the objects before the one that cannot be
read. -/
inductive BlobGives (r : Which) (zlib : Proto.Bytes → Option Proto.Bytes) (b : Build) (blob : Proto.Blob) : List (Option ObjData) → Prop
  | nothing : r = .owned → PassedOver zlib blob → BlobGives r zlib b blob []
  | block (data : Proto.Bytes) (block : Proto.PrimitiveBlock) (ds : List ObjData) : DataIn r zlib blob data → DecodesPrimitiveBlock data block →
      hasPrimitiveBlock block → ReadableIn b r block → BlockShown block ds → BlobGives r zlib b blob (ds.map some)
  | lost : (r = .owned → ¬ PassedOver zlib blob) →
      (∀ data block, DataIn r zlib blob data → DecodesPrimitiveBlock data block → ¬ hasPrimitiveBlock block) → BlobGives r zlib b blob [none]
  | unreadable (data : Proto.Bytes) (block : Proto.PrimitiveBlock) (ds : List ObjData) : DataIn r zlib blob data →
      DecodesPrimitiveBlock data block → hasPrimitiveBlock block → ¬ ReadableIn b r block →
      (r = .owned → Before b block ds) → (r = .shared → ds = []) → BlobGives r zlib b blob (none :: ds.map some)

/-- What a blob gives, positions. -/
inductive BlobGivesPositions (zlib : Proto.Bytes → Option Proto.Bytes) (b : Build) (blob : Proto.Blob) : List (Option (ObjId × (Lat × Lon))) → Prop
  | block (data : Proto.Bytes) (block : Proto.PrimitiveBlock) (xss : List (List (ObjId × (Lat × Lon)))) : Unpacked zlib blob data →
      DecodesPrimitiveBlock data block → hasPrimitiveBlock block → (∀ g ∈ block.primitivegroup, PosReadableIn b block g) →
      List.Forall₂ (GroupPositions block) block.primitivegroup xss → BlobGivesPositions zlib b blob (xss.flatten.map some)
  | lost : (∀ data block, Unpacked zlib blob data → DecodesPrimitiveBlock data block → ¬ hasPrimitiveBlock block) →
      BlobGivesPositions zlib b blob [none]
  | unreadable (data : Proto.Bytes) (block : Proto.PrimitiveBlock) (before : List Proto.PrimitiveGroup) (g : Proto.PrimitiveGroup)
      (after : List Proto.PrimitiveGroup) (xss : List (List (ObjId × (Lat × Lon)))) (xs : List (ObjId × (Lat × Lon))) : Unpacked zlib blob data →
      DecodesPrimitiveBlock data block → hasPrimitiveBlock block → block.primitivegroup = before ++ g :: after →
      (∀ g ∈ before, PosReadableIn b block g) → List.Forall₂ (GroupPositions block) before xss → ¬ PosReadableIn b block g →
      PositionsBefore b block g xs → BlobGivesPositions zlib b blob (none :: (xss.flatten ++ xs).map some)

/-- What a frame gives, if this is what blobs give. -/
inductive FrameGives {α : Type} (gives : Proto.Blob → List (Option α) → Prop) (f : Frame) : List (Option α) → Prop
  | other (type_ : Str) : HeaderSays f type_ → type_ ≠ str% "OSMData" → FrameGives gives f []
  | noBlob : HeaderSays f (str% "OSMData") → (∀ blob, ¬ DecodesBlob f.data blob) → FrameGives gives f [none]
  | blob (blob : Proto.Blob) (gs : List (Option α)) : HeaderSays f (str% "OSMData") → DecodesBlob f.data blob → gives blob gs → FrameGives gives f gs

/-! ## Any bytes -/

/-- A header, with the size it states for what follows. -/
def GoodHeader (h : Proto.Bytes) (size : Nat) : Prop :=
  ∃ hd type_ n, DecodesBlobHeader h hd ∧ hd.type_ = some type_ ∧ hd.datasize = some n ∧ n.toInt = size

/-- What any bytes give. Frames one after another; after a header that is not one the reader goes on with the bytes after it; at the end up to three bytes
are passed over, and a frame that is cut off is a panic. -/
inductive Gives {α : Type} (gives : Proto.Blob → List (Option α) → Prop) : Proto.Bytes → List (Option α) → Prop
  | rest (tail : Proto.Bytes) : tail.length < 4 → Gives gives tail []
  | cutHeader (n : Nat) (h : Proto.Bytes) : n < 4294967296 → h.length < n → Gives gives (be32 n ++ h) [none]
  | badHeader (h more : Proto.Bytes) (gs : List (Option α)) : h.length < 4294967296 → (∀ n, ¬ GoodHeader h n) → Gives gives more gs →
      Gives gives (be32 h.length ++ (h ++ more)) (none :: gs)
  | cutData (h data : Proto.Bytes) (n : Nat) : h.length < 4294967296 → GoodHeader h n → data.length < n →
      Gives gives (be32 h.length ++ (h ++ data)) [none]
  | frame (f : Frame) (more : Proto.Bytes) (gs gs' : List (Option α)) : FrameGives gives f gs → Gives gives more gs' →
      Gives gives (f.bytes ++ more) (gs ++ gs')

/-! ## The readers -/

/-- Calling a new reader until it reports the end, going on after each panic. -/
def Resumes (r : Which) (zlib : Proto.Bytes → Option Proto.Bytes) (b : Build) (src : Source) (gs : List (Option ObjData)) : Prop :=
  match r with
  | .owned => ∃ os, Resumed (StringPbf.PBFReader.next zlib b) (StringPbf.PBFReader.new src) os ∧ os.map (Option.map objData) = gs
  | .shared => ∃ os, Resumed (ArcPbf.PBFReader.next zlib b) (ArcPbf.PBFReader.new src) os ∧ os.map (Option.map objData) = gs

def ResumesPositions (zlib : Proto.Bytes → Option Proto.Bytes) (b : Build) (src : Source) (gs : List (Option (ObjId × (Lat × Lon)))) : Prop :=
  Resumed (NodePos.Reader.next zlib b) (NodePos.Reader.new src) gs

end Osmio.Spec.Pbf
