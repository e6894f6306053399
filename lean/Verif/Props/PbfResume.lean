import Verif.Proofs.PbfResumeBlobs
import Verif.Props.PbfDamage
/-!
# Going on after a panic of a PBF reader (C104)

`Spec.Pbf.Gives gives bs gs` (`Spec/PbfResume.lean`): what comes of the bytes `bs` if every panic is caught and the reader called again, as objects and `none`
for a panic, if `gives` says this for blobs. Nothing in it refers to the readers.
-/

namespace Osmio
open Spec.Pbf
open Spec (ObjData Resumed)

variable {r : Which} {zlib : Proto.Bytes → Option Proto.Bytes} {b : Build}

theorem frameGives_map {α β : Type} (φ : α → β) {g : Proto.Blob → List (Option α) → Prop} {g' : Proto.Blob → List (Option β) → Prop}
    (hg : ∀ blob gs, g blob gs → g' blob (gs.map (Option.map φ))) {f : Frame} {gs : List (Option α)} (h : FrameGives g f gs) :
    FrameGives g' f (gs.map (Option.map φ)) := by
  cases h with
  | other t h1 h2 => exact .other t h1 h2
  | noBlob h1 h2 => exact .noBlob h1 h2
  | blob blob _ h1 h2 h3 => exact .blob blob _ h1 h2 (hg _ _ h3)

theorem gives_map {α β : Type} (φ : α → β) {g : Proto.Blob → List (Option α) → Prop} {g' : Proto.Blob → List (Option β) → Prop}
    (hg : ∀ blob gs, g blob gs → g' blob (gs.map (Option.map φ))) {bs : Proto.Bytes} {gs : List (Option α)} (h : Gives g bs gs) :
    Gives g' bs (gs.map (Option.map φ)) := by
  induction h with
  | rest tail h => exact .rest tail h
  | cutHeader n h h1 h2 => exact .cutHeader n h h1 h2
  | badHeader h more gs h1 h2 _ ih => exact .badHeader h more _ h1 h2 ih
  | cutData h data n h1 h2 h3 => exact .cutData h data n h1 h2 h3
  | frame f more gs gs' hf _ ih =>
    rw [List.map_append]
    exact .frame f more _ _ (frameGives_map φ hg hf) ih

theorem outcome_map {α β : Type} (φ : α → β) (x : List α × Option Panic) : (outcome x).map (Option.map φ) = outcome (x.1.map φ, x.2) := by
  obtain ⟨os, _ | p⟩ := x <;> simp [outcome]

theorem gives_unique {bs : Proto.Bytes} {gs gs' : List (Option ObjData)} (h : Gives (BlobGives r zlib b) bs gs) (h' : Gives (BlobGives r zlib b) bs gs') :
    gs = gs' :=
  resumed_unique ((resumed_iff (decode := blobData r zlib b) (fun _ _ => blobGives_iff) bs gs).2 h)
    ((resumed_iff (decode := blobData r zlib b) (fun _ _ => blobGives_iff) bs gs').2 h')

/-- A reader whose objects are seen through `φ`. -/
theorem resumes_through {α σ : Type} {next : σ → Res (Option α) × σ} {decode : Proto.Blob → List α × Option Panic} {φ : List α × Source → σ} {view : α → ObjData}
    (hn : ∀ s, next (φ s) = ((gnext decode s).1, φ (gnext decode s).2))
    (hd : ∀ blob, blobData r zlib b blob = ((decode blob).1.map view, (decode blob).2)) (bs : Proto.Bytes) (gs : List (Option ObjData)) :
    (∃ os, Resumed next (φ ([], source bs)) os ∧ os.map (Option.map view) = gs) ↔ Gives (BlobGives r zlib b) bs gs := by
  have hg : ∀ blob os, os = outcome (decode blob) → BlobGives r zlib b blob (os.map (Option.map view)) := by
    rintro blob os rfl
    rw [blobGives_iff, outcome_map, hd]
  obtain ⟨os, h1⟩ := gives_total (gives := fun blob os => os = outcome (decode blob)) (fun blob => ⟨_, rfl⟩) bs
  have h2 := resumed_map hn ((resumed_iff (fun _ _ => Iff.rfl) bs os).2 h1)
  have h3 := gives_map view hg h1
  constructor
  · rintro ⟨os', h4, rfl⟩
    rw [resumed_unique h4 h2]
    exact h3
  · intro h
    exact ⟨os, h2, gives_unique h3 h⟩

/-- **C104**, objects. For any bytes: a reader that is called until it reports the end, by a caller that goes on after every panic, gives exactly this. -/
theorem C104_objects (bs : Proto.Bytes) (gs : List (Option ObjData)) : Resumes r zlib b (source bs) gs ↔ Gives (BlobGives r zlib b) bs gs := by
  cases r with
  | owned => exact resumes_through (φ := strState false (true, true, true)) (str_next zlib b _ _) (fun _ => rfl) bs gs
  | shared => exact resumes_through (φ := arcState false) (arc_next zlib b _) (fun _ => rfl) bs gs

/-- **C104**, positions. -/
theorem C104_positions (bs : Proto.Bytes) (gs : List (Option (ObjId × (Lat × Lon)))) :
    ResumesPositions zlib b (source bs) gs ↔ Gives (BlobGivesPositions zlib b) bs gs := by
  have key : ∀ gs, Gives (BlobGivesPositions zlib b) bs gs → ResumesPositions zlib b (source bs) gs := fun gs h =>
    resumed_map (φ := posState) (pos_next zlib b)
      ((resumed_iff (decode := NodePos.decodeBlob zlib b) (fun _ _ => blobGivesPositions_iff) bs gs).2 h)
  refine ⟨fun h => ?_, key gs⟩
  obtain ⟨gs', h'⟩ := gives_total (gives := BlobGivesPositions zlib b) (fun blob => ⟨_, blobGivesPositions_iff.2 rfl⟩) bs
  rw [resumed_unique h (key _ h')]
  exact h'

/-- **C104**, one result. For any bytes there is exactly one: no caller that goes on after panics calls for ever. -/
theorem C104_one (r : Which) (zlib : Proto.Bytes → Option Proto.Bytes) (b : Build) (bs : Proto.Bytes) :
    (∃ gs, Resumes r zlib b (source bs) gs ∧ ∀ gs', Resumes r zlib b (source bs) gs' → gs' = gs) ∧
    ∃ gs, ResumesPositions zlib b (source bs) gs ∧ ∀ gs', ResumesPositions zlib b (source bs) gs' → gs' = gs := by
  obtain ⟨gs, h⟩ := gives_total (gives := BlobGives r zlib b) (fun blob => ⟨_, blobGives_iff.2 rfl⟩) bs
  obtain ⟨xs, h'⟩ := gives_total (gives := BlobGivesPositions zlib b) (fun blob => ⟨_, blobGivesPositions_iff.2 rfl⟩) bs
  refine ⟨⟨gs, (C104_objects bs gs).2 h, fun gs' h2 => gives_unique ((C104_objects bs gs').1 h2) h⟩, xs, (C104_positions bs xs).2 h', fun xs' h2 => ?_⟩
  exact resumed_unique h2 ((C104_positions bs xs).2 h')

theorem gives_frames {α : Type} {g : Proto.Blob → List (Option α) → Prop} {fs : List Frame} {gss : List (List (Option α))}
    (h : List.Forall₂ (FrameGives g) fs gss) {tail : Proto.Bytes} {gs : List (Option α)} (ht : Gives g tail gs) :
    Gives g (fileBytes fs ++ tail) (gss.flatten ++ gs) := by
  induction h with
  | nil => exact ht
  | @cons f gs fs gss h1 _ ih =>
    have := Gives.frame f _ _ _ h1 ih
    simpa [fileBytes, List.append_assoc] using this

/-- **C104**, a file of frames. If all headers are in order, each frame gives what it does alone: what is wrong in one has no effect on the others. -/
theorem C104_frames {fs : List Frame} {gss : List (List (Option ObjData))} (h : List.Forall₂ (FrameGives (BlobGives r zlib b)) fs gss) {tail : Proto.Bytes}
    (ht : tail.length < 4) : Resumes r zlib b (source (fileBytes fs ++ tail)) gss.flatten := by
  have := gives_frames h (.rest tail ht)
  rw [List.append_nil] at this
  exact (C104_objects _ _).2 this

theorem shared_frame {f : Frame} {gs : List (Option ObjData)} (h : FrameGives (BlobGives .shared zlib b) f gs) :
    (∃ ds, FrameShown .shared zlib b f ds ∧ gs = ds.map some) ∨ (gs = [none] ∧ ∀ ds, ¬ FrameShown .shared zlib b f ds) := by
  cases h with
  | other t h1 h2 => exact .inl ⟨[], .other t h1 h2, rfl⟩
  | noBlob h1 h2 =>
    refine .inr ⟨rfl, fun ds hs => ?_⟩
    cases hs with
    | other t h3 h4 => exact absurd (headerSays_unique h3 h1) h4
    | nothing blob _ _ h3 => exact h2 _ h3
    | block blob _ _ _ _ h3 => exact h2 _ h3
  | blob blob _ h1 h2 h3 =>
    cases h3 with
    | nothing h => cases h
    | block data block ds a1 a2 a3 a4 a5 => exact .inl ⟨ds, .block blob data block ds h1 h2 a1 a2 a3 a4 a5, rfl⟩
    | lost _ a2 =>
      refine .inr ⟨rfl, fun ds hs => ?_⟩
      cases hs with
      | other t h3 h4 => exact absurd (headerSays_unique h3 h1) h4
      | nothing _ h => cases h
      | block blob' data block _ _ c1 c2 c3 c4 =>
        have := (C98_blob _ _).2 ⟨c1, trivial⟩
        rw [(C98_blob _ _).2 ⟨h2, trivial⟩] at this
        cases this
        exact a2 _ _ c2 c3 c4
    | unreadable data block ds a1 a2 a3 a4 _ a6 =>
      rw [a6 rfl]
      refine .inr ⟨rfl, fun ds hs => ?_⟩
      cases hs with
      | other t h3 h4 => exact absurd (headerSays_unique h3 h1) h4
      | nothing _ h => cases h
      | block blob' data' block' _ _ c1 c2 c3 c4 c5 =>
        have := (C98_blob _ _).2 ⟨c1, trivial⟩
        rw [(C98_blob _ _).2 ⟨h2, trivial⟩] at this
        cases this
        rw [dataIn_unique c2 a1] at c3
        rw [block_unique c3 c4 a2 a3] at c5
        exact a4 c5

/-- **C104**, the shared-string reader. It gives the objects of each frame that can be read, and one panic and nothing else for each that cannot. -/
theorem C104_shared {fs : List Frame} (hf : ∀ f ∈ fs, ∃ type_, HeaderSays f type_) {tail : Proto.Bytes} (ht : tail.length < 4) :
    ∃ gss, Resumes .shared zlib b (source (fileBytes fs ++ tail)) gss.flatten ∧
      List.Forall₂ (fun f gs => (∃ ds, FrameShown .shared zlib b f ds ∧ gs = ds.map some) ∨ (gs = [none] ∧ ∀ ds, ¬ FrameShown .shared zlib b f ds)) fs gss := by
  have : ∃ gss, List.Forall₂ (FrameGives (BlobGives .shared zlib b)) fs gss := by
    induction fs with
    | nil => exact ⟨[], .nil⟩
    | cons f fs ih =>
      obtain ⟨gss, h⟩ := ih fun f hm => hf f (.tail _ hm)
      obtain ⟨t, h1⟩ := hf f (.head _)
      obtain ⟨gs, h2⟩ := frameGives_total (gives := BlobGives .shared zlib b) (fun blob => ⟨_, blobGives_iff.2 rfl⟩) h1
      exact ⟨gs :: gss, .cons h2 h⟩
  obtain ⟨gss, h⟩ := this
  exact ⟨gss, C104_frames h ht, h.imp fun _ _ => shared_frame⟩

/-! ## An example: the second of two ways has no information on its version and author -/

namespace PbfEx

def spoilt : Proto.PrimitiveBlock := { stringtable := some table, primitivegroup := [{ ways := [way, { way with info := none }] }] }

def spoiltFile : List Frame :=
  [frameOf (str% "OSMData") (zlibBlob id nodes), frameOf (str% "OSMData") (zlibBlob id spoilt), frameOf (str% "OSMData") (zlibBlob id relations)]

theorem frame_gives {block : Proto.PrimitiveBlock} (hf : (frameOf (str% "OSMData") (zlibBlob id block)).Fits) {gs : List (Option ObjData)}
    (h : gs = outcome (blobData r some b (zlibBlob id block))) :
    FrameGives (BlobGives r some b) (frameOf (str% "OSMData") (zlibBlob id block)) gs :=
  .blob (zlibBlob id block) gs (headerSays_iff.2 ⟨_, frameOf_framed hf, rfl⟩) ((C98_blob _ _).1 (C50_blob_roundtrip _ trivial hf.2)).1 (blobGives_iff.2 h)

end PbfEx

theorem PbfEx.spoilt_gives (r : Which) (b : Build) : outcome (blobData r some b (zlibBlob id PbfEx.nodes)) = PbfEx.nodesData.map some ∧
    outcome (blobData r some b (zlibBlob id PbfEx.spoilt)) = (match r with | .owned => none :: (PbfEx.waysData.take 1).map some | .shared => [none]) ∧
    outcome (blobData r some b (zlibBlob id PbfEx.relations)) = PbfEx.relationsData.map some := by
  cases r <;> cases b <;> decide +kernel

/-- The owned-string reader gives the first of the two ways after the panic, then the relation. -/
example : Resumes .owned some b (source (fileBytes PbfEx.spoiltFile))
    (PbfEx.nodesData.map some ++ none :: (PbfEx.waysData.take 1).map some ++ PbfEx.relationsData.map some) := by
  obtain ⟨h1, h2, h3⟩ := PbfEx.spoilt_gives .owned b
  have := C104_frames (r := .owned) (tail := []) (.cons (PbfEx.frame_gives (block := PbfEx.nodes) (by decide +kernel) h1.symm)
    (.cons (PbfEx.frame_gives (block := PbfEx.spoilt) (by decide +kernel) h2.symm)
      (.cons (PbfEx.frame_gives (block := PbfEx.relations) (by decide +kernel) h3.symm) .nil))) (by decide)
  simpa [PbfEx.spoiltFile] using this

/-- The shared-string reader gives neither way. -/
example : Resumes .shared some b (source (fileBytes PbfEx.spoiltFile))
    (PbfEx.nodesData.map some ++ none :: PbfEx.relationsData.map some) := by
  obtain ⟨h1, h2, h3⟩ := PbfEx.spoilt_gives .shared b
  have := C104_frames (r := .shared) (tail := []) (.cons (PbfEx.frame_gives (block := PbfEx.nodes) (by decide +kernel) h1.symm)
    (.cons (PbfEx.frame_gives (block := PbfEx.spoilt) (by decide +kernel) h2.symm)
      (.cons (PbfEx.frame_gives (block := PbfEx.relations) (by decide +kernel) h3.symm) .nil))) (by decide)
  simpa [PbfEx.spoiltFile] using this

/-- The hypotheses of `C104_shared` are met by the same file. -/
example : ∀ f ∈ PbfEx.spoiltFile, ∃ type_, HeaderSays f type_ := by
  intro f hf
  simp only [PbfEx.spoiltFile, List.mem_cons, List.not_mem_nil, or_false] at hf
  rcases hf with rfl | rfl | rfl <;>
    exact ⟨_, headerSays_iff.2 ⟨_, frameOf_framed (by decide +kernel), rfl⟩⟩

/-- A header that is not one between two frames: one panic, then the objects after it. -/
example (r : Which) : Resumes r some b
    (source (fileBytes [frameOf (str% "OSMData") (zlibBlob id PbfEx.nodes)] ++
      ([0, 0, 0, 1, 255] ++ fileBytes [frameOf (str% "OSMData") (zlibBlob id PbfEx.relations)])))
    (PbfEx.nodesData.map some ++ none :: PbfEx.relationsData.map some) := by
  obtain ⟨h1, _, h3⟩ := PbfEx.spoilt_gives r b
  have hb : ∀ n, ¬ GoodHeader [255] n := by
    rintro n ⟨hd, t, m, a1, a2, a3, _⟩
    have := (C98_blobHeader _ _).2 ⟨a1, by rw [hasBlobHeader, a2, a3]; simp⟩
    cases this
  have g2 := gives_frames (.cons (PbfEx.frame_gives (block := PbfEx.relations) (by decide +kernel) h3.symm) .nil) (.rest (gives := BlobGives r some b) [] (by decide))
  have g1 := gives_frames (.cons (PbfEx.frame_gives (block := PbfEx.nodes) (by decide +kernel) h1.symm) .nil) (.badHeader [255] _ _ (by decide) hb g2)
  refine (C104_objects _ _).2 ?_
  simpa [be32] using g1

/-! ## An example: the places of the second of two ways add up to more than 64 bits -/

namespace PbfEx

def big : Proto.PrimitiveBlock := { stringtable := some table, primitivegroup := [{ ways := [way, { way with refs := [9223372036854775807, 1] }] }] }

theorem big_gives (r : Which) : (∃ ds : List ObjData, outcome (blobData r some .release (zlibBlob id big)) = ds.map some ∧ ds.length = 2) ∧
    outcome (blobData r some .debug (zlibBlob id big)) = (match r with | .owned => none :: (waysData.take 1).map some | .shared => [none]) ∧
    outcome (blobData r some .debug (zlibBlob id relations)) = relationsData.map some := by
  refine ⟨⟨(blobData r some .release (zlibBlob id big)).1, ?_⟩, ?_⟩ <;> cases r <;> decide +kernel

end PbfEx

/-- Built with overflow checks the owned-string reader gives the first of the two ways after the panic, then the relation; without, both ways. -/
example : Resumes .owned some .debug (source (fileBytes [frameOf (str% "OSMData") (zlibBlob id PbfEx.big), frameOf (str% "OSMData") (zlibBlob id PbfEx.relations)]))
      (none :: (PbfEx.waysData.take 1).map some ++ PbfEx.relationsData.map some) ∧
    ∃ ds : List ObjData, ds.length = 2 ∧ Resumes .owned some .release (source (fileBytes [frameOf (str% "OSMData") (zlibBlob id PbfEx.big)])) (ds.map some) := by
  obtain ⟨⟨ds, h1, h2⟩, h3, h4⟩ := PbfEx.big_gives .owned
  have g1 := C104_frames (r := .owned) (tail := []) (.cons (PbfEx.frame_gives (block := PbfEx.big) (by decide +kernel) h3.symm)
    (.cons (PbfEx.frame_gives (block := PbfEx.relations) (by decide +kernel) h4.symm) .nil)) (by decide)
  have g2 := C104_frames (r := .owned) (tail := []) (.cons (PbfEx.frame_gives (block := PbfEx.big) (by decide +kernel) h1.symm) .nil) (by decide)
  exact ⟨by simpa using g1, ds, h2, by simpa using g2⟩

end Osmio
