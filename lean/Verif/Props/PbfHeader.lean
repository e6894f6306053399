import Verif.Props.PbfFiles
/-!
# C91: blocks that are not data are passed over
-/

namespace Osmio

open Spec Spec.Pbf

variable {r : Which} {zlib : Proto.Bytes → Option Proto.Bytes} {b : Build}

/-- A frame that is not data does not add to the stream of blobs, wherever it is. -/
theorem stream_without {fs : List Frame} (hf : ∀ f ∈ fs, ∃ h, Framed f h) {f : Frame} {h : Proto.BlobHeader} (h1 : Framed f h)
    (h2 : h.type_ ≠ some (str% "OSMData")) {rest : Source} {bs : List Proto.Blob} {e : Option Panic} {s' : Source}
    (hs : Stream (source (fileBytes fs) ++ rest) bs e s') : ∃ s'', Stream (source (fileBytes fs) ++ (source f.bytes ++ rest)) bs e s'' := by
  induction fs generalizing bs with
  | nil =>
    refine ⟨s', .skip ?_ hs⟩
    show StringPbf.readBlob (source f.bytes ++ rest) = _
    rw [readBlob_frame h1, if_neg h2]
    rfl
  | cons g fs ih =>
    obtain ⟨hg, h3⟩ := hf g (by simp)
    have e1 : ∀ rest, source (fileBytes (g :: fs)) ++ rest = source g.bytes ++ (source (fileBytes fs) ++ rest) := by
      intro rest; simp [fileBytes, source_append]
    rw [e1] at hs
    rw [e1]
    have hr : ∀ rest, StringPbf.readBlob (source g.bytes ++ rest) = _ := fun rest => readBlob_frame h3 rest
    have ih := fun {bs} => ih (fun f hf' => hf f (by simp [hf'])) (bs := bs)
    by_cases ht : hg.type_ = some (str% "OSMData")
    · simp only [if_pos ht] at hr
      cases hp : Proto.Blob.parseFromBytes g.data with
      | none =>
        simp only [hp] at hr
        cases hs with
        | panic h => rw [hr] at h; cases h; exact ⟨_, .panic (hr _)⟩
        | done h => rw [hr] at h; cases h
        | skip h => rw [hr] at h; cases h
        | blob h => rw [hr] at h; cases h
      | some blob =>
        simp only [hp] at hr
        cases hs with
        | panic h => rw [hr] at h; cases h
        | done h => rw [hr] at h; cases h
        | skip h => rw [hr] at h; cases h
        | blob h hs =>
          rw [hr] at h; cases h
          obtain ⟨s'', h⟩ := ih hs
          exact ⟨s'', .blob (hr _) h⟩
    · simp only [if_neg ht] at hr
      cases hs with
      | panic h => rw [hr] at h; cases h
      | done h => rw [hr] at h; cases h
      | blob h => rw [hr] at h; cases h
      | skip h hs =>
        rw [hr] at h; cases h
        obtain ⟨s'', h⟩ := ih hs
        exact ⟨s'', .skip (hr _) h⟩

/-- **C91.** A block that is not data, be it a header or of a kind that nobody knows, changes nothing, wherever in the file it is. This is so for each of the
readers, and whether or not the file can be read to its end. -/
theorem C91_ignored {fs : List Frame} (hf : ∀ f ∈ fs, ∃ h, Framed f h) {f : Frame} {h : Proto.BlobHeader} (h1 : Framed f h)
    (h2 : h.type_ ≠ some (str% "OSMData")) (rest : Source) :
    (∀ ds e, Reads r zlib b (source (fileBytes fs) ++ (source f.bytes ++ rest)) ds e ↔ Reads r zlib b (source (fileBytes fs) ++ rest) ds e) ∧
    (∀ xs e, ReadsPositions zlib b (source (fileBytes fs) ++ (source f.bytes ++ rest)) xs e ↔
      ReadsPositions zlib b (source (fileBytes fs) ++ rest) xs e) := by
  obtain ⟨bs, e0, s', hs⟩ := stream_total (source (fileBytes fs) ++ rest)
  obtain ⟨s'', hs'⟩ := stream_without hf h1 h2 hs
  refine ⟨fun ds e => ?_, fun xs e => ?_⟩
  · have a1 := reads_stream (r := r) (zlib := zlib) (b := b) hs
    have a2 := reads_stream (r := r) (zlib := zlib) (b := b) hs'
    constructor
    · intro h
      obtain ⟨rfl, rfl⟩ := Reads.unique h a2
      exact a1
    · intro h
      obtain ⟨rfl, rfl⟩ := Reads.unique h a1
      exact a2
  · obtain ⟨t1, a1⟩ := readsPositions_stream (zlib := zlib) (b := b) hs
    obtain ⟨t2, a2⟩ := readsPositions_stream (zlib := zlib) (b := b) hs'
    constructor
    · rintro ⟨t3, h⟩
      obtain ⟨rfl, rfl, _⟩ := h.unique a2
      exact ⟨_, a1⟩
    · rintro ⟨t3, h⟩
      obtain ⟨rfl, rfl, _⟩ := h.unique a1
      exact ⟨_, a2⟩

/-- The frame of the header of a file. -/
def headerFrame (deflate : Proto.Bytes → Proto.Bytes) (header : Proto.HeaderBlock) : Frame :=
  frameOf (str% "OSMHeader")
    { rawSize := some (Int32.ofNat (encodeHeaderBlock header).length), zlibData := some (deflate (encodeHeaderBlock header)) }

/-- **C91.** With any header, a file of blocks that the reader accepts is read to its end. -/
theorem C91_any_header {deflate : Proto.Bytes → Proto.Bytes} {header : Proto.HeaderBlock} (hh : (headerFrame deflate header).Fits)
    {fs : List Frame} {dss : List (List ObjData)} (h : List.Forall₂ (FrameReads r zlib b) fs dss) :
    Reads r zlib b (source (fileBytes (headerFrame deflate header :: fs))) dss.flatten none := by
  have h1 := (C91_ignored (r := r) (zlib := zlib) (b := b) (fs := []) (by simp) (frameOf_framed hh) (by simp) (source (fileBytes fs))).1 dss.flatten none
  have h2 := reads_frames h (reads_short (r := r) (zlib := zlib) (b := b) (tail := []) (by simp))
  rw [List.append_nil, List.append_nil] at h2
  have e : source (fileBytes (headerFrame deflate header :: fs)) = source (headerFrame deflate header).bytes ++ source (fileBytes fs) := by
    simp [fileBytes, source_append]
  rw [e]
  exact h1.2 h2

/-- **C91**, the other side of it: whatever a header says that a reader must be able to do, both readers read the file as if it were not said: the same as with a header
that asks for nothing. -/
theorem C91_features {deflate : Proto.Bytes → Proto.Bytes} {header : Proto.HeaderBlock} (features : List Str)
    (hh : (headerFrame deflate { header with requiredFeatures := features }).Fits) (h0 : (headerFrame deflate { header with requiredFeatures := [] }).Fits)
    (rest : Source) (ds : List ObjData) (e : Option Panic) :
    Reads r zlib b (source (headerFrame deflate { header with requiredFeatures := features }).bytes ++ rest) ds e ↔
      Reads r zlib b (source (headerFrame deflate { header with requiredFeatures := [] }).bytes ++ rest) ds e :=
  ((C91_ignored (r := r) (zlib := zlib) (b := b) (fs := []) (by simp) (frameOf_framed hh) (by simp) rest).1 ds e).trans
    ((C91_ignored (r := r) (zlib := zlib) (b := b) (fs := []) (by simp) (frameOf_framed h0) (by simp) rest).1 ds e).symm

/-! ## Examples -/

/-- A header that asks for a feature that no reader has, before the blocks of the example file: they are read. -/
example (r : Which) (b : Build) : Reads r some b
    (source (fileBytes (headerFrame id { requiredFeatures := [str% "OsmSchema-V0.6", str% "Telepathy"] } :: PbfEx.file))) PbfEx.fileData.flatten none := by
  have h := reads_frames (PbfEx.file_reads r b) (reads_short (r := r) (zlib := some) (b := b) (tail := []) (by simp))
  rw [List.append_nil, List.append_nil] at h
  have hh : (headerFrame id { requiredFeatures := [str% "OsmSchema-V0.6", str% "Telepathy"] }).Fits := by decide +kernel
  have e : source (fileBytes (headerFrame id { requiredFeatures := [str% "OsmSchema-V0.6", str% "Telepathy"] } :: PbfEx.file)) =
      source (headerFrame id { requiredFeatures := [str% "OsmSchema-V0.6", str% "Telepathy"] }).bytes ++ source (fileBytes PbfEx.file) := by
    simp [fileBytes, source_append]
  rw [e]
  exact ((C91_ignored (fs := []) (by simp) (frameOf_framed hh) (by simp) _).1 _ _).2 h

/-- A frame of a kind that nobody knows, between two frames of the example file. -/
example : ∃ f h, Framed f h ∧ h.type_ = some (str% "Index") ∧ (fileBytes (PbfEx.file.take 2)).length < (fileBytes (PbfEx.file.take 2) ++ f.bytes).length :=
  ⟨frameOf (str% "Index") { raw := some [1, 2, 3] }, _, frameOf_framed (by decide +kernel), rfl, by decide +kernel⟩

end Osmio
