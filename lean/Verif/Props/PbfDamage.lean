import Verif.Proofs.PbfDamage
import Verif.Props.PbfShown
/-!
# What a PBF reader gives of damaged bytes (C103)

`Spec.Pbf.Beginning Shows bs dss rest` (`Spec/PbfDamage.lean`): the bytes begin with frames that show the lists `dss`, and then comes `rest`, which
does not begin with a frame that can be read. Nothing in it refers to the readers.
-/

namespace Osmio
open Spec.Pbf
open Spec (ObjData)

variable {r : Which} {zlib : Proto.Bytes → Option Proto.Bytes} {b : Build}

theorem shown_byBlobs (f : Frame) (ds : List ObjData) : FrameShown r zlib b f ds ↔ ByBlobs (blobData r zlib b) f ds := frameShown_iff

theorem positions_byBlobs (f : Frame) (xs : List (ObjId × (Lat × Lon))) :
    FramePositions zlib b f xs ↔ ByBlobs (NodePos.decodeBlob zlib b) f xs := framePositions_iff

/-- **C103**, the beginning. All bytes have exactly one beginning of frames that can be read. -/
theorem C103_beginning (r : Which) (zlib : Proto.Bytes → Option Proto.Bytes) (bs : Proto.Bytes) :
    (∃ dss rest, Beginning (FrameShown r zlib b) bs dss rest ∧
      ∀ dss' rest', Beginning (FrameShown r zlib b) bs dss' rest' → dss' = dss ∧ rest' = rest) ∧
    ∃ xss rest, Beginning (FramePositions zlib b) bs xss rest ∧
      ∀ xss' rest', Beginning (FramePositions zlib b) bs xss' rest' → xss' = xss ∧ rest' = rest := by
  obtain ⟨dss, rest, h⟩ := (beginning_reads (R := Reads r zlib b) shown_byBlobs reads_stream Reads.unique bs).1
  obtain ⟨xss, rest', h'⟩ := (beginning_reads (R := ReadsPositions zlib b) positions_byBlobs readsPositions_stream ReadsPositions.unique bs).1
  exact ⟨⟨dss, rest, h, fun _ _ h2 => beginning_unique shown_byBlobs h2 h⟩, xss, rest', h', fun _ _ h2 => beginning_unique positions_byBlobs h2 h'⟩

/-- **C103**, objects. Of any bytes a reader gives the objects of the frames they begin with, up to the first that cannot be read, and of that one
nothing. It then reports the end if fewer than four bytes are left, and panics if there are more. -/
theorem C103_objects {bs : Proto.Bytes} {dss : List (List ObjData)} {rest : Proto.Bytes} (h : Beginning (FrameShown r zlib b) bs dss rest) :
    (∀ ds, Reads r zlib b (source bs) ds none ↔ ds = dss.flatten ∧ rest.length < 4) ∧
    ∀ ds, (∃ p, Reads r zlib b (source bs) ds (some p)) ↔ ds = dss.flatten ∧ 4 ≤ rest.length :=
  (beginning_reads shown_byBlobs reads_stream Reads.unique bs).2 dss rest h

/-- **C103**, positions. -/
theorem C103_positions {bs : Proto.Bytes} {xss : List (List (ObjId × (Lat × Lon)))} {rest : Proto.Bytes}
    (h : Beginning (FramePositions zlib b) bs xss rest) :
    (∀ xs, ReadsPositions zlib b (source bs) xs none ↔ xs = xss.flatten ∧ rest.length < 4) ∧
    ∀ xs, (∃ p, ReadsPositions zlib b (source bs) xs (some p)) ↔ xs = xss.flatten ∧ 4 ≤ rest.length :=
  (beginning_reads positions_byBlobs readsPositions_stream ReadsPositions.unique bs).2 xss rest h

/-- **C103**, built with overflow checks. A reader gives the objects of the same frames and ends in the same way, or it gives those of the first of
these frames, each whole, and stops with an overflow. -/
theorem C103_checked {bs : Proto.Bytes} {dss : List (List ObjData)} {rest : Proto.Bytes} (h : Beginning (FrameShown r zlib .release) bs dss rest)
    {ds : List ObjData} {e : Option Panic} (hr : Reads r zlib .debug (source bs) ds e) :
    (ds = dss.flatten ∧ (e = none ↔ rest.length < 4)) ∨ ∃ k, ds = (dss.take k).flatten ∧ e = some .overflow := by
  obtain ⟨blobs, e', s', hs⟩ := stream_total (source bs)
  have hrel := reads_stream (r := r) (zlib := zlib) (b := .release) hs
  have hdbg := reads_stream (r := r) (zlib := zlib) (b := .debug) hs
  obtain ⟨hd1, hd2⟩ := Reads.unique hr hdbg
  rcases C49_file hr hrel with ⟨h1, h2⟩ | ⟨_, h2⟩
  · obtain ⟨dss', rest', g1, g2, g3⟩ := beginning_stream (shown_byBlobs (r := r) (zlib := zlib)) hs rfl
    obtain ⟨rfl, rfl⟩ := beginning_unique shown_byBlobs g1 h
    exact .inl ⟨h1.trans g2, by rw [h2]; exact g3⟩
  · obtain ⟨dss', rest', g1, g2, _⟩ := beginning_stream (S := ByBlobs (blobData r zlib .debug)) (fun _ _ => Iff.rfl) hs rfl
    have hsub : ∀ f ds, ByBlobs (blobData r zlib .debug) f ds → FrameShown r zlib .release f ds := by
      rintro f ds ⟨fb, dss, k1, k2, k3⟩
      refine (shown_byBlobs f ds).2 ⟨fb, dss, k1, k2.imp fun blob ds k => ?_, k3⟩
      rcases agree_blobData r zlib blob with k4 | ⟨k4, _⟩
      · rw [← k4, k]
      · rw [k] at k4; cases k4
    obtain ⟨g4, _⟩ := beginning_prefix shown_byBlobs (fun _ _ => Iff.rfl) hsub g1 h
    refine .inr ⟨dss'.length, ?_, h2⟩
    rw [← List.prefix_iff_eq_take.1 g4, hd1, g2]

/-- **C103**, a source that fails after these bytes. It is the same. -/
theorem C103_failing {bs : Proto.Bytes} {dss : List (List ObjData)} {rest : Proto.Bytes} (h : Beginning (FrameShown r zlib b) bs dss rest) (later : Source) :
    (∀ ds, Reads r zlib b (source bs ++ none :: later) ds none ↔ ds = dss.flatten ∧ rest.length < 4) ∧
    ∀ ds, (∃ p, Reads r zlib b (source bs ++ none :: later) ds (some p)) ↔ ds = dss.flatten ∧ 4 ≤ rest.length := by
  obtain ⟨h1, h2⟩ := C103_objects h
  refine ⟨fun ds => ?_, fun ds => ?_⟩
  · rw [← h1]; exact (C63_exact bs later).1
  · rw [← h2]; exact exists_congr fun p => (C63_exact bs later).1

/-- **C103**, damage. Two files that begin in the same way, with frames that can be read: of each the reader gives the objects of these frames first.
So what is wrong later in a file has no effect on the objects before it. -/
theorem C103_damage {fs : List Frame} {dss : List (List ObjData)} (h : List.Forall₂ (FrameShown r zlib b) fs dss) (x : Proto.Bytes)
    {ds : List ObjData} {e : Option Panic} :
    Reads r zlib b (source (fileBytes fs ++ x)) ds e ↔ ∃ ds', ds = dss.flatten ++ ds' ∧ Reads r zlib b (source x) ds' e := by
  have hf : ∀ f ∈ fs, ∃ h, Framed f h := fun f hf => by
    obtain ⟨t, ht⟩ := forall2_left (P := fun f => ∃ t, HeaderSays f t) (fun _ _ => frameShown_says) h f hf
    obtain ⟨hd, h1, _⟩ := headerSays_iff.1 ht
    exact ⟨hd, h1⟩
  have h0 : Reads r zlib b (source (fileBytes fs)) dss.flatten none :=
    C99_file.2 ⟨fs, [], dss, by simp, by simp, h, rfl⟩
  rw [source_append, C96_pbf hf]
  constructor
  · rintro (⟨p, rfl, h1⟩ | ⟨ds1, ds2, h1, h2, rfl⟩)
    · cases (Reads.unique h0 h1).2
    · obtain ⟨rfl, _⟩ := Reads.unique h0 h1
      exact ⟨ds2, rfl, h2⟩
  · rintro ⟨ds', rfl, h1⟩
    exact .inr ⟨_, _, h0, h1, rfl⟩

/-! ## An example: the example file, then a frame whose header is not one, then the file again -/

namespace PbfEx

theorem file_shown (r : Which) (b : Build) : List.Forall₂ (FrameShown r some b) file fileData := by
  refine (file_reads r b).imp fun f ds h => ?_
  obtain ⟨fb, dss, h1, h2, h3⟩ := frameReads_blobs h
  exact frameShown_iff.2 ⟨fb, dss, h1, h2, h3⟩

theorem garbage (r : Which) (b : Build) (x : Proto.Bytes) : Beginning (FrameShown r some b) (fileBytes file ++ ([0, 0, 0, 1, 255] ++ x)) fileData ([0, 0, 0, 1, 255] ++ x) := by
  refine ⟨⟨file, rfl, file_shown r b⟩, fun f ds more h e => ?_⟩
  obtain ⟨fb, _, h1, _⟩ := frameShown_iff.1 h
  obtain ⟨y, h2, _⟩ := frameBlobs_read h1 more
  rw [← e] at h2
  have : StringPbf.readBlob (source ([0, 0, 0, 1, 255] ++ x)) = (.error .unwrap, source x) := rfl
  rw [this] at h2
  cases h2

end PbfEx

/-- The six objects of the first copy come, and none of the second. -/
example (r : Which) (b : Build) : ∃ p, Reads r some b (source (fileBytes PbfEx.file ++ ([0, 0, 0, 1, 255] ++ fileBytes PbfEx.file))) PbfEx.fileData.flatten (some p) :=
  ((C103_objects (PbfEx.garbage r b _)).2 _).2 ⟨rfl, by simp⟩

example (r : Which) (b : Build) (later : Source) := C103_failing (PbfEx.garbage r b [1]) later

example (r : Which) (b : Build) (x : Proto.Bytes) (ds : List ObjData) (e : Option Panic) := C103_damage (PbfEx.file_shown r b) x (ds := ds) (e := e)

example (r : Which) (ds : List ObjData) (e : Option Panic) (h : Reads r some .debug (source (fileBytes PbfEx.file ++ ([0, 0, 0, 1, 255] ++ []))) ds e) :=
  C103_checked (PbfEx.garbage r .release []) h

end Osmio
