import Verif.Proofs.PbfShownFile
import Verif.Props.PbfZlib
import Verif.Props.Join
/-!
# What a PBF file shows, from its bytes (C99, C100)

`Spec.Pbf.FileShown r zlib b bs ds` (`Spec/PbfShownFile.lean`): by the wire format, the published layout of PBF files and formulas for every
getter, the bytes `bs` hold the objects `ds`, as far as the reader `r`, built with overflow checks or without, can read them. Nothing in it refers to the readers.
-/

namespace Osmio
open Spec.Pbf
open Spec (ObjData)

variable {r : Which} {zlib : Proto.Bytes → Option Proto.Bytes} {b : Build} {block : Proto.PrimitiveBlock} {ds : List ObjData}

/-! ## C99 -/

/-- **C99**, blocks. A reader gives these objects for a block exactly if it can read it and they are the ones the formulas give. -/
theorem C99_block : r.objects b block = some ds ↔ ReadableIn b r block ∧ BlockShown block ds := objects_iff

/-- **C99**, files. For any bytes at all: a reader gets to their end, and has then given these objects, exactly if the bytes are a file with
these objects. -/
theorem C99_file {bs : Proto.Bytes} : Reads r zlib b (source bs) ds none ↔ FileShown r zlib b bs ds := reads_shown

/-- **C99**, files, built with overflow checks: if a reader gets to the end it has given the same objects as the other build; and it does unless a number is out
of its range, and has then given the first of them. -/
theorem C99_checked {bs : Proto.Bytes} :
    (Reads r zlib .debug (source bs) ds none → FileShown r zlib .release bs ds) ∧
    (∀ ds' e, FileShown r zlib .release bs ds → Reads r zlib .debug (source bs) ds' e →
      (ds' = ds ∧ e = none ∧ FileShown r zlib .debug bs ds) ∨ (ds' <+: ds ∧ e = some .overflow)) := by
  constructor
  · intro h
    obtain ⟨bs', e', s', hs⟩ := stream_total (source bs)
    have hr := reads_stream (r := r) (zlib := zlib) (b := .release) hs
    rcases C49_file h hr with ⟨h1, h2⟩ | ⟨_, h2⟩
    · rw [← h1, ← h2] at hr
      exact C99_file.1 hr
    · cases h2
  · intro ds' e h h'
    rcases C49_file h' (C99_file.2 h) with ⟨rfl, rfl⟩ | h2
    · exact .inl ⟨rfl, rfl, C99_file.1 h'⟩
    · exact .inr h2

/-- **C99**, the reader of positions. -/
theorem C99_positions {bs : Proto.Bytes} {xs : List (ObjId × (Lat × Lon))} :
    (ReadsPositions zlib b (source bs) xs none ↔ FilePositions zlib b bs xs) ∧
    (ReadsPositions zlib .debug (source bs) xs none → FilePositions zlib .release bs xs) := by
  refine ⟨readsPositions_shown, fun h => ?_⟩
  obtain ⟨bs', e', s', hs⟩ := stream_total (source bs)
  have hr := readsPositions_stream (zlib := zlib) (b := .release) hs
  rcases C49_positions h hr with ⟨h1, h2⟩ | ⟨_, h2⟩
  · rw [← h1, ← h2] at hr
    exact readsPositions_shown.1 hr
  · cases h2

/-- The same bytes are not two different files. -/
theorem C99_one {bs : Proto.Bytes} {ds' : List ObjData} (h : FileShown r zlib b bs ds) (h' : FileShown r zlib b bs ds') : ds = ds' :=
  (Reads.unique (C99_file.2 h) (C99_file.2 h')).1

/-- **C99**, frame by frame. Bytes that are made of frames are made of them in one way only, and the objects are those of each frame, in
order. -/
theorem C99_frames {fs : List Frame} {tail : Proto.Bytes} (hf : ∀ f ∈ fs, ∃ type_, HeaderSays f type_) (ht : tail.length < 4) :
    (∀ ds, Reads r zlib b (source (fileBytes fs ++ tail)) ds none ↔
      ∃ dss, List.Forall₂ (FrameShown r zlib b) fs dss ∧ ds = dss.flatten) ∧
    (∀ xs, ReadsPositions zlib b (source (fileBytes fs ++ tail)) xs none ↔
      ∃ xss, List.Forall₂ (FramePositions zlib b) fs xss ∧ xs = xss.flatten) ∧
    ∀ fs' tail', (∀ f ∈ fs', ∃ type_, HeaderSays f type_) → tail'.length < 4 → fileBytes fs ++ tail = fileBytes fs' ++ tail' → fs = fs' := by
  refine ⟨fun ds => ?_, fun xs => ?_, fun fs' tail' h1 h2 h3 => (frames_unique hf h1 ht h2 h3).1⟩
  · rw [C99_file]
    constructor
    · rintro ⟨fs', tail', dss, e, h1, h2, h3⟩
      obtain ⟨rfl, _⟩ := frames_unique hf (forall2_left (P := fun f => ∃ t, HeaderSays f t) (fun _ _ => frameShown_says) h2) ht h1 e
      exact ⟨dss, h2, h3⟩
    · rintro ⟨dss, h2, h3⟩
      exact ⟨fs, tail, dss, rfl, ht, h2, h3⟩
  · rw [C99_positions.1]
    constructor
    · rintro ⟨fs', tail', dss, e, h1, h2, h3⟩
      obtain ⟨rfl, _⟩ := frames_unique hf (forall2_left (P := fun f => ∃ t, HeaderSays f t) (fun _ _ => framePositions_says) h2) ht h1 e
      exact ⟨dss, h2, h3⟩
    · rintro ⟨dss, h2, h3⟩
      exact ⟨fs, tail, dss, rfl, ht, h2, h3⟩

/-- The example file, with six objects, in both forms: as it is written, and with blocks compressed by `zlib` in different ways. -/
example (r : Which) : FileShown r some .release (fileBytes PbfEx.file) PbfEx.fileData.flatten := by
  obtain ⟨h1, h2, h3⟩ := PbfEx.accepted r .release
  exact C99_file.1 ((C41_blocks PbfEx.file_is).2 ⟨_, .cons h1 (.cons h2 (.cons h3 .nil)), rfl⟩)

example : FilePositions some .release (fileBytes PbfEx.file) [(5, ⟨210⟩, ⟨-205⟩), (3, ⟨212⟩, ⟨-205⟩), (10, ⟨112⟩, ⟨-191⟩)] := by
  obtain ⟨objs, t, h1, h2⟩ := PbfEx.file_drain .release
  exact C99_positions.1.1 (C46_partial (r := .owned) PbfEx.file_is PbfEx.file_oneKind ⟨objs, t, h1, h2⟩)

/-- The formulas on a way of the example: refs are running sums, tags are pairs of strings. -/
example : shownWay { s := [[], [104], [117], [195, 132]] } { id := some 20, keys := [1, 3], vals := [2, 1], refs := [5, -2, 7] } =
    { view := { id := 20, version := none, deleted := true, changesetId := none, timestamp := none, uid := none, user := none,
                tags := [(['h'], ['u']), (['Ä'], ['h'])], kind := .way }
      pos := none, nodes := [5, 3, 10], members := [] } := by decide +kernel

/-! ## C100 -/

theorem shown_of_reads {bs : Proto.Bytes} (h : Reads r zlib b (source bs) ds none) : FileShown r zlib b bs ds := C99_file.1 h

theorem positions_of_reads {bs : Proto.Bytes} {xs : List (ObjId × (Lat × Lon))} (h : ReadsPositions zlib b (source bs) xs none) :
    FilePositions zlib b bs xs := C99_positions.1.1 h

/-- **C100 (part).** The shared-string reader and the reader of positions leave out no data: if one gets to the end of a file, each frame of
data has its data as it is or compressed with zlib (positions: only with zlib), and it is a block. The owned-string reader: the same, or the
blob says nothing about data as it is or compressed with zlib, or the data has no bytes. -/
theorem C100_partial {fs : List Frame} {tail : Proto.Bytes} (hf : ∀ f ∈ fs, ∃ type_, HeaderSays f type_) (ht : tail.length < 4)
    {f : Frame} (hm : f ∈ fs) (hd : HeaderSays f (str% "OSMData")) :
    (∀ ds, Reads .shared zlib b (source (fileBytes fs ++ tail)) ds none → ∃ blob data block, DecodesBlob f.data blob ∧
      (blob.raw = some data ∨ ∃ z, blob.zlibData = some z ∧ zlib z = some data) ∧ DecodesPrimitiveBlock data block) ∧
    (∀ xs, ReadsPositions zlib b (source (fileBytes fs ++ tail)) xs none → ∃ blob data block, DecodesBlob f.data blob ∧
      (∃ z, blob.zlibData = some z ∧ zlib z = some data) ∧ DecodesPrimitiveBlock data block) ∧
    (∀ ds, Reads .owned zlib b (source (fileBytes fs ++ tail)) ds none → ∃ blob, DecodesBlob f.data blob ∧
      ((∃ data block z, blob.zlibData = some z ∧ zlib z = some data ∧ DecodesPrimitiveBlock data block) ∨
       (blob.raw = none ∧ blob.zlibData = none) ∨ blob.raw = some [] ∨ ∃ z, blob.zlibData = some z ∧ zlib z = some [])) := by
  refine ⟨fun ds h => ?_, fun xs h => ?_, fun ds h => ?_⟩
  · obtain ⟨fs', tail', dss, e, h1, h2, _⟩ := shown_of_reads h
    obtain ⟨rfl, _⟩ := frames_unique hf (forall2_left (P := fun f => ∃ t, HeaderSays f t) (fun _ _ => frameShown_says) h2) ht h1 e
    obtain ⟨ds', h3⟩ := forall2_left (P := fun f => ∃ ds, FrameShown .shared zlib b f ds) (fun _ ds h => ⟨ds, h⟩) h2 f hm
    cases h3 with
    | other t h4 h5 => exact absurd (headerSays_unique h4 hd) h5
    | nothing _ h4 => cases h4
    | block blob data block _ _ h5 h6 h7 =>
      refine ⟨blob, data, block, h5, ?_, h7⟩
      rcases h6 with h6 | ⟨⟨_, z, h8, h9⟩, _⟩
      · exact .inl h6
      · exact .inr ⟨z, h8, h9⟩
  · obtain ⟨fs', tail', dss, e, h1, h2, _⟩ := positions_of_reads h
    obtain ⟨rfl, _⟩ := frames_unique hf (forall2_left (P := fun f => ∃ t, HeaderSays f t) (fun _ _ => framePositions_says) h2) ht h1 e
    obtain ⟨ds', h3⟩ := forall2_left (P := fun f => ∃ ds, FramePositions zlib b f ds) (fun _ ds h => ⟨ds, h⟩) h2 f hm
    cases h3 with
    | other t h4 h5 => exact absurd (headerSays_unique h4 hd) h5
    | block blob data block _ _ h5 h6 h7 => exact ⟨blob, data, block, h5, h6.2, h7⟩
  · obtain ⟨fs', tail', dss, e, h1, h2, _⟩ := shown_of_reads h
    obtain ⟨rfl, _⟩ := frames_unique hf (forall2_left (P := fun f => ∃ t, HeaderSays f t) (fun _ _ => frameShown_says) h2) ht h1 e
    obtain ⟨ds', h3⟩ := forall2_left (P := fun f => ∃ ds, FrameShown .owned zlib b f ds) (fun _ ds h => ⟨ds, h⟩) h2 f hm
    cases h3 with
    | other t h4 h5 => exact absurd (headerSays_unique h4 hd) h5
    | nothing blob _ _ h4 h5 =>
      refine ⟨blob, h4, .inr ?_⟩
      rcases h5 with h5 | h5 | ⟨_, h5⟩
      · exact .inr (.inl h5)
      · exact .inl h5
      · exact .inr (.inr h5)
    | block blob data block _ _ h5 h6 h7 => exact ⟨blob, h5, .inl ⟨data, block, h6.2.imp fun _ h => ⟨h.1, h.2, h7⟩⟩⟩

/-- **C100 fails** for the owned-string reader. A frame of data that is compressed in another way (lzma, or the old bzip2), whatever it
holds, is passed over in silence: what the reader gives is what it gives of the rest of the file. The shared-string reader and the reader of
positions panic. -/
theorem C100_owned_fails {f : Frame} {blob : Proto.Blob} (hd : HeaderSays f (str% "OSMData")) (hb : DecodesBlob f.data blob)
    (h1 : blob.raw = none) (h2 : blob.zlibData = none) (rest : Source) :
    (∀ ds e, Reads .owned zlib b (source f.bytes ++ rest) ds e ↔ Reads .owned zlib b rest ds e) ∧
    (∃ p, Reads .shared zlib b (source f.bytes ++ rest) [] (some p)) ∧ ∃ p, ReadsPositions zlib b (source f.bytes ++ rest) [] (some p) := by
  have hfb : FrameBlobs f [blob] := frameBlobs_iff.2 (.inr ⟨hd, blob, hb, rfl⟩)
  obtain ⟨bs, e, s', hs⟩ := stream_total rest
  have hst := stream_frame hfb hs
  refine ⟨fun ds e' => ?_, ?_, ?_⟩
  · have hx : blobData .owned zlib b blob = ([], none) := owned_blob.2 ⟨[], str_data_iff.2 (.inr ⟨rfl, .inr ⟨h1, h2⟩⟩), .inl ⟨rfl, rfl⟩⟩
    have a1 := reads_stream (r := .owned) (zlib := zlib) (b := b) hst
    have a2 := reads_stream (r := .owned) (zlib := zlib) (b := b) hs
    have : runBlobs (blobData .owned zlib b) e ([blob] ++ bs) = runBlobs (blobData .owned zlib b) e bs := by
      simp [runBlobs, hx]
    rw [this] at a1
    constructor
    · intro h
      obtain ⟨rfl, rfl⟩ := Reads.unique h a1
      exact a2
    · intro h
      obtain ⟨rfl, rfl⟩ := Reads.unique h a2
      exact a1
  · have a1 := reads_stream (r := .shared) (zlib := zlib) (b := b) hst
    rw [show runBlobs (blobData .shared zlib b) e ([blob] ++ bs) = ([], some .unwrap) by
      simp [runBlobs, blobData, arcDecode, ArcPbf.decodeBlob, ArcPbf.blobRawData, h1, h2, unwrap, bind, Except.bind]] at a1
    exact ⟨_, a1⟩
  · have a1 := readsPositions_stream (zlib := zlib) (b := b) hst
    have hp : Proto.PrimitiveBlock.parseFromBytes [] = none := parse_nil
    rw [show runBlobs (NodePos.decodeBlob zlib b) e ([blob] ++ bs) = ([], some .unwrap) by
      simp [runBlobs, NodePos.decodeBlob, StringPbf.blobRawData, h1, h2, hp]] at a1
    exact ⟨_, a1⟩

namespace PbfEx

/-- A frame of data compressed with lzma. -/
def lzmaFrame : Frame := frameOf (str% "OSMData") { rawSize := some 107, lzmaData := some [93, 0, 0, 128, 0] }

theorem lzmaFrame_says : HeaderSays lzmaFrame (str% "OSMData") :=
  headerSays_iff.2 ⟨_, frameOf_framed (by decide +kernel), rfl⟩

theorem lzmaFrame_blob : DecodesBlob lzmaFrame.data { rawSize := some 107, lzmaData := some [93, 0, 0, 128, 0] } :=
  ((C98_blob _ _).1 (C50_blob_roundtrip _ trivial (by decide +kernel))).1

end PbfEx

/-- The hypotheses of `C100_partial` and `C100_owned_fails` are met. With the lzma frame before it the example file looks complete to the
owned-string reader. -/
example (b : Build) : Reads .owned some b (source PbfEx.lzmaFrame.bytes ++ source (fileBytes PbfEx.file)) PbfEx.fileData.flatten none := by
  obtain ⟨h1, h2, h3⟩ := PbfEx.accepted .owned b
  exact ((C100_owned_fails PbfEx.lzmaFrame_says PbfEx.lzmaFrame_blob rfl rfl _).1 _ _).2
    ((C41_blocks PbfEx.file_is).2 ⟨_, .cons h1 (.cons h2 (.cons h3 .nil)), rfl⟩)

example : ∀ f ∈ [PbfEx.lzmaFrame], ∃ type_, HeaderSays f type_ := fun f hf => by
  rw [List.mem_singleton.1 hf]; exact ⟨_, PbfEx.lzmaFrame_says⟩

end Osmio
