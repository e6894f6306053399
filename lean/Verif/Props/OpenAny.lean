import Verif.Props.Open
import Verif.Props.PbfMethods
import Verif.Props.ChangesetAny
import Verif.Props.XmlAny
/-!
# Files of any bytes, opened by name (C86)

`Verif/Props/Open.lean` says what opening by name gives for files that follow the format. Here nothing is known of the bytes.
-/

namespace Osmio
open Spec

/-- **C86**, PBF, any bytes. `read_pbf` and each `from_filename` give a reader, and it gets to the end with certain objects exactly if the
bytes are a file with these objects. -/
theorem C86_pbf_any {zlib : Proto.Bytes → Option Proto.Bytes} {b : Build} {bs : Proto.Bytes} {files : Files} {name : FileName}
    (hf : files name = some (Pbf.source bs)) :
    ∃ own shared pos, StringPbf.PBFReader.fromFilename files name = some own ∧ readPbf files name = some own ∧
      ArcPbf.PBFReader.fromFilename files name = some shared ∧ NodePos.Reader.fromFilename files name = some pos ∧
      (∀ ds, (∃ os t, Drain (StringPbf.PBFReader.next zlib b) own os none t ∧ os.map objData = ds) ↔
        Pbf.FileShown .owned zlib b bs ds) ∧
      (∀ ds, (∃ os t, Drain (ArcPbf.PBFReader.next zlib b) shared os none t ∧ os.map objData = ds) ↔
        Pbf.FileShown .shared zlib b bs ds) ∧
      ∀ xs, (∃ t, Drain (NodePos.Reader.next zlib b) pos xs none t) ↔ Pbf.FilePositions zlib b bs xs :=
  ⟨_, _, _, by rw [StringPbf.PBFReader.fromFilename, hf], by rw [readPbf, StringPbf.PBFReader.fromFilename, hf],
    by rw [ArcPbf.PBFReader.fromFilename, hf], by rw [NodePos.Reader.fromFilename, hf],
    fun _ => C99_file (r := .owned), fun _ => C99_file (r := .shared), fun _ => C99_positions.1⟩

/-- **C86**, PBF, damaged files. What the opened readers give of any bytes is what C103 says: the objects of the frames up to the first that cannot be read, and of that one
nothing; then the end if fewer than four bytes are left, else a panic. -/
theorem C86_pbf_damaged {zlib : Proto.Bytes → Option Proto.Bytes} {b : Build} {bs : Proto.Bytes} {files : Files} {name : FileName}
    (hf : files name = some (Pbf.source bs)) :
    ∃ own shared, readPbf files name = some own ∧ ArcPbf.PBFReader.fromFilename files name = some shared ∧
      (∀ dss rest, Pbf.Beginning (Pbf.FrameShown .owned zlib b) bs dss rest → ∀ ds,
        ((∃ os t, Drain (StringPbf.PBFReader.next zlib b) own os none t ∧ os.map objData = ds) ↔ ds = dss.flatten ∧ rest.length < 4) ∧
        ((∃ p os t, Drain (StringPbf.PBFReader.next zlib b) own os (some p) t ∧ os.map objData = ds) ↔ ds = dss.flatten ∧ 4 ≤ rest.length)) ∧
      ∀ dss rest, Pbf.Beginning (Pbf.FrameShown .shared zlib b) bs dss rest → ∀ ds,
        ((∃ os t, Drain (ArcPbf.PBFReader.next zlib b) shared os none t ∧ os.map objData = ds) ↔ ds = dss.flatten ∧ rest.length < 4) ∧
        ((∃ p os t, Drain (ArcPbf.PBFReader.next zlib b) shared os (some p) t ∧ os.map objData = ds) ↔ ds = dss.flatten ∧ 4 ≤ rest.length) :=
  ⟨_, _, by rw [readPbf, StringPbf.PBFReader.fromFilename, hf], by rw [ArcPbf.PBFReader.fromFilename, hf],
    fun _ _ h ds => ⟨(C103_objects (r := .owned) h).1 ds, (C103_objects (r := .owned) h).2 ds⟩,
    fun _ _ h ds => ⟨(C103_objects (r := .shared) h).1 ds, (C103_objects (r := .shared) h).2 ds⟩⟩

/-- **C86**, `nodes()`, `ways()` and `relations()` of the reader that `read_pbf` gives, any bytes (C105). -/
theorem C86_pbf_kinds {zlib : Proto.Bytes → Option Proto.Bytes} {b : Build} {bs : Proto.Bytes} {files : Files} {name : FileName}
    (hf : files name = some (Pbf.source bs)) :
    ∃ own, readPbf files name = some own ∧ ∀ k ds,
      (∃ os t, Drain (StringPbf.PBFReader.next zlib b) (Pbf.method k own) os none t ∧ os.filterMap (Pbf.picked k) = ds) ↔ Pbf.KindFile k zlib b bs ds :=
  ⟨_, by rw [readPbf, StringPbf.PBFReader.fromFilename, hf], fun _ _ => C105_file⟩

/-- **C86**, changesets, any bytes. If the decompressed bytes have these parts, the opened reader returns what they show. -/
theorem C86_changesets_any {bytes : List UInt8} {evs : QuickXml.Events} (h : Quick.File bytes evs) (later : QuickXml.Events) (dec : Bz2)
    {files : Files} {name : FileName} {file : Source} (hf : files name = some file) (hdec : dec file = bytes.map some) :
    ∃ s, Changesets.fromFilename later dec files name = some s ∧ Changesets.fromBz2Reader later dec file = s ∧
      (∀ ds, Cs.Shown evs ds → ∃ rs, Cs.Results Changesets.nextChangeset s rs [] ∧ List.Forall₂ Cs.Fits rs ds) ∧
      ((∃ rs s', Cs.Results Changesets.nextChangeset s rs s') ↔ ∃ ds, Cs.Shown evs ds) := by
  obtain ⟨h1, h2, -⟩ := C101_changesets h
  refine ⟨QuickXml.eventsOf bytes, ?_, ?_, h1, h2⟩
  · rw [Changesets.fromFilename, hf]
    show some (QuickXml.eventsOfSource later (dec file)) = _
    rw [hdec, eventsOfSource_whole]
  · rw [Changesets.fromBz2Reader, hdec, eventsOfSource_whole]

/-- **C86**, tags of changesets, any bytes. -/
theorem C86_tags_any {bytes : List UInt8} {evs : QuickXml.Events} (h : Quick.File bytes evs) (later : QuickXml.Events) (dec : Bz2)
    {files : Files} {name : FileName} {file : Source} (hf : files name = some file) (hdec : dec file = bytes.map some) :
    ∃ s rs s', Changesets.tagsFromFilename later dec files name = some s ∧
      Cs.Results Changesets.nextTag s rs s' ∧ Cs.ToldAll [] evs (rs.map Except.toOption) := by
  obtain ⟨rs, s', h1, h2⟩ := C101_tags h
  refine ⟨_, rs, s', ?_, h1, h2⟩
  rw [Changesets.tagsFromFilename, hf]
  show some (Changesets.newTagReader (QuickXml.eventsOfSource later (dec file))) = _
  rw [hdec, eventsOfSource_whole]

/-- **C86**, XML, any bytes. The opened reader, compressed or not, returns one answer for every end of an object in the longest beginning of the
(decompressed) bytes, and then `None` if they are a document and a panic if not. -/
theorem C86_xml_any {norm : Xml.Config} {bs : List UInt8} {t : Str} {evs : List Xml.XmlEvent}
    (h : Gram.Longest norm.char norm.manyRoots bs t evs) (dec : Bz2) {files : Files} {name : FileName} {file : Source} (hf : files name = some file) :
    ∃ (rs : List (Option StringOSMObj)) (q : List (Option Xml.XmlEvent)),
      (dec file = bs.map some → ∃ r, readXml norm dec files name = some r ∧
        calls XMLReader.next (Spec.pieces evs).length r = (rs.map .ok, q)) ∧
      (file = bs.map some → ∃ r, Xml.fromFilenameUncompressed norm files name = some r ∧
        calls XMLReader.next (Spec.pieces evs).length r = (rs.map .ok, q)) ∧
      List.Forall₂ Gram.Answers (rs.map (Option.map objData)) (Spec.pieces evs) ∧
      (Gram.IsDocument norm.char norm.manyRoots bs → XMLReader.next q = (.ok none, [])) ∧
      (¬ Gram.IsDocument norm.char norm.manyRoots bs → XMLReader.next q = (.error .unwrap, [])) := by
  obtain ⟨rs, q, h1, h2, h3, h4, -⟩ := C102_xml h
  rw [← over_new] at h1
  refine ⟨rs, q, fun hd => ⟨_, by rw [readXml, Xml.fromFilenameBz2, hf], ?_⟩,
    fun hd => ⟨_, by rw [Xml.fromFilenameUncompressed, hf], ?_⟩, h2, h3, h4⟩
  · rw [hd]; exact h1
  · rw [hd]; exact h1

/-! A file for each. -/

/-- The file with a way that cannot be read: `relations()` sees the relation after it. -/
example : ∃ own, readPbf (fun _ => some (Pbf.source (Pbf.fileBytes PbfEx.spoiltFile))) [] = some own ∧
    ∃ os t, Drain (StringPbf.PBFReader.next some .debug) own.relations os none t ∧ os.filterMap (Pbf.picked .relation) = PbfEx.relationsData := by
  obtain ⟨own, h, h1⟩ := C86_pbf_kinds (zlib := some) (b := .debug) (bs := Pbf.fileBytes PbfEx.spoiltFile)
    (files := fun _ => some (Pbf.source (Pbf.fileBytes PbfEx.spoiltFile))) (name := []) rfl
  exact ⟨own, h, (h1 .relation _).2 ⟨_, [], _, by simp, by simp, PbfEx.spoilt_shown .relation (by decide), by simp⟩⟩

/-- The example file, a frame whose header is not one, and the file again. -/
example (b : Build) (bs : Proto.Bytes) (hbs : bs = Pbf.fileBytes PbfEx.file ++ ([0, 0, 0, 1, 255] ++ Pbf.fileBytes PbfEx.file)) :
    ∃ own, readPbf (fun _ => some (Pbf.source bs)) [] = some own ∧
      ∃ p os t, Drain (StringPbf.PBFReader.next some b) own os (some p) t ∧ os.map objData = PbfEx.fileData.flatten := by
  obtain ⟨own, _, h, _, h1, _⟩ := C86_pbf_damaged (zlib := some) (b := b) (files := fun _ => some (Pbf.source bs)) (name := []) rfl
  subst hbs
  exact ⟨own, h, (h1 _ _ (PbfEx.garbage .owned b _) _).2.2 ⟨rfl, by simp⟩⟩

example : ∃ own, readPbf (fun _ => some (Pbf.source (Pbf.fileBytes PbfEx.file))) [] = some own ∧
    ∃ os t, Drain (StringPbf.PBFReader.next some .release) own os none t ∧ os.map objData = PbfEx.fileData.flatten := by
  obtain ⟨own, _, _, _, h, _, _, h1, _⟩ := C86_pbf_any (zlib := some) (bs := Pbf.fileBytes PbfEx.file)
    (files := fun _ => some (Pbf.source (Pbf.fileBytes PbfEx.file))) (name := []) rfl
  obtain ⟨a, b, c⟩ := PbfEx.accepted .owned .release
  exact ⟨own, h, (h1 _).2 (C99_file.1 ((C41_blocks PbfEx.file_is).2 ⟨_, .cons a (.cons b (.cons c .nil)), rfl⟩))⟩

example : ∃ s rs, Changesets.fromFilename [] id (fun _ => some ((Utf8.encode CsAny.text).map some)) [] = some s ∧
    Cs.Results Changesets.nextChangeset s rs [] ∧ List.Forall₂ Cs.Fits rs [some CsAny.data, none, none, none, none] := by
  obtain ⟨s, h, -, h1, -⟩ := C86_changesets_any CsAny.file [] id
    (files := fun _ => some ((Utf8.encode CsAny.text).map some)) (name := []) rfl rfl
  obtain ⟨rs, h2, h3⟩ := h1 _ CsAny.shown
  exact ⟨s, rs, h, h2, h3⟩

/-- A file that is cut short and goes on with an invalid byte: one answer, then the panic. -/
example : ∃ r o q, Xml.fromFilenameUncompressed .keep (fun _ => some (brokenBytes.map some)) [] = some r ∧
    calls XMLReader.next 1 r = ([.ok o], q) ∧ XMLReader.next q = (.error .unwrap, []) := by
  obtain ⟨t, h⟩ := broken_longest
  obtain ⟨rs, q, -, h1, h2, -, h3⟩ := C86_xml_any h id (files := fun _ => some (brokenBytes.map some)) (name := []) rfl
  obtain ⟨r, h0, h1⟩ := h1 rfl
  rw [broken_pieces] at h1 h2
  obtain ⟨o, rfl⟩ : ∃ o, rs = [o] := List.length_eq_one_iff.1 (by simpa using h2.length_eq)
  exact ⟨r, o, q, h0, h1, h3 broken_no_document⟩

end Osmio
