import Verif.Model.Open
import Verif.Props.XmlTorn
import Verif.Props.XmlCut
import Verif.Props.PbfFiles
import Verif.Props.ChangesetCut
/-!
# Files opened by name (C86)

`files` says what opening each name gives: `none` if the file cannot be opened, or what can be read from it. `dec` is the decompressor, any
function from sources to sources.
-/

namespace Osmio
open Spec Xml OSMObjBase

variable {f : Family}

namespace Xml

theorem collect_panics (evs : List (Option XmlEvent)) : ∀ (p : Bool) (els : List XmlEvent),
    (XMLReader.collect p els evs).2 <:+ evs ∧ ∀ e, (XMLReader.collect p els evs).1 = .error e → none ∈ evs := by
  induction evs with
  | nil => intro p els; exact ⟨List.suffix_refl _, fun e h => by cases h⟩
  | cons x r ih =>
    intro p els
    cases x with
    | none => exact ⟨List.suffix_cons _ _, fun _ _ => List.mem_cons_self⟩
    | some el =>
      rw [XMLReader.collect]
      split
      · exact ⟨List.suffix_cons _ _, fun e h => by cases h⟩
      · exact ⟨(ih _ _).1.trans (List.suffix_cons _ _), fun e h => List.mem_cons_of_mem _ ((ih _ _).2 e h)⟩

theorem next_panics (evs : List (Option XmlEvent)) : (XMLReader.next evs).2 <:+ evs ∧ ∀ e, (XMLReader.next evs).1 = .error e → none ∈ evs := by
  obtain ⟨h1, h2⟩ := collect_panics evs false []
  unfold XMLReader.next
  split
  · rename_i h
    rw [h] at h1
    exact ⟨h1, fun e h => by cases h⟩
  · rename_i h
    rw [h] at h1
    exact ⟨h1, fun e _ => h2 _ (by rw [h])⟩

theorem drain_panics {evs t : List (Option XmlEvent)} {os : List StringOSMObj} {p : Panic}
    (h : Drain XMLReader.next evs os (some p) t) : none ∈ evs := by
  generalize he : some p = e at h
  induction h with
  | done _ => cases he
  | @panic s _ _ h => exact (next_panics s).2 _ (by rw [h])
  | @more s _ _ _ _ _ h _ ih =>
    have := (next_panics s).1
    rw [h] at this
    exact this.subset (ih he)

/-- A file that is no document is read like one where the source fails at its end. -/
theorem over_torn {norm : Xml.Config} {a : List UInt8} (h : none ∈ XMLReader.new norm a) {tail : Source}
    (ht : tail = [] ∨ ∃ after, tail = none :: after) : XMLReader.over norm (a.map some ++ tail) = XMLReader.new norm a := by
  rcases ht with rfl | ⟨after, rfl⟩
  · rw [List.append_nil]; exact (C83_whole norm a).1
  · obtain ⟨last, h1, h2⟩ := new_eq norm a
    rw [over_failing, h1]
    rcases h2 with rfl | rfl
    · rfl
    · rw [h1] at h; simp at h

end Xml

theorem eventsOfSource_whole (later : QuickXml.Events) (a : List UInt8) : QuickXml.eventsOfSource later (a.map some) = QuickXml.eventsOf a := by
  have : Source.before (a.map some) = (a, true) := by
    induction a with
    | nil => rfl
    | cons b a ih => rw [List.map_cons, Source.before, ih]
  unfold QuickXml.eventsOfSource
  rw [this]
  rfl

theorem eventsOfSource_failing (later : QuickXml.Events) (a : List UInt8) (after : Source) :
    QuickXml.eventsOfSource later (a.map some ++ none :: after) = QuickXml.eventsFailing a later := by
  have : Source.before (a.map some ++ none :: after) = (a, false) := by
    induction a with
    | nil => rfl
    | cons b a ih => rw [List.map_cons, List.cons_append, Source.before, ih]
  unfold QuickXml.eventsOfSource
  rw [this]
  rfl

/-- **C86.** Opening fails exactly if the file cannot be opened: whatever is in the file, nothing is read or checked. -/
theorem C86_opens (norm : Xml.Config) (dec : Bz2) (later : QuickXml.Events) (files : Files) (name : FileName) :
    (readPbf files name = none ↔ files name = none) ∧
    (StringPbf.PBFReader.fromFilename files name = none ↔ files name = none) ∧
    (ArcPbf.PBFReader.fromFilename files name = none ↔ files name = none) ∧
    (NodePos.Reader.fromFilename files name = none ↔ files name = none) ∧
    (readXml norm dec files name = none ↔ files name = none) ∧
    (fromFilenameBz2 norm dec files name = none ↔ files name = none) ∧
    (fromFilenameUncompressed norm files name = none ↔ files name = none) ∧
    (Changesets.fromFilename later dec files name = none ↔ files name = none) ∧
    (Changesets.tagsFromFilename later dec files name = none ↔ files name = none) := by
  cases h : files name <;>
    simp [readPbf, StringPbf.PBFReader.fromFilename, ArcPbf.PBFReader.fromFilename, NodePos.Reader.fromFilename, readXml, fromFilenameBz2,
      fromFilenameUncompressed, Changesets.fromFilename, Changesets.tagsFromFilename, h]

/-- **C86**, PBF. A file that follows the format is opened and shows exactly what it was meant to, with the shared strings, and
with owned strings (also by `read_pbf`) if each block has one group and dense nodes have `keys_vals`. -/
theorem C86_pbf {zlib : Proto.Bytes → Option Proto.Bytes} {deflate : Proto.Bytes → Proto.Bytes} (hz : ∀ x, zlib (deflate x) = some x)
    (b : Build) (l : List (Pbf.Frame × Option Proto.PrimitiveBlock × List ObjData)) (h : ∀ x ∈ l, Pbf.Written deflate x.1 x.2.1 x.2.2)
    {files : Files} {name : FileName} (hf : files name = some (Pbf.source (Pbf.fileBytes (l.map (·.1))))) :
    (∃ r os t, ArcPbf.PBFReader.fromFilename files name = some r ∧ Drain (ArcPbf.PBFReader.next zlib b) r os none t ∧
      os.map objData = (l.map (·.2.2)).flatten) ∧
    ((∀ x ∈ l, ∀ block, x.2.1 = some block → ∃ g, block.primitivegroup = [g] ∧ ∀ d, g.dense = some d → d.keysVals ≠ [] ∨ d.id = []) →
      ∃ r os t, readPbf files name = some r ∧ StringPbf.PBFReader.fromFilename files name = some r ∧
        Drain (StringPbf.PBFReader.next zlib b) r os none t ∧ os.map objData = (l.map (·.2.2)).flatten) := by
  obtain ⟨⟨os, t, h1, h2⟩, h3⟩ := C41_written hz b l h
  refine ⟨⟨_, os, t, by rw [ArcPbf.PBFReader.fromFilename, hf], h1, h2⟩, fun hr => ?_⟩
  obtain ⟨os, t, h1, h2⟩ := h3 hr
  exact ⟨_, os, t, by rw [readPbf, StringPbf.PBFReader.fromFilename, hf], by rw [StringPbf.PBFReader.fromFilename, hf], h1, h2⟩

/-- **C86**, XML. What an XML writer left in its sink (any history without `close`; versioned objects that can be represented), put in a
file, compressed or not, is read back by name: all the objects, equal in everything (timestamps as text), and the end. -/
theorem C86_xml (norm : Xml.Config) (hn : IsNorm norm) (σ : HashOrder) (k : Sink) (hk : k.Reliable) (hk0 : k.out = [])
    (cs : List (Call f.Obj)) (hv : AllVersioned cs) (hc : ∀ c ∈ cs, c.isClose = false) (hh : HeadersOk (headersOf cs))
    (hw : ∀ o ∈ written cs, Writable o) {doc : List UInt8}
    (hdoc : doc = (XMLWriter.drop σ (run (xmlCall σ) (XMLWriter.new k) cs).2).2.writer.out)
    (dec : Bz2) {files : Files} {name : FileName} {file : Source} (hf : files name = some file) :
    (dec file = doc.map some → ∃ r os, readXml norm dec files name = some r ∧ Drain XMLReader.next r os none [] ∧
      os.map objData = (written cs).map fun o => readBack (objData o)) ∧
    (file = doc.map some → ∃ r os, fromFilenameUncompressed norm files name = some r ∧ Drain XMLReader.next r os none [] ∧
      os.map objData = (written cs).map fun o => readBack (objData o)) := by
  obtain ⟨os, h1, h2⟩ := C27_xml_roundtrip_partial norm hn σ k hk hk0 cs hv hh hw
  have hany : cs.any Call.isClose = false := by
    rw [List.any_eq_false]
    exact fun c hm => by rw [hc c hm]; simp
  rw [hany, ← hdoc, ← (C83_whole norm doc).1] at h1
  refine ⟨fun hd => ⟨_, os, by rw [readXml, fromFilenameBz2, hf], ?_, h2⟩, fun hd => ⟨_, os, by rw [fromFilenameUncompressed, hf], ?_, h2⟩⟩
  · rw [hd]; exact h1
  · rw [hd]; exact h1

/-- **C86**, damaged XML. If what comes out of the decompressor (or out of the file) breaks off, by an end or by an error, before the document
is complete: the file is opened, the objects that are complete are given, and then the reader panics. -/
theorem C86_xml_damaged (norm : Xml.Config) (hn : IsNorm norm) (σ : HashOrder) (k : Sink) (hk : k.Reliable) (hk0 : k.out = [])
    (cs : List (Call f.Obj)) (hv : AllVersioned cs) (hc : ∀ c ∈ cs, c.isClose = false) (hh : HeadersOk (headersOf cs))
    (hw : ∀ o ∈ written cs, Writable o) {doc : List UInt8}
    (hdoc : doc = (XMLWriter.drop σ (run (xmlCall σ) (XMLWriter.new k) cs).2).2.writer.out)
    {a : List UInt8} (ha : a <+: doc) (hne : a ≠ doc) {tail : Source} (ht : tail = [] ∨ ∃ after, tail = none :: after)
    (dec : Bz2) {files : Files} {name : FileName} {file : Source} (hf : files name = some file) :
    ∃ j ≤ (written cs).length,
      (∀ cs1, cs1 <+: cs → written cs1 ≠ [] →
        ((written cs1).length ≤ j ↔ (run (xmlCall σ) (XMLWriter.new k) cs1).2.writer.out <+: a)) ∧
      (dec file = a.map some ++ tail → ∃ r os, readXml norm dec files name = some r ∧ Drain XMLReader.next r os (some .unwrap) [] ∧
        os.map objData = ((written cs).take j).map fun o => readBack (objData o)) ∧
      (file = a.map some ++ tail → ∃ r os, fromFilenameUncompressed norm files name = some r ∧ Drain XMLReader.next r os (some .unwrap) [] ∧
        os.map objData = ((written cs).take j).map fun o => readBack (objData o)) := by
  subst hdoc
  obtain ⟨j, h1, h2, os, h3, h4⟩ := C84_xml norm hn σ k hk hk0 cs hv hc hh hw a ha hne
  rw [← over_torn (drain_panics h3) ht] at h3
  refine ⟨j, h1, h2, fun hd => ⟨_, os, by rw [readXml, fromFilenameBz2, hf], ?_, h4⟩,
    fun hd => ⟨_, os, by rw [fromFilenameUncompressed, hf], ?_, h4⟩⟩
  · rw [hd]; exact h3
  · rw [hd]; exact h3

/-- **C86**, a file that is not compressed, or not at all what it should be: if the decompressor fails before it gives anything, `read_xml` and the
changeset readers open the file, and the first call shows the failure: a panic, and an error. -/
theorem C86_not_compressed (norm : Xml.Config) (dec : Bz2) (later : QuickXml.Events) {files : Files} {name : FileName} {file : Source}
    (hf : files name = some file) {after : Source} (hd : dec file = none :: after) :
    (∃ r, readXml norm dec files name = some r ∧ (XMLReader.next r).1 = .error .unwrap) ∧
    (∃ s, Changesets.fromFilename later dec files name = some s ∧ Spec.Cs.Returns Changesets.nextChangeset s (.error .xml) later) ∧
    ∃ s s', Changesets.tagsFromFilename later dec files name = some s ∧ Spec.Cs.Returns Changesets.nextTag s (.error .xml) s' := by
  have e : QuickXml.eventsOfSource later (dec file) = none :: later := by
    rw [hd]
    exact eventsOfSource_failing later [] after
  refine ⟨⟨_, by rw [readXml, fromFilenameBz2, hf], ?_⟩, ⟨none :: later, by rw [Changesets.fromFilename, hf]; simp only [e], 1, rfl⟩,
    ⟨Changesets.newTagReader (none :: later), ⟨later, none, []⟩, by rw [Changesets.tagsFromFilename, hf]; simp only [e], 1, rfl⟩⟩
  rw [hd]
  have := over_failing norm [] after
  rw [List.map_nil, List.nil_append] at this
  rw [this]
  rfl

/-- **C86**, changesets. A compressed dump is opened by name and gives one result per changeset, in order, and then the end. -/
theorem C86_changesets {t : Str} {ts : List Lex.Tok} {doc : Forest} (h : Lex.Document t ts doc) {ds : List (Bool × Option Cs.Data)}
    (hd : Cs.DumpText ts ds) (bom : List UInt8) (hb : bom = [] ∨ bom = [0xEF, 0xBB, 0xBF])
    (later : QuickXml.Events) (dec : Bz2) {files : Files} {name : FileName} {file : Source} (hf : files name = some file)
    (hdec : dec file = (bom ++ Utf8.encode t).map some) :
    ∃ s rs, Changesets.fromFilename later dec files name = some s ∧ Changesets.fromBz2Reader later dec file = s ∧
      Cs.Results Changesets.nextChangeset s rs [] ∧ List.Forall₂ (fun r d => Cs.Fits r d.2) rs ds := by
  obtain ⟨rs, h1, h2, -⟩ := C52_text h hd bom hb
  refine ⟨_, rs, by rw [Changesets.fromFilename, hf]; rfl, rfl, ?_, h2⟩
  rw [Changesets.fromBz2Reader, hdec, eventsOfSource_whole]
  exact h1

/-- **C86**, changesets. A dump whose decompression fails somewhere gives the changesets before that, in order, and then an error. -/
theorem C86_changesets_damaged {t : Str} {ts : List Lex.Tok} (h : Cs.Begins t ts) {ds : List (Bool × Option Cs.Data)}
    (hd : Cs.DumpText ts ds) (bom : List UInt8) (hb : bom = [] ∨ bom = [0xEF, 0xBB, 0xBF]) (x : List UInt8) (after : Source)
    (later : QuickXml.Events) (dec : Bz2) {files : Files} {name : FileName} {file : Source} (hf : files name = some file)
    (hdec : dec file = (bom ++ Utf8.encode t ++ x).map some ++ none :: after) :
    ∃ s rs more, Changesets.fromFilename later dec files name = some s ∧ Changesets.fromBz2Reader later dec file = s ∧
      List.Forall₂ (fun r d => Cs.Fits r d.2) rs ds ∧
      Cs.Answers Changesets.nextChangeset s (rs.map Cs.answer ++ more ++ [.error .xml]) later := by
  obtain ⟨rs, h1, -, h3⟩ := C85_delivered h hd bom hb
  obtain ⟨more, h3⟩ := h3 x
  refine ⟨_, rs, more, by rw [Changesets.fromFilename, hf]; rfl, rfl, h1, ?_⟩
  rw [Changesets.fromBz2Reader, hdec, eventsOfSource_failing]
  exact h3 later

/-- **C86**, tags of changesets. -/
theorem C86_tags {t : Str} {ts : List Lex.Tok} {doc : Forest} (h : Lex.Document t ts doc) {ds : List (UInt64 × List (Str × Str))}
    (hd : Cs.TagDumpText ts ds) (later : QuickXml.Events) (dec : Bz2) {files : Files} {name : FileName} {file : Source}
    (hf : files name = some file) (hdec : dec file = (Utf8.encode t).map some) :
    ∃ s s', Changesets.tagsFromFilename later dec files name = some s ∧ Cs.Results Changesets.nextTag s (ds.map .ok) s' := by
  obtain ⟨s', -, hr⟩ := C53_text h hd
  refine ⟨_, s', by rw [Changesets.tagsFromFilename, hf], ?_⟩
  rw [hdec, eventsOfSource_whole]
  exact hr

/-! The hypotheses are met. -/

/-- One file, whatever the name. -/
def oneFile (src : Source) : Files := fun name => if name = [97] then some src else none

example : ∃ r os t, readPbf (oneFile (Pbf.source (Pbf.fileBytes PbfEx.file))) [97] = some r ∧
    Drain (StringPbf.PBFReader.next some .debug) r os none t ∧ os.map objData = PbfEx.fileData.flatten := by
  obtain ⟨l, h1, _, h3, h4⟩ := PbfEx.file_written
  have hf : oneFile (Pbf.source (Pbf.fileBytes PbfEx.file)) [97] = some (Pbf.source (Pbf.fileBytes (l.map (·.1)))) := by rw [← h1]; rfl
  obtain ⟨os, t, h5, h6⟩ := PbfEx.file_drain .debug
  exact ⟨_, os, t, rfl, h5, h6⟩

example (σ : HashOrder) (doc : List UInt8)
    (hdoc : doc = (XMLWriter.drop σ (run (xmlCall (α := Family.string.Obj) σ) (XMLWriter.new ⟨[], []⟩) sampleHistory).2).2.writer.out) :
    ∃ r os, readXml .keep id (oneFile (doc.map some)) [97] = some r ∧ Drain XMLReader.next r os none [] ∧ os.length = 2 := by
  obtain ⟨r, os, h1, h2, h3⟩ := (C86_xml (f := .string) .keep (fun _ _ _ _ => rfl) σ ⟨[], []⟩ (fun _ h => by cases h) rfl sampleHistory C84_nonvacuous.1
    C84_nonvacuous.2.1 C84_nonvacuous.2.2.1 C84_nonvacuous.2.2.2.1 hdoc id (files := oneFile (doc.map some)) (name := [97]) rfl).1 rfl
  refine ⟨r, os, h1, h2, ?_⟩
  have := congrArg List.length h3
  rw [List.length_map, List.length_map] at this
  exact this

example (later : QuickXml.Events) : ∃ s c more, Changesets.fromFilename later id
      (oneFile ((Utf8.encode CsText.cut).map some ++ [none])) [97] = some s ∧ Cs.Fits (.ok c) (some CsText.data7) ∧
    Cs.Answers Changesets.nextChangeset s (.ok (some c) :: more ++ [.error .xml]) later := by
  obtain ⟨s, rs, more, h1, -, h2, h3⟩ := C86_changesets_damaged CsText.begins CsText.cutDump [] (.inl rfl) [] [] later id
    (files := oneFile ((Utf8.encode CsText.cut).map some ++ [none])) (name := [97]) rfl (by simp)
  cases h2 with
  | @cons r _ _ _ h h' =>
    cases h'
    cases r with
    | error e => cases h
    | ok c => exact ⟨s, c, more, h1, h, h3⟩

example (norm : Xml.Config) : ∃ r, readXml norm (fun _ => [none]) (oneFile ((str% "BZh").map fun _ => some 66)) [97] = some r ∧
    (XMLReader.next r).1 = .error .unwrap :=
  (C86_not_compressed norm (fun _ => [none]) [] (file := (str% "BZh").map fun _ => some 66) rfl rfl).1

end Osmio
