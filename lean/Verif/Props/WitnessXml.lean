import Verif.Props.AnySink
import Verif.Props.AnySource
import Verif.Props.Builder
import Verif.Props.Bzip2
import Verif.Props.ChangesetBuilder
import Verif.Props.ChangesetCut
import Verif.Props.ChangesetDoctype
import Verif.Props.ChangesetHeard
import Verif.Props.ChangesetStream
import Verif.Props.ChangesetText
import Verif.Props.Changesets
import Verif.Props.Convert
import Verif.Props.Coord
import Verif.Props.CoordDebug
import Verif.Props.CoordDigits
import Verif.Props.CoordError
import Verif.Props.CoordIeee
import Verif.Props.CoordText
import Verif.Props.Equality
import Verif.Props.ErrorText
import Verif.Props.Hints
import Verif.Props.Integers
import Verif.Props.IntoInner
import Verif.Props.Objects
import Verif.Props.ObjectsExact
import Verif.Props.Open
import Verif.Props.OplLine
import Verif.Props.PbfBlocks
import Verif.Props.PbfFiles
import Verif.Props.PbfHeader
import Verif.Props.PbfMemory
import Verif.Props.PbfReadable
import Verif.Props.PbfZlib
import Verif.Props.Programs
import Verif.Props.Proto
import Verif.Props.ProtoFields
import Verif.Props.ProtoSize
import Verif.Props.ReaderExact
import Verif.Props.Rewrite
import Verif.Props.Serde
import Verif.Props.TagsToSqlite
import Verif.Props.TagsToSqliteMain
import Verif.Props.Timestamp
import Verif.Props.TimestampExact
import Verif.Props.Uncompiled
import Verif.Props.Writer
import Verif.Props.WriterExact
import Verif.Props.XmlCut
import Verif.Props.XmlExact
import Verif.Props.XmlGrammar
import Verif.Props.XmlHeader
import Verif.Props.XmlNested
import Verif.Props.XmlRead
import Verif.Props.XmlStream
import Verif.Props.XmlText
import Verif.Props.XmlTorn

/-! Concrete cases that meet the hypotheses of the theorems about XML and the programs, where the file of the theorem has none. -/

namespace Osmio
open Spec Xml OSMObjBase Spec.Lex

theorem keep_norm : IsNorm .keep := fun _ _ _ _ => rfl
theorem empty_reliable : Sink.Reliable ⟨[], []⟩ := fun _ h => by cases h

/-! ## Reading XML -/

example := C64_documents_osc (norm := .keep) keep_norm sample_document
example := C30_text_osc_partial (norm := .keep) keep_norm sample_document sample_flat sample_readable
example := C30_any (norm := .keep) keep_norm nested_document
example := C30_any_iff (norm := .keep) keep_norm nested_document
example := C33_text_resume_partial (norm := .keep) keep_norm sample_document sample_flat
example (after : Source) := C83_delivered_osc (norm := .keep) keep_norm (open_ := [str% "osm"]) (by simp [holders]) (sample_open ▸ sample_document) sample_flat after
example (k : Nat) := C89_objects (norm := .keep) keep_norm (open_ := [str% "osm"]) (by simp [holders]) (sample_open ▸ sample_document) sample_flat k

/-- `C89_just`, `C89_needed`, `C89_unique`: some part of the example just settles its objects. -/
example : ∃ a, a <+: Utf8.encode (sampleText.take (sampleText.length - 6)) ∧ JustSettles .keep sampleTree.objects.length a ∧
    (∀ a', a' <+: a → JustSettles .keep sampleTree.objects.length a' → a' = a) ∧
    ∀ a', a' <+: a → a' ≠ a →
      ∃ r ∈ (calls XMLReader.next sampleTree.objects.length (XMLReader.over .keep (a'.map some ++ [none]))).1, r = .error .unwrap := by
  obtain ⟨a, h1, h2⟩ := C89_just ((C89_objects (norm := .keep) keep_norm (open_ := [str% "osm"]) (by simp [holders])
    (sample_open ▸ sample_document) sample_flat _).2 (Nat.le_refl _))
  exact ⟨a, h1, h2, fun a' hp h => C89_unique h h2 (.inl hp), fun a' hp hne => C89_needed h2 hp hne⟩

/-- `C89_streams_osc` -/
example (after : List UInt8) (rounds : Nat) (hl : 2 * (XmlStreamEx.text.length + after.length) + 1 < rounds) :=
  C89_streams_osc (rd := portions) portions_delivers XmlStreamEx.just (after := after.map some) (s := AnySourceEx.drip (XmlStreamEx.text ++ after))
    (by rw [AnySourceEx.contents_drip, ← List.map_append]; rfl) (rounds := rounds) (by simpa using hl)

/-- `C81_xml_same`, `C81_xml_portions`: the example byte by byte and in one portion. -/
example (k : Nat) := C81_xml_same (rd1 := portions) (rd2 := portions) portions_delivers portions_delivers (s1 := AnySourceEx.drip (Utf8.encode sampleText))
  (s2 := [.bytes 60 (Utf8.encode sampleText).tail]) (src := Pbf.source (Utf8.encode sampleText)) (AnySourceEx.contents_drip _).symm (by decide +kernel) .keep
  (n1 := 10000) (n2 := 20000) (by decide +kernel) (by decide +kernel) k
example (k : Nat) := C81_xml_portions (AnySourceEx.drip (Utf8.encode sampleText)) .keep (rounds := 10000) (by rw [AnySourceEx.contents_drip]; decide +kernel) k

/-- The events of the example. -/
theorem prefixed_events : XMLReader.new .keep (Utf8.encode prefixedText) = prefixedTree.events.map some ++ [some .other] := by decide +kernel

example := C30_every_object_partial .keep _ _ prefixed_events prefixed_flat prefixed_distinct
example := C33_resume_partial .keep _ _ prefixed_events prefixed_flat prefixed_distinct
example := C30_one_tree prefixed_wellFormed prefixed_wellFormed
example := C30_wellFormed_osc_partial (norm := .keep) prefixed_wellFormed prefixed_distinct prefixed_flat
example := C30_wellFormed_iff (norm := .keep) prefixed_wellFormed prefixed_distinct
example := C33_wellFormed_any (norm := .keep) prefixed_wellFormed prefixed_distinct

/-- `C62_loop`: a reader that has given the node of the cut text has not yet seen where it is cut. -/
example (os : List StringOSMObj) (e : Option Panic) (q : List (Option XmlEvent)) :=
  C62_loop (norm := .keep) (bs := (Utf8.encode prefixedText).take 120) (by rw [isDocument_iff]; decide +kernel) os e q

/-- `C62_errors_surface` -/
example (n : Nat) := C62_errors_surface .keep ((Utf8.encode prefixedText).take 60) [.other, .other] (by decide +kernel) n

/-! The example with the attributes of the node in another order. -/

def swappedAttrs : List (Str × Str) := [(str% "lat", ['0']), (str% "id", ['1']), (str% "lon", ['0']), (str% "o:note", str% "a\tb")]
def swappedText : Str :=
  str% "<?xml version='1.1' encoding=\"UTF-8\" ?>\n<o:osm xmlns:o='urn:o' xml:lang='en'><o:node lat='0' id='1' lon='0' o:note='a\tb'/></o:osm>"
def swappedTree : Forest :=
  .text (.text (.elem ⟨some ['o'], str% "osm"⟩ [⟨⟨some (str% "xml"), str% "lang"⟩, str% "en"⟩]
    (.elem ⟨some ['o'], str% "node"⟩ [⟨⟨none, str% "lat"⟩, ['0']⟩, ⟨⟨none, str% "id"⟩, ['1']⟩, ⟨⟨none, str% "lon"⟩, ['0']⟩,
      ⟨⟨some ['o'], str% "note"⟩, str% "a\tb"⟩] .nil .nil) .nil))

section
open Spec.Gram

theorem swapped_toks : Gram.Toks id true true swappedText
    [.space, .space, .start (str% "o:osm") rootAttrs, .empty (str% "o:node") swappedAttrs, .stop (str% "o:osm")] :=
  .declaration (t := str% "\n<o:osm xmlns:o='urn:o' xml:lang='en'><o:node lat='0' id='1' lon='0' o:note='a\tb'/></o:osm>") prefixed_declaration
  (.space (s := ['\n']) (by decide) (by decide)
  (.start (n := str% "o:osm") (x := str% " xmlns:o='urn:o' xml:lang='en'") (w := []) (nameText_of (by decide +kernel))
    (attr_of (key := str% "mlns:o") (v := str% "urn:o") (by decide +kernel) (by decide +kernel)
    (attr_of (key := str% "ml:lang") (v := str% "en") (by decide +kernel) (by decide +kernel) .nil)) (by decide)
  (.empty (n := str% "o:node") (x := str% " lat='0' id='1' lon='0' o:note='a\tb'") (w := []) (nameText_of (by decide +kernel))
    (attr_of (key := str% "at") (v := ['0']) (by decide +kernel) (by decide +kernel)
    (attr_of (key := ['d']) (v := ['1']) (by decide +kernel) (by decide +kernel)
    (attr_of (key := str% "on") (v := ['0']) (by decide +kernel) (by decide +kernel)
    (attr_of (key := str% ":note") (v := str% "a\tb") (by decide +kernel) (by decide +kernel) .nil)))) (by decide)
  (.stop (n := str% "o:osm") (w := []) (nameText_of (by decide +kernel)) (by decide) .nil))))

theorem swapped_node : TagSays (swappedAttrs ++ rootAttrs) (str% "o:node") swappedAttrs ⟨some ['o'], str% "node"⟩
    [⟨⟨none, str% "lat"⟩, ['0']⟩, ⟨⟨none, str% "id"⟩, ['1']⟩, ⟨⟨none, str% "lon"⟩, ['0']⟩, ⟨⟨some ['o'], str% "note"⟩, str% "a\tb"⟩] where
  once := by decide
  name := ⟨by decide, by decide, .inr ⟨['o'], rfl, by decide, by decide, rfl⟩⟩
  bound := by
    rintro p ⟨⟩
    exact ⟨.inr ⟨str% "urn:o", by decide⟩, by decide, by decide⟩
  attrs := .attr (plain_declares (by decide)) ⟨by decide, by decide, .inl ⟨rfl, rfl⟩⟩ (by rintro p ⟨⟩)
    (.attr (plain_declares (by decide)) ⟨by decide, by decide, .inl ⟨rfl, rfl⟩⟩ (by rintro p ⟨⟩)
    (.attr (plain_declares (by decide)) ⟨by decide, by decide, .inl ⟨rfl, rfl⟩⟩ (by rintro p ⟨⟩)
    (.attr (plain_declares (by decide)) ⟨by decide, by decide, .inr ⟨['o'], rfl, by decide, by decide, rfl⟩⟩
      (by rintro p ⟨⟩; exact .inr ⟨str% "urn:o", by decide⟩) .nil)))

theorem swapped_wellFormed : WellFormed Config.keep.char Config.keep.manyRoots swappedText swappedTree :=
  ⟨_, 1, swapped_toks, .space (.space (.elem (ks := [_]) prefixed_root (.empty swapped_node .nil) .nil)), .inl rfl⟩

end

theorem swapped_same : SameUpToAttrOrder prefixedTree swappedTree :=
  .text (.text (.elem (List.Perm.refl _) (.elem (List.Perm.swap _ _ _) .nil .nil) .nil))

example (n : Nat) := C31_wellFormed_partial (norm := .keep) prefixed_wellFormed swapped_wellFormed swapped_same prefixed_distinct n
example (n : Nat) := C31_streams_partial .keep _ (Utf8.encode swappedText) _ swappedTree prefixed_events (by decide +kernel) swapped_same prefixed_distinct n
example := C31_attribute_order_partial .keep _ (Utf8.encode swappedText) _ swappedTree prefixed_events (by decide +kernel) swapped_same prefixed_flat prefixed_distinct

/-- `C32_wellFormed_partial`, `C32_children_in_order_partial`: the node of the example. -/
example : ∃ o, (calls XMLReader.next 1 (XMLReader.new .keep (Utf8.encode prefixedText))).1[0]? = some (.ok (some o)) ∧ objectType o = .node := by
  obtain ⟨rs, h1, h2, -⟩ := C33_resume_partial .keep _ _ prefixed_events prefixed_flat prefixed_distinct
  have hl : prefixedTree.objects.length = 1 := rfl
  have h3 : (readElem (prefixedTree.objects.head (List.cons_ne_nil _ _))).isSome = true := by decide +kernel
  obtain ⟨r, rfl, h4⟩ := List.map_eq_singleton_iff.1 (show rs.map (Option.map objData) = [readElem (prefixedTree.objects.head (List.cons_ne_nil _ _))] from h2)
  rw [hl] at h1
  rw [← h4] at h3
  cases r with
  | none => cases h3
  | some o =>
    have h5 : (calls XMLReader.next 1 (XMLReader.new .keep (Utf8.encode prefixedText))).1[0]? = some (.ok (some o)) := by rw [h1]; rfl
    have h6 := (C32_wellFormed_partial (norm := .keep) prefixed_wellFormed prefixed_distinct prefixed_flat 0 _ _ _ rfl o (by rw [hl]; exact h5)).1
    exact ⟨o, h5, (C32_children_in_order_partial .keep _ _ prefixed_events prefixed_flat prefixed_distinct 0 _ _ _ rfl o (by rw [hl]; exact h5)).1⟩

/-- `C32_text_partial`: the way of the example. -/
example : ∃ o, (calls XMLReader.next 1 (XMLReader.new .keep (Utf8.encode (str% "<way id='1' uid='2'/>")))).1[0]? = some (.ok (some o)) ∧ objectType o = .way := by
  have hf : (Forest.elem ⟨none, str% "way"⟩ ([⟨str% "id", ['1'], ['1']⟩, ⟨str% "uid", ['2'], ['2']⟩].map SrcAttr.attr) .nil .nil).Flat := by
    simp [Forest.Flat, Forest.objects, kindOf]
  obtain ⟨rs, h1, h2, -⟩ := C33_text_resume_partial (norm := .keep) keep_norm (swapped_document false) hf
  have h3 : (readElem (.way, [⟨str% "id", ['1'], ['1']⟩, ⟨str% "uid", ['2'], ['2']⟩].map SrcAttr.attr, .nil)).isSome = true := by decide +kernel
  obtain ⟨r, rfl, h4⟩ := List.map_eq_singleton_iff.1 (show rs.map (Option.map objData) =
    [readElem (.way, [⟨str% "id", ['1'], ['1']⟩, ⟨str% "uid", ['2'], ['2']⟩].map SrcAttr.attr, .nil)] from h2)
  rw [← h4] at h3
  cases r with
  | none => cases h3
  | some o =>
    have h5 : (calls XMLReader.next 1 (XMLReader.new .keep (Utf8.encode (str% "<way id='1' uid='2'/>")))).1[0]? = some (.ok (some o)) :=
      (congrArg (fun l => l[0]?) h1).trans rfl
    exact ⟨o, h5, (C32_text_partial (norm := .keep) keep_norm (swapped_document false) hf 0 .way _ _ rfl o h5).1⟩

/-- `C32_malformed_child_skipped`: a tag without a value. -/
example (r : List (Option XmlEvent)) := C32_malformed_child_skipped .way [⟨⟨none, str% "id"⟩, ['1']⟩]
  [(⟨none, str% "nd"⟩, [⟨⟨none, str% "ref"⟩, ['5']⟩])] [(⟨none, str% "tag"⟩, [⟨⟨none, ['k']⟩, ['a']⟩, ⟨⟨none, ['v']⟩, ['b']⟩])]
  (⟨none, str% "tag"⟩, [⟨⟨none, ['k']⟩, ['a']⟩]) (by decide) (by decide) (by decide)
  (by unfold DistinctAttrs; decide) (by unfold DistinctAttrs; decide) ⟨none, str% "way"⟩ rfl r

/-! ## Files that were written -/

example (σ : HashOrder) := C27_exact (f := .string) .keep keep_norm σ ⟨[], []⟩ empty_reliable rfl _ (C27_exact_nonvacuous (str% "a<b")).1
  (C27_exact_nonvacuous (str% "a<b")).2.1 (C27_exact_nonvacuous (str% "a<b")).2.2.1 (C27_exact_nonvacuous (str% "a<b")).2.2.2.1
example (σ : HashOrder) := C27_count (f := .string) .keep keep_norm σ ⟨[], []⟩ empty_reliable rfl _ (C27_exact_nonvacuous (str% "a<b")).1
  (C27_exact_nonvacuous (str% "a<b")).2.1 (C27_exact_nonvacuous (str% "a<b")).2.2.1 (C27_exact_nonvacuous (str% "a<b")).2.2.2.1
example := C28_exact (f := .string) .keep keep_norm ⟨[], []⟩ empty_reliable rfl _ (C27_exact_nonvacuous (str% "a<b")).1
  (C27_exact_nonvacuous (str% "a<b")).2.2.2.1
example := C28_count (f := .string) .keep keep_norm ⟨[], []⟩ empty_reliable rfl _ (C27_exact_nonvacuous (str% "a<b")).1
  (C27_exact_nonvacuous (str% "a<b")).2.2.2.1
example (σ : HashOrder) := C29_iff (f := .string) .keep keep_norm σ ⟨[], []⟩ empty_reliable rfl sampleHistory C84_nonvacuous.1
example (σ : HashOrder) := C29_headers_partial (f := .string) .keep keep_norm σ ⟨[], []⟩ empty_reliable rfl sampleHistory C84_nonvacuous.1 (by
  have h : ∀ s ∈ (sampleHistory.takeWhile Call.isHeader).filterMap Call.header?, (∀ c ∈ s.2, valueChar c = true) ∧ s.1 ≠ str% "version" ∧ s.1 ≠ str% "generator" := by
    decide +kernel
  have h' : ∀ s ∈ (sampleHistory.takeWhile Call.isHeader).filterMap Call.header?, s.1 = ['a'] ∨ s.1 = ['b'] := by decide +kernel
  intro s hs
  refine ⟨?_, h s hs⟩
  rcases h' s hs with e | e <;> rw [e]
  · exact isKey_of rfl (by decide +kernel)
  · exact isKey_of rfl (by decide +kernel))
example := C21_escaping (str% "a<b & \"c\"") ⟨[], []⟩ empty_reliable

open RewriteEx in
/-- `C79_again_xml`, `C79_again_osc` -/
example (σ : HashOrder) : ∃ (os rs : List StringOSMObj) (q q' : List (Option XmlEvent)), os.length = 1 ∧
    Drain XMLReader.next (XMLReader.new .keep (Utf8.encode lines)) os none q ∧
    Drain XMLReader.next (XMLReader.new .keep (xmlCopy (f := .string) σ ⟨[], []⟩ os).2.writer.out) rs none q' ∧ rs.length = 1 := by
  obtain ⟨os, q, h1, h2, h3, h4, h5, -⟩ := C79_nonvacuous σ .keep (by simp)
  obtain ⟨rs, rs', q', q'', h6, -, h7, -⟩ := C79_again_xml .keep id_spaces σ ⟨[], []⟩ empty_reliable rfl (.inl rfl) h1 h3 h4 h5
  have := C79_again_osc .keep id_spaces ⟨[], []⟩ empty_reliable rfl (.inl rfl) h1 h3 h4 h5
  exact ⟨os, rs, q, q', h2, h1, h6, by rw [h7, h2]⟩

/-! ## Programs -/
section
open Programs

/-- No argument, or a name that is no file. -/
example (zlib : Proto.Bytes → Option Proto.Bytes) (b : Build) (clock : Nat → Nat) (files : Files) (rounds : Nat) :=
  C87_no_input .keep zlib b clock files [[]] (fun _ h => by cases h) rounds
example (zlib : Proto.Bytes → Option Proto.Bytes) (b : Build) (clock : Nat → Nat) (rounds : Nat) :=
  C87_no_input .keep zlib b clock (fun _ => none) [[], [97]] (fun _ _ => rfl) rounds

/-- `C87_debug_torn`: the example without its last byte. -/
example (doc : List UInt8)
    (hdoc : doc = (OSCWriter.drop (run (oscCall (α := Family.string.Obj)) (OSCWriter.new ⟨[], []⟩) sampleHistory).2).2.writer.out) (hne : doc ≠ []) :
    ∃ os : List StringOSMObj, oscDebug .keep (oneFile (doc.dropLast.map some)) [[], [97]] 3 = some (os, .panic .unwrap) := by
  obtain ⟨j, hj, -, os, -, h⟩ := C87_debug_torn (f := .string) .keep keep_norm ⟨[], []⟩ empty_reliable rfl sampleHistory C84_nonvacuous.1
    C84_nonvacuous.2.2.2.1 (a := doc.dropLast) (by rw [← hdoc]; exact List.dropLast_prefix _)
    (by rw [← hdoc]; exact fun h => by
          have := congrArg List.length h
          rw [List.length_dropLast] at this
          have := List.length_pos_iff.2 hne
          omega)
    (tail := []) (.inl rfl) (files := oneFile (doc.dropLast.map some)) (args := [[], [97]]) (name := [97]) rfl (by rw [List.append_nil]; rfl)
  exact ⟨os, h 3 (Nat.lt_of_le_of_lt hj (by decide))⟩

example : ∃ os : List StringOSMObj, ∀ rounds, sampleTree.objects.length < rounds →
    oscDebug .keep (oneFile ((Utf8.encode sampleText).map some)) [[], [97]] rounds = some (os, .well) :=
  (C87_debug_document_partial (norm := .keep) keep_norm sample_document sample_flat (args := [[], [97]]) (name := [97]) rfl rfl).imp fun _ h => h.2

example := C87_speed_lines (fun i => 700 * i) (fun _ _ h => Nat.mul_le_mul_left _ h) 5000000 (by decide)
end

/-! ## Tags to SQLite -/
section
open TagsToSqlite QuickXml

/-- `C70_report`: the program has ended well for the dump of C52, and then it has reported. -/
example : ∃ n ds top, Spec.Cs.Provides (eventsOf (Utf8.encode CsText.text)) ds ∧ Spec.Cs.Report ds top ∧
    (after (fun _ => false) (start (eventsOf (Utf8.encode CsText.text)) none) n).output ≠ [] := by
  obtain ⟨f, h⟩ := CsText.document
  obtain ⟨n, hn⟩ := C69_text h CsText.tagDumpText (by simp) _ (fun _ => rfl)
  obtain ⟨ds, top, h1, h2, h3⟩ := C70_report _ _ n (hn n (Nat.le_refl _)).1
  exact ⟨n, ds, top, h1, h2, by rw [h3]; simp⟩

/-- `C70_silent`: the program has not ended. -/
example : (after (fun _ => false) (start (eventsOf (Utf8.encode CsText.text)) none) 1).output = [] :=
  C70_silent _ _ _ _ (by decide +kernel)

example (later : Events) (dec : Bz2) (files : Files) (dbs : Databases) (fails : Nat → Bool) (n : Nat) :=
  C69_only later dec files dbs [[112], [99], [100]] fails n [99] (by decide)
end

/-! ## PBF to XML -/
section
open Pbf

theorem arc_file_drain (b : Build) : ∃ objs t, Drain (ArcPbf.PBFReader.next some b) (ArcPbf.PBFReader.new (source (fileBytes PbfEx.file))) objs none t ∧
    objs.map objData = PbfEx.fileData.flatten := by
  obtain ⟨h1, h2, h3⟩ := PbfEx.accepted .shared b
  exact (C41_blocks (r := .shared) PbfEx.file_is).2 ⟨_, .cons h1 (.cons h2 (.cons h3 .nil)), rfl⟩

/-- `C77_shared_xml`, `C77_shared_osc`, `C77_owned_osc`: the file of C41 is copied without an error. -/
example (b : Build) (σ : HashOrder) : ∃ os t, Drain (ArcPbf.PBFReader.next some b) (ArcPbf.PBFReader.new (source (fileBytes PbfEx.file))) os none t ∧
    os.length = 6 ∧ (xmlCopy (f := .arc) σ ⟨[], []⟩ os).1 = .ok () ∧ (oscCopy (f := .arc) ⟨[], []⟩ os).1 = .ok () := by
  obtain ⟨os, t, h1, h2⟩ := arc_file_drain b
  refine ⟨os, t, h1, ?_, (C77_shared_xml .keep keep_norm σ ⟨[], []⟩ empty_reliable rfl h1).1.2, (C77_shared_osc .keep keep_norm ⟨[], []⟩ empty_reliable rfl h1).1.2⟩
  rw [← List.length_map (f := objData), h2]; decide +kernel

example (b : Build) : ∃ os t, Drain (StringPbf.PBFReader.next some b) (StringPbf.PBFReader.new (source (fileBytes PbfEx.file))) os none t ∧
    (oscCopy (f := .string) ⟨[], []⟩ os).1 = .ok () := by
  obtain ⟨os, t, h1, h2⟩ := PbfEx.file_drain b
  exact ⟨os, t, h1, (C77_owned_osc .keep keep_norm ⟨[], []⟩ empty_reliable rfl h1).1.2⟩
end

/-! ## Numbers -/

example := C71_changesets CsEx.describes7

/-- `C67_accepts_nearest`, `C67_monotone`: both texts are accepted. -/
theorem one_and_a_half : IsDecimal (str% "1.5") (3 / 2) := by
  refine ⟨[], ['1'], ['.'], ['5'], [], 0, rfl, by simp, by simp, by simp, by decide, by decide, .none, ?_⟩
  have h2 : Spec.number (['1'] ++ ['5']) = 15 := by decide
  simp only [h2]; norm_num

example : innerFromStr (str% "1.5") = .ok 15000000 := C67_accepts_nearest _ _ one_and_a_half _ (by
  have h : Int32.toInt 15000000 = 15000000 := by decide
  rw [h]; norm_num [textEps])

example := C67_monotone _ _ _ _ one_and_a_half one_and_a_half (le_refl _) 15000000 15000000 (by decide +kernel) (by decide +kernel)

end Osmio
