import Verif.Props.WitnessObjects
import Verif.Props.WitnessPbf
import Verif.Props.WitnessXml
import Verif.Props.WitnessOpl
import Verif.Props.WitnessChangesets
import Verif.Props.Edit
import Verif.Props.Join
import Verif.Props.OpenAny
import Verif.Props.PbfDamage
import Verif.Props.PbfMethods
import Verif.Props.PbfResume
import Verif.Props.XmlAny

/-! Concrete cases that meet the hypotheses of the theorems that no other file applies to one. -/

namespace Osmio
open Spec Xml OSMObjBase

/-! ## Numbers -/
section

theorem three_halves : (F64.fin false (3 / 2)).Valid := by
  refine ⟨by norm_num, by decide +kernel, ?_⟩
  exact lt_of_lt_of_le (by norm_num : (3 / 2 : ℚ) < 2 ^ (1 : ℤ)) (zpow_le_zpow_right₀ (by norm_num) (by norm_num))

example := (C03_conversion_partial _ three_halves (by simp)).1 15000000 (by decide +kernel)
example := (C03_conversion_partial _ six_hundred (by simp)).2 (.tooSmall (.fin true 6000000000)) (by decide +kernel)
example := C03_exact _ six_hundred (-600) (by decide +kernel)
example := C04_tryFrom_monotone (.fin false (3 / 2)) (.fin false (3 / 2)) three_halves three_halves (3 / 2) (3 / 2) (by decide +kernel) (by decide +kernel)
  (le_refl _) 15000000 15000000 (by decide +kernel) (by decide +kernel)
example := C06_roundtrip_partial 1500000000 (by decide) (by decide)

/-- `C09_chronological_partial`, `C09_mixed_partial`: a time as text and another as a number. -/
example (h : Denotes (.iso (TimestampFormat.toIsoString (.epoch 1456790399))) 1456790399) := C09_chronological_partial h (.epoch 1456790400)
example := C09_mixed_partial (s := "2020-01-01T00:30:00+01:00".toList) (z := 1577835000) ((parseRfc3339_iff _ _).1 (by decide +kernel)) (by norm_num) (by norm_num) 12

example := C67_accuracy _ _ one_and_a_half

/-- `C66_f32_exact`, `C66_f32_iff`: the number 1.23, and one that is too large. -/
example := C66_f32_exact ⟨0x3F9D70A4⟩ (1 * (1 + (1929380 : ℚ) / 2 ^ 23) * 2 ^ ((127 : ℤ) - 127)) (by decide +kernel)
example := C66_f32_iff ⟨0x3F9D70A4⟩ (1 * (1 + (1929380 : ℚ) / 2 ^ 23) * 2 ^ ((127 : ℤ) - 127)) (by decide +kernel) 12300000
end

/-! ## Objects -/
section

example := C11_tags_are_an_ordered_map (.node .string) { sampleNode with tags_ := [(str% "b", str% "1"), (str% "a", str% "2")] }
  [.setTag (str% "b") (str% "3"), .unsetTag (str% "a"), .setTag (str% "a") (str% "4")] (by decide)
example := C12_unset_tag_others_partial (.node .string) sampleNode (str% "a") (str% "b") (by decide)

example := C58_separators (str% "a b,ü=@\n") '%' (by decide)

/-- `C17_kind_iterators`: the reader of the PBF example. -/
example (b : Build) : ∃ (objs : List StringOSMObj) (t : StringPbf.PBFReader),
    NodesDrain (ReaderT.ofRes (StringPbf.PBFReader.next some b)) (StringPbf.PBFReader.new (Pbf.source (Pbf.fileBytes PbfEx.file)))
      (objs.filterMap OSMObjT.intoNode) t := by
  obtain ⟨objs, t, h1, h2⟩ := PbfEx.file_drain b
  exact ⟨objs, t, ((C17_kind_iterators .string _ _ _ _ (drain_objects h1)).1 _ _).2 ⟨rfl, rfl⟩⟩

example (b : Build) := C59_exact b (ops := [(3, ⟨1⟩, ⟨2⟩), (5, ⟨1⟩, ⟨2147483647⟩)]) (by decide)
example := C68_empty_way_fails bob _ (.way bob [] _ [] (bob_text 'w') (.inl ⟨rfl, rfl⟩))

example := C80_node_partial .string sampleNode sampleNodeIso (.inl rfl)
example := C80_node_sound .string sampleNode sampleNodeIso (by decide +kernel)
example := C80_untagged_fails .arc (by decide) { sampleArcNode with tags_ := none } rfl
example := C80_obj_partial .string (.node sampleNode : StringOSMObj) (.node sampleNodeIso : StringOSMObj) (.inl rfl)
example := C80_sound (.node .string) sampleNode sampleNodeIso (by decide +kernel)
example := C80_identical (.node .arc) { sampleArcNode with tags_ := some [(str% "a", str% "1")] } { sampleArcNode with tags_ := some [(str% "a", str% "1")] } (by decide +kernel) rfl
end

/-! ## Writers -/
section

theorem closed_versioned : AllVersioned (f := .string) (sampleHistory ++ [.close]) := by
  intro c hc o ho
  rcases List.mem_append.1 hc with h | h
  · exact C23_nonvacuous.1 c h o ho
  · simp only [List.mem_singleton] at h; subst h; cases ho

example := C23_output_partial (f := .string) sampleOrder ⟨[], []⟩ empty_reliable (sampleHistory ++ [.close]) closed_versioned
example := C23_one_document_partial (f := .string) sampleOrder ⟨[], []⟩ empty_reliable sampleHistory C23_nonvacuous.1 C23_nonvacuous.2.1
example := C23_close_fails (f := .string) sampleOrder ⟨[], []⟩ empty_reliable (sampleHistory ++ [.close]) closed_versioned ⟨.close, by simp, rfl⟩
example := C24_one_document_partial (f := .string) ⟨[], []⟩ empty_reliable (sampleHistory ++ [.close]) closed_versioned
example := C25_xml_faults (f := .string) sampleOrder (XMLWriter.new ⟨[], [none, some 3]⟩) .close (by intro c hc o ho; simp only [List.mem_singleton] at hc; subst hc; cases ho)
example := C26_no_panic_partial (f := .string) sampleOrder sampleObj (by decide)
example := C26_osc_unversioned_fails (f := .string) unversionedObj rfl (OSCWriter.new ⟨[], []⟩) empty_reliable rfl

example (σ : HashOrder) := C27_texts (f := .string) .keep keep_norm σ ⟨[], []⟩ empty_reliable rfl sampleHistory C84_nonvacuous.1 C84_nonvacuous.2.2.1
  fun o ho => (C84_nonvacuous.2.2.2.1 o ho).parsable
example (σ : HashOrder) := C27_xml_roundtrip_partial (f := .string) .keep keep_norm σ ⟨[], []⟩ empty_reliable rfl sampleHistory C84_nonvacuous.1 C84_nonvacuous.2.2.1 C84_nonvacuous.2.2.2.1
example := C28_texts (f := .string) .keep keep_norm ⟨[], []⟩ empty_reliable rfl sampleHistory C84_nonvacuous.1 fun o ho => (C84_nonvacuous.2.2.2.1 o ho).parsable
example := C28_osc_roundtrip_partial (f := .string) .keep keep_norm ⟨[], []⟩ empty_reliable rfl sampleHistory C84_nonvacuous.1 C84_nonvacuous.2.2.2.1

/-- `C29_headers_any_partial`: the headers of the sample. -/
example (σ : HashOrder) := C29_headers_any_partial (f := .string) .keep keep_norm σ ⟨[], []⟩ empty_reliable rfl sampleHistory C84_nonvacuous.1 (by
  have e : (sampleHistory.takeWhile Call.isHeader).filterMap Call.header? = [(str% "a", str% "1"), (str% "b", str% "2"), (str% "a", str% "3")] := by decide +kernel
  intro key value h
  rw [e] at h
  obtain ⟨x, hx, rfl⟩ := Option.map_eq_some_iff.1 h
  have hm := List.mem_of_find?_eq_some hx
  have hk : x.1 = key := by simpa using List.find?_some hx
  have hv : HeaderValue .keep x.2 ∧ (key = ['a'] ∨ key = ['b']) := by
    have h1 : ∀ y ∈ [(str% "a", str% "1"), (str% "b", str% "2"), (str% "a", str% "3")].reverse,
        (∀ c ∈ y.2, isXmlChar c = true) ∧ (y.1 = ['a'] ∨ y.1 = ['b']) := by decide +kernel
    exact ⟨fun c hc => ⟨(isXmlChar_iff c).1 ((h1 x hm).1 c hc), rfl⟩, hk ▸ (h1 x hm).2⟩
  obtain ⟨hv, rfl | rfl⟩ := hv
  · exact ⟨.inl (isKey_of rfl (by decide +kernel)), by decide, by decide, hv⟩
  · exact ⟨.inl (isKey_of rfl (by decide +kernel)), by decide, by decide, hv⟩)

example := C82_steady_xml (f := .string) (narrow_steady (by decide : 0 < 1)) Pieces.single sampleOrder [] sampleHistory
example := C82_steady_osc (f := .string) (narrow_steady (by decide : 0 < 1)) Pieces.single [] sampleHistory

/-- `C84_xml`, `C84_osc`, `C86_xml_damaged`: the document without its last byte. -/
theorem torn {doc : List UInt8} (hne : doc ≠ []) : doc.dropLast ≠ doc := fun h => by
  have := congrArg List.length h
  rw [List.length_dropLast] at this
  have := List.length_pos_iff.2 hne
  omega
example (doc : List UInt8) (hdoc : doc = (XMLWriter.drop sampleOrder (run (xmlCall (α := Family.string.Obj) sampleOrder) (XMLWriter.new ⟨[], []⟩) sampleHistory).2).2.writer.out)
    (hne : doc ≠ []) := C84_xml (f := .string) .keep keep_norm sampleOrder ⟨[], []⟩ empty_reliable rfl sampleHistory C84_nonvacuous.1 C84_nonvacuous.2.1
  C84_nonvacuous.2.2.1 C84_nonvacuous.2.2.2.1 doc.dropLast (hdoc ▸ List.dropLast_prefix _) (hdoc ▸ torn hne)
example (doc : List UInt8) (hdoc : doc = (OSCWriter.drop (run (oscCall (α := Family.string.Obj)) (OSCWriter.new ⟨[], []⟩) sampleHistory).2).2.writer.out)
    (hne : doc ≠ []) := C84_osc (f := .string) .keep keep_norm ⟨[], []⟩ empty_reliable rfl sampleHistory C84_nonvacuous.1
  C84_nonvacuous.2.2.2.1 doc.dropLast (hdoc ▸ List.dropLast_prefix _) (hdoc ▸ torn hne)
example (doc : List UInt8) (hdoc : doc = (XMLWriter.drop sampleOrder (run (xmlCall (α := Family.string.Obj) sampleOrder) (XMLWriter.new ⟨[], []⟩) sampleHistory).2).2.writer.out)
    (hne : doc ≠ []) := C86_xml_damaged (f := .string) .keep keep_norm sampleOrder ⟨[], []⟩ empty_reliable rfl sampleHistory C84_nonvacuous.1 C84_nonvacuous.2.1
  C84_nonvacuous.2.2.1 C84_nonvacuous.2.2.2.1 hdoc (a := doc.dropLast) (List.dropLast_prefix _) (torn hne) (tail := []) (.inl rfl) id
  (files := oneFile (doc.dropLast.map some)) (name := [97]) rfl
end

/-! ## XML -/
section
open Spec.Lex

example := C30_wellFormed_any (norm := .keep) prefixed_wellFormed prefixed_distinct
example := C33_loop_partial (norm := .keep) keep_norm sample_document sample_flat
example := C62_malformed (norm := .keep) broken_no_document
example : ∃ t, Gram.Longest Config.keep.char Config.keep.manyRoots brokenBytes t brokenTags ∧
    ∃ (rs : List (Option StringOSMObj)) (q : List (Option XmlEvent)), calls OSCReader.next 1 (OSCReader.new .keep brokenBytes) = (rs.map .ok, q) ∧
      OSCReader.next q = (.error .unwrap, []) := by
  obtain ⟨t, h⟩ := broken_longest
  obtain ⟨rs, q, h1, -, -, h4, -⟩ := C102_osc h
  rw [broken_pieces] at h1
  exact ⟨t, h, rs, q, h1, h4 broken_no_document⟩
example (after : Source) : ∃ (rs : List (Option StringOSMObj)) (q : List (Option XmlEvent)),
    calls XMLReader.next 1 (XMLReader.over .keep (brokenBytes.map some ++ none :: after)) = (rs.map .ok, q) ∧ XMLReader.next q = (.error .unwrap, []) := by
  obtain ⟨t, h⟩ := broken_longest
  obtain ⟨rs, q, h1, -, h4, -⟩ := C102_failing h after
  rw [broken_pieces] at h1
  exact ⟨rs, q, h1, h4⟩

open RewriteEx in
/-- `C79_read`, `C79_xml_partial`, `C79_osc_partial`. -/
example (σ : HashOrder) : ∃ (os : List StringOSMObj) (q : List (Option XmlEvent)), Drain XMLReader.next (XMLReader.new .keep (Utf8.encode lines)) os none q ∧
    os.length = 1 ∧ (xmlCopy (f := .string) σ ⟨[], []⟩ os).1 = .ok () ∧ (oscCopy (f := .string) ⟨[], []⟩ os).1 = .ok () ∧
    ∀ o ∈ os, ∀ t ∈ textsOf (objData o), ∀ c ∈ t, XmlChar c := by
  obtain ⟨os, q, h1, h2, h3, h4, h5, -⟩ := C79_nonvacuous σ .keep (by simp)
  exact ⟨os, q, h1, h2, (C79_xml_partial .keep id_spaces σ ⟨[], []⟩ empty_reliable rfl (.inl rfl) h1 h3 h4).1.2,
    (C79_osc_partial .keep id_spaces ⟨[], []⟩ empty_reliable rfl (.inl rfl) h1 h3 h4).1.2,
    fun o ho => (C79_read .keep id_spaces (.inl rfl) h1 o ho).1⟩
example (σ : HashOrder) := C79_unversioned_fails σ ⟨[], []⟩ empty_reliable

/-- `C78_xml`: a hint, a question and two calls. -/
example := C78_xml .keep (Utf8.encode sampleText) [.getSortedAssumption, .op (), .op ()]

/-- `C81_xml`, `C81_osc`: the example byte by byte. -/
example (k : Nat) := C81_xml (rd := portions) portions_delivers (s := AnySourceEx.drip (Utf8.encode sampleText)) (src := Pbf.source (Utf8.encode sampleText))
  (AnySourceEx.contents_drip _).symm .keep (rounds := 10000) (by decide +kernel) k
example (k : Nat) := C81_osc (rd := portions) portions_delivers (s := AnySourceEx.drip (Utf8.encode sampleText)) (src := Pbf.source (Utf8.encode sampleText))
  (AnySourceEx.contents_drip _).symm .keep (rounds := 10000) (by decide +kernel) k

/-- `C87_debug` -/
example := C87_debug .keep (oneFile ((Utf8.encode sampleText).map some)) [[], [97]] (name := [97]) rfl (src := (Utf8.encode sampleText).map some) rfl
end

/-! ## Changesets -/
section
open Changesets QuickXml CsText Spec.Cs Spec.Lex

/-- `C52_unique`, `C53_unique`. -/
example (rs : List (Except Err Changeset)) (s : Events) (h : Results nextChangeset CsEx.dump rs s) : rs.length = 2 := by
  obtain ⟨rs', h1, h2, -⟩ := C52_changesets CsEx.dumpOk
  rw [(C52_unique h h1).1, h2.length_eq]; rfl
example (rs : List (Except Err (UInt64 × List (Str × Str)))) (s : TagReader) (h : Results nextTag (newTagReader (eventsOf (Utf8.encode text))) rs s) :
    rs = [.ok (7, [(str% "c", str% "'é")])] := by
  obtain ⟨f, h0⟩ := document
  obtain ⟨s', -, h1⟩ := C53_text h0 tagDumpText
  exact (C53_unique h h1).1

/-- `C57_later`: a text before the changeset. -/
example {x : Except Err (Option Changeset)} {r' : Events} (h : Returns nextChangeset CsEx.dump x r') :=
  C57_later (pre := [some (.other), some (.end_ (CsEx.nm (str% "osm")))]) (by
    intro y hy
    simp only [List.mem_cons, List.not_mem_nil, or_false] at hy
    rcases hy with rfl | rfl
    · exact ⟨_, rfl, by rintro _ ⟨_, h | h, _⟩ <;> cases h⟩
    · exact ⟨_, rfl, by rintro _ ⟨_, h | h, _⟩ <;> cases h⟩) h

/-- `C69_success_iff` -/
example : ∃ n, (TagsToSqlite.after (fun _ => false) (TagsToSqlite.start (eventsOf (Utf8.encode text)) none) n).phase = .done := by
  obtain ⟨f, h⟩ := document
  obtain ⟨s, -, h1⟩ := C53_text h tagDumpText
  exact (C69_success_iff _ _ fun _ => rfl).2 ⟨_, ⟨s, h1⟩, by decide⟩

example (later : Events) (rs : List (Except Err (Option Changeset))) := C81_changesets (rd := portions) portions_delivers (s := AnySourceEx.drip (Utf8.encode text))
  (src := Pbf.source (Utf8.encode text)) (AnySourceEx.contents_drip _).symm later rs
example (later : Events) (rs : List (Except Err (Option (UInt64 × List (Str × Str))))) := C81_changeset_tags (rd := portions) portions_delivers
  (s := AnySourceEx.drip (Utf8.encode text)) (src := Pbf.source (Utf8.encode text)) (AnySourceEx.contents_drip _).symm later rs

/-- `C86_changesets`, `C86_tags_any` -/
example (later : Events) := let ⟨_, h⟩ := document
  C86_changesets h dumpText [] (.inl rfl) later id (files := oneFile ((Utf8.encode text).map some)) (name := [97]) rfl rfl
example (later : Events) := C86_tags_any CsAny.file later id (files := oneFile ((Utf8.encode CsAny.text).map some)) (name := [97]) rfl rfl

example (k : Nat) := C89_changesets_settled begins cutDump [] (.inl rfl) k

/-- `C93_data`, `C96_bzip2`: any data, compressed. -/
example (x y : List UInt8) : ∃ file, Bzip2.File file (x ++ y) ∧ Xml.decoder Bzip2.one (file.map some) = (x ++ y).map some := by
  obtain ⟨a, _, h1, _⟩ := C93_every x []
  obtain ⟨b, _, h2, _⟩ := C93_every y []
  exact ⟨a ++ b, C96_bzip2 h1 h2, (C93_data C93_possible (C96_bzip2 h1 h2)).1⟩

/-- `C96_changesets`, `C96_tags_partial`: the example twice. -/
example : ∃ rs, Results nextChangeset (eventsOf (Utf8.encode text ++ Utf8.encode text)) (rs ++ rs) [] := by
  obtain ⟨f, h⟩ := document
  obtain ⟨rs, h1, -, -⟩ := C52_text h dumpText [] (.inl rfl)
  exact ⟨rs, C96_changesets (document_whole h) h1 h1⟩
example : ∃ s, Results nextTag (newTagReader (eventsOf (Utf8.encode text ++ []))) ([.ok (7, [(str% "c", str% "'é")])] ++ []) s := by
  obtain ⟨f, h⟩ := document
  obtain ⟨s, h0, h1⟩ := C53_text h tagDumpText
  obtain ⟨s', -, h2⟩ := C53_end { s with evs := eventsOf [] } rfl
  exact ⟨s', C96_tags_partial (document_whole h) h1 (.done h2)⟩

/-- `C96_program`: two dumps, one after the other. -/
example (later : Events) (dbs : TagsToSqlite.Databases) (hdb : dbs [100] = none) : ∃ file n,
    (TagsToSqlite.Main.after (fun _ => false) (TagsToSqlite.Main.start later (Changesets.tagDecoder Bzip2.one) (oneFile (List.map some file)) dbs [[112], [97], [100]]) n).succeeded = true := by
  obtain ⟨a, _, h1, _⟩ := C93_every (Utf8.encode CsText.text) []
  obtain ⟨b, _, h2, _⟩ := C93_every (Utf8.encode second) []
  obtain ⟨f, h3⟩ := CsText.document
  obtain ⟨g, h4⟩ := second_document
  obtain ⟨n, h, -⟩ := C96_program (l := [(a, CsText.text, [(7, [(str% "c", str% "'é")])]), (b, second, [(8, [])])]) (by simp) (by
      rintro x (_ | ⟨_, _ | ⟨_, ⟨⟩⟩⟩)
      · exact ⟨h1, _, f, h3, CsText.tagDumpText⟩
      · exact ⟨h2, _, g, h4, second_tags⟩) (by simp) C93_possible later
    (files := oneFile (List.map some ([a, b].flatten))) dbs (args := [[112], [97], [100]]) (name := [97]) (db := [100]) rfl rfl rfl hdb (fun _ => false) fun _ => rfl
  exact ⟨_, n, h⟩
end

/-! ## PBF -/
section
open Spec.Pbf
variable (r : Which) (b : Build)

example := C36_formula (PbfEx.accepted r b).1
example := C49_block (PbfEx.accepted r .debug).1
theorem wraps : ∃ block ds, r.objects .release block = some ds ∧ r.objects .debug block = none := by
  obtain ⟨block, h1, h2⟩ := C49_overflow_witness r
  obtain ⟨ds, h3, -⟩ := Option.map_eq_some_iff.1 h2
  exact ⟨block, ds, h3, h1⟩
example : ∃ block, ArcPbf.decodeBlock .debug block = .error .overflow := by
  obtain ⟨block, ds, h1, h2⟩ := wraps .shared
  exact ⟨block, C49_block_overflow h1 h2⟩

example := C77_complete (file_all r b)
example (σ : HashOrder) : ∃ os t, Drain (StringPbf.PBFReader.next some b) (StringPbf.PBFReader.new (source (fileBytes PbfEx.file))) os none t ∧
    (xmlCopy (f := .string) σ ⟨[], []⟩ os).1 = .ok () := by
  obtain ⟨os, t, h1, h2⟩ := PbfEx.file_drain b
  exact ⟨os, t, h1, (C77_owned_xml .keep keep_norm σ ⟨[], []⟩ empty_reliable rfl h1).1.2⟩
example (σ : HashOrder) := C77_nonvacuous b .keep keep_norm σ
example (σ : HashOrder) := C77_fails b .keep keep_norm σ
example := C94_pbf (file_all r b)
example (σ : HashOrder) := C94_nonvacuous b .keep keep_norm σ

/-- `C94_xml`, `C94_osc` -/
example (σ : HashOrder) : ∃ os t, Drain (StringPbf.PBFReader.next some b) (StringPbf.PBFReader.new (source (fileBytes PbfEx.file))) os none t ∧
    (xmlCopy (f := .string) σ ⟨[], []⟩ (edited (Edit.make (α := Family.string.Obj)) os EditEx.scripts)).1 = .ok () ∧
    (oscCopy (f := .string) ⟨[], []⟩ (edited (Edit.make (α := Family.string.Obj)) os EditEx.scripts)).1 = .ok () := by
  obtain ⟨os, t, h1, h2⟩ := PbfEx.file_drain b
  have hos : ∀ o ∈ os, Sound (objData o) := fun o ho => C94_pbf (r := .owned) ⟨os, t, h1, rfl⟩ _ (List.mem_map.2 ⟨o, ho, rfl⟩)
  exact ⟨os, t, h1, (C94_xml (f := .string) .keep keep_norm σ ⟨[], []⟩ empty_reliable rfl hos EditEx.scripts_keep).1.2,
    (C94_osc (f := .string) .keep keep_norm ⟨[], []⟩ empty_reliable rfl hos EditEx.scripts_keep).1.2⟩

/-- `C44_partial`, `C44_nodes_exact`: no node is asked for. -/
example : ∃ objs t, Drain (StringPbf.PBFReader.next some b) (StringPbf.PBFReader.new (source (fileBytes PbfEx.file))) objs none t ∧
    ∀ xs s1, FilterSome (ReaderT.ofRes (StringPbf.PBFReader.next some b)) (OSMObjT.intoNode (N := StringNode)) (StringPbf.PBFReader.new (source (fileBytes PbfEx.file))) xs s1 →
      ∃ n, (objs.take n).filterMap OSMObjT.intoNode = xs := by
  obtain ⟨os, t, h1, h2⟩ := PbfEx.file_drain b
  exact ⟨os, t, h1, fun xs s1 hx => (C44_partial h1 hx).imp fun _ h => h.1⟩

/-- `C81_owned`, `C81_shared`, `C81_positions`, `C81_same`: the example byte by byte. -/
theorem drip_short : (source (fileBytes PbfEx.file)).length < 10000 := by decide +kernel
theorem drip_file : source (fileBytes PbfEx.file) = Spec.contents (AnySourceEx.drip (fileBytes PbfEx.file)) := (AnySourceEx.contents_drip _).symm
example (k : Nat) := C81_owned (rd := portions) portions_delivers drip_file some b (true, false, true) drip_short k
example (k : Nat) := C81_shared (rd := portions) portions_delivers drip_file some b drip_short k
example (k : Nat) := C81_positions (rd := portions) portions_delivers drip_file some b drip_short k
example (k : Nat) := C81_same (rd1 := portions) (rd2 := portions) portions_delivers portions_delivers drip_file drip_file some b drip_short drip_short k

/-- `C90_frames_partial`, `C90_reserved_partial`: the example file and three bytes more. -/
theorem file_framed : ∀ f ∈ PbfEx.file, ∃ h, Framed f h := forall2_left (P := fun f => ∃ h, Framed f h) (fun _ _ => frameReads_framed) (PbfEx.file_reads .owned .debug)
theorem file_sizes : ∃ sizes, List.Forall₂ (FrameSize some) PbfEx.file sizes := by
  have h := PbfEx.file_is
  simp only [PbfEx.file, PbfEx.fileBlocks, List.forall₂_cons] at h
  obtain ⟨l1, a1, b1⟩ := FrameIs.size h.1
  obtain ⟨l2, a2, b2⟩ := FrameIs.size h.2.1
  obtain ⟨l3, a3, b3⟩ := FrameIs.size h.2.2.1
  obtain ⟨l4, a4, b4⟩ := FrameIs.size h.2.2.2.1
  exact ⟨[l1, l2, l3, l4], .cons a1 (.cons a2 (.cons a3 (.cons a4 .nil)))⟩
example (k : Nat) := C90_frames_partial (zlib := some) (b := b) file_framed (tail := [0, 0, 1]) (by decide) k
example (k : Nat) (sizes : List (List Nat)) (h : List.Forall₂ (FrameSize some) PbfEx.file sizes) :=
  C90_reserved_partial (b := b) h (tail := [0, 0, 1]) (by decide) k (r := .new (source (fileBytes PbfEx.file ++ [0, 0, 1]))) rfl

example (rest : Source) (xs : List (ObjId × (Lat × Lon))) (e : Option Panic) := C96_positions (zlib := some) (b := b) file_framed rest xs e
example (ds : List ObjData) (h : FileShown r some .release (fileBytes PbfEx.file) ds) : ds = PbfEx.fileData.flatten := C99_one h (C99_file.1 (file_all r .release))

theorem file_says : ∀ f ∈ PbfEx.file, ∃ type_, HeaderSays f type_ := forall2_left (P := fun f => ∃ t, HeaderSays f t) (fun _ _ => frameShown_says) (PbfEx.file_shown .owned .release)
theorem nodes_says : HeaderSays (frameOf (str% "OSMData") (zlibBlob id PbfEx.nodes)) (str% "OSMData") :=
  headerSays_iff.2 ⟨_, frameOf_framed (by decide +kernel), rfl⟩
example := C100_partial (zlib := some) (b := b) file_says (tail := []) (by decide) (f := frameOf (str% "OSMData") (zlibBlob id PbfEx.nodes))
  (by simp [PbfEx.file]) nodes_says

/-- `C103_positions`, `C104_shared`, `C105_checked`, `C105_other` -/
theorem garbage_positions (x : Proto.Bytes) : ∃ xss, Beginning (FramePositions some .release) (fileBytes PbfEx.file ++ ([0, 0, 0, 1, 255] ++ x)) xss ([0, 0, 0, 1, 255] ++ x) ∧
    xss.flatten = [(5, ⟨210⟩, ⟨-205⟩), (3, ⟨212⟩, ⟨-205⟩), (10, ⟨112⟩, ⟨-191⟩)] := by
  have h := file_positions .release
  obtain ⟨xss, h1, h2⟩ := (C99_frames (zlib := some) (r := .owned) (tail := []) file_says (by decide)).2.1 _ |>.1 (by rw [List.append_nil]; exact h)
  refine ⟨xss, ⟨⟨_, rfl, h1⟩, fun f ds more h e => ?_⟩, h2.symm⟩
  obtain ⟨fb, _, h3, _⟩ := framePositions_iff.1 h
  obtain ⟨y, h4, _⟩ := frameBlobs_read h3 more
  rw [← e] at h4
  have : StringPbf.readBlob (source ([0, 0, 0, 1, 255] ++ x)) = (.error .unwrap, source x) := rfl
  rw [this] at h4
  cases h4
example (x : Proto.Bytes) : ∃ p, ReadsPositions some .release (source (fileBytes PbfEx.file ++ ([0, 0, 0, 1, 255] ++ x)))
    [(5, ⟨210⟩, ⟨-205⟩), (3, ⟨212⟩, ⟨-205⟩), (10, ⟨112⟩, ⟨-191⟩)] (some p) := by
  obtain ⟨xss, h1, h2⟩ := garbage_positions x
  exact ((C103_positions h1).2 _).2 ⟨h2.symm, by simp⟩
theorem spoilt_nodes : KindReads .node some .release (source (fileBytes PbfEx.spoiltFile)) PbfEx.nodesData none :=
  C105_file.2 ⟨_, [], _, by simp, by simp, PbfEx.spoilt_shown .node (by decide), by simp⟩
example (ds : List ObjData) (e : Option Panic) (h : KindReads .node some .debug (source (fileBytes PbfEx.spoiltFile)) ds e) := C105_checked h spoilt_nodes
example : KindShown .node some .release (frameOf (str% "OSMData") (zlibBlob id PbfEx.ways)) [] :=
  C105_other (headerSays_iff.2 ⟨_, frameOf_framed (by decide +kernel), rfl⟩) ((C98_blob _ _).1 (C50_blob_roundtrip _ trivial (by decide +kernel))).1
    ⟨rfl, _, rfl, rfl⟩ (C98_primitiveBlock _ _ |>.1 (C50_primitiveBlock_roundtrip _ PbfEx.ways_has (by decide +kernel))).1 PbfEx.ways_has (by decide) rfl ⟨rfl, rfl⟩
/-- `C44_nodes_exact` -/
example : ∃ objs t, Drain (StringPbf.PBFReader.next some b) (StringPbf.PBFReader.new (source (fileBytes PbfEx.file))) objs none t ∧
    ∀ xs s1, FilterSome (ReaderT.ofRes (StringPbf.PBFReader.next some b)) (OSMObjT.intoNode (N := StringNode))
        (StringPbf.PBFReader.new (source (fileBytes PbfEx.file))).nodes xs s1 → ∃ later n, objs = later ∧ ((later.filter isNode).take n).filterMap OSMObjT.intoNode = xs := by
  obtain ⟨os, t, h1, h2⟩ := PbfEx.file_drain b
  refine ⟨os, t, h1, fun xs s1 hx => ?_⟩
  obtain ⟨later, h3, n, h4, -⟩ := C44_nodes_exact rfl h1 hx
  exact ⟨later, n, h3, h4⟩
example := C104_shared (b := b) (zlib := some) file_says (tail := [1]) (by decide)
end
end Osmio
