import Verif.Props.AnySink
import Verif.Props.AnySource
import Verif.Props.Builder
import Verif.Props.Bzip2
import Verif.Props.ChangesetBuilder
import Verif.Props.ChangesetCut
import Verif.Props.ChangesetDoctype
import Verif.Props.ChangesetHeard
import Verif.Props.ChangesetStream
import Verif.Props.ChangesetText
import Verif.Props.Changesets
import Verif.Props.Convert
import Verif.Props.Coord
import Verif.Props.CoordDebug
import Verif.Props.CoordDigits
import Verif.Props.CoordError
import Verif.Props.CoordIeee
import Verif.Props.CoordText
import Verif.Props.Equality
import Verif.Props.ErrorText
import Verif.Props.Hints
import Verif.Props.Integers
import Verif.Props.IntoInner
import Verif.Props.Objects
import Verif.Props.ObjectsExact
import Verif.Props.Open
import Verif.Props.OplLine
import Verif.Props.PbfBlocks
import Verif.Props.PbfFiles
import Verif.Props.PbfHeader
import Verif.Props.PbfMemory
import Verif.Props.PbfReadable
import Verif.Props.PbfZlib
import Verif.Props.Programs
import Verif.Props.Proto
import Verif.Props.ProtoFields
import Verif.Props.ProtoSize
import Verif.Props.ReaderExact
import Verif.Props.Rewrite
import Verif.Props.Serde
import Verif.Props.TagsToSqlite
import Verif.Props.TagsToSqliteMain
import Verif.Props.Timestamp
import Verif.Props.TimestampExact
import Verif.Props.Uncompiled
import Verif.Props.Writer
import Verif.Props.WriterExact
import Verif.Props.XmlCut
import Verif.Props.XmlExact
import Verif.Props.XmlGrammar
import Verif.Props.XmlHeader
import Verif.Props.XmlNested
import Verif.Props.XmlRead
import Verif.Props.XmlStream
import Verif.Props.XmlText
import Verif.Props.XmlTorn

/-! Concrete cases that meet the hypotheses of the theorems about objects, writers and numbers, where the file of the theorem has none. -/

namespace Osmio
open Spec Xml OSMObjBase

/-! ## Objects -/
section

/-- The sample node, with its time as text. -/
def sampleNodeIso : StringNode := { sampleNode with timestamp_ := some (.iso (str% "1970-01-01T00:00:12Z")) }
/-- And as text with other digits. -/
def sampleNodeIso' : StringNode := { sampleNode with timestamp_ := some (.iso (str% "1970-01-01T00:00:12+00:00")) }

/-- `C80_contents`, `C80_mutators`, `C80_trans_partial`: equal nodes that are not the same. -/
example : contents (f := .string) (.node sampleNode : StringOSMObj) = contents (f := .string) (.node sampleNodeIso : StringOSMObj) :=
  C80_contents .string _ _ (by decide +kernel)
example : PartialEqT.eq (apply (α := StringNode) sampleNode (.setTag (str% "c") (str% "d"))) (apply sampleNodeIso (.setTag (str% "c") (str% "d"))) = true :=
  C80_mutators (.node .string) sampleNode sampleNodeIso _ (by decide +kernel)
example : PartialEqT.eq (α := StringNode) { sampleNode with uid_ := some 5 } sampleNodeIso' = true :=
  C80_trans_partial (.node .string) { sampleNode with uid_ := some 5 } sampleNode sampleNodeIso' (by decide +kernel) (by decide +kernel)
    (.inl (by constructor <;> intro s h <;> cases h))

/-- `C80_converted_rc`, `C80_converted_arc`: objects that differ in the form of the time. -/
example : PartialEqT.eq (StringOSMObj.ofRc (.way { sampleWay with timestamp_ := some (.epoch 12) }))
    (StringOSMObj.ofRc (.way { sampleWay with timestamp_ := some (.iso (str% "1970-01-01T00:00:12Z")) })) = true :=
  C80_converted_rc _ _ ⟨⟨rfl, rfl, rfl, rfl, rfl, by decide +kernel, rfl, rfl, rfl⟩, rfl⟩
example : PartialEqT.eq (StringOSMObj.ofArc (.node sampleArcNode))
    (StringOSMObj.ofArc (.node { sampleArcNode with timestamp_ := some (.iso (str% "1970-01-01T00:00:12Z")) })) = true :=
  C80_converted_arc _ _ ⟨⟨rfl, rfl, rfl, rfl, rfl, by decide +kernel, rfl, rfl, rfl⟩, rfl⟩

/-- `C05_set_lat_lon_atomic`: all three cases occur. -/
example := ((C05_set_lat_lon_atomic .string sampleNode Lat.tryFromF64 Lon.tryFromF64 (.fin false 1) (.fin true 2)).1 ⟨10000000⟩ ⟨-20000000⟩
  (by decide +kernel) (by decide +kernel))
example := ((C05_set_lat_lon_atomic .string sampleNode Lat.tryFromF64 Lon.tryFromF64 (.fin false 600) (.fin true 2)).2.1 (.tooLarge (.fin false 6000000000))
  (by decide +kernel))
example := ((C05_set_lat_lon_atomic .string sampleNode Lat.tryFromF64 Lon.tryFromF64 (.fin false 1) (.fin true 600)).2.2.1 ⟨10000000⟩
  (.tooSmall (.fin true 6000000000)) (by decide +kernel) (by decide +kernel))

/-- `C11_from_untagged`, `C12_unset_tag_partial`, `C20_json_partial`, `C20_json_untagged`. -/
example := C11_from_untagged (.node .string) { sampleNode with tags_ := [] } [.setTag (str% "b") (str% "1"), .setTag (str% "a") (str% "2"), .unsetTag (str% "b")] rfl (str% "a")
example := C12_unset_tag_partial (.node .string) sampleNode (str% "a") (by decide)
example := C20_json_partial (.node .string) { sampleNode with tags_ := [(str% "b\"", str% "\\n"), (str% "a", str% "é")] } (by decide)
example := C20_json_untagged (.node .arc) { sampleArcNode with tags_ := none } rfl

/-- `C16_mutable_references`: a node is exchanged. -/
example : ∃ n put, OSMObjT.asNodeMut (.node sampleNode : StringOSMObj) = some (n, put) ∧ OSMObjT.intoNode (put sampleNodeIso) = some sampleNodeIso :=
  ⟨_, _, rfl, (C16_mutable_references .string (.node sampleNode)).1 _ _ rfl sampleNodeIso⟩

/-- `C88_num_tags`. -/
example := C88_num_tags (c := { id := 1, created := .epoch 0, isOpen := true, commentsCount := 0, closed := none, user := none, uid := none, tags := [(str% "a", str% "1"), (str% "b", str% "2")], numChanges := 0 })
  (by unfold Keyed; decide) (ks := [str% "b", str% "a"]) (by decide) (by
    intro k
    simp only [Changesets.Changeset.hasTag, Changesets.Changeset.tag, Changesets.TagMap.get, Option.isSome_map, List.find?_isSome, List.mem_cons, List.not_mem_nil, or_false,
      exists_eq_or_imp, exists_eq_left, beq_iff_eq]
    rw [or_comm, eq_comm, @eq_comm _ k])

/-- `C82_document_osc`: a sink that takes a byte at a time. -/
example : (narrow 1).taken (OSCWriterOver.drop (writeOver (narrow 1) Pieces.single)
      (run (oscCallOver (narrow 1) Pieces.single) (OSCWriterOver.new []) sampleHistory).2).2.writer =
    (narrow 1).taken [] ++ Utf8.encode (oscDocument (written sampleHistory)) :=
  C82_document_osc (narrow_steady (by decide)) Pieces.single [] sampleHistory C23_nonvacuous.1

/-- `C75_writers_partial`. -/
example (σ : HashOrder) := C75_writers_partial (f := .string) σ ⟨[], []⟩ (fun _ h => by cases h) sampleHistory C23_nonvacuous.1

/-- `C26_no_panic_iff`, `C26_closed`. -/
example (σ : HashOrder) := (C26_no_panic_iff (f := .string) σ sampleObj).1 (XMLWriter.new ⟨[], []⟩) (fun _ h => by cases h) rfl
example := (C26_closed (f := .string) sampleOrder sampleObj).1 (run (xmlCall sampleOrder) (XMLWriter.new ⟨[], []⟩) (sampleHistory ++ [.close])).2 (by decide +kernel)

end

/-! ## Numbers -/
section

/-- `C71_unambiguous`, `C71_xml`. -/
example (z : Int) (h : IsInteger (str% "-12") z) : z = -12 :=
  C71_unambiguous h ((C71_i64 _ (-12)).1 (by decide +kernel))
example : ∃ d, readElem (.way, [⟨⟨none, str% "id"⟩, str% "-12"⟩, ⟨⟨none, str% "version"⟩, str% "3"⟩], .nil) = some d ∧ IsInteger (str% "-12") d.view.id.toInt := by
  obtain ⟨d, hd⟩ := Option.isSome_iff_exists.1 (show (readElem (.way, [⟨⟨none, str% "id"⟩, str% "-12"⟩, ⟨⟨none, str% "version"⟩, str% "3"⟩], .nil)).isSome = true by
    decide +kernel)
  obtain ⟨⟨s, h1, h2⟩, -⟩ := C71_xml _ d hd
  cases h1
  exact ⟨d, hd, h2⟩

/-- `C01_degrees_accuracy`. -/
example := C01_degrees_accuracy (Int32.ofInt (-512345678)) (by decide)

/-- `C66_f32_special`: an infinity, and something that is no number. -/
example := C66_f32_special ⟨0xFF800000⟩ (by decide +kernel)
example := C66_f32_special ⟨0x7FC00000⟩ (by decide +kernel)

/-- `C76_number_partial`, `C76_number_fails`, `C76_digits`: 600 degrees south. -/
theorem six_hundred : (F64.fin true 600).Valid := by
  refine ⟨by norm_num, by decide +kernel, ?_⟩
  exact lt_of_lt_of_le (by norm_num : (600 : ℚ) < 2 ^ (10 : ℤ)) (zpow_le_zpow_right₀ (by norm_num) (by norm_num))
example := C76_number_partial six_hundred (v := -600) (by decide +kernel) (e := .tooSmall (.fin true 6000000000)) (by decide +kernel)
example := C76_number_fails six_hundred (v := -600) (by decide +kernel) (e := .tooSmall (.fin true 6000000000)) (by decide +kernel)
example := C76_digits six_hundred (v := -600) (by decide +kernel) (e := .tooSmall (.fin true 6000000000)) (by decide +kernel)
/-- `C76_message`: its three cases. -/
example := C76_message (s := []) (e := .parseFloat .empty) (by decide +kernel)
example := C76_message (s := str% "1°") (e := .parseFloat .invalid) (by decide +kernel)
example := C76_message (s := str% "-600") (e := .tooSmall (.fin true 6000000000)) (by decide +kernel)

end
end Osmio
