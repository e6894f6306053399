import Verif.Props.AnySink
import Verif.Props.AnySource
import Verif.Props.Builder
import Verif.Props.Bzip2
import Verif.Props.ChangesetBuilder
import Verif.Props.ChangesetCut
import Verif.Props.ChangesetDoctype
import Verif.Props.ChangesetHeard
import Verif.Props.ChangesetStream
import Verif.Props.ChangesetText
import Verif.Props.Changesets
import Verif.Props.Convert
import Verif.Props.Coord
import Verif.Props.CoordDebug
import Verif.Props.CoordDigits
import Verif.Props.CoordError
import Verif.Props.CoordIeee
import Verif.Props.CoordText
import Verif.Props.Equality
import Verif.Props.ErrorText
import Verif.Props.Hints
import Verif.Props.Integers
import Verif.Props.IntoInner
import Verif.Props.Objects
import Verif.Props.ObjectsExact
import Verif.Props.Open
import Verif.Props.OplLine
import Verif.Props.PbfBlocks
import Verif.Props.PbfFiles
import Verif.Props.PbfHeader
import Verif.Props.PbfMemory
import Verif.Props.PbfReadable
import Verif.Props.PbfZlib
import Verif.Props.Programs
import Verif.Props.Proto
import Verif.Props.ProtoFields
import Verif.Props.ProtoSize
import Verif.Props.ReaderExact
import Verif.Props.Rewrite
import Verif.Props.Serde
import Verif.Props.TagsToSqlite
import Verif.Props.TagsToSqliteMain
import Verif.Props.Timestamp
import Verif.Props.TimestampExact
import Verif.Props.Uncompiled
import Verif.Props.Writer
import Verif.Props.WriterExact
import Verif.Props.XmlCut
import Verif.Props.XmlExact
import Verif.Props.XmlGrammar
import Verif.Props.XmlHeader
import Verif.Props.XmlNested
import Verif.Props.XmlRead
import Verif.Props.XmlStream
import Verif.Props.XmlText
import Verif.Props.XmlTorn

/-! Concrete cases that meet the hypotheses of the theorems about PBF files, where the file of the theorem has none. -/

namespace Osmio
open Spec Xml OSMObjBase

/-! ## PBF -/
section
open Spec.Pbf

variable (r : Which) (b : Build)

/-- The theorems on blocks: the example blocks, of nodes and of ways. -/
example := C35_running_sums (PbfEx.accepted r b).1
example := C35_inverse (PbfEx.accepted r b).2.2
example := C36_partial (PbfEx.accepted r b).1 ⟨by decide, by decide, by decide⟩
example := C36_iff (PbfEx.accepted r b).1
example := C36_checked (PbfEx.accepted r .debug).1 ⟨by decide, by decide, by decide⟩ ⟨by decide, by decide⟩
example := C37_partial (PbfEx.accepted r b).1 (by decide)
example := C37_formula (PbfEx.accepted r b).1
example := C37_ways_iff (PbfEx.accepted r b).2.1
example := C38_partial (PbfEx.accepted r b).1 PbfEx.tableValid
example := C39_well_formed b PbfEx.nodes_wellFormed
example := C39_accepted (PbfEx.accepted r b).2.2 PbfEx.tableValid
example := C40_partial (PbfEx.accepted r b).2.2
example := C40_owned_fails (PbfEx.accepted .owned b).2.1
example := C48_owned_fails (block := PbfEx.both) b (by decide)
example := C49_checked_partial (PbfEx.accepted r .debug).1

/-- `C36_fails`: granularity 99. -/
theorem fine_accepted : r.objects b { PbfEx.nodes with granularity := some 99 } = some (PbfEx.nodesData.map fun d => { d with pos := some (⟨10⟩, ⟨-5⟩) }) := by
  cases r <;> cases b <;> decide +kernel
example := C36_fails (fine_accepted r b) (by decide) (by decide)

/-- `C37_ways_fail`: milliseconds. -/
theorem millis_accepted : r.objects b { PbfEx.ways with dateGranularity := some 1 } = some PbfEx.waysData := by
  cases r <;> cases b <;> decide +kernel
example := C37_ways_fail (millis_accepted r b) (by decide)

/-- `C38_owned_fails`: no node has a tag; `C40_shared_fails`: a way without the flag. -/
example := C38_owned_fails (block := { PbfEx.nodes with primitivegroup := [{ dense := some { PbfEx.dense with keysVals := [] } }] }) b
  List.mem_cons_self rfl (by decide) rfl
example := C40_shared_fails (block := { PbfEx.ways with primitivegroup := [{ ways := [{ PbfEx.way with info := some { PbfEx.info with visible := none } }] }] }) b
  List.mem_cons_self rfl (.inl ⟨_, List.mem_cons_self, rfl⟩)

theorem file_all : Reads r some b (source (fileBytes PbfEx.file)) PbfEx.fileData.flatten none :=
  let ⟨h1, h2, h3⟩ := PbfEx.accepted r b
  (C41_blocks PbfEx.file_is).2 ⟨_, .cons h1 (.cons h2 (.cons h3 .nil)), rfl⟩

/-- A block the owned-string reader does not accept. -/
theorem both_is : FrameIs (ZlibStored some) (frameOf (str% "OSMData") (zlibBlob id PbfEx.both)) (some PbfEx.both) := by
  refine frameOf_block (by decide +kernel) (zlibBlob_stored (fun _ => rfl) (by decide +kernel)) (C50_primitiveBlock_roundtrip _ ?_ (by decide +kernel))
  refine ⟨by simp [PbfEx.both], fun _ _ => trivial, ?_⟩
  intro g hg
  simp only [PbfEx.both, List.mem_cons, List.not_mem_nil, or_false] at hg
  rcases hg with rfl | rfl
  · simp [hasPrimitiveGroup, hasDenseNodes, PbfEx.dense, hasDenseInfo]
  · simp [hasPrimitiveGroup, hasWay, PbfEx.way, Spec.Pbf.hasInfo]

/-- `C41_first_bad`: the example file, with that block at its end, and more. -/
example (rest : Proto.Bytes) : ∃ p, Reads .owned some b (source (fileBytes PbfEx.file ++ ((frameOf (str% "OSMData") (zlibBlob id PbfEx.both)).bytes ++ rest)))
    PbfEx.fileData.flatten (some p) :=
  C41_first_bad (PbfEx.file_reads .owned b) both_is (by cases b <;> decide +kernel) rest

/-- `C41_calls`: the seventh call says the end. -/
example : showCalls r some b (source (fileBytes PbfEx.file)) 7 = PbfEx.fileData.flatten.map (fun d => Except.ok (some d)) ++ [Except.ok none] :=
  let ⟨h1, h2, h3⟩ := PbfEx.accepted r b
  (C41_calls PbfEx.file_is (.cons h1 (.cons h2 (.cons h3 .nil))) 7).trans rfl

/-- `C42_any_bytes`, `C42_cut`: the file cut after 300 bytes. -/
example := C42_any_bytes (file_all r b) 300
example := C42_cut (PbfEx.file_reads r b) (k := 300) (by decide +kernel)

/-- `C43_nodes`, `C43_partial`, `C44_fails`, `C51_exhausted`: the readers of a kind. -/
example : ∃ (objs : List StringOSMObj) (t : StringPbf.PBFReader), objs.map objData = PbfEx.fileData.flatten ∧
    NodesDrain (ReaderT.ofRes (StringPbf.PBFReader.next some b)) (StringPbf.PBFReader.new (source (fileBytes PbfEx.file))).nodes
      (objs.filterMap OSMObjT.intoNode) t.nodes ∧
    WaysDrain (ReaderT.ofRes (StringPbf.PBFReader.next some b)) (StringPbf.PBFReader.new (source (fileBytes PbfEx.file))).ways
      (objs.filterMap OSMObjT.intoWay) t.ways ∧
    calls (StringPbf.PBFReader.next some b) 3 t = ([.ok none, .ok none, .ok none], t) := by
  obtain ⟨objs, t, h1, h2⟩ := PbfEx.file_drain b
  exact ⟨objs, t, h2, C43_nodes rfl h1, (C43_partial PbfEx.file_is PbfEx.file_oneKind h1).1, (C51_exhausted 3).1 _ t objs rfl h1⟩

example (objs : List StringOSMObj) (e : Option Panic) (t : StringPbf.PBFReader)
    (h : Drain (StringPbf.PBFReader.next some b) (StringPbf.PBFReader.new (source (fileBytes PbfEx.file))).ways objs e t) :
    ∀ o ∈ objs, (objData o).view.kind = .way := (C44_fails (StringPbf.PBFReader.new (source (fileBytes PbfEx.file))) rfl).2.1 h

/-- `C45_agree`, `C45_prefix`, `C49_file`, `C90_whole_partial`: the example file is read by both readers. -/
example := C45_agree (file_all .owned b) (file_all .shared b)
example := C45_prefix (file_all .owned b) (file_all .shared b)
example := C49_file (file_all r .debug) (file_all r .release)
example := (C90_whole_partial (b := b) 5).1 (file_all .owned b)

theorem file_positions : ReadsPositions some b (source (fileBytes PbfEx.file)) [(5, ⟨210⟩, ⟨-205⟩), (3, ⟨212⟩, ⟨-205⟩), (10, ⟨112⟩, ⟨-191⟩)] none := by
  obtain ⟨objs, t, h1, h2⟩ := PbfEx.file_drain b
  exact C46_partial (r := .owned) PbfEx.file_is PbfEx.file_oneKind ⟨objs, t, h1, h2⟩
example := C49_positions (file_positions .debug) (file_positions .release)

/-- `C47_owned_fails`: a block that is not compressed. -/
example (rest : Proto.Bytes) := C47_owned_fails (zlib := some) (b := b) (f := frameOf (str% "OSMData") (rawBlob PbfEx.nodes))
  (frameOf_block (by decide +kernel) rfl (C50_primitiveBlock_roundtrip _ PbfEx.nodes_has (by decide +kernel))) rest

/-- `C63_partial`: an error after 20 bytes of a frame. -/
example (rest : Source) : Reads r some b (source (fileBytes PbfEx.file) ++ (source ((frameOf (str% "OSMData") (zlibBlob id PbfEx.ways)).bytes.take 20) ++ none :: rest))
    PbfEx.fileData.flatten (some .unwrap) :=
  C63_partial (PbfEx.file_reads r b) (frameOf_framed (by decide +kernel)) (List.take_prefix _ _) (by decide +kernel) (by decide +kernel) rest

/-- `C91_any_header`. -/
example := C91_any_header (deflate := id) (header := { requiredFeatures := [str% "OsmSchema-V0.6", str% "Telepathy"], writingprogram := some (str% "x") })
  (by decide +kernel) (PbfEx.file_reads r b)

/-- `C90_bound`, `C90_reserved_fails`. -/
example := (C90_bound (zlib := some) (b := b) (fileBytes PbfEx.file) 3).1 (.new (source (fileBytes PbfEx.file))) rfl
example := C90_reserved_fails (zlib := some) (b := b) (z := [1, 2, 3]) (size := 2147483647) (by decide) ⟨by decide +kernel, by decide +kernel⟩ []

/-- `C75_owned`, `C75_shared`, `C75_unique`: after two objects of the file, which is followed by a byte. -/
example := C75_owned (PbfEx.file_reads .owned b) [some 1] (n := 2) (by decide +kernel)
example := C75_unique (C75_owned (PbfEx.file_reads .owned .debug) [some 1] (n := 2) (by decide +kernel))
  (C75_shared (PbfEx.file_reads .shared .release) [some 1] (n := 2) (by decide +kernel))

/-- `C86_pbf`. -/
example : ∃ r os t, ArcPbf.PBFReader.fromFilename (oneFile (source (fileBytes PbfEx.file))) [97] = some r ∧
    Drain (ArcPbf.PBFReader.next some b) r os none t ∧ os.map objData = PbfEx.fileData.flatten := by
  obtain ⟨l, h1, _, h3, h4⟩ := PbfEx.file_written
  have := (C86_pbf (zlib := some) (deflate := id) (fun _ => rfl) b l h4 (files := oneFile (source (fileBytes PbfEx.file))) (name := [97]) (by rw [← h1]; rfl)).1
  rwa [← h3] at this

/-- `C92_one`: `x` compressed; `C92_blocks`: the compressed example file. -/
example (y rest : List UInt8) (h : Spec.Zlib.Stream (PbfEx.nodesFixed ++ rest) y) := C92_one PbfEx.nodesFixed_stream h
theorem fileZ_is : List.Forall₂ (FrameIs Deflated) PbfEx.fileZ PbfEx.fileBlocks :=
  have hb : ∀ {block : Proto.PrimitiveBlock} {p : Proto.Bytes}, hasPrimitiveBlock block → (encodePrimitiveBlock block).length ≤ 2147483647 →
      Spec.Zlib.Stream p (encodePrimitiveBlock block) → (frameOf (str% "OSMData") (zlibBlob (fun _ => p) block)).Fits →
      FrameIs Deflated (frameOf (str% "OSMData") (zlibBlob (fun _ => p) block)) (some block) := fun h1 hl h hf =>
    frameOf_block hf ⟨_, _, rfl, rfl, h, rfl, by rw [Int32.toInt_ofNat_of_lt (by omega)]⟩ (C50_primitiveBlock_roundtrip _ h1 hl)
  .cons (frameOf_other (by decide) (by decide +kernel))
    (.cons (hb PbfEx.nodes_has (by decide +kernel) PbfEx.nodesStored_stream (by decide +kernel))
      (.cons (hb PbfEx.ways_has (by decide +kernel) PbfEx.waysDynamic_stream (by decide +kernel))
        (.cons (hb PbfEx.relations_has (by decide +kernel) PbfEx.relationsFixed_stream (by decide +kernel)) .nil)))
example := (C92_blocks C92_decompressor.1 b fileZ_is).1 r PbfEx.fileData.flatten

end
end Osmio
