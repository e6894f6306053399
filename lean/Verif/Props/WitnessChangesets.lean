import Verif.Props.AnySink
import Verif.Props.AnySource
import Verif.Props.Builder
import Verif.Props.Bzip2
import Verif.Props.ChangesetBuilder
import Verif.Props.ChangesetCut
import Verif.Props.ChangesetDoctype
import Verif.Props.ChangesetHeard
import Verif.Props.ChangesetStream
import Verif.Props.ChangesetText
import Verif.Props.Changesets
import Verif.Props.Convert
import Verif.Props.Coord
import Verif.Props.CoordDebug
import Verif.Props.CoordDigits
import Verif.Props.CoordError
import Verif.Props.CoordIeee
import Verif.Props.CoordText
import Verif.Props.Equality
import Verif.Props.ErrorText
import Verif.Props.Hints
import Verif.Props.Integers
import Verif.Props.IntoInner
import Verif.Props.Objects
import Verif.Props.ObjectsExact
import Verif.Props.Open
import Verif.Props.OplLine
import Verif.Props.PbfBlocks
import Verif.Props.PbfFiles
import Verif.Props.PbfHeader
import Verif.Props.PbfMemory
import Verif.Props.PbfReadable
import Verif.Props.PbfZlib
import Verif.Props.Programs
import Verif.Props.Proto
import Verif.Props.ProtoFields
import Verif.Props.ProtoSize
import Verif.Props.ReaderExact
import Verif.Props.Rewrite
import Verif.Props.Serde
import Verif.Props.TagsToSqlite
import Verif.Props.TagsToSqliteMain
import Verif.Props.Timestamp
import Verif.Props.TimestampExact
import Verif.Props.Uncompiled
import Verif.Props.Writer
import Verif.Props.WriterExact
import Verif.Props.XmlCut
import Verif.Props.XmlExact
import Verif.Props.XmlGrammar
import Verif.Props.XmlHeader
import Verif.Props.XmlNested
import Verif.Props.XmlRead
import Verif.Props.XmlStream
import Verif.Props.XmlText
import Verif.Props.XmlTorn

/-! Concrete cases that meet the hypotheses of the theorems about changesets, where the file of the theorem has none. -/

namespace Osmio
open Spec Xml OSMObjBase

/-! ## Changesets -/
section
open Changesets QuickXml CsText Spec.Cs Spec.Lex

/-- A whole dump, all of whose changesets are right. -/
def goodText : Str := cut ++ str% "</osm>"
def goodToks : List Tok := cutToks ++ [.stop (str% "osm")]

theorem good_document : ∃ f, Document goodText goodToks f := by
  have hk : ∃ k, Spec.Lex.Tree (.start (str% "changeset") attrs7 :: (cutTag ++ [.stop (str% "changeset")])) k :=
    ⟨_, .elem (ks := cutTag) (.empty .nil) .nil⟩
  obtain ⟨k, hk⟩ := hk
  refine ⟨_, .declared (decl := str% "<?xml version=\"1.0\"?>") (t := goodText.drop 21) (ts := goodToks.tail) (by decide)
    (.mk (before := []) (root := goodToks.tail) (after := []) (n := str% "osm") (as := [])
    (ks := .start (str% "changeset") attrs7 :: (cutTag ++ [.stop (str% "changeset")])) ?_ (by simp) (by simp) (.inr rfl) hk (.elem hk .nil))⟩
  exact (.start (n := str% "osm") (a := []) (w := []) (isName_of (by decide +kernel)) .nil (by decide) (by decide)
      (.start (n := str% "changeset") (a := text7) (w := []) (isName_of (by decide +kernel)) attrs7Ok (by decide) (by decide)
        (.empty (n := str% "tag") (a := textA) (w := []) (isName_of (by decide +kernel)) attrsAOk (by decide) (by decide)
          (.stop (n := str% "changeset") (w := []) (isName_of (by decide +kernel)) (by decide)
            (.stop (n := str% "osm") (w := []) (isName_of (by decide +kernel)) (by decide) .nil)))))

theorem good_dump : DumpText goodToks [(true, some data7)] :=
  .other aside_text.2 (.other (aside_start (by decide) (by decide)) (.full (body := cutTag) tells7 cutTagged
    (.other (aside_stop (by decide)) .nil)))

theorem good_tagDump : TagDumpText goodToks [(7, [(str% "c", str% "'é")])] :=
  .other aside_text.2 (.other (aside_start (by decide) (by decide)) (.full (body := cutTag) (s := str% "7")
    ⟨⟨_, str% "7", _⟩, by simp [attrs7], rfl, rfl⟩ (by decide +kernel) cutTagged (.other (aside_stop (by decide)) .nil)))

/-- `C54_text`: both readers read it to the end, and give the same tags. -/
example : ∃ (c : Changeset) (tags : List (Str × Str)) (e : Events) (s : TagReader),
    Results nextChangeset (eventsOf (Utf8.encode goodText)) [.ok c] e ∧
    Results nextTag (newTagReader (eventsOf (Utf8.encode goodText))) [.ok (c.id.toUInt64, tags)] s ∧ ∀ k, c.tag k = Spec.Cs.lastValue tags k := by
  obtain ⟨f, h⟩ := good_document
  obtain ⟨rs, h1, h2, _⟩ := C52_text h good_dump [] (.inl rfl)
  obtain ⟨s, -, h3⟩ := C53_text h good_tagDump
  cases h2 with
  | @cons r _ _ _ h4 h5 =>
    cases h5
    obtain ⟨h6, -⟩ := C54_text h good_dump (by simp) h1 h3
    cases h6 with
    | cons h7 _ =>
      obtain ⟨c, tags, rfl, h8, h9⟩ := h7
      refine ⟨c, tags, _, s, h1, ?_, h9⟩
      rw [← h8]; exact h3

/-- `C85_delivered_tags`: the source fails after the first changeset. -/
example (x : List UInt8) := (C85_delivered_tags begins cutTagDump [] (.inl rfl)).2 x

/-- `C52_doctype`, `C53_doctype`: the example with a document type. -/
example := C52_doctype typed (.other aside_text.2 (.other aside_text.2 dumpText))
example := C53_doctype typed (.other aside_text.2 (.other aside_text.2 tagDumpText))

/-- `C81_changesets_same`, `C81_changesets_unique`: the example byte by byte, and in one portion. -/
example (later : Events) := C81_changesets_same portions_delivers portions_delivers (s1 := AnySourceEx.drip (Utf8.encode text))
  (s2 := [.bytes 60 (Utf8.encode text).tail]) (src := Pbf.source (Utf8.encode text)) (AnySourceEx.contents_drip _).symm (by decide +kernel) later
example (later : Events) : ∃ rs r', rs.length = 1 ∧
    Answers (ReaderOver.nextChangeset portions) (ReaderOver.new later (AnySourceEx.drip (Utf8.encode cut))) rs r' ∧
    ∀ rs' r'', rs'.length = 1 → Answers (ReaderOver.nextChangeset portions) (ReaderOver.new later (AnySourceEx.drip (Utf8.encode cut))) rs' r'' → rs' = rs := by
  have hr : (Utf8.encode cut).map some ++ [] = Spec.contents (AnySourceEx.drip (Utf8.encode cut)) := by
    rw [AnySourceEx.contents_drip, List.append_nil]; rfl
  obtain ⟨⟨rs, r', h1, h2⟩, -⟩ := C89_changesets (rd := portions) (R := fun s src => src = Spec.contents s) portions_delivers cutJust hr later
  exact ⟨rs, r', h1, h2, fun rs' r'' h3 h4 => C81_changesets_unique portions_delivers hr later h4 h2 (h3.trans h1.symm)⟩

/-- `C89_changeset_tags_settled`, `C89_changesets_just`, `C89_changeset_tags`: one changeset of tags is settled, by some part of the text. -/
example (after : List UInt8) (later : Events) : ∃ a, a <+: Utf8.encode cut ∧ Just (SettlesTags 1) a ∧
    ∃ rs r', rs.length = 1 ∧ Answers (nextTagFrom portions) (newTagReaderOver later (AnySourceEx.drip (a ++ after))) rs r' ∧
      ∃ (ahead : List UInt8) (rest : Source), ahead.length < 8192 ∧ after.map some = ahead.map some ++ rest ∧ rest = Spec.contents r'.reader.src.inner := by
  have h0 : SettlesTags 1 (Utf8.encode cut) := (C89_changeset_tags_settled begins cutTagDump [] (.inl rfl) 1).2 (by simp)
  obtain ⟨⟨a, h1, h2⟩, -⟩ := C89_changesets_just h0
  have hr : a.map some ++ after.map some = Spec.contents (AnySourceEx.drip (a ++ after)) := by
    rw [AnySourceEx.contents_drip, ← List.map_append]; rfl
  obtain ⟨⟨rs, r', h3, h4⟩, h5⟩ := C89_changeset_tags (rd := portions) (R := fun s src => src = Spec.contents s) portions_delivers h2 hr later
  exact ⟨a, h1, h2, rs, r', h3, h4, h5 rs r' h3 h4⟩

/-- `C53_end`: the end of the example is reached, and the reader stays there. -/
example : ∃ s rs, Results nextTag (newTagReader (eventsOf (Utf8.encode text))) rs s ∧ ∃ s', Returns nextTag s (.ok none) s' := by
  obtain ⟨f, h⟩ := document
  obtain ⟨s, h1, h2⟩ := C53_text h tagDumpText
  obtain ⟨s', -, h3⟩ := C53_end s h1
  exact ⟨s, _, h2, s', h3⟩

/-- `C56_changesets`: a changeset is returned. -/
example : ∃ c r, Returns nextChangeset (eventsOf (Utf8.encode goodText)) (.ok (some c)) r ∧
    ∃ n attrs d pre x, Named n (str% "changeset") ∧ Describes attrs d ∧ Shows c d ∧
      (eventsOf (Utf8.encode goodText) = pre ++ some (.empty n attrs) :: x ∨ eventsOf (Utf8.encode goodText) = pre ++ some (.start n attrs) :: x) := by
  obtain ⟨f, h⟩ := good_document
  obtain ⟨rs, h1, h2, _⟩ := C52_text h good_dump [] (.inl rfl)
  rw [List.nil_append] at h1
  generalize eventsOf (Utf8.encode goodText) = evs at h1 ⊢
  cases h2 with
  | @cons r _ _ _ h4 h5 =>
    cases h5
    cases h1 with
    | ok h6 h7 =>
      obtain ⟨pre, n, attrs, d, -, h8, h9, h10, h11⟩ := C56_changesets h6
      refine ⟨_, _, h6, n, attrs, d, pre, ?_⟩
      rcases h11 with ⟨h, -⟩ | ⟨body, n', h, -⟩
      · exact ⟨_, h8, h9, h10, .inl h⟩
      · exact ⟨_, h8, h9, h10, .inr h⟩
    | err _ _ => exact absurd h4 id

end
end Osmio
