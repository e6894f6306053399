import Verif.Props.AnySink
import Verif.Props.AnySource
import Verif.Props.Builder
import Verif.Props.Bzip2
import Verif.Props.ChangesetBuilder
import Verif.Props.ChangesetCut
import Verif.Props.ChangesetDoctype
import Verif.Props.ChangesetHeard
import Verif.Props.ChangesetStream
import Verif.Props.ChangesetText
import Verif.Props.Changesets
import Verif.Props.Convert
import Verif.Props.Coord
import Verif.Props.CoordDebug
import Verif.Props.CoordDigits
import Verif.Props.CoordError
import Verif.Props.CoordIeee
import Verif.Props.CoordText
import Verif.Props.Equality
import Verif.Props.ErrorText
import Verif.Props.Hints
import Verif.Props.Integers
import Verif.Props.IntoInner
import Verif.Props.Objects
import Verif.Props.ObjectsExact
import Verif.Props.Open
import Verif.Props.OplLine
import Verif.Props.PbfBlocks
import Verif.Props.PbfFiles
import Verif.Props.PbfHeader
import Verif.Props.PbfMemory
import Verif.Props.PbfReadable
import Verif.Props.PbfZlib
import Verif.Props.Programs
import Verif.Props.Proto
import Verif.Props.ProtoFields
import Verif.Props.ProtoSize
import Verif.Props.ReaderExact
import Verif.Props.Rewrite
import Verif.Props.Serde
import Verif.Props.TagsToSqlite
import Verif.Props.TagsToSqliteMain
import Verif.Props.Timestamp
import Verif.Props.TimestampExact
import Verif.Props.Uncompiled
import Verif.Props.Writer
import Verif.Props.WriterExact
import Verif.Props.XmlCut
import Verif.Props.XmlExact
import Verif.Props.XmlGrammar
import Verif.Props.XmlHeader
import Verif.Props.XmlNested
import Verif.Props.XmlRead
import Verif.Props.XmlStream
import Verif.Props.XmlText
import Verif.Props.XmlTorn

/-! Concrete cases that meet the hypotheses of the theorems about timestamps and the modules that are not compiled, where the file of the theorem has none. -/

namespace Osmio
open Spec Xml OSMObjBase

/-! ## Timestamps -/

example : TimestampFormat.fromStr (TimestampFormat.toIsoString (.epoch 1456790399)) = some (.epoch 1456790399) :=
  C06_parse_roundtrip_partial 1456790399 (by decide) (by decide)

/-- `C07_iso_injective` -/
example : ∃ dt, IsIsoText (str% "2016-02-29T23:59:59Z") dt ∧ ∀ dt', IsIsoText (str% "2016-02-29T23:59:59Z") dt' → epochSeconds dt' = epochSeconds dt := by
  obtain ⟨dt, h, -⟩ := C07_iso_names_instant 1456790399 (by decide) (by decide)
  have e : TimestampFormat.toIsoString (.epoch 1456790399) = str% "2016-02-29T23:59:59Z" := by decide +kernel
  rw [e] at h
  exact ⟨dt, h, fun dt' h' => C07_iso_injective _ _ _ h' h⟩

/-- `C08_eq_trans_partial`: the text and the number of an instant. -/
example : (TimestampFormat.epoch 1456790399).eq (.epoch 1456790399) = true := by
  obtain ⟨dt, h1, h2, _⟩ := C07_iso_names_instant 1456790399 (by decide) (by decide)
  have h2 : epochSeconds dt = 1456790399 := by rw [h2]; decide
  have hd : Denotes (.iso (TimestampFormat.toIsoString (.epoch 1456790399))) 1456790399 := by
    rw [← h2]; exact .iso h1 (by rw [h2]; decide) (by rw [h2]; decide)
  exact C08_eq_trans_partial (.epoch 1456790399) hd (.epoch 1456790399) (by decide +kernel) (by decide +kernel)

example : TimestampFormat.partialCmp (.iso (str% "2015")) (.iso (str% "2017")) = some .lt :=
  C09_same_repr_trans _ (str% "2016") _ (by decide +kernel) (by decide +kernel)

/-- `C10_same_instant`: an instant in three time zones. -/
example : IsRfc3339 (str% "2020-01-01T00:30:00+01:00") 1577835000 ∧ IsRfc3339 (str% "2019-12-31T18:00:00-05:30") 1577835000 :=
  ⟨(parseRfc3339_iff _ _).1 (by decide +kernel), (parseRfc3339_iff _ _).1 (by decide +kernel)⟩

example := C10_same_instant (str% "2020-01-01T00:30:00+01:00") (str% "2019-12-31T18:00:00-05:30") 1577835000
  ((parseRfc3339_iff _ _).1 (by decide +kernel)) ((parseRfc3339_iff _ _).1 (by decide +kernel))

/-- `C08_eq_trans_iff`: two texts of an instant and its number. -/
example : (TimestampFormat.iso (str% "2020-01-01T00:30:00+01:00")).eq (.iso (str% "2019-12-31T18:00:00-05:30")) = false :=
  (C08_eq_trans_iff _ (.epoch 1577835000) _ (by decide +kernel) (by decide +kernel)).2 ⟨_, _, _, rfl, rfl, rfl, by decide⟩

/-- `C09_mixed_iff` -/
example (t : Int64) : TimestampFormat.partialCmp (.iso (str% "2020-01-01T00:30:00+01:00")) (.epoch t) = some (compare 1577835000 t.toInt) :=
  (C09_mixed_iff ((parseRfc3339_iff _ _).1 (by decide +kernel))).2 (by norm_num) t

/-! ## Modules that are not compiled -/

/-- `C58_tags_iff`, both ways. -/
example : Opl.decodeTags (Opl.encodeTags [(str% "a", str% "5%"), (str% "b", [])]) ≠ .ok (some [(str% "a", str% "5%"), (str% "b", [])]) := by
  rw [Ne, C58_tags_iff (by decide)]; decide
example : Opl.decodeTags (Opl.encodeTags [(str% "a", str% "5 , 6"), (str% "b", [])]) = .ok (some [(str% "a", str% "5 , 6"), (str% "b", [])]) :=
  (C58_tags_iff (by decide)).2 (by decide)

/-- `C58_members_iff`, both ways. -/
example : Opl.decodeMembers (Opl.encodeMembers [('n', 1, str% "a"), ('r', 2, str% "b,c")]) ≠ .ok (some [('n', 1, str% "a"), ('r', 2, str% "b,c")]) := by
  rw [Ne, C58_members_iff (by decide)]; decide
example : Opl.decodeMembers (Opl.encodeMembers [('n', 1, str% "a"), ('r', 2, str% "b@c")]) = .ok (some [('n', 1, str% "a"), ('r', 2, str% "b@c")]) :=
  (C58_members_iff (by decide)).2 (by decide)

example (t : Char) (h : t = 'n') := C58_members_fails t (by subst h; decide) 17

example (b : Build) := C59_fails_above b (ops := [(3, ⟨1⟩, ⟨2⟩), (5, ⟨1⟩, ⟨2⟩)]) (by decide) (id := 6) (by decide) (by decide)
example (b : Build) := C59_fails_sentinel b (id := 6) (by decide) ⟨1⟩ ⟨2147483647⟩ (.inr rfl)

/-- `C60_partial`: an open chain that goes on after a return to its first node. -/
example (b : Build) : (NodeChain.encode b [10, 12, 10, 500]).bind (NodeChain.decode b) = .ok [10, 12, 10, 500] := by
  refine C60_partial b (by decide) ?_
  rintro before x y ⟨after, e⟩
  match before, e with
  | [], e => obtain ⟨rfl, rfl, -⟩ : 10 = x ∧ 12 = y ∧ _ := by simpa using e
             exact .inr ⟨by decide, fun _ => .inl (by simp)⟩
  | [_], e => obtain ⟨-, rfl, rfl, -⟩ : _ ∧ 12 = x ∧ 10 = y ∧ _ := by simpa using e
              exact .inl rfl
  | [_, _], e => obtain ⟨-, -, rfl, rfl, -⟩ : _ ∧ _ ∧ 10 = x ∧ 500 = y ∧ _ := by simpa using e
                 exact .inr ⟨by decide, fun _ => .inr (.inr (by decide))⟩
  | [_, _, _], e => simp at e
  | _ :: _ :: _ :: _ :: l, e => have := congrArg List.length e; simp at this

example (b : Build) := C60_fails_minus_one b (n := 5) (by decide) (by decide)
example (b : Build) := C60_fails_return b (f := 200) (m := 1000) (by decide) (by decide)

/-! ## Lines of OPL -/
section
open Spec.Opl Opl

theorem plain_chars (s : Str) (h : ∀ c ∈ s, (decide (c ∉ [' ', '\n', ',', '=', '@', '%']) && !decide (White c)) = true) : ∀ c ∈ s, Plain c := by
  intro c hc
  have := h c hc
  simp only [Bool.and_eq_true, decide_eq_true_eq, Bool.not_eq_true', decide_eq_false_iff_not] at this
  exact this

def bob : Common := ⟨17, 2, false, 5, str% "2020-01-01T00:00:00Z", 3, str% "bob", [(str% "name", str% "ab")]⟩

theorem bob_text (kind : Char) : CommonText Literal kind bob (kind :: str% "17 v2 dV c5 t2020-01-01T00:00:00Z i3 ubob Tname=ab") := by
  refine ⟨str% "bob", str% "name=ab", ⟨rfl, plain_chars _ (by decide)⟩, Or.inr (.one _ _ ?_), by simp [bob], plain_chars _ (by decide), ?_⟩
  · exact ⟨str% "name", str% "ab", literal_text ⟨rfl, plain_chars _ (by decide)⟩, literal_text ⟨rfl, plain_chars _ (by decide)⟩, rfl⟩
  · simp only [List.cons_append]
    exact congrArg (kind :: ·) (by decide +kernel)

theorem bob_text' (kind : Char) : CommonText StringText kind bob (kind :: str% "17 v2 dV c5 t2020-01-01T00:00:00Z i3 ubob Tname=ab") := by
  obtain ⟨u, t, h1, h2⟩ := bob_text kind
  exact ⟨u, t, literal_text h1, h2⟩

theorem bob_way : LineText Literal (.way bob [1, -5]) (str% "w17 v2 dV c5 t2020-01-01T00:00:00Z i3 ubob Tname=ab Nn1,n-5") :=
  .way bob [1, -5] (str% "w17 v2 dV c5 t2020-01-01T00:00:00Z i3 ubob Tname=ab") (str% "n1,n-5") (bob_text 'w')
    (.inr (.more 1 (str% "n1") _ (str% "n-5") (by decide +kernel) (.one _ _ (by decide +kernel))))

theorem bob_node : LineText Literal (.node bob none none) (str% "n17 v2 dV c5 t2020-01-01T00:00:00Z i3 ubob Tname=ab x y") :=
  .node bob none none (str% "n17 v2 dV c5 t2020-01-01T00:00:00Z i3 ubob Tname=ab") [] [] (bob_text 'n') rfl rfl

example (rest : Source) := C68_white_space_partial _ _ [' ', Char.ofNat 9] [Char.ofNat 13] bob_way (by simp [HasContents]) (by decide) (by decide) rest

/-- `C68_file_partial`: a file of a node and a way. -/
example := C68_file_partial [.node bob none none, .way bob [1, -5]] _ (.cons ⟨bob_node, trivial⟩ (.cons ⟨bob_way, by simp [HasContents]⟩ .nil))

/-- `C68_user_fails`: a user name with a space. -/
example : ∃ o, decodeLine (str% "n17 v2 dV c5 t i3 ua%20%b T x y") = .ok (some o) ∧ o ≠ .node ⟨17, 2, false, 5, [], 3, str% "a b", []⟩ none none := by
  have h : CommonText StringText 'n' ⟨17, 2, false, 5, [], 3, str% "a b", []⟩ (str% "n17 v2 dV c5 t i3 ua%20%b T") := by
    refine ⟨str% "a%20%b", [], ?_, .inl ⟨rfl, rfl⟩, by simp, by simp, by decide +kernel⟩
    refine .plain 'a' _ _ (plain_chars ['a'] (by decide) _ (by simp)) ?_
    refine .escaped ' ' ['2', '0'] _ _ (.more ['2'] 2 '0' 0 (.one _ _ (by decide)) (by decide)) ?_
    exact .plain 'b' _ _ (plain_chars ['b'] (by decide) _ (by simp)) .nil
  exact C68_user_fails _ none none _ (.node _ none none _ [] [] h rfl rfl) ⟨' ', by decide, by decide⟩

/-- `C68_stream_fails`: a way without nodes hides the lines after it. -/
example : Yields (fileOf [str% "w17 v2 dV c5 t2020-01-01T00:00:00Z i3 ubob Tname=ab N",
    str% "n17 v2 dV c5 t2020-01-01T00:00:00Z i3 ubob Tname=ab x y"]) [] :=
  C68_stream_fails bob _ (.way bob [] (str% "w17 v2 dV c5 t2020-01-01T00:00:00Z i3 ubob Tname=ab") [] (bob_text 'w') (.inl ⟨rfl, rfl⟩)) _

example := C68_bad_coordinate bob _ (str% "300") [] (bob_text' 'n') (by decide) (by decide) (.inl (by
  refine ⟨by decide, Or.inr ⟨300, ⟨[], str% "300", [], [], [], 0, rfl, by simp, by simp, by simp, by decide, by simp, .none, ?_⟩, ?_⟩⟩
  · have : Spec.number (str% "300" ++ []) = 300 := by decide
    rw [this]; norm_num
  · norm_num [abs_of_pos]))

/-- `C68_bad_tag`: an escape that is no number. -/
example : decodeLine (str% "w17 v2 dV c5 t2020-01-01T00:00:00Z i3 ubob Tname=ab,c=%zz%x Nn1") = .ok none := by
  refine C68_bad_tag 'w' (by decide) bob _ (bob_text' 'w') (by simp [bob]) (str% "c") [] (str% "c") [] (str% "zz") (str% "x")
    (literal_text ⟨rfl, plain_chars _ (by decide)⟩) .nil ?_ (by decide) _ (.inl rfl) [('N', str% "n1")] (by decide)
  refine ⟨by decide, fun sign hs d e c hx => ?_⟩
  have h2 : escapedChar (str% "zz") = none := by decide +kernel
  have := (escapedChar_iff (str% "zz") c).2 ⟨sign, hs, d, e, hx⟩
  rw [h2] at this; cases this

example (rest : Source) := C68_source_errors (Utf8.encode (str% "n17 v2")) (by decide) rest
end
end Osmio
