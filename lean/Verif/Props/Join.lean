import Verif.Proofs.Join
import Verif.Proofs.PbfZlib
import Verif.Props.PbfHeader
import Verif.Props.Bzip2
import Verif.Props.XmlGrammar
import Verif.Proofs.Utf8Strict
import Verif.Props.XmlText
/-!
# C96: files joined end to end
-/

namespace Osmio
open Spec Spec.Pbf

/-! ## PBF -/

variable {r : Which} {zlib : Proto.Bytes → Option Proto.Bytes} {b : Build}

/-- The blobs of a file and of what follows it. -/
theorem stream_join {fs : List Frame} (hf : ∀ f ∈ fs, ∃ h, Framed f h) {bs : List Proto.Blob} {e : Option Panic} {s : Source}
    (hs : Stream (source (fileBytes fs)) bs e s) (rest : Source) :
    (∃ p s', e = some p ∧ Stream (source (fileBytes fs) ++ rest) bs (some p) s') ∨
      (e = none ∧ ∀ {bs' e' s'}, Stream rest bs' e' s' → Stream (source (fileBytes fs) ++ rest) (bs ++ bs') e' s') := by
  induction fs generalizing bs with
  | nil =>
    right
    have h0 : StringPbf.readBlob (source (fileBytes [])) = (.ok none, []) := readBlob_short (l := []) (by decide)
    cases hs with
    | done h => exact ⟨rfl, fun h => h⟩
    | panic h => rw [h0] at h; cases h
    | skip h => rw [h0] at h; cases h
    | blob h => rw [h0] at h; cases h
  | cons g fs ih =>
    obtain ⟨hg, h3⟩ := hf g (by simp)
    have e1 : ∀ rest, source (fileBytes (g :: fs)) ++ rest = source g.bytes ++ (source (fileBytes fs) ++ rest) := by
      intro rest; simp [fileBytes, source_append]
    have e2 : source (fileBytes (g :: fs)) = source g.bytes ++ source (fileBytes fs) := by simp [fileBytes, source_append]
    rw [e2] at hs
    rw [e1]
    have hr : ∀ rest, StringPbf.readBlob (source g.bytes ++ rest) = _ := fun rest => readBlob_frame h3 rest
    have ih := fun {bs} => ih (fun f hf' => hf f (by simp [hf'])) (bs := bs)
    by_cases ht : hg.type_ = some (str% "OSMData")
    · simp only [if_pos ht] at hr
      cases hp : Proto.Blob.parseFromBytes g.data with
      | none =>
        simp only [hp] at hr
        cases hs with
        | panic h => rw [hr] at h; cases h; exact .inl ⟨_, _, rfl, .panic (hr _)⟩
        | done h => rw [hr] at h; cases h
        | skip h => rw [hr] at h; cases h
        | blob h => rw [hr] at h; cases h
      | some blob =>
        simp only [hp] at hr
        cases hs with
        | panic h => rw [hr] at h; cases h
        | done h => rw [hr] at h; cases h
        | skip h => rw [hr] at h; cases h
        | blob h hs =>
          rw [hr] at h; cases h
          rcases ih hs with ⟨p, s', rfl, h⟩ | ⟨rfl, h⟩
          · exact .inl ⟨p, s', rfl, .blob (hr _) h⟩
          · exact .inr ⟨rfl, fun h' => .blob (hr _) (h h')⟩
    · simp only [if_neg ht] at hr
      cases hs with
      | panic h => rw [hr] at h; cases h
      | done h => rw [hr] at h; cases h
      | blob h => rw [hr] at h; cases h
      | skip h hs =>
        rw [hr] at h; cases h
        rcases ih hs with ⟨p, s', rfl, h⟩ | ⟨rfl, h⟩
        · exact .inl ⟨p, s', rfl, .skip (hr _) h⟩
        · exact .inr ⟨rfl, fun h' => .skip (hr _) (h h')⟩

theorem runBlobs_join {α : Type} (decode : Proto.Blob → List α × Option Panic) (e : Option Panic) (bs bs' : List Proto.Blob) :
    runBlobs decode e (bs ++ bs') = match runBlobs decode none bs with
      | (xs, none) => (xs ++ (runBlobs decode e bs').1, (runBlobs decode e bs').2)
      | (xs, some p) => (xs, some p) := by
  induction bs with
  | nil => rfl
  | cons x bs ih =>
    simp only [List.cons_append, runBlobs]
    rcases decode x with ⟨os, _ | p⟩
    · simp only
      rw [ih]
      rcases runBlobs decode none bs with ⟨xs, _ | p⟩ <;> simp
    · rfl

theorem runBlobs_panic {α : Type} (decode : Proto.Blob → List α × Option Panic) (p : Panic) (bs : List Proto.Blob) :
    ∃ q, (runBlobs decode (some p) bs).2 = some q := by
  induction bs with
  | nil => exact ⟨p, rfl⟩
  | cons x bs ih =>
    unfold runBlobs
    rcases decode x with ⟨os, _ | q⟩
    · exact ih
    · exact ⟨q, rfl⟩

/-- Any reader of blobs. -/
theorem reader_join {α : Type} {R : Source → List α → Option Panic → Prop} {decode : Proto.Blob → List α × Option Panic}
    (hR : ∀ {s bs e s'}, Stream s bs e s' → R s (runBlobs decode e bs).1 (runBlobs decode e bs).2)
    (hu : ∀ {s xs xs' e e'}, R s xs e → R s xs' e' → xs = xs' ∧ e = e') {fs : List Frame} (hf : ∀ f ∈ fs, ∃ h, Framed f h) (rest : Source)
    (xs : List α) (e : Option Panic) : R (source (fileBytes fs) ++ rest) xs e ↔
      (∃ p, e = some p ∧ R (source (fileBytes fs)) xs (some p)) ∨
      ∃ xs1 xs2, R (source (fileBytes fs)) xs1 none ∧ R rest xs2 e ∧ xs = xs1 ++ xs2 := by
  obtain ⟨bs, e1, s, hs⟩ := stream_total (source (fileBytes fs))
  obtain ⟨bs2, e2, s2, hs2⟩ := stream_total rest
  have a1 := hR hs
  have a2 := hR hs2
  rcases stream_join hf hs rest with ⟨p, s', rfl, h⟩ | ⟨rfl, h⟩
  · have a3 := hR h
    obtain ⟨q, hq⟩ := runBlobs_panic decode p bs
    constructor
    · intro h
      obtain ⟨rfl, rfl⟩ := hu h a3
      exact .inl ⟨q, hq, hq ▸ a1⟩
    · rintro (⟨p', rfl, h⟩ | ⟨ds1, ds2, h1, _, _⟩)
      · obtain ⟨rfl, h2⟩ := hu h a1
        rw [h2]
        exact a3
      · have := (hu h1 a1).2
        rw [hq] at this
        cases this
  · have a3 := hR (h hs2)
    rw [runBlobs_join] at a3
    rcases hx : runBlobs decode none bs with ⟨ys, _ | p⟩
    · rw [hx] at a1 a3
      constructor
      · intro h
        obtain ⟨rfl, rfl⟩ := hu h a3
        exact .inr ⟨_, _, a1, a2, rfl⟩
      · rintro (⟨p', rfl, h⟩ | ⟨ds1, ds2, h1, h2, rfl⟩)
        · cases (hu h a1).2
        · obtain ⟨rfl, _⟩ := hu h1 a1
          obtain ⟨rfl, rfl⟩ := hu h2 a2
          exact a3
    · rw [hx] at a1 a3
      constructor
      · intro h
        obtain ⟨rfl, rfl⟩ := hu h a3
        exact .inl ⟨_, rfl, a1⟩
      · rintro (⟨p', rfl, h⟩ | ⟨ds1, ds2, h1, h2, rfl⟩)
        · obtain ⟨rfl, h2⟩ := hu h a1
          rw [h2]
          exact a3
        · cases (hu h1 a1).2

/-- **C96**, PBF. A file, and after it anything: another file, a part of one, a source that fails. Each of the readers gives, of the two together, what it gives of the file alone if it
panics in it; and else its objects, followed by what it gives of the rest alone, including how that ends. -/
theorem C96_pbf {fs : List Frame} (hf : ∀ f ∈ fs, ∃ h, Framed f h) (rest : Source) (ds : List ObjData) (e : Option Panic) :
    Reads r zlib b (source (fileBytes fs) ++ rest) ds e ↔
      (∃ p, e = some p ∧ Reads r zlib b (source (fileBytes fs)) ds (some p)) ∨
      ∃ ds1 ds2, Reads r zlib b (source (fileBytes fs)) ds1 none ∧ Reads r zlib b rest ds2 e ∧ ds = ds1 ++ ds2 :=
  reader_join (fun h => reads_stream h) Reads.unique hf rest ds e

/-- **C96**, PBF, the reader of positions. -/
theorem C96_positions {fs : List Frame} (hf : ∀ f ∈ fs, ∃ h, Framed f h) (rest : Source) (xs : List (ObjId × (Lat × Lon))) (e : Option Panic) :
    ReadsPositions zlib b (source (fileBytes fs) ++ rest) xs e ↔
      (∃ p, e = some p ∧ ReadsPositions zlib b (source (fileBytes fs)) xs (some p)) ∨
      ∃ xs1 xs2, ReadsPositions zlib b (source (fileBytes fs)) xs1 none ∧ ReadsPositions zlib b rest xs2 e ∧ xs = xs1 ++ xs2 :=
  reader_join (R := ReadsPositions zlib b) (fun h => readsPositions_stream h) Osmio.ReadsPositions.unique hf rest xs e

/-- The frame of a message whose header is shorter than 256 bytes begins with three bytes that are zero. -/
theorem frame_zeros {f : Frame} (h : f.header.length < 256) : ∃ t, f.bytes = 0 :: 0 :: 0 :: t := by
  refine ⟨UInt8.ofNat f.header.length :: (f.header ++ f.data), ?_⟩
  have h1 : f.header.length / 16777216 = 0 := by omega
  have h2 : f.header.length / 65536 = 0 := by omega
  have h3 : f.header.length / 256 = 0 := by omega
  simp [Frame.bytes, be32, h1, h2, h3]

/-- **C96, counterexample.** Of a file with a stray byte that is zero at its end nobody sees anything wrong: it is read as if the byte were not there. But nothing can follow it: with any other
file after it (the header of its first message being shorter than 256 bytes, as headers are) each of the readers gives the objects of the first file and then panics. -/
theorem C96_tail_fails {fs gs : List Frame} {g : Frame} (hf : ∀ f ∈ fs, ∃ h, Framed f h) (hg : g.header.length < 256) {ds : List ObjData}
    (hr : Reads r zlib b (source (fileBytes fs)) ds none) :
    Reads r zlib b (source (fileBytes fs ++ [0])) ds none ∧
    Reads r zlib b (source (fileBytes fs ++ [0]) ++ source (fileBytes (g :: gs))) ds (some .unwrap) := by
  constructor
  · rw [source_append]
    exact (C96_pbf hf _ _ _).2 (.inr ⟨ds, [], hr, reads_short (by decide), by simp⟩)
  · rw [source_append, List.append_assoc]
    refine (C96_pbf hf _ _ _).2 (.inr ⟨ds, [], hr, ?_, by simp⟩)
    obtain ⟨t, ht⟩ := frame_zeros hg
    have e : source [0] ++ source (fileBytes (g :: gs)) = source (0 :: 0 :: 0 :: 0 :: (t ++ fileBytes gs)) := by
      rw [← source_append]; simp [fileBytes, ht]
    rw [e]
    exact reads_iff.2 ⟨[], some .unwrap, source (t ++ fileBytes gs), .panic rfl, rfl⟩

/-- The file of `PbfEx`, twice, without and with a stray byte between. -/
example (r : Which) (b : Build) :
    Reads r some b (source (fileBytes PbfEx.file) ++ source (fileBytes PbfEx.file)) (PbfEx.fileData.flatten ++ PbfEx.fileData.flatten) none ∧
    Reads r some b (source (fileBytes PbfEx.file ++ [0]) ++ source (fileBytes PbfEx.file)) PbfEx.fileData.flatten (some .unwrap) := by
  have h : Reads r some b (source (fileBytes PbfEx.file)) PbfEx.fileData.flatten none := by
    obtain ⟨h1, h2, h3⟩ := PbfEx.accepted r b
    exact (C41_blocks PbfEx.file_is).2 ⟨_, .cons h1 (.cons h2 (.cons h3 .nil)), rfl⟩
  have hf : ∀ f ∈ PbfEx.file, ∃ h, Framed f h := by
    intro f hf
    have h := PbfEx.file_reads .owned .debug
    simp only [PbfEx.file, PbfEx.fileData, List.forall₂_cons] at h
    simp only [PbfEx.file, List.mem_cons, List.not_mem_nil, or_false] at hf
    rcases hf with rfl | rfl | rfl | rfl
    · exact frameReads_framed h.1
    · exact frameReads_framed h.2.1
    · exact frameReads_framed h.2.2.1
    · exact frameReads_framed h.2.2.2.1
  exact ⟨(C96_pbf hf _ _ _).2 (.inr ⟨_, _, h, h, rfl⟩), (C96_tail_fails hf (by decide +kernel) h).2⟩

/-! ## Changesets -/

section changesets
open QuickXml Spec.Cs Changesets Spec.Lex

/-- **C96**, changesets. After a text without anything wrong in its markup, in which all elements are closed, there may be any other: the calls give the results of the first and then those
of the second. The second may be anything, and may begin with a byte order mark. -/
theorem C96_changesets {a : List UInt8} (ha : Whole a) {rest : List UInt8} {rs rs' : List (Except Err Changeset)} {s s' : Events}
    (h : Results nextChangeset (eventsOf a) rs s) (h' : Results nextChangeset (eventsOf rest) rs' s') :
    Results nextChangeset (eventsOf (a ++ rest)) (rs ++ rs') s' := by
  obtain ⟨c', _, h2⟩ := results_whole (st := plain) (c := ()) (fun n s x => next_mono n s x) next_skips next_passes next_framed ha rest h
  exact h2 rs' s' h'

/-- **C96**, changesets, documents of the grammar. Any number of dumps, one after the other, are read as one: one result per changeset element, in order. -/
theorem C96_dumps {l : List (Str × List (Bool × Option Data))} (h : ∀ x ∈ l, ∃ ts f, Document x.1 ts f ∧ DumpText ts x.2) :
    ∃ rs, Results nextChangeset (eventsOf (Utf8.encode (l.map (·.1)).flatten)) rs [] ∧
      List.Forall₂ (fun r d => Fits r d.2) rs (l.map (·.2)).flatten := by
  induction l with
  | nil => exact ⟨[], .done ⟨1, rfl⟩, .nil⟩
  | cons x l ih =>
    obtain ⟨rs', h1, h2⟩ := ih fun y hy => h y (List.mem_cons_of_mem _ hy)
    obtain ⟨ts, f, h3, h4⟩ := h x List.mem_cons_self
    obtain ⟨rs, h5, h6, _⟩ := C52_text h3 h4 [] (.inl rfl)
    refine ⟨rs ++ rs', ?_, ?_⟩
    · rw [List.map_cons, List.flatten_cons, Utf8.encode_append]
      exact C96_changesets (document_whole h3) h5 h1
    · rw [List.map_cons, List.flatten_cons]
      exact List.rel_append h6 h2

/-- **C96**, tags. The reader of tags goes on with the second text as it left the first, with the id of the last changeset. -/
theorem C96_tags_partial {a : List UInt8} (ha : Whole a) {rest : List UInt8} {rs rs' : List (Except Err (UInt64 × List (Str × Str)))} {s s' : TagReader}
    (h : Results nextTag (newTagReader (eventsOf a)) rs s) (h' : Results nextTag { s with evs := eventsOf rest } rs' s') :
    Results nextTag (newTagReader (eventsOf (a ++ rest))) (rs ++ rs') s' := by
  obtain ⟨c', rfl, h2⟩ := results_whole (st := withEvents) (c := (none, [])) (fun n s x => tag_mono n s x) tag_skips tag_passes tag_framed ha rest h
  exact h2 rs' s' h'

/-- **C96**, tags, documents of the grammar in which every changeset has an id. -/
theorem C96_tag_dumps {l : List (Str × List (UInt64 × List (Str × Str)))} (h : ∀ x ∈ l, ∃ ts f, Document x.1 ts f ∧ TagDumpText ts x.2) :
    ∃ s', Results nextTag (newTagReader (eventsOf (Utf8.encode (l.map (·.1)).flatten))) ((l.map (·.2)).flatten.map .ok) s' := by
  have key : ∀ c, ∃ s', Results nextTag (withEvents c (eventsOf (Utf8.encode (l.map (·.1)).flatten))) ((l.map (·.2)).flatten.map .ok) s' := by
    induction l with
    | nil => exact fun c => ⟨_, .done ⟨1, rfl⟩⟩
    | cons x l ih =>
      intro c
      obtain ⟨ts, f, h3, h4⟩ := h x List.mem_cons_self
      obtain ⟨h1, h2⟩ := reports_document h3
      obtain ⟨s1, _, h5⟩ := tagDump_results (tagDump_of_text h4 h2 h1) c.1 c.2
      obtain ⟨c', _, h6⟩ := results_whole (st := withEvents) (c := c) (fun n s x => tag_mono n s x) tag_skips tag_passes tag_framed (document_whole h3)
        (Utf8.encode (l.map (·.1)).flatten) h5
      obtain ⟨s2, h7⟩ := ih (fun y hy => h y (List.mem_cons_of_mem _ hy)) c'
      refine ⟨s2, ?_⟩
      rw [List.map_cons, List.flatten_cons, Utf8.encode_append, List.map_cons, List.flatten_cons, List.map_append]
      exact h6 _ _ h7
  exact key (none, [])

/-- What the reader of tags keeps at the end of a dump. -/
theorem tagDump_last {evs : Events} {ds : List (UInt64 × List (Str × Str))} (h : TagDump evs ds) :
    ∀ (id : Option UInt64) (tags : List (Str × Str)), ∃ tags', Results nextTag ⟨evs, id, tags⟩ (ds.map .ok) ⟨[], (ds.getLast?.map (·.1)).or id, tags'⟩ := by
  induction h with
  | nil => intro id tags; exact ⟨tags, .done ⟨1, rfl⟩⟩
  | other hn _ ih =>
    intro id tags
    obtain ⟨s', h⟩ := ih id tags
    exact ⟨s', tag_results_skip (fun n => tag_neutral hn n _ _ _) h⟩
  | short hn _ ih =>
    intro id tags
    obtain ⟨s', h⟩ := ih id tags
    exact ⟨s', tag_results_skip (fun n => tag_short hn _ n _ _ _) h⟩
  | @full n attrs id0 s body ts n' evs ds hn hs ha hp hb hn' _ ih =>
    intro id tags
    obtain ⟨s', h2⟩ := ih (some id0) []
    have e : ((((id0, ts) :: ds).getLast?.map (·.1)).or id) = ((ds.getLast?.map (·.1)).or (some id0)) := by
      cases ds with
      | nil => rfl
      | cons x t =>
        rw [List.getLast?_cons_cons]
        cases hx : (x :: t).getLast? with
        | none => simp at hx
        | some y => rfl
    rw [e]
    refine ⟨s', .ok ⟨body.length + 1 + 1, ?_⟩ h2⟩
    rw [tag_start hn, idAttrs_sound hs ha hp]
    simp only
    rw [tag_body hb, tag_closes_some ⟨n', rfl, hn'⟩, List.nil_append]

/-- A file with one changeset, which has no id. -/
def noId : Str := str% "<osm><changeset><tag k='a' v='b'/></changeset></osm>"

theorem noId_events : eventsOf (Utf8.encode noId) = [some (.start (Utf8.encode (str% "osm")) []), some (.start (Utf8.encode (str% "changeset")) []),
    some (.empty (Utf8.encode (str% "tag")) [some ⟨[107], [97]⟩, some ⟨[118], [98]⟩]), some (.end_ (Utf8.encode (str% "changeset"))), some (.end_ (Utf8.encode (str% "osm")))] := by
  decide +kernel

/-- **C96, counterexample for tags.** The second file has a changeset without id, which is an error in that file alone. After any dump with a changeset in it the tags are reported as those of
the last changeset of the first file. -/
theorem C96_tags_fails {t : Str} {ts : List Tok} {f : Spec.Forest} (h : Document t ts f) {ds : List (UInt64 × List (Str × Str))} {id : UInt64} {tags : List (Str × Str)}
    (hd : TagDumpText ts (ds ++ [(id, tags)])) :
    (∃ e s', Returns nextTag (newTagReader (eventsOf (Utf8.encode noId))) (.error e) s') ∧
    ∃ s', Results nextTag (newTagReader (eventsOf (Utf8.encode (t ++ noId)))) ((ds ++ [(id, tags)]).map .ok ++ [.ok (id, [(str% "a", str% "b")])]) s' := by
  obtain ⟨h1, h2⟩ := reports_document h
  obtain ⟨tags', h3⟩ := tagDump_last (tagDump_of_text hd h2 h1) none []
  simp only [List.getLast?_append, List.getLast?_singleton, Option.some_or, Option.map_some] at h3
  refine ⟨⟨.noId, ⟨[some (.end_ (Utf8.encode (str% "osm")))], none, [(str% "a", str% "b")]⟩, 6, by rw [noId_events]; rfl⟩, ⟨[], some id, []⟩, ?_⟩
  rw [Utf8.encode_append]
  refine C96_tags_partial (document_whole h) h3 ?_
  rw [noId_events]
  exact .ok (s1 := ⟨[some (.end_ (Utf8.encode (str% "osm")))], some id, []⟩) ⟨6, rfl⟩ (.done ⟨2, rfl⟩)

/-- The dump of `CsText`, twice. -/
example : ∃ rs, Results nextChangeset (eventsOf (Utf8.encode (CsText.text ++ CsText.text))) rs [] ∧
    List.Forall₂ (fun r d => Fits r d.2) rs [(true, some CsText.data7), (false, none), (true, some CsText.data7), (false, none)] := by
  obtain ⟨f, h⟩ := CsText.document
  have := C96_dumps (l := [(CsText.text, _), (CsText.text, _)]) (by rintro x (_ | ⟨_, _ | ⟨_, ⟨⟩⟩⟩) <;> exact ⟨_, f, h, CsText.dumpText⟩)
  simpa using this

/-- The tags of the dump of `CsText`, twice, and before a changeset without id. -/
example : (∃ s', Results nextTag (newTagReader (eventsOf (Utf8.encode (CsText.text ++ CsText.text)))) [.ok (7, [(str% "c", str% "'é")]), .ok (7, [(str% "c", str% "'é")])] s') ∧
    ∃ s', Results nextTag (newTagReader (eventsOf (Utf8.encode (CsText.text ++ noId)))) [.ok (7, [(str% "c", str% "'é")]), .ok (7, [(str% "a", str% "b")])] s' := by
  obtain ⟨f, h⟩ := CsText.document
  have := C96_tag_dumps (l := [(CsText.text, _), (CsText.text, _)]) (by rintro x (_ | ⟨_, _ | ⟨_, ⟨⟩⟩⟩) <;> exact ⟨_, f, h, CsText.tagDumpText⟩)
  refine ⟨by simpa using this, ?_⟩
  exact (C96_tags_fails (ds := []) h CsText.tagDumpText).2

/-- A text that is `Whole`, and one that is not: it ends in an element. -/
example : Whole (Utf8.encode CsText.text) ∧ ¬ Whole (Utf8.encode (str% "<osm>")) := by
  obtain ⟨f, h⟩ := CsText.document
  exact ⟨document_whole h, by unfold Whole; decide +kernel⟩

/-- **C96**, files compressed with bzip2: joined, they are a file with the joined data. So everything said here about texts is so for compressed files. -/
theorem C96_bzip2 {a b x y : List UInt8} (ha : Bzip2.File a x) (hb : Bzip2.File b y) : Bzip2.File (a ++ b) (x ++ y) := by
  obtain ⟨l, h1, h2, rfl, rfl⟩ := ha
  obtain ⟨m, _, h4, rfl, rfl⟩ := hb
  refine ⟨l ++ m, by simp [h1], fun s hs => ?_, by simp, by simp⟩
  rcases List.mem_append.1 hs with h | h
  · exact h2 s h
  · exact h4 s h

/-- **C96**, the program that stores tags of changesets in a database. Compressed dumps, joined as files (as `cat` joins them), are one dump for it: if no two changesets have the same id, the
table has all their tags. -/
theorem C96_program {l : List (List UInt8 × Str × List (UInt64 × List (Str × Str)))} (hl : l ≠ [])
    (h : ∀ x ∈ l, Bzip2.File x.1 (Utf8.encode x.2.1) ∧ ∃ ts f, Document x.2.1 ts f ∧ TagDumpText ts x.2.2) (hnd : ((l.map (·.2.2)).flatten.map (·.1)).Nodup)
    {one : Bzip2.One} (ho : Spec.Bzip2.Undoes one) (later : QuickXml.Events) {files : Files} (dbs : TagsToSqlite.Databases) {args : List FileName} {name db : FileName}
    (h1 : args[1]? = some name) (h2 : args[2]? = some db) (hf : files name = some ((l.map (·.1)).flatten.map some)) (hdb : dbs db = none) (fails : Nat → Bool) (hok : ∀ t, fails t = false) :
    ∃ n, (TagsToSqlite.Main.after fails (TagsToSqlite.Main.start later (Changesets.tagDecoder one) files dbs args) n).succeeded = true ∧
      Table (l.map (·.2.2)).flatten ((TagsToSqlite.Main.after fails (TagsToSqlite.Main.start later (Changesets.tagDecoder one) files dbs args) n).databases dbs db) := by
  have hfile : Bzip2.File (l.map (·.1)).flatten (Utf8.encode (l.map (·.2.1)).flatten) := by
    clear hnd hf
    induction l with
    | nil => exact absurd rfl hl
    | cons x l ih =>
      simp only [List.map_cons, List.flatten_cons, Utf8.encode_append]
      have h0 := (h x List.mem_cons_self).1
      cases l with
      | nil => simpa [Utf8.encode_nil] using h0
      | cons y l => exact C96_bzip2 h0 (ih (by simp) fun z hz => h z (List.mem_cons_of_mem _ hz))
  have hr := C96_tag_dumps (l := l.map (·.2)) (by
    intro y hy
    obtain ⟨x, hx, rfl⟩ := List.mem_map.1 hy
    exact (h x hx).2)
  simp only [List.map_map] at hr
  exact program_stores ho hfile hr hnd later dbs h1 h2 hf hdb fails hok

/-- A second dump. -/
def second : Str := str% "<osm><changeset id='8'></changeset></osm>"
theorem second_document : ∃ f, Document second [.start (str% "osm") [], .start (str% "changeset") CsText.attrs8, .stop (str% "changeset"), .stop (str% "osm")] f :=
  ⟨_, .plain (.mk (before := []) (root := [.start (str% "osm") [], .start (str% "changeset") CsText.attrs8, .stop (str% "changeset"), .stop (str% "osm")]) (after := []) (n := str% "osm") (as := [])
      (ks := [.start (str% "changeset") CsText.attrs8, .stop (str% "changeset")])
    (.start (n := str% "osm") (a := []) (w := []) (isName_of (by decide +kernel)) .nil (by decide) (by decide)
    (.start (n := str% "changeset") (a := str% " id='8'") (w := []) (isName_of (by decide +kernel))
      (CsText.attr (key := str% "id") (isName_of (by decide +kernel)) (by decide) (plain_value (s := str% "8") (by decide +kernel)) .nil) (by decide) (by decide)
    (.stop (n := str% "changeset") (w := []) (isName_of (by decide +kernel)) (by decide)
    (.stop (n := str% "osm") (w := []) (isName_of (by decide +kernel)) (by decide) .nil))))
    (by simp) (by simp) (.inr rfl) (.elem (ks := []) .nil .nil) (.elem (.elem (ks := []) .nil .nil) .nil))⟩
theorem second_tags : TagDumpText [.start (str% "osm") [], .start (str% "changeset") CsText.attrs8, .stop (str% "changeset"), .stop (str% "osm")] [(8, [])] :=
  .other (CsText.aside_start (by decide) (by decide)) (.full (body := []) (s := str% "8") ⟨⟨_, str% "8", _⟩, by simp [CsText.attrs8], rfl, rfl⟩ (by decide +kernel) .nil
    (.other (CsText.aside_stop (by decide)) .nil))

/-- Two dumps with different changesets, each in a compressed file, as `C96_program` has them. -/
example : ∃ l : List (List UInt8 × Str × List (UInt64 × List (Str × Str))), l.length = 2 ∧
    (∀ x ∈ l, Bzip2.File x.1 (Utf8.encode x.2.1) ∧ ∃ ts f, Document x.2.1 ts f ∧ TagDumpText ts x.2.2) ∧
    ((l.map (·.2.2)).flatten.map (·.1)) = [7, 8] := by
  obtain ⟨a, _, h1, _⟩ := C93_every (Utf8.encode CsText.text) []
  obtain ⟨b, _, h2, _⟩ := C93_every (Utf8.encode second) []
  obtain ⟨f, h3⟩ := CsText.document
  obtain ⟨g, h4⟩ := second_document
  refine ⟨[(a, CsText.text, [(7, [(str% "c", str% "'é")])]), (b, second, [(8, [])])], rfl, ?_, rfl⟩
  rintro x (_ | ⟨_, _ | ⟨_, ⟨⟩⟩⟩)
  · exact ⟨h1, _, f, h3, CsText.tagDumpText⟩
  · exact ⟨h2, _, g, h4, second_tags⟩

end changesets

/-! ## XML -/

section xml
open Spec Xml

variable {norm : Xml.Config}

/-- Something has been reported once there is a root element. -/
def Told (z : PState) : Prop := z.rooted = true → z.events ≠ []

theorem told_flush {z : PState} (h : Told z) (b : Bool) : Told (flush z b) := by
  unfold flush
  split
  · intro _; simp
  · exact h
theorem told_tag {z : PState} (h : Told z) (n : Str) (as : List (Str × Str)) (b : Bool) : Told (finishTag norm z n as b) := by
  unfold finishTag
  simp only
  split
  · split
    · exact h
    · intro _; cases b <;> simp
  · exact h
theorem told_end {z : PState} (h : Told z) (n : Str) : Told (finishEnd z n) := by
  unfold finishEnd
  repeat' split
  all_goals first | exact h | (intro _; simp)

theorem told_step {z : PState} (h : Told z) (c : Char) : Told (Xml.step norm z c) := by
  have g : ∀ m, Told (z.goto m) := fun m => h
  have f : ∀ b m, Told ((flush z b).goto m) := fun b m hr => told_flush h b hr
  have t := told_tag (norm := norm) h
  have s := told_end h
  unfold Xml.step
  split
  · unfold stepText; repeat' split
    all_goals first | exact g _ | exact f _ _
  · unfold stepTextEnt; repeat' split
    all_goals first | exact g _
  · unfold stepLt; repeat' split
    all_goals first | exact g _
  · unfold stepBang; simp only; repeat' split
    all_goals first | exact g _
  · unfold stepComment; repeat' split
    all_goals first | exact g _ | exact f _ _
  · unfold stepCdata; repeat' split
    all_goals first | exact g _ | exact f _ _
  · unfold stepPi; repeat' split
    all_goals first | exact g _ | exact f _ _
  · unfold stepTagName; repeat' split
    all_goals first | exact g _ | exact t _ _ _
  · unfold stepInTag; repeat' split
    all_goals first | exact g _ | exact t _ _ _
  · unfold stepAttrName; repeat' split
    all_goals first | exact g _
  · unfold stepAttrEq; repeat' split
    all_goals first | exact g _
  · unfold stepAttrPre; repeat' split
    all_goals first | exact g _
  · unfold stepAttrVal; repeat' split
    all_goals first | exact g _
  · unfold stepAttrEnt; repeat' split
    all_goals first | exact g _
  · unfold stepAttrDone; repeat' split
    all_goals first | exact g _ | exact t _ _ _
  · repeat' split
    all_goals first | exact h | exact t _ _ _
  · unfold stepEndName; repeat' split
    all_goals first | exact g _ | exact s _
  · repeat' split
    all_goals first | exact h | exact s _
  · exact h

theorem told_run {z : PState} (h : Told z) (t : Str) : Told (Xml.run norm z t) := by
  induction t generalizing z with
  | nil => exact h
  | cons c t ih => exact ih (told_step h c)

/-- In an XML declaration that is not at the beginning. -/
def InDecl (w : Char) (ev : List XmlEvent) (z : PState) : Prop :=
  z.events = ev ∧ (z.mode = .fail ∨ ∃ s, z.mode = .pi (str% "xml" ++ w :: s))

theorem inDecl_step {w : Char} (hw : isWs w = true) {ev : List XmlEvent} (hev : ev ≠ []) {z : PState} (h : InDecl w ev z) (c : Char) :
    InDecl w ev (Xml.step norm z c) := by
  obtain ⟨h1, h2 | ⟨s, h2⟩⟩ := h
  · unfold Xml.step
    rw [h2]
    exact ⟨h1, .inl h2⟩
  · unfold Xml.step
    rw [h2]
    simp only [stepPi]
    split
    · rename_i hc
      have hl : s ≠ [] := by
        rintro rfl
        have : w = '?' := by simpa using hc.2
        subst this
        exact absurd hw (by decide)
      have hd : (str% "xml" ++ w :: s).dropLast = str% "xml" ++ w :: s.dropLast := by
        rw [List.dropLast_append_of_ne_nil (by simp), List.dropLast_cons_of_ne_nil hl]
      have hn : isNameChar w = false := by
        simp only [isWs, Bool.or_eq_true, beq_iff_eq] at hw
        rcases hw with ((rfl | rfl) | rfl) | rfl <;> decide
      have hp : piOk z.events.isEmpty (str% "xml" ++ w :: s).dropLast = false := by
        rw [hd, h1]
        have e1 : (str% "xml" ++ w :: s.dropLast).takeWhile isNameChar = str% "xml" := by
          rw [List.takeWhile_append_of_pos (by decide)]; simp [List.takeWhile, hn]
        have e2 : ev.isEmpty = false := by simpa using hev
        simp only [piOk, e1, e2, Bool.false_and, if_true]
      rw [hp]
      exact ⟨h1, .inl rfl⟩
    · split
      · exact ⟨h1, .inr ⟨s ++ [c], by simp [PState.goto]⟩⟩
      · exact ⟨h1, .inl rfl⟩

theorem inDecl_run {w : Char} (hw : isWs w = true) {ev : List XmlEvent} (hev : ev ≠ []) {z : PState} (h : InDecl w ev z) (t : Str) :
    InDecl w ev (Xml.run norm z t) := by
  induction t generalizing z with
  | nil => exact h
  | cons c t ih => exact ih (inDecl_step hw hev h c)

theorem next_other (evs : List XmlEvent) : ∀ {os : List StringOSMObj} {e : Option Panic},
    Drain XMLReader.next (evs.map some ++ [none]) os e [] → Drain XMLReader.next (evs.map some ++ [some .other, none]) os e [] := by
  induction hl : ends evs generalizing evs with
  | zero =>
    intro os e h
    have h3 : ends (evs ++ [.other]) = 0 := by rw [ends_append, hl]; rfl
    rcases next_fails evs with ⟨_, h2⟩ | ⟨o, rest, h1, _⟩
    · rcases next_fails (evs ++ [.other]) with ⟨_, h4⟩ | ⟨o, rest, h1, _⟩
      · have h4 := h4 []
        simp only [List.map_append, List.map_cons, List.map_nil, List.append_assoc, List.singleton_append] at h4
        have h2 := h2 []
        cases h with
        | panic h5 => rw [h2] at h5; cases h5; exact .panic h4
        | done h5 => rw [h2] at h5; cases h5
        | more h5 => rw [h2] at h5; cases h5
      · omega
    · omega
  | succ m ih =>
    intro os e h
    rcases next_fails evs with ⟨h0, _⟩ | ⟨o, rest, h1, _, h3⟩
    · omega
    · have h4 := h3 [none]
      cases h with
      | panic h5 => rw [h4] at h5; cases h5
      | done h5 => rw [h4] at h5; simp at h5
      | more h5 h6 =>
        rw [h4] at h5
        simp only [Prod.mk.injEq, Except.ok.injEq] at h5
        obtain ⟨rfl, rfl⟩ := h5
        exact .more (h3 _) (ih rest (by omega) h6)

/-- **C96, counterexample for XML.** A file that is read to its end, and after it a text that begins with an XML declaration, as files do: the reader gives the objects of the first file, then
panics, and gives nothing of the second. -/
theorem C96_xml_fails {a : List UInt8} {os : List StringOSMObj} (h : Drain XMLReader.next (XMLReader.new norm a) os none []) {w : Char} (hw : isWs w = true) (rest : List UInt8) :
    Drain XMLReader.next (XMLReader.new norm (a ++ Utf8.encode (str% "<?xml" ++ [w]) ++ rest)) os (some .unwrap) [] := by
  have hc : complete ((Utf8.decodePrefix a).1.foldl (step norm) initial) = true ∧ (Utf8.decodePrefix a).2 = true := by
    by_contra hc
    unfold XMLReader.new eventsOfBytes events at h
    simp only [← Bool.and_eq_true] at hc
    simp only [if_neg hc] at h
    exact drain_not_failing _ h
  obtain ⟨hc, hp⟩ := hc
  have ha := Utf8.eq_encode_of_prefix hp
  set t := (Utf8.decodePrefix a).1 with ht
  have ho : XMLReader.new norm a = (Xml.run norm initial t).events.map some ++ [some .other] := by
    unfold XMLReader.new eventsOfBytes events
    simp only [hc, hp, ← ht, Bool.and_self, if_true]
    rfl
  have hg : ∃ g : Forest, g.events = (Xml.run norm initial t).events := by
    rcases events_forest norm a with ⟨g, hg⟩ | ⟨evs, he⟩
    · refine ⟨g, ?_⟩
      have := hg.symm.trans ho
      have := (List.append_inj' this rfl).1
      exact List.map_injective_iff.2 (Option.some_injective _) this
    · have := (List.append_inj' (he.symm.trans ho) rfl).2
      simp at this
  obtain ⟨g, hg⟩ := hg
  rw [ho] at h
  have hd := drain_then_fails g _ [] (by simpa using hg) h
  have htold : Told (Xml.run norm initial t) := told_run (by intro h; cases h) t
  change complete (Xml.run norm initial t) = true at hc
  obtain ⟨u, hu⟩ := Utf8.decodePrefix_append (Utf8.encode (t ++ (str% "<?xml" ++ [w]))) rest
  rw [Utf8.decodePrefix_encode, Utf8.encode_append, ← ha] at hu
  unfold XMLReader.new eventsOfBytes events
  simp only
  rw [← hu, List.foldl_append, List.foldl_append]
  change Drain XMLReader.next ((Xml.run norm (Xml.run norm (Xml.run norm initial t) (str% "<?xml" ++ [w])) u).events.map some ++
    [if (complete (Xml.run norm (Xml.run norm (Xml.run norm initial t) (str% "<?xml" ++ [w])) u) && _) = true then _ else _]) _ _ _
  generalize Xml.run norm initial t = z at *
  obtain ⟨p, hm, hr⟩ : ∃ p, z.mode = .text p ∧ z.rooted = true := by
    unfold complete at hc
    split at hc
    · rename_i p hm
      simp only [Bool.and_eq_true] at hc
      exact ⟨p, hm, hc.2⟩
    · cases hc
  have hev : (flush z p).events ≠ [] := by
    have := htold hr
    unfold flush
    split <;> simp [this]
  have hx : isXmlChar w = true := by
    simp only [isWs, Bool.or_eq_true, beq_iff_eq] at hw
    rcases hw with ((rfl | rfl) | rfl) | rfl <;> decide
  have h0 : Xml.run norm z (str% "<?xml" ++ [w]) = (flush z p).goto (.pi (str% "xml" ++ w :: [])) := by
    have e1 : Xml.step norm z '<' = (flush z p).goto .lt := by unfold Xml.step; rw [hm]; rfl
    have e2 : ∀ y : PState, Xml.step norm (y.goto .lt) '?' = y.goto (.pi []) := fun y => rfl
    have e3 : ∀ (y : PState) (q : Str) (c : Char), isXmlChar c = true → c ≠ '>' → Xml.step norm (y.goto (.pi q)) c = y.goto (.pi (q ++ [c])) := by
      intro y q c h1 h2
      simp [Xml.step, PState.goto, stepPi, h1, h2]
    have hne : w ≠ '>' := by rintro rfl; exact absurd hw (by decide)
    show Xml.step norm (Xml.step norm (Xml.step norm (Xml.step norm (Xml.step norm (Xml.step norm z '<') '?') 'x') 'm') 'l') w = _
    rw [e1, e2, e3 _ _ _ (by decide) (by decide), e3 _ _ _ (by decide) (by decide), e3 _ _ _ (by decide) (by decide), e3 _ _ _ hx hne]
    rfl
  obtain ⟨h1, h2⟩ : InDecl w (flush z p).events (Xml.run norm (Xml.run norm z (str% "<?xml" ++ [w])) u) :=
    inDecl_run hw hev (by rw [h0]; exact ⟨rfl, .inr ⟨[], rfl⟩⟩) u
  have h3 : complete (Xml.run norm (Xml.run norm z (str% "<?xml" ++ [w])) u) = false := by
    unfold complete
    rcases h2 with h2 | ⟨s, h2⟩ <;> rw [h2]
  rw [h3, h1]
  simp only [Bool.false_and, Bool.false_eq_true, if_false]
  unfold flush
  split
  · simp only [List.map_append, List.map_cons, List.map_nil, List.append_assoc, List.singleton_append]
    exact next_other _ hd
  · exact hd

/-- **C96, counterexample for XML**, the reader of changes. -/
theorem C96_osc_fails {a : List UInt8} {os : List StringOSMObj} (h : Drain OSCReader.next (OSCReader.new norm a) os none []) {w : Char} (hw : isWs w = true) (rest : List UInt8) :
    Drain OSCReader.next (OSCReader.new norm (a ++ Utf8.encode (str% "<?xml" ++ [w]) ++ rest)) os (some .unwrap) [] := by
  rw [osc_next_eq] at h ⊢
  exact C96_xml_fails h hw rest

/-- The document of `sample_document`, with one node, twice: the node is read once, then the reader panics. -/
example : ∃ o : StringOSMObj, Drain XMLReader.next (XMLReader.new .keep (Utf8.encode sampleText ++ Utf8.encode sampleText)) [o] (some .unwrap) [] := by
  obtain ⟨os, h1, h2⟩ := C30_text_partial (norm := .keep) (fun _ _ _ _ => rfl) sample_document sample_flat sample_readable
  have hl : os.length = 1 := by simpa [show sampleTree.objects.length = 1 by decide +kernel] using congrArg List.length h2
  obtain ⟨o, rfl⟩ := List.length_eq_one_iff.1 hl
  have := C96_xml_fails h1 (w := ' ') (by decide) (Utf8.encode (sampleText.drop 6))
  rw [List.append_assoc, ← Utf8.encode_append] at this
  exact ⟨o, this⟩

end xml

end Osmio
