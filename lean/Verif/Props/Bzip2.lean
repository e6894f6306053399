import Verif.Proofs.Bzip2
import Verif.Proofs.Bzip2Ex
import Verif.Props.Open
import Verif.Props.ChangesetCut
import Verif.Props.TagsToSqliteMain
/-!
# Files compressed with bzip2, of any number of streams (C93)

`one` is a decompressor of a single stream, any that does what is asked of it (`Spec.Bzip2.Undoes`). A file is one or more bzip2 streams, each made by any encoder
(`Spec.Bzip2.File`), as parallel encoders and planet dumps have them.
-/

namespace Osmio
open Spec Xml OSMObjBase
open Spec.Bzip2 (Undoes)

variable {f : Family}

namespace Xml

/-- Reading a document to its end, where then an error is found. -/
theorem drain_then_fails (g : Forest) : ∀ (evs used : List XmlEvent), g.events = used ++ evs → ∀ {os : List StringOSMObj},
    Drain XMLReader.next (evs.map some ++ [some .other]) os none [] → Drain XMLReader.next (evs.map some ++ [none]) os (some .unwrap) [] := by
  intro evs
  induction hl : ends evs generalizing evs with
  | zero =>
    intro used hg os h
    have hc := calls_complete g used evs hg [] 1
    rw [hl] at hc
    simp only [calls, List.nil_append, List.replicate_succ, List.replicate_zero, List.cons.injEq, and_true] at hc
    rcases next_fails evs with ⟨_, h2⟩ | ⟨o, rest, h1, _⟩
    · cases h with
      | done _ => exact .panic (h2 [])
      | more h3 _ => rw [h3] at hc; cases hc
    · omega
  | succ m ih =>
    intro used hg os h
    rcases next_fails evs with ⟨h0, _⟩ | ⟨o, rest, h1, ⟨u, rfl⟩, h3⟩
    · omega
    · cases h with
      | done h4 =>
        rw [h3] at h4
        simp at h4
      | more h4 h5 =>
        rw [h3] at h4
        simp only [Prod.mk.injEq, Except.ok.injEq] at h4
        obtain ⟨rfl, rfl⟩ := h4
        exact .more (h3 _) (ih rest (by omega) (used ++ u) (by rw [hg, List.append_assoc]) h5)

theorem drain_not_failing : ∀ (evs : List XmlEvent) {os : List StringOSMObj}, ¬ Drain XMLReader.next (evs.map some ++ [none]) os none [] := by
  intro evs
  induction hl : ends evs generalizing evs with
  | zero =>
    intro os h
    rcases next_fails evs with ⟨_, h2⟩ | ⟨o, rest, h1, _⟩
    · cases h with
      | done h3 => rw [h2] at h3; cases h3
      | more h3 _ => rw [h2] at h3; cases h3
    · omega
  | succ m ih =>
    intro os h
    rcases next_fails evs with ⟨h0, _⟩ | ⟨o, rest, h1, ⟨u, rfl⟩, h3⟩
    · omega
    · cases h with
      | done h4 =>
        rw [h3] at h4
        simp at h4
      | more h4 h5 =>
        rw [h3] at h4
        simp only [Prod.mk.injEq, Except.ok.injEq] at h4
        obtain ⟨rfl, rfl⟩ := h4
        exact ih rest (by omega) h5

/-- A document that is complete, and then an error of the source. -/
theorem over_then_fails {norm : Xml.Config} {a : List UInt8} {os : List StringOSMObj} (h : Drain XMLReader.next (XMLReader.new norm a) os none [])
    (after : Source) : Drain XMLReader.next (XMLReader.over norm (a.map some ++ none :: after)) os (some .unwrap) [] := by
  rw [over_failing]
  obtain ⟨last, h1, h2⟩ := new_eq norm a
  rw [h1] at h
  rcases h2 with rfl | rfl
  · exact absurd h (drain_not_failing _)
  · rcases events_forest norm a with ⟨g, hg⟩ | ⟨evs, he⟩
    · have h3 : (eventsIn norm a).map some ++ [some XmlEvent.other] = g.events.map some ++ [some .other] := h1.symm.trans hg
      have h4 : eventsIn norm a = g.events := List.map_injective_iff.2 (Option.some_injective _) (List.append_cancel_right h3)
      exact drain_then_fails g _ [] h4.symm h
    · have h3 : (eventsIn norm a).map some ++ [some XmlEvent.other] = evs.map some ++ [none] := h1.symm.trans he
      have := (List.append_inj' h3 rfl).2
      cases this

end Xml

/-- What is asked of the decompressor of one stream can be done. -/
theorem C93_possible : Undoes Bzip2.one := Bzip2.one_undoes

/-- **C93**, decompression. Wherever /repo decompresses, a file gives the data of all its streams, and then its end. -/
theorem C93_data {one : Bzip2.One} (ho : Undoes one) {file data : List UInt8} (h : Bzip2.File file data) :
    Xml.decoder one (file.map some) = data.map some ∧ Changesets.decoder one (file.map some) = data.map some ∧
    Changesets.readerDecoder one (file.map some) = data.map some ∧ Changesets.tagDecoder one (file.map some) = data.map some :=
  ⟨Bzip2.multi_whole ho h, Bzip2.multi_whole ho h, Bzip2.multi_whole ho h, Bzip2.multi_whole ho h⟩

/-- **C93**, all readers of compressed files. Whatever the data: a compressed file, however it is cut into streams and whichever encoder made them, is read as the data
themselves are. -/
theorem C93_same {one : Bzip2.One} (ho : Undoes one) {file data : List UInt8} (h : Bzip2.File file data) (norm : Xml.Config) (later : QuickXml.Events)
    {files plain : Files} {name : FileName} (hf : files name = some (file.map some)) (hp : plain name = some (data.map some)) :
    readXml norm (Xml.decoder one) files name = fromFilenameUncompressed norm plain name ∧
    fromFilenameBz2 norm (Xml.decoder one) files name = fromFilenameUncompressed norm plain name ∧
    Changesets.fromFilename later (Changesets.decoder one) files name = some (QuickXml.eventsOf data) ∧
    Changesets.fromBz2Reader later (Changesets.readerDecoder one) (file.map some) = QuickXml.eventsOf data ∧
    Changesets.tagsFromFilename later (Changesets.tagDecoder one) files name = some (Changesets.newTagReader (QuickXml.eventsOf data)) := by
  obtain ⟨h1, h2, h3, h4⟩ := C93_data ho h
  simp only [readXml, fromFilenameBz2, fromFilenameUncompressed, Changesets.fromFilename, Changesets.fromBz2Reader, Changesets.tagsFromFilename, hf, hp, h1, h2, h3, h4,
    eventsOfSource_whole, and_self]

/-- **C93**, XML. What an XML writer left in its sink, compressed in any number of streams, is read back by name. -/
theorem C93_xml (norm : Xml.Config) (hn : IsNorm norm) (σ : HashOrder) (k : Sink) (hk : k.Reliable) (hk0 : k.out = [])
    (cs : List (Call f.Obj)) (hv : AllVersioned cs) (hc : ∀ c ∈ cs, c.isClose = false) (hh : HeadersOk (headersOf cs))
    (hw : ∀ o ∈ written cs, Writable o) {doc : List UInt8}
    (hdoc : doc = (XMLWriter.drop σ (run (xmlCall σ) (XMLWriter.new k) cs).2).2.writer.out)
    {one : Bzip2.One} (ho : Undoes one) {file : List UInt8} (hfile : Bzip2.File file doc) {files : Files} {name : FileName}
    (hf : files name = some (file.map some)) :
    ∃ r os, readXml norm (Xml.decoder one) files name = some r ∧ Drain XMLReader.next r os none [] ∧
      os.map objData = (written cs).map fun o => readBack (objData o) :=
  (C86_xml norm hn σ k hk hk0 cs hv hc hh hw hdoc (Xml.decoder one) hf).1 (C93_data ho hfile).1

/-- **C93**, XML files that are damaged: the file is cut off somewhere, or reading it fails somewhere (at `a`). The reader gives some number `j` of the objects,
equal in everything, and then panics. If it says the end instead, all objects were given. The objects that were in the document already where a complete stream
ends are all given. -/
theorem C93_xml_damaged (norm : Xml.Config) (hn : IsNorm norm) (σ : HashOrder) (k : Sink) (hk : k.Reliable) (hk0 : k.out = [])
    (cs : List (Call f.Obj)) (hv : AllVersioned cs) (hc : ∀ c ∈ cs, c.isClose = false) (hh : HeadersOk (headersOf cs))
    (hw : ∀ o ∈ written cs, Writable o) {doc : List UInt8}
    (hdoc : doc = (XMLWriter.drop σ (run (xmlCall σ) (XMLWriter.new k) cs).2).2.writer.out)
    {one : Bzip2.One} (ho : Undoes one) {file : List UInt8} (hfile : Bzip2.File file doc) {a : List UInt8} (ha : a <+: file) {tail : Source}
    (ht : tail = [] ∨ ∃ after, tail = none :: after) {files : Files} {name : FileName} (hf : files name = some (a.map some ++ tail)) :
    ∃ r os e j, readXml norm (Xml.decoder one) files name = some r ∧ Drain XMLReader.next r os e [] ∧ j ≤ (written cs).length ∧
      os.map objData = ((written cs).take j).map (fun o => readBack (objData o)) ∧
      (e = some .unwrap ∨ (e = none ∧ j = (written cs).length ∧ tail = [] ∧ Bzip2.File a doc)) ∧
      ∀ a1 y1, Bzip2.File a1 y1 → a1 <+: a → ∀ cs1, cs1 <+: cs → written cs1 ≠ [] →
        (run (xmlCall σ) (XMLWriter.new k) cs1).2.writer.out <+: y1 → (written cs1).length ≤ j := by
  obtain ⟨y, hy, -, hy1, hm⟩ := Bzip2.multi_cut ho hfile ha ht
  have hm : (Xml.decoder one (a.map some ++ tail) = y.map some ++ [none] ∨
    (Xml.decoder one (a.map some ++ tail) = y.map some ∧ tail = [] ∧ Bzip2.File a y)) := hm
  have hcs : ∀ cs1, cs1 <+: cs → (written cs1).length ≤ (written cs).length := by
    rintro cs1 hp
    exact (written_prefix hp (fun c h => hc c (hp.subset h))).length_le
  by_cases hyd : y = doc
  · subst hyd
    rcases hm with hm | ⟨hm, ht', hF⟩
    · obtain ⟨r, os, h1, h2, h3⟩ := (C86_xml norm hn σ k hk hk0 cs hv hc hh hw hdoc (fun s => s) (files := fun _ => some (y.map some)) (name := []) rfl).1 rfl
      have h1 := Option.some.inj h1
      rw [(C83_whole norm y).1] at h1
      subst h1
      refine ⟨_, os, _, _, by rw [readXml, fromFilenameBz2, hf], ?_, Nat.le_refl _, by rw [List.take_length]; exact h3, .inl rfl,
        fun _ _ _ _ cs1 h _ _ => hcs cs1 h⟩
      rw [hm]
      exact over_then_fails h2 []
    · obtain ⟨r, os, h1, h2, h3⟩ := (C86_xml norm hn σ k hk hk0 cs hv hc hh hw hdoc (Xml.decoder one) hf).1 hm
      exact ⟨r, os, none, _, h1, h2, Nat.le_refl _, by rw [List.take_length]; exact h3, .inr ⟨rfl, rfl, ht', hF⟩, fun _ _ _ _ cs1 h _ _ => hcs cs1 h⟩
  · have hm : ∃ t : Source, (t = [] ∨ ∃ after, t = none :: after) ∧ Xml.decoder one (a.map some ++ tail) = y.map some ++ t := by
      rcases hm with hm | ⟨hm, -, -⟩
      · exact ⟨[none], .inr ⟨[], rfl⟩, hm⟩
      · exact ⟨[], .inl rfl, by rw [List.append_nil]; exact hm⟩
    obtain ⟨t, ht', hm⟩ := hm
    obtain ⟨j, h1, h2, h3, -⟩ := C86_xml_damaged norm hn σ k hk hk0 cs hv hc hh hw hdoc hy hyd ht' (Xml.decoder one) hf
    obtain ⟨r, os, h4, h5, h6⟩ := h3 hm
    exact ⟨r, os, _, j, h4, h5, h1, h6, .inl rfl, fun a1 y1 hF hp cs1 hp1 hne hw1 => (h2 cs1 hp1 hne).mpr (hw1.trans (hy1 a1 y1 hF hp))⟩

/-- **C93**, changesets. A dump compressed in any number of streams gives one result per changeset, in order, and then the end. -/
theorem C93_changesets {t : Str} {ts : List Lex.Tok} {doc : Forest} (h : Lex.Document t ts doc) {ds : List (Bool × Option Cs.Data)}
    (hd : Cs.DumpText ts ds) (bom : List UInt8) (hb : bom = [] ∨ bom = [0xEF, 0xBB, 0xBF])
    {one : Bzip2.One} (ho : Undoes one) {file : List UInt8} (hfile : Bzip2.File file (bom ++ Utf8.encode t))
    (later : QuickXml.Events) {files : Files} {name : FileName} (hf : files name = some (file.map some)) :
    ∃ s rs, Changesets.fromFilename later (Changesets.decoder one) files name = some s ∧
      Changesets.fromBz2Reader later (Changesets.readerDecoder one) (file.map some) = s ∧
      Cs.Results Changesets.nextChangeset s rs [] ∧ List.Forall₂ (fun r d => Cs.Fits r d.2) rs ds := by
  obtain ⟨s, rs, h1, h2, h3, h4⟩ := C86_changesets h hd bom hb later (Changesets.decoder one) hf (C93_data ho hfile).2.1
  refine ⟨s, rs, h1, ?_, h3, h4⟩
  rw [← h2, Changesets.fromBz2Reader, Changesets.fromBz2Reader, (C93_data ho hfile).2.1, (C93_data ho hfile).2.2.1]

/-- **C93**, tags of changesets. -/
theorem C93_tags {t : Str} {ts : List Lex.Tok} {doc : Forest} (h : Lex.Document t ts doc) {ds : List (UInt64 × List (Str × Str))}
    (hd : Cs.TagDumpText ts ds) {one : Bzip2.One} (ho : Undoes one) {file : List UInt8} (hfile : Bzip2.File file (Utf8.encode t))
    (later : QuickXml.Events) {files : Files} {name : FileName} (hf : files name = some (file.map some)) :
    ∃ s s', Changesets.tagsFromFilename later (Changesets.tagDecoder one) files name = some s ∧ Cs.Results Changesets.nextTag s (ds.map .ok) s' :=
  C86_tags h hd later (Changesets.tagDecoder one) hf (C93_data ho hfile).2.2.2

/-- **C93**, dumps that are damaged: the file is cut off within a stream, or reading it fails somewhere (at `a`). The changesets that are complete where a complete
stream ends are given, in order; there may be more; and then there is an error. -/
theorem C93_changesets_damaged {data file : List UInt8} {one : Bzip2.One} (ho : Undoes one) (hfile : Bzip2.File file data) {a : List UInt8} (ha : a <+: file)
    {tail : Source} (ht : (tail = [] ∧ ¬ ∃ y, Bzip2.File a y) ∨ ∃ after, tail = none :: after)
    {a1 y1 : List UInt8} (h1 : Bzip2.File a1 y1) (hp : a1 <+: a)
    {t : Str} {ts : List Lex.Tok} (h : Cs.Begins t ts) {ds : List (Bool × Option Cs.Data)} (hd : Cs.DumpText ts ds)
    (bom : List UInt8) (hb : bom = [] ∨ bom = [0xEF, 0xBB, 0xBF]) (hy1 : bom ++ Utf8.encode t <+: y1)
    (later : QuickXml.Events) {files : Files} {name : FileName} (hf : files name = some (a.map some ++ tail)) :
    ∃ s rs more, Changesets.fromFilename later (Changesets.decoder one) files name = some s ∧
      Changesets.fromBz2Reader later (Changesets.readerDecoder one) (a.map some ++ tail) = s ∧
      List.Forall₂ (fun r d => Cs.Fits r d.2) rs ds ∧
      Cs.Answers Changesets.nextChangeset s (rs.map Cs.answer ++ more ++ [.error .xml]) later := by
  obtain ⟨y, hy, -, hyp, hm⟩ := Bzip2.multi_cut ho hfile ha (tail := tail) (ht.imp (·.1) id)
  have hm : Bzip2.multi one (a.map some ++ tail) = y.map some ++ [none] := by
    rcases hm with hm | ⟨-, h2, h3⟩
    · exact hm
    · rcases ht with ⟨-, h4⟩ | ⟨after, rfl⟩
      · exact absurd ⟨y, h3⟩ h4
      · cases h2
  obtain ⟨x, hx⟩ := hy1.trans (hyp a1 y1 h1 hp)
  rw [← hx] at hm
  obtain ⟨s, rs, more, h2, h3, h4, h5⟩ := C86_changesets_damaged h hd bom hb x [] later (Changesets.decoder one) hf hm
  refine ⟨s, rs, more, h2, ?_, h4, h5⟩
  rw [← h3]
  rfl

/-- **C93**, the program that stores tags of changesets in a database, on a file that is damaged in that way: it stores nothing, and does not report success. -/
theorem C93_program_damaged {data file : List UInt8} {one : Bzip2.One} (ho : Undoes one) (hfile : Bzip2.File file data) {a : List UInt8} (ha : a <+: file)
    {tail : Source} (ht : (tail = [] ∧ ¬ ∃ y, Bzip2.File a y) ∨ ∃ after, tail = none :: after)
    (later : QuickXml.Events) {files : Files} (dbs : TagsToSqlite.Databases) {args : List FileName} {name db : FileName} (h1 : args[1]? = some name)
    (hf : files name = some (a.map some ++ tail)) (hdb : dbs db = none) (fails : Nat → Bool) :
    (∀ n, Cs.NoRows ((TagsToSqlite.Main.after fails (TagsToSqlite.Main.start later (Changesets.tagDecoder one) files dbs args) n).databases dbs db)) ∧
    ∃ n, ∀ k, n ≤ k → (TagsToSqlite.Main.after fails (TagsToSqlite.Main.start later (Changesets.tagDecoder one) files dbs args) k).failed = true := by
  obtain ⟨y, hy, -, hyp, hm⟩ := Bzip2.multi_cut ho hfile ha (tail := tail) (ht.imp (·.1) id)
  have hm : Changesets.tagDecoder one (a.map some ++ tail) = y.map some ++ [none] := by
    rcases hm with hm | ⟨-, h2, h3⟩
    · exact hm
    · rcases ht with ⟨-, h4⟩ | ⟨after, rfl⟩
      · exact absurd ⟨y, h3⟩ h4
      · cases h2
  have he : QuickXml.eventsOfSource later (Changesets.tagDecoder one (a.map some ++ tail)) = QuickXml.eventsFailing y later := by
    rw [hm]; exact eventsOfSource_failing later y []
  constructor
  · intro n
    have := C69_disk later (Changesets.tagDecoder one) files dbs args fails n db
    rw [hdb] at this
    rcases this with h | ⟨cs, f, ds, hs, hpr, -⟩
    · exact h
    · obtain ⟨rfl⟩ : name = cs := Option.some.inj (h1.symm.trans hs.1)
      obtain ⟨rfl⟩ : _ = f := Option.some.inj (hf.symm.trans hs.2.2)
      rw [he] at hpr
      exact absurd hpr (failing_provides _ _ _)
  · rcases main_cases later (Changesets.tagDecoder one) files dbs args fails 0 with ⟨cs, db', f, hs, -⟩ | ⟨h, -⟩
    · obtain ⟨rfl⟩ : name = cs := Option.some.inj (h1.symm.trans hs.1)
      obtain ⟨rfl⟩ : _ = f := Option.some.inj (hf.symm.trans hs.2.2)
      have key : ∃ n, ∀ m, n ≤ m → (TagsToSqlite.after fails (TagsToSqlite.start (QuickXml.eventsFailing y later) (dbs db')) m).phase = .failed := by
        cases ho : dbs db' with
        | none => exact (C85_program y later fails).2
        | some old => exact ⟨1, fun m hm => (C69_existing _ old fails m).2 hm⟩
      obtain ⟨n, hn⟩ := key
      refine ⟨n, fun k hk => ?_⟩
      rcases main_cases later (Changesets.tagDecoder one) files dbs args fails k with ⟨cs', db'', f', hs', e⟩ | ⟨h, -⟩
      · obtain ⟨rfl⟩ : name = cs' := Option.some.inj (h1.symm.trans hs'.1)
        obtain ⟨rfl⟩ : db' = db'' := Option.some.inj (hs.2.1.symm.trans hs'.2.1)
        obtain ⟨rfl⟩ : _ = f' := Option.some.inj (hf.symm.trans hs'.2.2)
        rw [e, he]
        exact decide_eq_true (hn k hk)
      · exact absurd ⟨_, _, _, hs⟩ h
    · exact ⟨0, fun k _ => (C69_unopened later (Changesets.tagDecoder one) files dbs args fails h k).1⟩

/-- The program, on a compressed file of any bytes that its reader takes to the end without an error. -/
theorem program_stores {one : Bzip2.One} (ho : Undoes one) {file data : List UInt8} (hfile : Bzip2.File file data)
    {ds : List (UInt64 × List (Str × Str))} (hp : Cs.Provides (QuickXml.eventsOf data) ds) (hnd : (ds.map (·.1)).Nodup)
    (later : QuickXml.Events) {files : Files} (dbs : TagsToSqlite.Databases) {args : List FileName} {name db : FileName} (h1 : args[1]? = some name)
    (h2 : args[2]? = some db) (hf : files name = some (file.map some)) (hdb : dbs db = none) (fails : Nat → Bool) (hok : ∀ t, fails t = false) :
    ∃ n, (TagsToSqlite.Main.after fails (TagsToSqlite.Main.start later (Changesets.tagDecoder one) files dbs args) n).succeeded = true ∧
      Cs.Table ds ((TagsToSqlite.Main.after fails (TagsToSqlite.Main.start later (Changesets.tagDecoder one) files dbs args) n).databases dbs db) := by
  have he : QuickXml.eventsOfSource later (Changesets.tagDecoder one (file.map some)) = QuickXml.eventsOf data := by
    rw [(C93_data ho hfile).2.2.2, eventsOfSource_whole]
  obtain ⟨n, hn⟩ := (C69_success_iff (QuickXml.eventsOf data) fails hok).2 ⟨ds, hp, hnd⟩
  rcases main_cases later (Changesets.tagDecoder one) files dbs args fails n with ⟨cs', db', f', hs', e⟩ | ⟨h, -⟩
  · obtain ⟨rfl⟩ : name = cs' := Option.some.inj (h1.symm.trans hs'.1)
    obtain ⟨rfl⟩ : db = db' := Option.some.inj (h2.symm.trans hs'.2.1)
    obtain ⟨rfl⟩ : _ = f' := Option.some.inj (hf.symm.trans hs'.2.2)
    refine ⟨n, ?_, ?_⟩
    · rw [e, he, hdb]; exact decide_eq_true hn
    · rw [e, he, hdb]
      obtain ⟨ds', ⟨s'', hr'⟩, ht⟩ := (C69_result _ fails n).1 hn
      obtain ⟨s', h3⟩ := hp
      have e := (C53_unique h3 hr').1
      have : ds = ds' := List.map_injective_iff.2 (fun a b (h : Except.ok (ε := Changesets.Err) a = .ok b) => by injection h) e
      simp only [TagsToSqlite.Main.databases, if_true]
      rw [this]; exact ht
  · exact absurd ⟨_, _, _, h1, h2, hf⟩ h

/-- **C93**, the program that stores tags of changesets, on a dump compressed in any number of streams: every tag is stored. -/
theorem C93_program {t : Str} {ts : List Lex.Tok} {doc : Forest} (h : Lex.Document t ts doc) {ds : List (UInt64 × List (Str × Str))}
    (hd : Cs.TagDumpText ts ds) (hnd : (ds.map (·.1)).Nodup) {one : Bzip2.One} (ho : Undoes one) {file : List UInt8} (hfile : Bzip2.File file (Utf8.encode t))
    (later : QuickXml.Events) {files : Files} (dbs : TagsToSqlite.Databases) {args : List FileName} {name db : FileName} (h1 : args[1]? = some name)
    (h2 : args[2]? = some db) (hf : files name = some (file.map some)) (hdb : dbs db = none) (fails : Nat → Bool) (hok : ∀ t, fails t = false) :
    ∃ n, (TagsToSqlite.Main.after fails (TagsToSqlite.Main.start later (Changesets.tagDecoder one) files dbs args) n).succeeded = true ∧
      Cs.Table ds ((TagsToSqlite.Main.after fails (TagsToSqlite.Main.start later (Changesets.tagDecoder one) files dbs args) n).databases dbs db) :=
  program_stores ho hfile (let ⟨s', _, h'⟩ := C53_text h hd; ⟨s', h'⟩) hnd later dbs h1 h2 hf hdb fails hok

/-- **C93, counterexample** for a file that is cut off between two streams (`a`), where its data are a part of a dump that ends outside a changeset: the reader says the
end there, and the program stores the rows of that part and reports success. -/
theorem C93_cut_fails {data file : List UInt8} {one : Bzip2.One} (ho : Undoes one) (_ : Bzip2.File file data) {a : List UInt8} (_ : a <+: file)
    {t : Str} (ha : Bzip2.File a (Utf8.encode t)) {ts : List Lex.Tok} (h : Cs.Begins t ts) (later : QuickXml.Events)
    {files : Files} (dbs : TagsToSqlite.Databases) {args : List FileName} {name db : FileName} (h1 : args[1]? = some name)
    (h2 : args[2]? = some db) (hf : files name = some (a.map some)) (hdb : dbs db = none) (fails : Nat → Bool) (hok : ∀ t, fails t = false) :
    (∀ ds, Cs.DumpText ts ds → ∃ s rs, Changesets.fromFilename later (Changesets.decoder one) files name = some s ∧
      Cs.Results Changesets.nextChangeset s rs [] ∧ List.Forall₂ (fun r d => Cs.Fits r d.2) rs ds) ∧
    ∀ ds, Cs.TagDumpText ts ds → (ds.map (·.1)).Nodup →
      ∃ n, (TagsToSqlite.Main.after fails (TagsToSqlite.Main.start later (Changesets.tagDecoder one) files dbs args) n).succeeded = true ∧
        Cs.Table ds ((TagsToSqlite.Main.after fails (TagsToSqlite.Main.start later (Changesets.tagDecoder one) files dbs args) n).databases dbs db) := by
  constructor
  · intro ds hd
    obtain ⟨rs, h3, h4⟩ := C85_cut_fails h hd [] (.inl rfl)
    exact ⟨_, rs, (C93_same ho ha .keep later hf (plain := fun _ => some ((Utf8.encode t).map some)) rfl).2.2.1, h4, h3⟩
  · intro ds hd hnd
    obtain ⟨h3, h4⟩ := Changesets.reports_begins h (.inl rfl)
    obtain ⟨s', -, h5⟩ := Changesets.tagDump_results (QuickXml.tagDump_of_text hd h4 h3) none []
    exact program_stores ho ha ⟨s', h5⟩ hnd later dbs h1 h2 hf hdb fails hok

/-- **C93**: all data, cut into two streams anywhere, have such files. (So what is assumed of files above can be met whatever the document is.) -/
theorem C93_every (x y : List UInt8) : ∃ a b, Bzip2.File a x ∧ Bzip2.File (a ++ b) (x ++ y) :=
  let ⟨a, b, h1, _, h3⟩ := Bzip2.file_every x y
  ⟨a, b, ⟨[(a, x)], by simp, by simpa using h1, by simp, by simp⟩, h3⟩

/-! The hypotheses are met, by what `bzip2` itself writes. -/

namespace Bz2Ex

/-- Two streams, one after the other. -/
theorem file : Bzip2.File (Bzip2.Ex.stream1 ++ Bzip2.Ex.stream2) (Bzip2.Ex.data1 ++ Bzip2.Ex.data2) :=
  ⟨[(Bzip2.Ex.stream1, Bzip2.Ex.data1), (Bzip2.Ex.stream2, Bzip2.Ex.data2)], by simp, by
    intro s hs
    simp only [List.mem_cons, List.not_mem_nil, or_false] at hs
    rcases hs with rfl | rfl
    · exact Bzip2.Ex.isStream1
    · exact Bzip2.Ex.isStream2, by simp, by simp⟩

/-- The same data in one document. -/
theorem data : Bzip2.Ex.data1 ++ Bzip2.Ex.data2 = Utf8.encode (str% "<osm version=\"0.6\"><way id=\"7\"/></osm>") := by decide +kernel

/-- The first stream is not the whole file. -/
theorem cut : ¬ ∃ y, Bzip2.File (Bzip2.Ex.stream1 ++ [66, 90]) y := by
  rintro ⟨y, h⟩
  have h1 := Bzip2.multi_whole C93_possible h
  have h2 : none ∈ Bzip2.multi Bzip2.one ((Bzip2.Ex.stream1 ++ [66, 90]).map some) := by decide +kernel
  rw [h1] at h2
  simp at h2

end Bz2Ex

example (norm : Xml.Config) : readXml norm (Xml.decoder Bzip2.one) (oneFile ((Bzip2.Ex.stream1 ++ Bzip2.Ex.stream2).map some)) [97] =
    fromFilenameUncompressed norm (oneFile ((Utf8.encode (str% "<osm version=\"0.6\"><way id=\"7\"/></osm>")).map some)) [97] := by
  rw [← Bz2Ex.data]
  exact (C93_same C93_possible Bz2Ex.file norm [] rfl rfl).1

/-- The way is in the second stream. -/
example : (readXml .keep (Xml.decoder Bzip2.one) (oneFile ((Bzip2.Ex.stream1 ++ Bzip2.Ex.stream2).map some)) [97]).map
    (fun r => match XMLReader.next r with | (.ok (some o), _) => some (objData o).view.id | _ => none) = some (some 7) := by
  rw [(C93_same C93_possible Bz2Ex.file .keep [] rfl (plain := oneFile ((Bzip2.Ex.data1 ++ Bzip2.Ex.data2).map some)) rfl).1]
  decide +kernel

theorem Bz2Ex.cut_prefix : Bzip2.Ex.stream1 ++ [66, 90] <+: Bzip2.Ex.stream1 ++ Bzip2.Ex.stream2 :=
  List.prefix_append_right_inj _ |>.mpr ⟨Bzip2.Ex.stream2.drop 2, rfl⟩

/-- A file with damage past a stretch `a` of it. -/
theorem Bz2Ex.oneFile_eq (a : List UInt8) : oneFile (a.map some) [97] = some (a.map some ++ []) := by
  rw [List.append_nil]; rfl

/-- The file cut off within its second stream: nothing is stored. -/
example (later : QuickXml.Events) (fails : Nat → Bool) (n : Nat) : Cs.NoRows ((TagsToSqlite.Main.after fails (TagsToSqlite.Main.start later
    (Changesets.tagDecoder Bzip2.one) (oneFile ((Bzip2.Ex.stream1 ++ [66, 90]).map some)) (fun _ => none) [[112], [97], [100]]) n).databases (fun _ => none) [100]) :=
  (C93_program_damaged C93_possible Bz2Ex.file Bz2Ex.cut_prefix (.inl ⟨rfl, Bz2Ex.cut⟩)
    later (fun _ => none) (args := [[112], [97], [100]]) (name := [97]) (db := [100]) rfl (Bz2Ex.oneFile_eq _) rfl fails).1 n

/-- A dump in two streams, the second of which has only the end of the outer element. -/
theorem Bz2Ex.dump : Bzip2.File (Bzip2.Ex.stream3 ++ Bzip2.Ex.stream4) (Bzip2.Ex.data3 ++ Bzip2.Ex.data4) :=
  ⟨[(Bzip2.Ex.stream3, Bzip2.Ex.data3), (Bzip2.Ex.stream4, Bzip2.Ex.data4)], by simp, by
    intro s hs
    simp only [List.mem_cons, List.not_mem_nil, or_false] at hs
    rcases hs with rfl | rfl
    · exact Bzip2.Ex.isStream3
    · exact Bzip2.Ex.isStream4, by simp, by simp⟩

theorem Bz2Ex.part : Bzip2.File Bzip2.Ex.stream3 Bzip2.Ex.data3 :=
  ⟨[(Bzip2.Ex.stream3, Bzip2.Ex.data3)], by simp, by simpa using Bzip2.Ex.isStream3, by simp, by simp⟩

namespace Bz2Ex
open CsText Spec.Lex

def part7 : List SrcAttr := [⟨str% "id", str% "7", str% "7"⟩]
def partAB : List SrcAttr := [⟨str% "k", str% "a", str% "a"⟩, ⟨str% "v", str% "b", str% "b"⟩]
def partText : Str := str% "<osm><changeset" ++ (str% " id='7'" ++ (str% "><tag" ++ (str% " k='a' v='b'" ++ str% "/></changeset>")))
def partToks : List Tok := [.start (str% "osm") [], .start (str% "changeset") part7, .empty (str% "tag") partAB, .stop (str% "changeset")]

theorem partBegins : Cs.Begins partText partToks :=
  .plain
    (.start (n := str% "osm") (a := []) (w := []) (isName_of (by decide +kernel)) .nil (by decide) (by decide)
      (.start (n := str% "changeset") (a := str% " id='7'") (w := []) (isName_of (by decide +kernel))
        (attr (key := str% "id") (isName_of (by decide +kernel)) (by decide) (plain_value (s := str% "7") (by decide +kernel)) .nil) (by decide) (by decide)
        (.empty (n := str% "tag") (a := str% " k='a' v='b'") (w := []) (isName_of (by decide +kernel))
          (attr (key := str% "k") (isName_of (by decide +kernel)) (by decide) (plain_value (s := str% "a") (by decide +kernel))
            (attr (key := str% "v") (isName_of (by decide +kernel)) (by decide) (plain_value (s := str% "b") (by decide +kernel)) .nil)) (by decide) (by decide)
          (.stop (n := str% "changeset") (w := []) (isName_of (by decide +kernel)) (by decide) .nil))))
    (.start (.start (.empty (.stop .nil)))) (by decide)

theorem partDump : Cs.TagDumpText partToks [(7, [(str% "a", str% "b")])] :=
  .other (aside_start (by decide) (by decide)) (.full (body := [.empty (str% "tag") partAB]) (s := str% "7")
    ⟨⟨_, str% "7", _⟩, by simp [part7], rfl, rfl⟩ (by decide +kernel)
    (.tag (.inr rfl) ⟨⟨_, str% "a", _⟩, by simp [partAB], rfl, rfl⟩ ⟨⟨_, str% "b", _⟩, by simp [partAB], rfl, rfl⟩ .nil) .nil)

theorem partData : Bzip2.Ex.data3 = Utf8.encode partText := by decide +kernel

end Bz2Ex

/-- The dump cut off after its first stream: the program reports success. -/
example (later : QuickXml.Events) : ∃ n, (TagsToSqlite.Main.after (fun _ => false) (TagsToSqlite.Main.start later
    (Changesets.tagDecoder Bzip2.one) (oneFile (Bzip2.Ex.stream3.map some)) (fun _ => none) [[112], [97], [100]]) n).succeeded = true :=
  let ⟨n, h, _⟩ := (C93_cut_fails C93_possible Bz2Ex.dump (List.prefix_append _ _) (Bz2Ex.partData ▸ Bz2Ex.part) Bz2Ex.partBegins later (fun _ => none)
    (args := [[112], [97], [100]]) (name := [97]) (db := [100]) rfl rfl (by rfl) rfl (fun _ => false) (fun _ => rfl)).2 _ Bz2Ex.partDump (by simp)
  ⟨n, h⟩

/-- What a writer left, compressed. -/
example (σ : HashOrder) (doc : List UInt8)
    (hdoc : doc = (XMLWriter.drop σ (run (xmlCall (α := Family.string.Obj) σ) (XMLWriter.new ⟨[], []⟩) sampleHistory).2).2.writer.out) :
    ∃ file r os, Bzip2.File file doc ∧ readXml .keep (Xml.decoder Bzip2.one) (oneFile (file.map some)) [97] = some r ∧
      Drain XMLReader.next r os none [] ∧ os.length = 2 := by
  obtain ⟨a, b, -, hfile⟩ := C93_every (doc.take 30) (doc.drop 30)
  rw [List.take_append_drop] at hfile
  obtain ⟨r, os, h1, h2, h3⟩ := C93_xml (f := .string) .keep (fun _ _ _ _ => rfl) σ ⟨[], []⟩ (fun _ h => by cases h) rfl sampleHistory C84_nonvacuous.1
    C84_nonvacuous.2.1 C84_nonvacuous.2.2.1 C84_nonvacuous.2.2.2.1 hdoc C93_possible hfile (files := oneFile ((a ++ b).map some)) (name := [97]) rfl
  refine ⟨_, r, os, hfile, h1, h2, ?_⟩
  have := congrArg List.length h3
  rw [List.length_map, List.length_map] at this
  exact this

/-- The same, where the source fails behind the first of the two streams, which has everything but the last 3 bytes: all objects are given. -/
example (σ : HashOrder) (doc : List UInt8)
    (hdoc : doc = (XMLWriter.drop σ (run (xmlCall (α := Family.string.Obj) σ) (XMLWriter.new ⟨[], []⟩) sampleHistory).2).2.writer.out) :
    ∃ (a : List UInt8) (r : List (Option XmlEvent)) (os : List StringOSMObj) (e : Option Panic) (j : Nat), readXml .keep (Xml.decoder Bzip2.one) (oneFile (a.map some ++ [none])) [97] = some r ∧
      Drain XMLReader.next r os e [] ∧ e = some .unwrap ∧ os.length = j ∧
      ∀ cs1, cs1 <+: sampleHistory → written cs1 ≠ [] →
        (run (xmlCall (α := Family.string.Obj) σ) (XMLWriter.new ⟨[], []⟩) cs1).2.writer.out <+: doc.take (doc.length - 3) → (written cs1).length ≤ j := by
  obtain ⟨a, b, ha, hfile⟩ := C93_every (doc.take (doc.length - 3)) (doc.drop (doc.length - 3))
  rw [List.take_append_drop] at hfile
  obtain ⟨r, os, e, j, h1, h2, h3, h4, h5, h6⟩ := C93_xml_damaged (f := .string) .keep (fun _ _ _ _ => rfl) σ ⟨[], []⟩ (fun _ h => by cases h) rfl sampleHistory
    C84_nonvacuous.1 C84_nonvacuous.2.1 C84_nonvacuous.2.2.1 C84_nonvacuous.2.2.2.1 hdoc C93_possible hfile (List.prefix_append a b)
    (tail := [none]) (.inr ⟨[], rfl⟩) (files := oneFile (a.map some ++ [none])) (name := [97]) rfl
  refine ⟨a, r, os, e, j, h1, h2, ?_, ?_, fun cs1 h => h6 a _ ha (List.prefix_refl a) cs1 h⟩
  · rcases h5 with h | ⟨-, -, h, -⟩
    · exact h
    · cases h
  · have := congrArg List.length h4
    rw [List.length_map, List.length_map, List.length_take, Nat.min_eq_left h3] at this
    exact this

/-- A dump of changesets, compressed in two streams, read by all that read it. -/
example (later : QuickXml.Events) : ∃ file, Bzip2.File file (Utf8.encode CsText.text) ∧
    (∃ s c, Changesets.fromFilename later (Changesets.decoder Bzip2.one) (oneFile (file.map some)) [97] = some s ∧
      Cs.Fits (.ok c) (some CsText.data7) ∧ ∃ e, Cs.Results Changesets.nextChangeset s [.ok c, .error e] []) ∧
    (∃ s s', Changesets.tagsFromFilename later (Changesets.tagDecoder Bzip2.one) (oneFile (file.map some)) [97] = some s ∧
      Cs.Results Changesets.nextTag s [.ok (7, [(str% "c", str% "'é")])] s') ∧
    ∃ n, Cs.Table [(7, [(str% "c", str% "'é")])] ((TagsToSqlite.Main.after (fun _ => false) (TagsToSqlite.Main.start later
      (Changesets.tagDecoder Bzip2.one) (oneFile (file.map some)) (fun _ => none) [[112], [97], [100]]) n).databases (fun _ => none) [100]) := by
  obtain ⟨f, h⟩ := CsText.document
  obtain ⟨a, b, -, hfile⟩ := C93_every ((Utf8.encode CsText.text).take 50) ((Utf8.encode CsText.text).drop 50)
  rw [List.take_append_drop] at hfile
  refine ⟨_, hfile, ?_, ?_, ?_⟩
  · obtain ⟨s, rs, h1, -, h2, h3⟩ := C93_changesets h CsText.dumpText [] (.inl rfl) C93_possible (by rw [List.nil_append]; exact hfile) later
      (files := oneFile ((a ++ b).map some)) (name := [97]) rfl
    cases h3 with
    | @cons r _ rs _ h4 h5 =>
      cases h5 with
      | @cons r' _ _ _ h6 h7 =>
        cases h7
        cases r with
        | error e => exact absurd h4 id
        | ok c =>
          cases r' with
          | ok c => exact absurd h6 id
          | error e => exact ⟨s, c, h1, h4, e, h2⟩
  · exact C93_tags h CsText.tagDumpText C93_possible hfile later (files := oneFile ((a ++ b).map some)) (name := [97]) rfl
  · obtain ⟨n, -, h1⟩ := C93_program h CsText.tagDumpText (by simp) C93_possible hfile later (files := oneFile ((a ++ b).map some)) (fun _ => none)
      (args := [[112], [97], [100]]) (name := [97]) (db := [100]) rfl rfl rfl rfl (fun _ => false) (fun _ => rfl)
    exact ⟨n, h1⟩

/-- Its first changeset in a stream of its own, and reading fails in the next: the changeset is given, there is an error at the end. -/
example (later : QuickXml.Events) (x : List UInt8) : ∃ a s c more, Bzip2.File a (Utf8.encode CsText.cut) ∧
    Changesets.fromFilename later (Changesets.decoder Bzip2.one) (oneFile (a.map some ++ [none])) [97] = some s ∧ Cs.Fits (.ok c) (some CsText.data7) ∧
    Cs.Answers Changesets.nextChangeset s (.ok (some c) :: more ++ [.error .xml]) later := by
  obtain ⟨a, b, ha, hfile⟩ := C93_every (Utf8.encode CsText.cut) x
  obtain ⟨s, rs, more, h1, -, h2, h3⟩ := C93_changesets_damaged C93_possible hfile (List.prefix_append a b) (tail := [none]) (.inr ⟨[], rfl⟩) ha
    (List.prefix_refl a) CsText.begins CsText.cutDump [] (.inl rfl) (by rw [List.nil_append]) later (files := oneFile (a.map some ++ [none])) (name := [97]) rfl
  cases h2 with
  | @cons r _ _ _ h4 h5 =>
    cases h5
    cases r with
    | error e => exact absurd h4 id
    | ok c => exact ⟨a, s, c, more, ha, h1, h4, h3⟩

end Osmio
