import Verif.Props.XmlStream
import Verif.Props.ChangesetStream
import Verif.Props.AnySink
import Verif.Props.WriterRead
import Verif.Props.XmlTorn
import Verif.Props.Convert
import Verif.Props.Open
import Verif.Props.Rewrite
import Verif.Props.XmlCut
import Verif.Props.Loops
import Verif.Props.Edit
/-!
# C81 and C83 for loops, and C110: written through any sink and read back through any source

What any number of calls give (C81) settles what a loop sees. So what theorems say of loops over bytes holds for every implementation of `Read`
that gives these bytes.
-/

namespace Osmio
open Spec Spec.Pbf OSMObjBase Xml

/-- Two readers whose calls give the same: a loop sees the same and ends the same way. -/
theorem loop_of_same {α S T : Type} {n1 : S → Res (Option α) × S} {n2 : T → Res (Option α) × T} {s : S} {q : S} {os : List α} {e : Option Panic}
    (h : Drain n1 s os e q) {t : T} (hc : ∀ k, (calls n1 k s).1 = (calls n2 k t).1) : ∃ q', Drain n2 t os e q' := by
  induction h generalizing t with
  | done h =>
    have := hc 1
    simp only [calls, h, List.cons.injEq, and_true] at this
    exact ⟨_, .done (Prod.ext this.symm rfl)⟩
  | panic h =>
    have := hc 1
    simp only [calls, h, List.cons.injEq, and_true] at this
    exact ⟨_, .panic (Prod.ext this.symm rfl)⟩
  | more h _ ih =>
    have h1 := hc 1
    simp only [calls, h, List.cons.injEq, and_true] at h1
    obtain ⟨q', hq⟩ := ih (t := (n2 t).2) fun k => by
      have := hc (k + 1)
      simp only [calls, h, List.cons.injEq] at this
      exact this.2
    exact ⟨q', .more (Prod.ext h1.symm rfl) hq⟩

theorem loop_same {α S T : Type} {n1 : S → Res (Option α) × S} {n2 : T → Res (Option α) × T} {s : S} {t : T}
    (hc : ∀ k, (calls n1 k s).1 = (calls n2 k t).1) (os : List α) (e : Option Panic) : (∃ q, Drain n1 s os e q) ↔ ∃ q, Drain n2 t os e q :=
  ⟨fun ⟨_, h⟩ => loop_of_same h hc, fun ⟨_, h⟩ => loop_of_same h fun k => (hc k).symm⟩

/-- **C81**, loops over the XML and change readers: however the source hands out its bytes, a loop sees the objects it would see of the bytes at once, and ends as it
would, with the end or with a panic. -/
theorem C81_xml_loop {rd : AnyReader} {R : rd.S → Source → Prop} (h : Delivers rd R) {s : rd.S} {src : Source} (hr : R s src) (norm : Xml.Config)
    {rounds : Nat} (hl : 2 * src.length + 1 < rounds) (os : List StringOSMObj) (e : Option Panic) :
    ((∃ q, Drain (XMLReader.Over.next rd norm rounds) (XMLReader.Over.new s) os e q) ↔ ∃ q, Drain XMLReader.next (XMLReader.over norm src) os e q) ∧
    ((∃ q, Drain (OSCReader.Over.next rd norm rounds) (OSCReader.Over.new s) os e q) ↔ ∃ q, Drain OSCReader.next (OSCReader.over norm src) os e q) :=
  ⟨loop_same (C81_xml h hr norm hl) os e, loop_same (C81_osc h hr norm hl) os e⟩

/-- **C81**, loops over the PBF readers, whichever kinds of objects they are asked for. -/
theorem C81_pbf_loop {rd : AnyReader} {R : rd.S → Source → Prop} (h : Delivers rd R) {s : rd.S} {src : Source} (hr : R s src)
    (zlib : Proto.Bytes → Option Proto.Bytes) (b : Build) {rounds : Nat} (hl : src.length < rounds) :
    (∀ f os e, (∃ q, Drain (StringPbf.ReaderOver.next rd zlib b rounds) { StringPbf.ReaderOver.new s with filter := f } os e q) ↔
      ∃ q, Drain (StringPbf.PBFReader.next zlib b) { StringPbf.PBFReader.new src with filter := f } os e q) ∧
    (∀ os e, (∃ q, Drain (ArcPbf.ReaderOver.next rd zlib b rounds) (.new s) os e q) ↔ ∃ q, Drain (ArcPbf.PBFReader.next zlib b) (.new src) os e q) ∧
    (∀ os e, (∃ q, Drain (NodePos.ReaderOver.next rd zlib b rounds) (.new s) os e q) ↔ ∃ q, Drain (NodePos.Reader.next zlib b) (.new src) os e q) :=
  ⟨fun f os e => loop_same (fun k => (C81_owned h hr zlib b f hl k).1) os e,
   fun os e => loop_same (fun k => (C81_shared h hr zlib b hl k).1) os e,
   fun os e => loop_same (fun k => (C81_positions h hr zlib b hl k).1) os e⟩

/-! ## C85 over any source -/

section dumps
open QuickXml Spec.Cs Spec.Lex Changesets

/-- **C85** over any source. A source that hands out its bytes as it likes and fails after a beginning of a dump, at the end of the text `t` or anywhere behind it: the
changesets complete in `t` come first, however many come after them from the bytes behind, then the error. -/
theorem C85_over {t : Str} {ts : List Tok} (h : Begins t ts) {ds : List (Bool × Option Data)} (hds : DumpText ts ds)
    (bom : List UInt8) (hb : bom = [] ∨ bom = [0xEF, 0xBB, 0xBF]) :
    ∃ rs, List.Forall₂ (fun r d => Fits r d.2) rs ds ∧ ∀ x, ∃ more, (x = [] → more = []) ∧
      ∀ {rd : AnyReader} {R : rd.S → Source → Prop}, Delivers rd R → ∀ {s : rd.S} (after : Source),
        R s ((bom ++ Utf8.encode t ++ x).map some ++ none :: after) → ∀ later,
        ∃ r', Answers (ReaderOver.nextChangeset rd) (ReaderOver.new later s) (rs.map answer ++ more ++ [.error .xml]) r' := by
  obtain ⟨rs, h1, h2, h3⟩ := C85_delivered h hds bom hb
  refine ⟨rs, h1, fun x => ?_⟩
  obtain rfl | hx := eq_or_ne x []
  · refine ⟨[], fun _ => rfl, fun {rd R} hd s after hr later => (C81_changesets hd hr later _).2 ⟨later, ?_⟩⟩
    rw [eventsOfSource_failing]
    simpa using h2 later
  · obtain ⟨more, h4⟩ := h3 x
    refine ⟨more, fun e => absurd e hx, fun {rd R} hd s after hr later => (C81_changesets hd hr later _).2 ⟨later, ?_⟩⟩
    rw [eventsOfSource_failing]
    exact h4 later

/-- **C85** over any source, for the tag reader. -/
theorem C85_over_tags {t : Str} {ts : List Tok} (h : Begins t ts) {ds : List (UInt64 × List (Str × Str))} (hds : TagDumpText ts ds)
    (bom : List UInt8) (hb : bom = [] ∨ bom = [0xEF, 0xBB, 0xBF]) (x : List UInt8) :
    ∃ more, (x = [] → more = []) ∧
      ∀ {rd : AnyReader} {R : rd.S → Source → Prop}, Delivers rd R → ∀ {s : rd.S} (after : Source),
        R s ((bom ++ Utf8.encode t ++ x).map some ++ none :: after) → ∀ later,
        ∃ r', Answers (nextTagFrom rd) (newTagReaderOver later s) (ds.map (fun d => .ok (some d)) ++ more ++ [.error .xml]) r' := by
  obtain ⟨h2, h3⟩ := C85_delivered_tags h hds bom hb
  obtain rfl | hx := eq_or_ne x []
  · refine ⟨[], fun _ => rfl, fun {rd R} hd s after hr later => (C81_changeset_tags hd hr later _).2 ?_⟩
    obtain ⟨s', -, h5⟩ := h2 later
    rw [eventsOfSource_failing]
    exact ⟨s', by simpa using h5⟩
  · obtain ⟨more, h4⟩ := h3 x
    refine ⟨more, fun e => absurd e hx, fun {rd R} hd s after hr later => (C81_changeset_tags hd hr later _).2 ?_⟩
    obtain ⟨s', -, h5⟩ := h4 later
    rw [eventsOfSource_failing]
    exact ⟨s', h5⟩

end dumps

/-- A text with one complete changeset, byte by byte from a source that then fails: the changeset, and the error. -/
example (later : QuickXml.Events) : ∃ (c : Changesets.Changeset) (r' : Changesets.ReaderOver (List Portion)), Spec.Cs.Shows c CsText.data7 ∧
    Spec.Cs.Answers (Changesets.ReaderOver.nextChangeset portions)
      (Changesets.ReaderOver.new later (AnySourceEx.drip (Utf8.encode CsText.cut) ++ [.error])) [.ok (some c), .error .xml] r' := by
  obtain ⟨rs, h1, h2⟩ := C85_over CsText.begins CsText.cutDump [] (.inl rfl)
  obtain ⟨more, h3, h4⟩ := h2 []
  obtain rfl := h3 rfl
  obtain ⟨r', h5⟩ := h4 portions_delivers (s := AnySourceEx.drip (Utf8.encode CsText.cut) ++ [.error]) []
    (by rw [List.append_nil]; exact (AnySourceEx.contents_fails _ []).symm) later
  cases h1 with
  | @cons r _ _ _ h h' =>
    cases h'
    cases r with
    | error e => cases h
    | ok c => exact ⟨c, r', h, h5⟩

/-! ## C83 for loops -/

/-- Two readers give the same for `n` calls, then one fails, and the other fails or ends: loops see the same objects. -/
theorem loop_until {α S T : Type} {n1 : S → Res (Option α) × S} {n2 : T → Res (Option α) × T} {s q : S} {os : List α} {e : Option Panic}
    (h : Drain n1 s os e q) {n : Nat} {t : T} {L : List (Res (Option α))} (hL : L.length = n) {p : Panic} (h1 : (calls n1 (n + 1) s).1 = L ++ [.error p])
    {y : Res (Option α)} (h2 : (calls n2 (n + 1) t).1 = L ++ [y]) (hy : y = .ok none ∨ ∃ p, y = .error p) : ∃ e' q', Drain n2 t os e' q' := by
  have last : ∀ {t : T} {y : Res (Option α)}, (n2 t).1 = y → (y = .ok none ∨ ∃ p, y = .error p) → ∃ e' q', Drain n2 t [] e' q' := by
    rintro t y h (rfl | ⟨p, rfl⟩)
    · exact ⟨_, _, .done (Prod.ext h rfl)⟩
    · exact ⟨_, _, .panic (Prod.ext h rfl)⟩
  induction h generalizing n t L with
  | done h =>
    cases L with
    | nil => subst hL; simp [calls, h] at h1
    | cons x L =>
      simp only [calls, h, List.cons_append, List.cons.injEq] at h1 h2
      exact last (h2.1.trans h1.1.symm) (.inl rfl)
  | panic h =>
    cases L with
    | nil => subst hL; exact last (by simpa [calls] using h2) hy
    | cons x L =>
      simp only [calls, h, List.cons_append, List.cons.injEq] at h1 h2
      exact last (h2.1.trans h1.1.symm) (.inr ⟨_, rfl⟩)
  | more h _ ih =>
    cases L with
    | nil => subst hL; simp [calls, h] at h1
    | cons x L =>
      subst hL
      rw [List.length_cons, calls] at h1 h2
      simp only [h, List.cons_append, List.cons.injEq] at h1 h2
      obtain ⟨e', q', hq⟩ := ih (n := L.length) (t := (n2 t).2) rfl h1.2 h2.2
      exact ⟨e', q', .more (Prod.ext (h2.1.trans h1.1.symm) rfl) hq⟩

theorem calls_count {α S : Type} (n1 : S → Res (Option α) × S) (n : Nat) (s : S) : (calls n1 n s).1.length = n := by
  induction n generalizing s with
  | zero => rfl
  | succ n ih => simp [calls, ih]

/-- **C83**, loops. A source that fails after `a`: the loop sees exactly the objects of a file that ends there. -/
theorem C83_loop (norm : Xml.Config) (a : List UInt8) (after : Source) (os : List StringOSMObj) :
    (∃ e q, Drain XMLReader.next (XMLReader.over norm (a.map some ++ none :: after)) os e q) ↔ ∃ e q, Drain XMLReader.next (XMLReader.new norm a) os e q := by
  have key : ∀ os, (∃ e q, Drain XMLReader.next (XMLReader.over norm (a.map some ++ none :: after)) os e q) →
      ∃ e q, Drain XMLReader.next (XMLReader.new norm a) os e q := by
    rintro os ⟨e, q, h⟩
    have hc := calls_fails (eventsIn norm a) []
    have h1 := hc.2 0
    rw [← over_failing norm a after] at h1
    obtain ⟨last, hl, hlast⟩ := new_eq norm a
    rcases hlast with rfl | rfl
    · rw [hl, ← over_failing norm a after]; exact ⟨e, q, h⟩
    · rcases events_forest norm a with ⟨g, hg⟩ | ⟨evs, he⟩
      · have h2 : (eventsIn norm a).map some ++ [some XmlEvent.other] = g.events.map some ++ [some .other] := hl.symm.trans hg
        have h3 : eventsIn norm a = g.events :=
          List.map_injective_iff.2 (Option.some_injective _) (List.append_cancel_right h2)
        have h4 := calls_complete g [] _ h3.symm [] 1
        rw [hl]
        exact loop_until h (calls_count _ _ _) h1 h4 (.inl rfl)
      · have h2 : (eventsIn norm a).map some ++ [some XmlEvent.other] = evs.map some ++ [none] := hl.symm.trans he
        have := (List.append_inj' h2 rfl).2
        cases this
  refine ⟨key os, fun ⟨e, q, h⟩ => ?_⟩
  obtain ⟨os', e', q', h'⟩ := (C95_xml norm (a.map some ++ none :: after)).1
  obtain ⟨e2, q2, h2⟩ := key os' ⟨e', q', h'⟩
  obtain ⟨rfl, -, -⟩ := h.unique h2
  exact ⟨e', q', h'⟩

theorem C83_loop_osc (norm : Xml.Config) (a : List UInt8) (after : Source) (os : List StringOSMObj) :
    (∃ e q, Drain OSCReader.next (OSCReader.over norm (a.map some ++ none :: after)) os e q) ↔ ∃ e q, Drain OSCReader.next (OSCReader.new norm a) os e q := by
  rw [osc_next_eq]
  exact C83_loop norm a after os

/-- Every source gives bytes, and then ends or fails. -/
theorem source_cases (src : Source) : ∃ a : List UInt8, src = a.map some ∨ ∃ after, src = a.map some ++ none :: after := by
  induction src with
  | nil => exact ⟨[], .inl rfl⟩
  | cons x src ih =>
    cases x with
    | none => exact ⟨[], .inr ⟨src, rfl⟩⟩
    | some b =>
      obtain ⟨a, rfl | ⟨after, rfl⟩⟩ := ih
      · exact ⟨b :: a, .inl rfl⟩
      · exact ⟨b :: a, .inr ⟨after, rfl⟩⟩

/-- What a loop over a source sees is what it sees of some file. -/
theorem loop_file (norm : Xml.Config) {src : Source} {os : List StringOSMObj} {e : Option Panic} {q : List (Option XmlEvent)}
    (h : Drain XMLReader.next (XMLReader.over norm src) os e q) : ∃ file e' q', Drain XMLReader.next (XMLReader.new norm file) os e' q' := by
  obtain ⟨a, rfl | ⟨after, rfl⟩⟩ := source_cases src
  · rw [over_new] at h
    exact ⟨a, e, q, h⟩
  · exact ⟨a, (C83_loop norm a after os).1 ⟨e, q, h⟩⟩

/-- **C83**, loops over any source that fails after `a`, however it hands out its bytes before. -/
theorem C83_loop_over {rd : AnyReader} {R : rd.S → Source → Prop} (hd : Delivers rd R) {s : rd.S} {a : List UInt8} {after : Source}
    (hr : R s (a.map some ++ none :: after)) (norm : Xml.Config) {rounds : Nat} (hl : 2 * (a.length + after.length + 1) + 1 < rounds) (os : List StringOSMObj) :
    ((∃ e q, Drain (XMLReader.Over.next rd norm rounds) (XMLReader.Over.new s) os e q) ↔ ∃ e q, Drain XMLReader.next (XMLReader.new norm a) os e q) ∧
    ((∃ e q, Drain (OSCReader.Over.next rd norm rounds) (OSCReader.Over.new s) os e q) ↔ ∃ e q, Drain OSCReader.next (OSCReader.new norm a) os e q) := by
  have h := fun e => C81_xml_loop hd hr norm (rounds := rounds) (by simp; omega) os e
  rw [← C83_loop norm a after os, ← C83_loop_osc norm a after os]
  exact ⟨exists_congr fun e => (h e).1, exists_congr fun e => (h e).2⟩

/-- A file with one way, byte by byte from a source that then fails: the way. -/
example : ∃ (os : List StringOSMObj) (e : Option Panic) (q : EventsOver (List Portion)), os.length = 1 ∧
    Drain (XMLReader.Over.next portions .keep (2 * ((Utf8.encode RewriteEx.lines).length + 1) + 2))
      (XMLReader.Over.new (AnySourceEx.drip (Utf8.encode RewriteEx.lines) ++ [.error])) os e q := by
  obtain ⟨os, q, h, h1, _⟩ := C79_nonvacuous sampleOrder .keep List.mem_cons_self
  obtain ⟨e, q', h'⟩ := (C83_loop_over portions_delivers (s := AnySourceEx.drip (Utf8.encode RewriteEx.lines) ++ [.error]) (after := [])
    (by exact (AnySourceEx.contents_fails _ []).symm) .keep (Nat.lt_succ_self _) os).1.2 ⟨_, q, h⟩
  exact ⟨os, e, q', h1, h'⟩

/-! ## C110 -/

/-- A loop over bytes, and a loop over a source that gives them. -/
theorem loop_over_iff {rd : AnyReader} {R : rd.S → Source → Prop} (hd : Delivers rd R) {s : rd.S} {doc : List UInt8} (hr : R s (doc.map some))
    (norm : Xml.Config) {rounds : Nat} (hl : 2 * doc.length + 1 < rounds) (e : Option Panic) (P : List StringOSMObj → Prop) :
    ((∃ os q, Drain (XMLReader.Over.next rd norm rounds) (XMLReader.Over.new s) os e q ∧ P os) ↔
      ∃ os q, Drain XMLReader.next (XMLReader.new norm doc) os e q ∧ P os) ∧
    ((∃ os q, Drain (OSCReader.Over.next rd norm rounds) (OSCReader.Over.new s) os e q ∧ P os) ↔
      ∃ os q, Drain OSCReader.next (OSCReader.new norm doc) os e q ∧ P os) := by
  have hl' : 2 * (doc.map some).length + 1 < rounds := by rwa [List.length_map]
  have e0 : OSCReader.new norm doc = OSCReader.over norm (doc.map some) := (over_new norm doc).symm
  rw [e0, ← over_new]
  simp only [exists_and_right, (C81_xml_loop hd hr norm hl' _ e).1, (C81_xml_loop hd hr norm hl' _ e).2, and_self]

variable {f : Family}

/-- **C110**, XML. Any calls on a writer to a sink that never fails but takes as many bytes at a time as it likes, the writer dropped, and then a loop over a reader of a
source that gives these bytes as it likes: the loop sees the objects written, equal in everything, and then the end, if and only if `close` was never called, every node has
a position and every character of every text is one that XML has and that the parser keeps. -/
theorem C110_xml {wr : AnyWriter} (hw : Steady wr) (pc : Pieces wr.S) (σ : HashOrder) {w : wr.S} (hw0 : wr.taken w = []) (cs : List (Call f.Obj))
    (hv : ∀ o ∈ written cs, version o ≠ none) (hh : HeadersOk (headersOf cs)) (ht : ∀ o ∈ written cs, TimeUnquoted (objData o))
    {doc : List UInt8} (hdoc : doc = wr.taken (XMLWriterOver.drop (writeOver wr pc) σ (run (xmlCallOver wr pc σ) (XMLWriterOver.new w) cs).2).2.writer)
    {rd : AnyReader} {R : rd.S → Source → Prop} (hd : Delivers rd R) {s : rd.S} (hr : R s (doc.map some)) (norm : Xml.Config) (hn : IsNorm norm)
    {rounds : Nat} (hl : 2 * doc.length + 1 < rounds) :
    (∃ (os : List StringOSMObj) (q : EventsOver rd.S), Drain (XMLReader.Over.next rd norm rounds) (XMLReader.Over.new s) os none q ∧
      os.map objData = (written cs).map fun o => readBack (objData o)) ↔
    (∀ c ∈ cs, c.isClose = false) ∧ ∀ o ∈ written cs, (objectType o = .node → (objData o).pos ≠ none) ∧
      ∀ t ∈ textsOf (objData o), ∀ c ∈ t, XmlChar c ∧ norm c = c := by
  rw [← C27_iff norm hn σ ⟨wr.taken w, []⟩ (by simp [Sink.Reliable]) hw0 cs hv hh ht, ← (C82_steady_xml hw pc σ w cs).2.2.2, ← hdoc]
  exact (loop_over_iff hd hr norm hl none _).1

/-- **C110**, change files; here `close` may be called at any time. -/
theorem C110_osc {wr : AnyWriter} (hw : Steady wr) (pc : Pieces wr.S) {w : wr.S} (hw0 : wr.taken w = []) (cs : List (Call f.Obj))
    (hv : ∀ o ∈ written cs, version o ≠ none) (ht : ∀ o ∈ written cs, TimeUnquoted (objData o))
    {doc : List UInt8} (hdoc : doc = wr.taken (OSCWriterOver.drop (writeOver wr pc) (run (oscCallOver wr pc) (OSCWriterOver.new w) cs).2).2.writer)
    {rd : AnyReader} {R : rd.S → Source → Prop} (hd : Delivers rd R) {s : rd.S} (hr : R s (doc.map some)) (norm : Xml.Config) (hn : IsNorm norm)
    {rounds : Nat} (hl : 2 * doc.length + 1 < rounds) :
    (∃ (os : List StringOSMObj) (q : EventsOver rd.S), Drain (OSCReader.Over.next rd norm rounds) (OSCReader.Over.new s) os none q ∧
      os.map objData = (written cs).map fun o => readBack (objData o)) ↔
    ∀ o ∈ written cs, (objectType o = .node → (objData o).pos ≠ none) ∧ ∀ t ∈ textsOf (objData o), ∀ c ∈ t, XmlChar c ∧ norm c = c := by
  rw [← C28_iff norm hn ⟨wr.taken w, []⟩ (by simp [Sink.Reliable]) hw0 cs hv ht, ← (C82_steady_osc hw pc w cs).2.2.2, ← hdoc]
  exact (loop_over_iff hd hr norm hl none _).2

/-- **C110**, a writer that is killed, XML. Let the sink have any proper beginning `a` of the document. A loop over a reader of a source that gives `a` sees the objects
whose text is complete, and then panics: all objects whose `write_obj` had returned when the sink had no more than `a`. -/
theorem C110_killed_xml {wr : AnyWriter} (hw : Steady wr) (pc : Pieces wr.S) (σ : HashOrder) {w : wr.S} (hw0 : wr.taken w = []) (cs : List (Call f.Obj))
    (hv : AllVersioned cs) (hc : ∀ c ∈ cs, c.isClose = false) (hh : HeadersOk (headersOf cs)) (hwr : ∀ o ∈ written cs, Writable o) {a : List UInt8}
    (ha : a <+: wr.taken (XMLWriterOver.drop (writeOver wr pc) σ (run (xmlCallOver wr pc σ) (XMLWriterOver.new w) cs).2).2.writer)
    (hne : a ≠ wr.taken (XMLWriterOver.drop (writeOver wr pc) σ (run (xmlCallOver wr pc σ) (XMLWriterOver.new w) cs).2).2.writer)
    {rd : AnyReader} {R : rd.S → Source → Prop} (hd : Delivers rd R) {s : rd.S} (hr : R s (a.map some)) (norm : Xml.Config) (hn : IsNorm norm)
    {rounds : Nat} (hl : 2 * a.length + 1 < rounds) :
    ∃ j ≤ (written cs).length,
      (∀ cs1, cs1 <+: cs → written cs1 ≠ [] →
        ((written cs1).length ≤ j ↔ wr.taken (run (xmlCallOver wr pc σ) (XMLWriterOver.new w) cs1).2.writer <+: a)) ∧
      ∃ (rs : List StringOSMObj) (q : EventsOver rd.S), Drain (XMLReader.Over.next rd norm rounds) (XMLReader.Over.new s) rs (some .unwrap) q ∧
        rs.map objData = ((written cs).take j).map fun o => readBack (objData o) := by
  rw [(C82_steady_xml hw pc σ w cs).2.2.2] at ha hne
  obtain ⟨j, hj, h1, rs, h2, h3⟩ := C84_xml norm hn σ ⟨wr.taken w, []⟩ (by simp [Sink.Reliable]) hw0 cs hv hc hh hwr a ha hne
  refine ⟨j, hj, fun cs1 hp hne1 => ?_, (loop_over_iff hd hr norm hl _ _).1.2 ⟨rs, _, h2, h3⟩⟩
  rw [(C82_steady_xml hw pc σ w cs1).2.1]
  exact h1 cs1 hp hne1

/-- **C110**, a writer that is killed, change files. -/
theorem C110_killed_osc {wr : AnyWriter} (hw : Steady wr) (pc : Pieces wr.S) {w : wr.S} (hw0 : wr.taken w = []) (cs : List (Call f.Obj))
    (hv : AllVersioned cs) (hwr : ∀ o ∈ written cs, Writable o) {a : List UInt8}
    (ha : a <+: wr.taken (OSCWriterOver.drop (writeOver wr pc) (run (oscCallOver wr pc) (OSCWriterOver.new w) cs).2).2.writer)
    (hne : a ≠ wr.taken (OSCWriterOver.drop (writeOver wr pc) (run (oscCallOver wr pc) (OSCWriterOver.new w) cs).2).2.writer)
    {rd : AnyReader} {R : rd.S → Source → Prop} (hd : Delivers rd R) {s : rd.S} (hr : R s (a.map some)) (norm : Xml.Config) (hn : IsNorm norm)
    {rounds : Nat} (hl : 2 * a.length + 1 < rounds) :
    ∃ j ≤ (written cs).length,
      (∀ cs1, cs1 <+: cs → (∀ c ∈ cs1, c.isClose = false) → written cs1 ≠ [] →
        ((written cs1).length ≤ j ↔ wr.taken (run (oscCallOver wr pc) (OSCWriterOver.new w) cs1).2.writer <+: a)) ∧
      ∃ (rs : List StringOSMObj) (q : EventsOver rd.S), Drain (OSCReader.Over.next rd norm rounds) (OSCReader.Over.new s) rs (some .unwrap) q ∧
        rs.map objData = ((written cs).take j).map fun o => readBack (objData o) := by
  rw [(C82_steady_osc hw pc w cs).2.2.2] at ha hne
  obtain ⟨j, hj, h1, rs, h2, h3⟩ := C84_osc norm hn ⟨wr.taken w, []⟩ (by simp [Sink.Reliable]) hw0 cs hv hwr a ha hne
  refine ⟨j, hj, fun cs1 hp hc1 hne1 => ?_, (loop_over_iff hd hr norm hl _ _).2.2 ⟨rs, _, h2, h3⟩⟩
  rw [(C82_steady_osc hw pc w cs1).2.1]
  exact h1 cs1 hp hc1 hne1

/-- **C110**, from PBF to XML and to change files. A loop over the reader of owned strings on any source, which may also fail, writes every object it sees to a writer on
any sink that never fails; the sink's bytes are read back from any source. No call of the writers fails. Copies of all the objects come back, in order, exactly if they are portable. -/
theorem C110_pbf_owned {rd1 : AnyReader} {R1 : rd1.S → Source → Prop} (hd1 : Delivers rd1 R1) {s1 : rd1.S} {src : Source} (hr1 : R1 s1 src)
    (zlib : Proto.Bytes → Option Proto.Bytes) (b : Build) {rounds1 : Nat} (hl1 : src.length < rounds1)
    {os : List StringOSMObj} {e : Option Panic} {q1 : StringPbf.ReaderOver rd1.S} (hread : Drain (StringPbf.ReaderOver.next rd1 zlib b rounds1) (.new s1) os e q1)
    {wr : AnyWriter} (hw : Steady wr) (pc : Pieces wr.S) (σ : HashOrder) {w : wr.S} (hw0 : wr.taken w = [])
    {rd : AnyReader} {R : rd.S → Source → Prop} (hd : Delivers rd R) {s : rd.S} (norm : Xml.Config) (hn : IsNorm norm) {rounds : Nat} :
    (let r := run (xmlCallOver (α := Family.string.Obj) wr pc σ) (XMLWriterOver.new w) (copyCalls os)
     let doc := wr.taken (XMLWriterOver.drop (writeOver wr pc) σ r.2).2.writer
     (∀ x ∈ r.1, x.2 = .ok ()) ∧
     (R s (doc.map some) → 2 * doc.length + 1 < rounds →
       ((∃ (rs : List StringOSMObj) (q : EventsOver rd.S), Drain (XMLReader.Over.next rd norm rounds) (XMLReader.Over.new s) rs none q ∧
         List.Forall₂ CopyOf (os.map objData) (rs.map objData)) ↔ ∀ o ∈ os, Portable norm (objData o)))) ∧
    (let r := run (oscCallOver (α := Family.string.Obj) wr pc) (OSCWriterOver.new w) (copyCalls os)
     let doc := wr.taken (OSCWriterOver.drop (writeOver wr pc) r.2).2.writer
     (∀ x ∈ r.1, x.2 = .ok ()) ∧
     (R s (doc.map some) → 2 * doc.length + 1 < rounds →
       ((∃ (rs : List StringOSMObj) (q : EventsOver rd.S), Drain (OSCReader.Over.next rd norm rounds) (OSCReader.Over.new s) rs none q ∧
         List.Forall₂ CopyOf (os.map objData) (rs.map objData)) ↔ ∀ o ∈ os, Portable norm (objData o)))) := by
  obtain ⟨q, h⟩ := ((C81_pbf_loop hd1 hr1 zlib b hl1).1 (true, true, true) os e).1 ⟨q1, hread⟩
  have hx := C77_owned_xml norm hn σ ⟨wr.taken w, []⟩ (by simp [Sink.Reliable]) hw0 h
  have ho := C77_owned_osc norm hn ⟨wr.taken w, []⟩ (by simp [Sink.Reliable]) hw0 h
  have sx := C82_steady_xml (f := .string) hw pc σ w (copyCalls os)
  have so := C82_steady_osc (f := .string) hw pc w (copyCalls os)
  refine ⟨⟨?_, fun hr hl => ?_⟩, ?_, fun hr hl => ?_⟩
  · rw [sx.1]; exact hx.1.1
  · refine (loop_over_iff hd hr norm hl none _).1.trans ?_
    rw [sx.2.2.2]; exact hx.2.1
  · rw [so.1]; exact ho.1.1
  · refine (loop_over_iff hd hr norm hl none _).2.trans ?_
    rw [so.2.2.2]; exact ho.2.1

/-- **C110**, the same for the reader of shared strings. -/
theorem C110_pbf_shared {rd1 : AnyReader} {R1 : rd1.S → Source → Prop} (hd1 : Delivers rd1 R1) {s1 : rd1.S} {src : Source} (hr1 : R1 s1 src)
    (zlib : Proto.Bytes → Option Proto.Bytes) (b : Build) {rounds1 : Nat} (hl1 : src.length < rounds1)
    {os : List ArcOSMObj} {e : Option Panic} {q1 : ArcPbf.ReaderOver rd1.S} (hread : Drain (ArcPbf.ReaderOver.next rd1 zlib b rounds1) (.new s1) os e q1)
    {wr : AnyWriter} (hw : Steady wr) (pc : Pieces wr.S) (σ : HashOrder) {w : wr.S} (hw0 : wr.taken w = [])
    {rd : AnyReader} {R : rd.S → Source → Prop} (hd : Delivers rd R) {s : rd.S} (norm : Xml.Config) (hn : IsNorm norm) {rounds : Nat} :
    (let r := run (xmlCallOver (α := Family.arc.Obj) wr pc σ) (XMLWriterOver.new w) (copyCalls os)
     let doc := wr.taken (XMLWriterOver.drop (writeOver wr pc) σ r.2).2.writer
     (∀ x ∈ r.1, x.2 = .ok ()) ∧
     (R s (doc.map some) → 2 * doc.length + 1 < rounds →
       ((∃ (rs : List StringOSMObj) (q : EventsOver rd.S), Drain (XMLReader.Over.next rd norm rounds) (XMLReader.Over.new s) rs none q ∧
         List.Forall₂ CopyOf (os.map objData) (rs.map objData)) ↔ ∀ o ∈ os, Portable norm (objData o)))) ∧
    (let r := run (oscCallOver (α := Family.arc.Obj) wr pc) (OSCWriterOver.new w) (copyCalls os)
     let doc := wr.taken (OSCWriterOver.drop (writeOver wr pc) r.2).2.writer
     (∀ x ∈ r.1, x.2 = .ok ()) ∧
     (R s (doc.map some) → 2 * doc.length + 1 < rounds →
       ((∃ (rs : List StringOSMObj) (q : EventsOver rd.S), Drain (OSCReader.Over.next rd norm rounds) (OSCReader.Over.new s) rs none q ∧
         List.Forall₂ CopyOf (os.map objData) (rs.map objData)) ↔ ∀ o ∈ os, Portable norm (objData o)))) := by
  obtain ⟨q, h⟩ := ((C81_pbf_loop hd1 hr1 zlib b hl1).2.1 os e).1 ⟨q1, hread⟩
  have hx := C77_shared_xml norm hn σ ⟨wr.taken w, []⟩ (by simp [Sink.Reliable]) hw0 h
  have ho := C77_shared_osc norm hn ⟨wr.taken w, []⟩ (by simp [Sink.Reliable]) hw0 h
  have sx := C82_steady_xml (f := .arc) hw pc σ w (copyCalls os)
  have so := C82_steady_osc (f := .arc) hw pc w (copyCalls os)
  refine ⟨⟨?_, fun hr hl => ?_⟩, ?_, fun hr hl => ?_⟩
  · rw [sx.1]; exact hx.1.1
  · refine (loop_over_iff hd hr norm hl none _).1.trans ?_
    rw [sx.2.2.2]; exact hx.2.1
  · rw [so.1]; exact ho.1.1
  · refine (loop_over_iff hd hr norm hl none _).2.trans ?_
    rw [so.2.2.2]; exact ho.2.1

/-- **C110**, rewriting an XML or change file: read in a loop from any source, which may also fail, to the end or to a panic, written to any sink that never fails, read back from any source. If the
objects have versions and timestamps without quotes, `<` and `&`, no call of the writers fails, and exactly the same objects come back if and only if every node has a position
and the parser leaves alone every character of every text. -/
theorem C110_rewrite {rd1 : AnyReader} {R1 : rd1.S → Source → Prop} (hd1 : Delivers rd1 R1) {s1 : rd1.S} {src : Source} (hr1 : R1 s1 src)
    (norm : Xml.Config) (hn : SpacesOnly norm) {rounds1 : Nat} (hl1 : 2 * src.length + 1 < rounds1)
    {next : EventsOver rd1.S → Res (Option StringOSMObj) × EventsOver rd1.S}
    (hnext : next = XMLReader.Over.next rd1 norm rounds1 ∨ next = OSCReader.Over.next rd1 norm rounds1)
    {os : List StringOSMObj} {e : Option Panic} {q1 : EventsOver rd1.S} (hread : Drain next (XMLReader.Over.new s1) os e q1)
    (hv : ∀ o ∈ os, version (α := Family.string.Obj) o ≠ none) (ht : ∀ o ∈ os, TimeUnquoted (objData o))
    {wr : AnyWriter} (hw : Steady wr) (pc : Pieces wr.S) (σ : HashOrder) {w : wr.S} (hw0 : wr.taken w = [])
    {rd : AnyReader} {R : rd.S → Source → Prop} (hd : Delivers rd R) {s : rd.S} {rounds : Nat} :
    (let r := run (xmlCallOver (α := Family.string.Obj) wr pc σ) (XMLWriterOver.new w) (copyCalls os)
     let doc := wr.taken (XMLWriterOver.drop (writeOver wr pc) σ r.2).2.writer
     (∀ x ∈ r.1, x.2 = .ok ()) ∧
     (R s (doc.map some) → 2 * doc.length + 1 < rounds →
       ((∃ (rs : List StringOSMObj) (q : EventsOver rd.S), Drain (XMLReader.Over.next rd norm rounds) (XMLReader.Over.new s) rs none q ∧
         rs.map objData = os.map objData) ↔
         (∀ o ∈ os, objectType (α := Family.string.Obj) o = .node → (objData o).pos ≠ none) ∧
           ∀ o ∈ os, ∀ t ∈ textsOf (objData o), ∀ c ∈ t, norm c = c))) ∧
    (let r := run (oscCallOver (α := Family.string.Obj) wr pc) (OSCWriterOver.new w) (copyCalls os)
     let doc := wr.taken (OSCWriterOver.drop (writeOver wr pc) r.2).2.writer
     (∀ x ∈ r.1, x.2 = .ok ()) ∧
     (R s (doc.map some) → 2 * doc.length + 1 < rounds →
       ((∃ (rs : List StringOSMObj) (q : EventsOver rd.S), Drain (OSCReader.Over.next rd norm rounds) (OSCReader.Over.new s) rs none q ∧
         rs.map objData = os.map objData) ↔
         (∀ o ∈ os, objectType (α := Family.string.Obj) o = .node → (objData o).pos ≠ none) ∧
           ∀ o ∈ os, ∀ t ∈ textsOf (objData o), ∀ c ∈ t, norm c = c))) := by
  obtain ⟨q0, h0⟩ : ∃ q, Drain XMLReader.next (XMLReader.over norm src) os e q := by
    have key := C81_xml_loop hd1 hr1 norm hl1 os e
    rcases hnext with rfl | rfl
    · exact key.1.1 ⟨q1, hread⟩
    · have := key.2.1 ⟨q1, hread⟩
      rwa [osc_next_eq] at this
  obtain ⟨file, e', q, h⟩ := loop_file norm h0
  have hx := C79_xml_partial norm hn σ ⟨wr.taken w, []⟩ (by simp [Sink.Reliable]) hw0 (.inl rfl) h hv ht
  have ho := C79_osc_partial norm hn ⟨wr.taken w, []⟩ (by simp [Sink.Reliable]) hw0 (.inl rfl) h hv ht
  have sx := C82_steady_xml (f := .string) hw pc σ w (copyCalls os)
  have so := C82_steady_osc (f := .string) hw pc w (copyCalls os)
  refine ⟨⟨?_, fun hr hl => ?_⟩, ?_, fun hr hl => ?_⟩
  · rw [sx.1]; exact hx.1.1
  · refine (loop_over_iff hd hr norm hl none _).1.trans ?_
    rw [sx.2.2.2]; exact hx.2.2
  · rw [so.1]; exact ho.1.1
  · refine (loop_over_iff hd hr norm hl none _).2.trans ?_
    rw [so.2.2.2]; exact ho.2.2

/-- **C110**, editing. Objects read from a PBF file over any source, which may also fail, each copied, dropped or edited by scripts that keep versions, positions and timestamps
without quotes, and written to any sink that never fails: no call of the writers fails. Read back from any source they are the results, in order, each with exactly the changes that
were made, if and only if every character of every text of the results is one that XML has and the parser leaves alone. -/
theorem C110_edit {rd1 : AnyReader} {R1 : rd1.S → Source → Prop} (hd1 : Delivers rd1 R1) {s1 : rd1.S} {src : Source} (hr1 : R1 s1 src)
    (zlib : Proto.Bytes → Option Proto.Bytes) (b : Build) {rounds1 : Nat} (hl1 : src.length < rounds1)
    {os : List StringOSMObj} {e : Option Panic} {q1 : StringPbf.ReaderOver rd1.S} (hread : Drain (StringPbf.ReaderOver.next rd1 zlib b rounds1) (.new s1) os e q1)
    {scripts : List (List (List Edit))} (hs : ∀ ss ∈ scripts, ∀ s ∈ ss, ∀ e ∈ s, e.Keeps)
    {wr : AnyWriter} (hw : Steady wr) (pc : Pieces wr.S) (σ : HashOrder) {w : wr.S} (hw0 : wr.taken w = [])
    {rd : AnyReader} {R : rd.S → Source → Prop} (hd : Delivers rd R) {s : rd.S} (norm : Xml.Config) (hn : IsNorm norm) {rounds : Nat} :
    (let r := run (xmlCallOver (α := Family.string.Obj) wr pc σ) (XMLWriterOver.new w) (copyCalls (edited (Edit.make (α := Family.string.Obj)) os scripts))
     let doc := wr.taken (XMLWriterOver.drop (writeOver wr pc) σ r.2).2.writer
     (∀ x ∈ r.1, x.2 = .ok ()) ∧
     (R s (doc.map some) → 2 * doc.length + 1 < rounds →
       ((∃ (rs : List StringOSMObj) (q : EventsOver rd.S), Drain (XMLReader.Over.next rd norm rounds) (XMLReader.Over.new s) rs none q ∧
         rs.map objData = (edited Edit.effect (os.map objData) scripts).map readBack) ↔
         ∀ d ∈ edited Edit.effect (os.map objData) scripts, ∀ t ∈ textsOf d, ∀ c ∈ t, XmlChar c ∧ norm c = c))) ∧
    (let r := run (oscCallOver (α := Family.string.Obj) wr pc) (OSCWriterOver.new w) (copyCalls (edited (Edit.make (α := Family.string.Obj)) os scripts))
     let doc := wr.taken (OSCWriterOver.drop (writeOver wr pc) r.2).2.writer
     (∀ x ∈ r.1, x.2 = .ok ()) ∧
     (R s (doc.map some) → 2 * doc.length + 1 < rounds →
       ((∃ (rs : List StringOSMObj) (q : EventsOver rd.S), Drain (OSCReader.Over.next rd norm rounds) (OSCReader.Over.new s) rs none q ∧
         rs.map objData = (edited Edit.effect (os.map objData) scripts).map readBack) ↔
         ∀ d ∈ edited Edit.effect (os.map objData) scripts, ∀ t ∈ textsOf d, ∀ c ∈ t, XmlChar c ∧ norm c = c))) := by
  obtain ⟨q, h⟩ := ((C81_pbf_loop hd1 hr1 zlib b hl1).1 (true, true, true) os e).1 ⟨q1, hread⟩
  have hos : ∀ o ∈ os, Sound (objData o) := fun o ho => C94_pbf (r := .owned) ⟨os, q, h, rfl⟩ _ (List.mem_map.2 ⟨o, ho, rfl⟩)
  have hx := C94_xml (f := .string) norm hn σ ⟨wr.taken w, []⟩ (by simp [Sink.Reliable]) hw0 hos hs
  have ho := C94_osc (f := .string) norm hn ⟨wr.taken w, []⟩ (by simp [Sink.Reliable]) hw0 hos hs
  have sx := C82_steady_xml (f := .string) hw pc σ w (copyCalls (edited (Edit.make (α := Family.string.Obj)) os scripts))
  have so := C82_steady_osc (f := .string) hw pc w (copyCalls (edited (Edit.make (α := Family.string.Obj)) os scripts))
  refine ⟨⟨?_, fun hr hl => ?_⟩, ?_, fun hr hl => ?_⟩
  · rw [sx.1]; exact hx.1.1
  · refine (loop_over_iff hd hr norm hl none _).1.trans ?_
    rw [sx.2.2.2]; exact hx.2
  · rw [so.1]; exact ho.1.1
  · refine (loop_over_iff hd hr norm hl none _).2.trans ?_
    rw [so.2.2.2]; exact ho.2

/-! ### Concrete cases: sinks that take three bytes at a time, sources that give them one by one -/

/-- A node with a tag, written and read back. -/
example (σ : HashOrder) : ∃ (doc : List UInt8) (rs : List StringOSMObj) (q : EventsOver (List Portion)),
    doc = (narrow 3).taken (XMLWriterOver.drop (writeOver (narrow 3) Pieces.single) σ
      (run (xmlCallOver (α := Family.string.Obj) (narrow 3) Pieces.single σ) (XMLWriterOver.new []) [.writeObj tagged1]).2).2.writer ∧
    Drain (XMLReader.Over.next portions .keep (2 * doc.length + 2)) (XMLReader.Over.new (AnySourceEx.drip doc)) rs none q ∧
    rs.map objData = [readBack (objData tagged1)] := by
  obtain ⟨rs, q, h⟩ := (C110_xml (f := .string) (narrow_steady (n := 3) (by decide)) Pieces.single σ (w := []) rfl [.writeObj tagged1]
    (fun o ho => (tagged1_ok o ho).1) headersOk_nil (fun o ho => (tagged1_ok o ho).2.1) rfl (rd := portions) (R := fun s src => src = contents s)
    portions_delivers (s := AnySourceEx.drip _) (AnySourceEx.contents_drip _).symm .keep (fun _ _ _ _ => rfl) (Nat.lt_succ_self _)).2
    ⟨by simp [Call.isClose], fun o ho => (tagged1_ok o ho).2.2⟩
  exact ⟨_, rs, q, rfl, h⟩

/-- A change file, closed twice, and read back. -/
example : ∃ (doc : List UInt8) (rs : List StringOSMObj) (q : EventsOver (List Portion)),
    doc = (narrow 3).taken (OSCWriterOver.drop (writeOver (narrow 3) Pieces.single)
      (run (oscCallOver (α := Family.string.Obj) (narrow 3) Pieces.single) (OSCWriterOver.new []) [.writeObj tagged1, .close, .close]).2).2.writer ∧
    Drain (OSCReader.Over.next portions .keep (2 * doc.length + 2)) (OSCReader.Over.new (AnySourceEx.drip doc)) rs none q ∧
    rs.map objData = [readBack (objData tagged1)] := by
  obtain ⟨rs, q, h⟩ := (C110_osc (f := .string) (narrow_steady (n := 3) (by decide)) Pieces.single (w := []) rfl [.writeObj tagged1, .close, .close]
    (fun o ho => (tagged1_ok o ho).1) (fun o ho => (tagged1_ok o ho).2.1) rfl (rd := portions) (R := fun s src => src = contents s)
    portions_delivers (s := AnySourceEx.drip _) (AnySourceEx.contents_drip _).symm .keep (fun _ _ _ _ => rfl) (Nat.lt_succ_self _)).2
    (fun o ho => (tagged1_ok o ho).2.2)
  exact ⟨_, rs, q, rfl, h⟩

/-- Two objects, and the last byte of the document is missing. -/
example : ∃ (doc : List UInt8) (j : Nat) (rs : List StringOSMObj) (q : EventsOver (List Portion)), doc ≠ [] ∧ j ≤ 2 ∧
    doc = (narrow 3).taken (OSCWriterOver.drop (writeOver (narrow 3) Pieces.single)
      (run (oscCallOver (α := Family.string.Obj) (narrow 3) Pieces.single) (OSCWriterOver.new []) sampleHistory).2).2.writer ∧
    Drain (OSCReader.Over.next portions .keep (2 * doc.length + 2)) (OSCReader.Over.new (AnySourceEx.drip doc.dropLast)) rs (some .unwrap) q ∧
    rs.map objData = ((written sampleHistory).take j).map fun o => readBack (objData (α := Family.string.Obj) o) := by
  have hne : (narrow 3).taken (OSCWriterOver.drop (writeOver (narrow 3) Pieces.single)
      (run (oscCallOver (α := Family.string.Obj) (narrow 3) Pieces.single) (OSCWriterOver.new []) sampleHistory).2).2.writer ≠ [] := by
    rw [(C82_steady_osc (f := .string) (narrow_steady (n := 3) (by decide)) Pieces.single [] sampleHistory).2.2.2]
    decide +kernel
  generalize hd : (narrow 3).taken (OSCWriterOver.drop (writeOver (narrow 3) Pieces.single)
      (run (oscCallOver (α := Family.string.Obj) (narrow 3) Pieces.single) (OSCWriterOver.new []) sampleHistory).2).2.writer = doc at hne
  obtain ⟨h1, h2, _, h4, _⟩ := C84_nonvacuous
  obtain ⟨j, hj, _, rs, q, h⟩ := C110_killed_osc (f := .string) (narrow_steady (n := 3) (by decide)) Pieces.single (w := []) rfl sampleHistory
    h1 h4 (a := doc.dropLast) (by rw [hd]; exact List.dropLast_prefix _)
    (by rw [hd]; intro e; have := congrArg List.length e; have := List.length_pos_iff.2 hne; simp at *; omega)
    (rd := portions) (R := fun s src => src = contents s) portions_delivers (s := AnySourceEx.drip _) (AnySourceEx.contents_drip _).symm
    .keep (fun _ _ _ _ => rfl) (rounds := 2 * doc.length + 2) (by simp; omega)
  exact ⟨doc, j, rs, q, hne, hj, rfl, h⟩

/-- The example PBF file, read byte by byte. -/
example (b : Build) : ∃ (os : List StringOSMObj) (q : StringPbf.ReaderOver (List Portion)), os.length = 6 ∧
    Drain (StringPbf.ReaderOver.next portions some b 10000) (.new (AnySourceEx.drip (fileBytes PbfEx.file))) os none q := by
  obtain ⟨os, t, h1, h2⟩ := PbfEx.file_drain b
  have hl : (contents (AnySourceEx.drip (fileBytes PbfEx.file))).length < 10000 := by
    rw [AnySourceEx.contents_drip]
    simp only [source, List.length_map]
    decide +kernel
  obtain ⟨q, hq⟩ := ((C81_pbf_loop portions_delivers (s := AnySourceEx.drip (fileBytes PbfEx.file)) rfl some b hl).1 (true, true, true) os none).2
    ⟨t, by rw [AnySourceEx.contents_drip]; exact h1⟩
  exact ⟨os, q, (List.length_map _).symm.trans (congrArg List.length h2), hq⟩

/-- A file with one way, read byte by byte from a source: the hypotheses of rewriting are met. -/
example : ∃ (os : List StringOSMObj) (q : EventsOver (List Portion)),
    Drain (XMLReader.Over.next portions .keep (2 * (Utf8.encode RewriteEx.lines).length + 2)) (XMLReader.Over.new (AnySourceEx.drip (Utf8.encode RewriteEx.lines))) os none q ∧
    os.length = 1 ∧ (∀ o ∈ os, version (α := Family.string.Obj) o ≠ none) ∧ (∀ o ∈ os, TimeUnquoted (objData o)) ∧
    ∀ o ∈ os, objectType (α := Family.string.Obj) o = .node → (objData o).pos ≠ none := by
  obtain ⟨os, q, h, h1, h2, h3, h4, _⟩ := C79_nonvacuous sampleOrder .keep List.mem_cons_self
  obtain ⟨_, q', h', rfl⟩ := (loop_over_iff portions_delivers (s := AnySourceEx.drip (Utf8.encode RewriteEx.lines)) (AnySourceEx.contents_drip _).symm .keep
    (Nat.lt_succ_self _) none (fun x => x = os)).1.2 ⟨os, q, h, rfl⟩
  exact ⟨_, q', h', h1, h2, h3, h4⟩

end Osmio
