import Verif.Proofs.XmlTorn
import Verif.Props.XmlExact

/-!
# A torn document gives back every object whose text is complete

A program that writes an XML or a change file can be killed at any moment, and a copy of a file can be cut
anywhere. C83 says what a reader gives in general when a document is cut. Here, for documents that this library
wrote: every object whose text is complete is read back, and then the reader panics.
-/

namespace Osmio

open Spec Xml OSMObjBase

variable {f : Family}

/-! ## What is in the sink before the drop -/

/-- Written by a history without `close`: nothing, or the start of the document and the objects. -/
theorem xml_run_out (σ : HashOrder) (cs : List (Call f.Obj)) (w : XMLWriter) (hr : w.writer.Reliable) (hv : AllVersioned cs)
    (hc : ∀ c ∈ cs, c.isClose = false) (hs : w.state ≠ .closed) (hne : written cs ≠ []) :
    (run (xmlCall σ) w cs).2.writer.out = w.writer.out ++
      Utf8.encode ((if w.state = .initial then xmlHead (σ.order (headersFrom w.headers cs)) else []) ++ (written cs).flatMap textOf) := by
  induction cs generalizing w with
  | nil => exact absurd rfl hne
  | cons c cs ih =>
    have hv' : AllVersioned cs := fun d hd => hv d (List.mem_cons_of_mem _ hd)
    have hc' : ∀ d ∈ cs, d.isClose = false := fun d hd => hc d (List.mem_cons_of_mem _ hd)
    simp only [run_cons]
    cases c with
    | close => cases hc _ List.mem_cons_self
    | setHeader k v =>
      rw [written_cons_header] at hne ⊢
      simp only [xmlCall, XMLWriter.setHeader]
      cases h : w.state with
      | initial =>
        have := ih { w with headers := hashInsert k v w.headers } hr hv' hc' (by simpa using hs) hne
        simp only [h, if_true] at this ⊢
        rw [this, hashInsert_eq]
        rfl
      | writingObjects =>
        have := ih w hr hv' hc' hs hne
        simp only [h, reduceCtorEq, if_false] at this ⊢
        rw [this]
      | closed => exact absurd h hs
    | writeObj o =>
      have ho : version o ≠ none := hv _ List.mem_cons_self o rfl
      obtain ⟨_, g2, g3, g4⟩ := (xml_write_sends σ w ho hs).ok hr
      have g2' : (XMLWriter.writeObj σ o w).2.writer.out = w.writer.out ++ Utf8.encode (xmlHead? σ w ++ textOf o) := g2
      have g3' : (XMLWriter.writeObj σ o w).2.state = .writingObjects := g3
      have hh : xmlHead? σ w = if w.state = .initial then xmlHead (σ.order (headersFrom w.headers (.writeObj o :: cs))) else [] := by
        unfold xmlHead?
        cases w.state <;> simp [headersFrom, Call.isHeader]
      simp only [xmlCall]
      by_cases hw : written cs = []
      · have hq : ∀ d ∈ cs, ∃ k v, d = .setHeader k v := by
          intro d hd
          cases d with
          | setHeader k v => exact ⟨k, v, rfl⟩
          | close => cases hc' _ hd
          | writeObj x =>
            exfalso
            have : x ∈ written cs := by
              unfold written
              rw [List.takeWhile_eq_self_iff.2 fun c hm => by simp [hc' c hm]]
              exact List.mem_filterMap.2 ⟨_, hd, rfl⟩
            rw [hw] at this
            cases this
        have hstay : ∀ (ds : List (Call f.Obj)) (w : XMLWriter), w.state = .writingObjects → (∀ d ∈ ds, ∃ k v, d = .setHeader k v) →
            (run (xmlCall σ) w ds).2 = w := by
          intro ds
          induction ds with
          | nil => intro w _ _; rfl
          | cons d ds ihd =>
            intro w hst hd
            obtain ⟨k, v, rfl⟩ := hd d List.mem_cons_self
            simp only [run_cons, xmlCall, XMLWriter.setHeader, hst]
            exact ihd w hst fun e he => hd e (List.mem_cons_of_mem _ he)
        rw [hstay cs _ g3' hq, g2', written_cons_write, hw, hh]
        simp
      · rw [ih _ g4 hv' hc' (by rw [g3']; simp) hw, g2', g3', written_cons_write, hh, List.append_assoc, ← Utf8.encode_append]
        simp

/-- The same for change files. -/
theorem osc_run_out (cs : List (Call f.Obj)) (w : OSCWriter) (hr : w.writer.Reliable) (hv : AllVersioned cs)
    (hc : ∀ c ∈ cs, c.isClose = false) (hs : w.state ≠ .closed) (hne : written cs ≠ []) :
    (run oscCall w cs).2.writer.out = w.writer.out ++
      Utf8.encode ((if w.state = .initial then oscHead else []) ++ (written cs).flatMap textOf) := by
  induction cs generalizing w with
  | nil => exact absurd rfl hne
  | cons c cs ih =>
    have hv' : AllVersioned cs := fun d hd => hv d (List.mem_cons_of_mem _ hd)
    have hc' : ∀ d ∈ cs, d.isClose = false := fun d hd => hc d (List.mem_cons_of_mem _ hd)
    simp only [run_cons]
    cases c with
    | close => cases hc _ List.mem_cons_self
    | setHeader k v =>
      rw [written_cons_header] at hne ⊢
      simp only [oscCall, OSCWriter.setHeader, M.panic]
      exact ih w hr hv' hc' hs hne
    | writeObj o =>
      have ho : version o ≠ none := hv _ List.mem_cons_self o rfl
      obtain ⟨_, g2, g3, g4⟩ := (osc_write_sends w ho hs).ok hr
      have g2' : (OSCWriter.writeObj o w).2.writer.out = w.writer.out ++ Utf8.encode (oscHead? w ++ textOf o) := g2
      have g3' : (OSCWriter.writeObj o w).2.state = .writingObjects := g3
      have hh : oscHead? w = if w.state = .initial then oscHead else [] := by
        unfold oscHead?
        cases w.state <;> simp
      simp only [oscCall]
      by_cases hw : written cs = []
      · have hq : ∀ d ∈ cs, ∃ k v, d = .setHeader k v := by
          intro d hd
          cases d with
          | setHeader k v => exact ⟨k, v, rfl⟩
          | close => cases hc' _ hd
          | writeObj x =>
            exfalso
            have : x ∈ written cs := by
              unfold written
              rw [List.takeWhile_eq_self_iff.2 fun c hm => by simp [hc' c hm]]
              exact List.mem_filterMap.2 ⟨_, hd, rfl⟩
            rw [hw] at this
            cases this
        have hstay : ∀ (ds : List (Call f.Obj)) (w : OSCWriter), (∀ d ∈ ds, ∃ k v, d = .setHeader k v) → (run oscCall w ds).2 = w := by
          intro ds
          induction ds with
          | nil => intro w _; rfl
          | cons d ds ihd =>
            intro w hd
            obtain ⟨k, v, rfl⟩ := hd d List.mem_cons_self
            simp only [run_cons, oscCall, OSCWriter.setHeader, M.panic]
            exact ihd w fun e he => hd e (List.mem_cons_of_mem _ he)
        rw [hstay cs _ hq, g2', written_cons_write, hw, hh]
        simp
      · rw [ih _ g4 hv' hc' (by rw [g3']; simp) hw, g2', g3', written_cons_write, hh, List.append_assoc, ← Utf8.encode_append]
        simp

/-- What is written by the first calls is a first part of what is written. -/
theorem written_prefix {cs1 cs : List (Call f.Obj)} (h : cs1 <+: cs) (hc : ∀ c ∈ cs1, c.isClose = false) : written cs1 <+: written cs := by
  obtain ⟨cs2, rfl⟩ := h
  unfold written
  rw [List.takeWhile_append_of_pos fun c hm => by simp [hc c hm], List.filterMap_append,
    List.takeWhile_eq_self_iff.2 fun c hm => by simp [hc c hm]]
  exact List.prefix_append _ _

theorem headersFrom_prefix {cs1 cs : List (Call f.Obj)} (hp : cs1 <+: cs) (hw : written cs1 ≠ []) (h : List (Str × Str)) :
    headersFrom h cs1 = headersFrom h cs := by
  obtain ⟨cs2, rfl⟩ := hp
  unfold headersFrom
  congr 2
  induction cs1 with
  | nil => exact absurd rfl hw
  | cons c cs ih =>
    cases c with
    | setHeader k v =>
      rw [written_cons_header] at hw
      simp only [List.cons_append, List.takeWhile_cons, Call.isHeader, if_true]
      rw [ih hw]
    | writeObj o => rfl
    | close => rfl

/-! ## C84 -/

theorem torn_xml {norm : Xml.Config} (hn : IsNorm norm) {hs : List (Str × Str)} (h : HeadersOk hs) :
    Torn norm (xmlHead hs) xmlTail (str% "osm", []) [] [.other, .other, .start ⟨none, str% "osm"⟩ ((rootAttrs hs).map attrOf)]
      [.other] ⟨none, str% "osm"⟩ where
  headRun := run_xmlHead hn h
  headQuiet := by
    intro e he
    simp only [List.mem_cons, List.not_mem_nil, or_false] at he
    rcases he with rfl | rfl | rfl <;> rfl
  tailRun := fun _ => rfl
  tailEnds := rfl
  first := ⟨_, [], rfl⟩
  rootHead := by simp
  rootTail := by simp
  rootName := .inl rfl

theorem torn_osc {norm : Xml.Config} (hn : IsNorm norm) :
    Torn norm oscHead oscTail (str% "modify", []) [(str% "osmChange", [])]
      [.other, .other, .start ⟨none, str% "osmChange"⟩ ((rootAttrs []).map attrOf), .other, .start ⟨none, str% "modify"⟩ []]
      [.other, .stop ⟨none, str% "modify"⟩, .other] ⟨none, str% "osmChange"⟩ where
  headRun := run_oscHead hn
  headQuiet := by
    intro e he
    simp only [List.mem_cons, List.not_mem_nil, or_false] at he
    rcases he with rfl | rfl | rfl | rfl | rfl <;> rfl
  tailRun := run_oscTail norm
  tailEnds := by decide
  first := ⟨_, _, rfl⟩
  rootHead := by simp
  rootTail := by simp
  rootName := .inr rfl

/-- **C84**, XML files. After any history of calls without `close` and with the final drop (objects that can be represented in
XML and have versions, nodes with positions; representable headers; no faults), let `a` be any part of the file from its start, but
not all of it. Then there is a number `j` such that reading `a` gives exactly the first `j` objects, equal in everything (timestamps
as text), and then panics. After any number of the calls, if an object was written by then, the objects written so far are among
these `j` if and only if everything that was in the sink then is in `a`. So an object is read back exactly if the call
that wrote it got all its bytes into the file. -/
theorem C84_xml (norm : Xml.Config) (hn : IsNorm norm) (σ : HashOrder) (k : Sink) (hk : k.Reliable) (hk0 : k.out = [])
    (cs : List (Call f.Obj)) (hv : AllVersioned cs) (hc : ∀ c ∈ cs, c.isClose = false) (hh : HeadersOk (headersOf cs))
    (hw : ∀ o ∈ written cs, Writable o) (a : List UInt8)
    (ha : a <+: (XMLWriter.drop σ (run (xmlCall σ) (XMLWriter.new k) cs).2).2.writer.out)
    (hne : a ≠ (XMLWriter.drop σ (run (xmlCall σ) (XMLWriter.new k) cs).2).2.writer.out) :
    ∃ j ≤ (written cs).length,
      (∀ cs1, cs1 <+: cs → written cs1 ≠ [] →
        ((written cs1).length ≤ j ↔ (run (xmlCall σ) (XMLWriter.new k) cs1).2.writer.out <+: a)) ∧
      ∃ rs : List StringOSMObj, Drain XMLReader.next (XMLReader.new norm a) rs (some .unwrap) [] ∧
        rs.map objData = ((written cs).take j).map fun o => readBack (objData o) := by
  rw [xml_doc_eq σ k hk hk0 cs hv hc] at ha hne
  obtain ⟨j, hj, h1, rs, h2, h3⟩ := torn_drain hn (torn_xml hn (headersOk_perm (σ.perm _).symm hh)) (written cs) (fun o ho => (hw o ho).parsable) ha hne
  refine ⟨j, hj, fun cs1 hp hne1 => ?_, rs, h2, h3.trans ?_⟩
  · have hc1 : ∀ c ∈ cs1, c.isClose = false := fun c hm => hc c (hp.subset hm)
    have hwp := written_prefix hp hc1
    have := h1 (written cs1).length (List.length_pos_iff.2 hne1) hwp.length_le
    rw [this, ← List.prefix_iff_eq_take.1 hwp,
      xml_run_out σ cs1 (XMLWriter.new k) hk (fun d hd => hv d (hp.subset hd)) hc1 (by simp [XMLWriter.new]) hne1]
    show _ ↔ k.out ++ Utf8.encode (xmlHead (σ.order (headersFrom [] cs1)) ++ _) <+: a
    rw [hk0, headersFrom_prefix hp hne1]
    rfl
  · refine List.map_congr_left fun o ho => ?_
    rw [mapTexts_representable hn (hw o (List.mem_of_mem_take ho)).2.1]

/-- **C84**, change files: the same for any history of calls on a writer of change files, also with `close`. -/
theorem C84_osc (norm : Xml.Config) (hn : IsNorm norm) (k : Sink) (hk : k.Reliable) (hk0 : k.out = [])
    (cs : List (Call f.Obj)) (hv : AllVersioned cs) (hw : ∀ o ∈ written cs, Writable o) (a : List UInt8)
    (ha : a <+: (OSCWriter.drop (run oscCall (OSCWriter.new k) cs).2).2.writer.out)
    (hne : a ≠ (OSCWriter.drop (run oscCall (OSCWriter.new k) cs).2).2.writer.out) :
    ∃ j ≤ (written cs).length,
      (∀ cs1, cs1 <+: cs → (∀ c ∈ cs1, c.isClose = false) → written cs1 ≠ [] →
        ((written cs1).length ≤ j ↔ (run oscCall (OSCWriter.new k) cs1).2.writer.out <+: a)) ∧
      ∃ rs : List StringOSMObj, Drain OSCReader.next (OSCReader.new norm a) rs (some .unwrap) [] ∧
        rs.map objData = ((written cs).take j).map fun o => readBack (objData o) := by
  have hdoc := (C24_one_document_partial k hk cs hv).2
  rw [hk0, List.nil_append] at hdoc
  rw [hdoc] at ha hne
  obtain ⟨j, hj, h1, rs, h2, h3⟩ := torn_drain hn (torn_osc hn) (written cs) (fun o ho => (hw o ho).parsable) ha hne
  refine ⟨j, hj, fun cs1 hp hc1 hne1 => ?_, rs, ?_, h3.trans ?_⟩
  · have hwp := written_prefix hp hc1
    have := h1 (written cs1).length (List.length_pos_iff.2 hne1) hwp.length_le
    rw [this, ← List.prefix_iff_eq_take.1 hwp,
      osc_run_out cs1 (OSCWriter.new k) hk (fun d hd => hv d (hp.subset hd)) hc1 (by simp [OSCWriter.new]) hne1]
    show _ ↔ k.out ++ Utf8.encode (oscHead ++ _) <+: a
    rw [hk0]
    rfl
  · rw [osc_next_eq]; exact h2
  · refine List.map_congr_left fun o ho => ?_
    rw [mapTexts_representable hn (hw o (List.mem_of_mem_take ho)).2.1]

/-- The sample history with its two objects meets what is assumed, and the document can be torn right after the first of them. -/
theorem C84_nonvacuous : AllVersioned (f := .string) sampleHistory ∧ (∀ c ∈ sampleHistory, c.isClose = false) ∧
    HeadersOk (headersOf sampleHistory) ∧ (∀ o ∈ written sampleHistory, Writable (f := .string) o) ∧
    (written sampleHistory).length = 2 ∧
    ∃ cs1, cs1 <+: sampleHistory ∧ (written cs1).length = 1 := by
  refine ⟨C23_nonvacuous.1, C23_nonvacuous.2.1, C27_nonvacuous.1, C27_nonvacuous.2.2.1, rfl, ?_⟩
  exact ⟨sampleHistory.take 4, List.take_prefix _ _, by decide +kernel⟩

end Osmio
