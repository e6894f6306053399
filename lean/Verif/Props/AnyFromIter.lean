import Verif.Props.AnySink
import Verif.Props.WriterRead
/-!
# C106 over any implementation of `Write`

`from_iter` on any sink, however it takes its bytes and whenever it fails.
-/

namespace Osmio
open Spec OSMObjBase

variable {f : Family}

theorem xml_fromIter_follows {P : Schedules} {wr : AnyWriter} {pc : Pieces wr.S}
    (h : ∀ t, Follows P (sinkOf wr.taken) (writeOver wr pc t) (write t)) (σ : HashOrder) (s : wr.S) (os : List f.Obj) :
    ∃ fs, P.mem fs ∧ ∀ fs', P.mem fs' → XMLWriter.fromIter σ ⟨wr.taken s, fs ++ fs'⟩ os =
      ((XMLWriterOver.fromIter (writeOver wr pc) σ s os).1, xmlOf wr.taken (XMLWriterOver.fromIter (writeOver wr pc) σ s os).2 fs') :=
by
  obtain ⟨fs, p, e⟩ := Follows.seq (Follows.each (fun o => xml_writeObj_follows h σ o) os) (xml_close_follows h σ) (XMLWriterOver.new s)
  refine ⟨fs, p, fun fs' p' => ?_⟩
  have e : _ = (_, _) := e fs' p'
  unfold XMLWriter.fromIter XMLWriterOver.fromIter
  generalize (do M.each (fun o => XMLWriterOver.writeObj (writeOver wr pc) σ o) os; XMLWriterOver.close (writeOver wr pc) σ :
    M (XMLWriterOver wr.S) Unit) (XMLWriterOver.new s) = x at e ⊢
  rw [show XMLWriter.new ⟨wr.taken s, fs ++ fs'⟩ = xmlOf wr.taken (XMLWriterOver.new s) (fs ++ fs') from rfl, e]
  rcases x with ⟨_ | _ | _, w'⟩ <;> rfl

theorem osc_fromIter_follows {P : Schedules} {wr : AnyWriter} {pc : Pieces wr.S}
    (h : ∀ t, Follows P (sinkOf wr.taken) (writeOver wr pc t) (write t)) (s : wr.S) (os : List f.Obj) :
    ∃ fs, P.mem fs ∧ ∀ fs', P.mem fs' → OSCWriter.fromIter ⟨wr.taken s, fs ++ fs'⟩ os =
      ((OSCWriterOver.fromIter (writeOver wr pc) s os).1, oscOf wr.taken (OSCWriterOver.fromIter (writeOver wr pc) s os).2 fs') :=
by
  obtain ⟨fs, p, e⟩ := Follows.seq (Follows.each (fun o => osc_writeObj_follows h o) os) (osc_close_follows h) (OSCWriterOver.new s)
  refine ⟨fs, p, fun fs' p' => ?_⟩
  have e : _ = (_, _) := e fs' p'
  unfold OSCWriter.fromIter OSCWriterOver.fromIter
  generalize (do M.each (fun o => OSCWriterOver.writeObj (writeOver wr pc) o) os; OSCWriterOver.close (writeOver wr pc) :
    M (OSCWriterOver wr.S) Unit) (OSCWriterOver.new s) = x at e ⊢
  rw [show OSCWriter.new ⟨wr.taken s, fs ++ fs'⟩ = oscOf wr.taken (OSCWriterOver.new s) (fs ++ fs') from rfl, e]
  rcases x with ⟨_ | _ | _, w'⟩ <;> rfl

/-- **C106**, XML, any sink. `from_iter` returns a closed writer or panics. If it returns, each object has a version and the sink has taken the document of the
objects. If it panics though each object has a version, the sink has taken a beginning of that document. If an object has no version it panics, and the sink
has taken a beginning of the document up to the place of the first missing version. -/
theorem C106_any_xml (wr : AnyWriter) (pc : Pieces wr.S) (σ : HashOrder) (s : wr.S) (os : List f.Obj) :
    let r := XMLWriterOver.fromIter (writeOver wr pc) σ s os
    ((∀ o ∈ os, version o ≠ none) →
      (r.1 = .ok () ∧ r.2.state = .closed ∧ wr.taken r.2.writer = wr.taken s ++ Utf8.encode (xmlDocument [] os)) ∨
      (r.1 = .panic .unwrap ∧ r.2.state ≠ .closed ∧ ∃ p, p <+: Utf8.encode (xmlDocument [] os) ∧ wr.taken r.2.writer = wr.taken s ++ p)) ∧
    (∀ pre o post, os = pre ++ o :: post → (∀ x ∈ pre, version x ≠ none) → version o = none →
      r.1 = .panic .unwrap ∧ r.2.state ≠ .closed ∧
      ∃ p, p <+: Utf8.encode (xmlHead [] ++ pre.flatMap textOf ++ stubOf o) ∧ wr.taken r.2.writer = wr.taken s ++ p) := by
  obtain ⟨fs, _, e⟩ := xml_fromIter_follows (f := f) (write_follows_all wr pc) σ s os
  have e := e [] (Schedules.nil _)
  rw [List.append_nil] at e
  have h := C106_xml σ ⟨wr.taken s, fs⟩ os
  rw [e] at h
  simp only [xmlOf, XMLWriter.isOpen] at h
  intro r
  refine ⟨fun hv => ?_, fun pre o post he h1 h2 => ?_⟩
  · rcases h.1 hv with ⟨g1, g2, g3, _⟩ | ⟨g1, g2, g3, _⟩
    · exact .inl ⟨g1, by simpa using g2, g3⟩
    · exact .inr ⟨g1, by simpa using g2, g3⟩
  · obtain ⟨g1, g2, g3⟩ := h.2 pre o post he h1 h2
    refine ⟨g1, by simpa using g2, ?_⟩
    rcases g3 with ⟨g3, _⟩ | ⟨g3, _⟩
    · exact ⟨_, List.prefix_refl _, g3⟩
    · exact g3

/-- **C106**, change files, any sink. -/
theorem C106_any_osc (wr : AnyWriter) (pc : Pieces wr.S) (s : wr.S) (os : List f.Obj) :
    let r := OSCWriterOver.fromIter (writeOver wr pc) s os
    ((∀ o ∈ os, version o ≠ none) →
      (r.1 = .ok () ∧ r.2.state = .closed ∧ wr.taken r.2.writer = wr.taken s ++ Utf8.encode (oscDocument os)) ∨
      (r.1 = .panic .unwrap ∧ r.2.state ≠ .closed ∧ ∃ p, p <+: Utf8.encode (oscDocument os) ∧ wr.taken r.2.writer = wr.taken s ++ p)) ∧
    (∀ pre o post, os = pre ++ o :: post → (∀ x ∈ pre, version x ≠ none) → version o = none →
      r.1 = .panic .unwrap ∧ r.2.state ≠ .closed ∧
      ∃ p, p <+: Utf8.encode (oscHead ++ pre.flatMap textOf ++ stubOf o) ∧ wr.taken r.2.writer = wr.taken s ++ p) := by
  obtain ⟨fs, _, e⟩ := osc_fromIter_follows (f := f) (write_follows_all wr pc) s os
  have e := e [] (Schedules.nil _)
  rw [List.append_nil] at e
  have h := C106_osc ⟨wr.taken s, fs⟩ os
  rw [e] at h
  simp only [oscOf, OSCWriter.isOpen] at h
  intro r
  refine ⟨fun hv => ?_, fun pre o post he h1 h2 => ?_⟩
  · rcases h.1 hv with ⟨g1, g2, g3, _⟩ | ⟨g1, g2, g3, _⟩
    · exact .inl ⟨g1, by simpa using g2, g3⟩
    · exact .inr ⟨g1, by simpa using g2, g3⟩
  · obtain ⟨g1, g2, g3⟩ := h.2 pre o post he h1 h2
    refine ⟨g1, by simpa using g2, ?_⟩
    rcases g3 with ⟨g3, _⟩ | ⟨g3, _⟩
    · exact ⟨_, List.prefix_refl _, g3⟩
    · exact g3

/-- **C106**, a sink that never fails, however few bytes it takes at a time: `from_iter` returns exactly if each object has a version, and what the sink has
when the writer is gone is fixed. -/
theorem C106_steady_osc {wr : AnyWriter} (hw : Steady wr) (pc : Pieces wr.S) (s : wr.S) (os : List f.Obj) :
    let r := OSCWriterOver.fromIter (writeOver wr pc) s os
    let d := OSCWriterOver.drop (writeOver wr pc) r.2
    (r.1 = .ok () ↔ ∀ o ∈ os, version o ≠ none) ∧ d.1 = .ok () ∧
    ((∀ o ∈ os, version o ≠ none) → wr.taken d.2.writer = wr.taken s ++ Utf8.encode (oscDocument os)) ∧
    (∀ pre o post, os = pre ++ o :: post → (∀ x ∈ pre, version x ≠ none) → version o = none →
      wr.taken d.2.writer = wr.taken s ++ Utf8.encode (oscHead ++ pre.flatMap textOf ++ stubOf o ++ oscTail)) := by
  obtain ⟨fs, rfl, e⟩ := osc_fromIter_follows (f := f) (write_follows_none hw pc) s os
  have e := e [] (Schedules.nil _)
  have hk : (⟨wr.taken s, []⟩ : Sink).Reliable := fun _ h => by cases h
  obtain ⟨fs, rfl, e2⟩ := osc_drop_follows (write_follows_none hw pc) (OSCWriterOver.fromIter (writeOver wr pc) s os).2
  have e2 := e2 [] (Schedules.nil _)
  simp only [List.append_nil] at e e2
  have h := C106_osc ⟨wr.taken s, []⟩ os
  have hd := C106_osc_dropped ⟨wr.taken s, []⟩ hk os
  rw [e] at h
  rw [e] at hd
  simp only [e2] at hd
  intro r d
  refine ⟨⟨fun hr => ?_, fun hv => ?_⟩, hd.1, hd.2.1, hd.2.2⟩
  · refine Classical.byContradiction fun hv => ?_
    obtain ⟨pre, o, post, he, h1, h2⟩ := first_unversioned hv
    have := (h.2 pre o post he h1 h2).1
    simp only [r] at hr
    rw [hr] at this
    cases this
  · rcases h.1 hv with ⟨g1, _⟩ | ⟨_, _, _, g4⟩
    · exact g1
    · exact absurd g4 (not_hit hk)

/-- **C106**, the same for XML: with one end tag too many when `from_iter` has returned (`C23`). -/
theorem C106_steady_xml {wr : AnyWriter} (hw : Steady wr) (pc : Pieces wr.S) (σ : HashOrder) (s : wr.S) (os : List f.Obj) :
    let r := XMLWriterOver.fromIter (writeOver wr pc) σ s os
    let d := XMLWriterOver.drop (writeOver wr pc) σ r.2
    (r.1 = .ok () ↔ ∀ o ∈ os, version o ≠ none) ∧ d.1 = .ok () ∧
    ((∀ o ∈ os, version o ≠ none) → wr.taken r.2.writer = wr.taken s ++ Utf8.encode (xmlDocument [] os) ∧
      wr.taken d.2.writer = wr.taken s ++ Utf8.encode (xmlDocument [] os ++ xmlTail)) ∧
    (∀ pre o post, os = pre ++ o :: post → (∀ x ∈ pre, version x ≠ none) → version o = none →
      wr.taken d.2.writer = wr.taken s ++ Utf8.encode (xmlHead [] ++ pre.flatMap textOf ++ stubOf o ++ xmlTail)) := by
  obtain ⟨fs, rfl, e⟩ := xml_fromIter_follows (f := f) (write_follows_none hw pc) σ s os
  have e := e [] (Schedules.nil _)
  have hk : (⟨wr.taken s, []⟩ : Sink).Reliable := fun _ h => by cases h
  obtain ⟨fs, rfl, e2⟩ := xml_drop_follows (write_follows_none hw pc) σ (XMLWriterOver.fromIter (writeOver wr pc) σ s os).2
  have e2 := e2 [] (Schedules.nil _)
  simp only [List.append_nil] at e e2
  have h := C106_xml σ ⟨wr.taken s, []⟩ os
  have hd := C106_xml_dropped σ ⟨wr.taken s, []⟩ hk os
  rw [e] at h
  rw [e] at hd
  simp only [e2] at hd
  intro r d
  have hok : (∀ o ∈ os, version o ≠ none) → r.1 = .ok () ∧ wr.taken r.2.writer = wr.taken s ++ Utf8.encode (xmlDocument [] os) := fun hv => by
    rcases h.1 hv with ⟨g1, _, g3, _⟩ | ⟨_, _, _, g4⟩
    · exact ⟨g1, g3⟩
    · exact absurd g4 (not_hit hk)
  refine ⟨⟨fun hr => ?_, fun hv => (hok hv).1⟩, hd.1, fun hv => ⟨(hok hv).2, hd.2.1 hv⟩, hd.2.2⟩
  refine Classical.byContradiction fun hv => ?_
  obtain ⟨pre, o, post, he, h1, h2⟩ := first_unversioned hv
  have := (h.2 pre o post he h1 h2).1
  simp only [r] at hr
  rw [hr] at this
  cases this

/-! ### Concrete cases -/

/-- One byte at a time. -/
example : (narrow 1).taken (OSCWriterOver.drop (writeOver (narrow 1) Pieces.single)
      (OSCWriterOver.fromIter (writeOver (narrow 1) Pieces.single) [] mixed).2).2.writer =
    Utf8.encode (oscHead ++ [sampleObj].flatMap textOf ++ stubOf (α := Family.string.Obj) unversionedObj ++ oscTail) :=
  (C106_steady_osc (narrow_steady (by decide)) Pieces.single [] mixed).2.2.2 _ _ _ mixed_split.1 mixed_split.2.1 mixed_split.2.2
example : (narrow 1).taken (XMLWriterOver.fromIter (writeOver (narrow 1) Pieces.single) sampleOrder [] [tagged1]).2.writer =
    Utf8.encode (xmlDocument [] [tagged1]) :=
  ((C106_steady_xml (narrow_steady (by decide)) Pieces.single sampleOrder [] [tagged1]).2.2.1 fun o ho => (tagged1_ok o ho).1).1
end Osmio
