import Verif.Proofs.AnySink
import Verif.Props.Writer
/-!
# C82: what is written does not depend on how the sink takes its bytes

For every implementation of `Write`, every way of `write!` to cut texts in pieces, and every history of calls with the drop at its end: the
answers and the bytes taken are those of a run on a sink of `Lib/Io.lean` with some schedule of faults, so every theorem that quantifies
over schedules speaks of every sink. If the sink never fails, they are those of the run without faults.
-/

namespace Osmio
open Spec OSMObjBase

variable {f : Family}

/-- Two histories, each with the drop at its end, cannot be told apart: the answers, the bytes, and the answer of the drop. -/
def SameXml (wr : AnyWriter) (pc : Pieces wr.S) (σ : HashOrder) (s : wr.S) (k : Sink) (cs : List (Call f.Obj)) : Prop :=
  let r := run (xmlCallOver wr pc σ) (XMLWriterOver.new s) cs
  let d := XMLWriterOver.drop (writeOver wr pc) σ r.2
  let r' := run (xmlCall σ) (XMLWriter.new k) cs
  let d' := XMLWriter.drop σ r'.2
  r.1 = r'.1 ∧ wr.taken r.2.writer = r'.2.writer.out ∧ d.1 = d'.1 ∧ wr.taken d.2.writer = d'.2.writer.out

/-- The same for the OSC writer. -/
def SameOsc (wr : AnyWriter) (pc : Pieces wr.S) (s : wr.S) (k : Sink) (cs : List (Call f.Obj)) : Prop :=
  let r := run (oscCallOver wr pc) (OSCWriterOver.new s) cs
  let d := OSCWriterOver.drop (writeOver wr pc) r.2
  let r' := run oscCall (OSCWriter.new k) cs
  let d' := OSCWriter.drop r'.2
  r.1 = r'.1 ∧ wr.taken r.2.writer = r'.2.writer.out ∧ d.1 = d'.1 ∧ wr.taken d.2.writer = d'.2.writer.out

theorem xmlCall_follows {P : Schedules} {wr : AnyWriter} {pc : Pieces wr.S} (h : ∀ t, Follows P (sinkOf wr.taken) (writeOver wr pc t) (write t))
    (σ : HashOrder) (c : Call f.Obj) : Follows P (xmlOf wr.taken) (xmlCallOver wr pc σ c) (xmlCall σ c) := by
  cases c
  · exact xml_setHeader_follows _ _
  · exact xml_writeObj_follows h σ _
  · exact xml_close_follows h σ

theorem oscCall_follows {P : Schedules} {wr : AnyWriter} {pc : Pieces wr.S} (h : ∀ t, Follows P (sinkOf wr.taken) (writeOver wr pc t) (write t))
    (c : Call f.Obj) : Follows P (oscOf wr.taken) (oscCallOver wr pc c) (oscCall c) := by
  cases c
  · exact Follows.panic _
  · exact osc_writeObj_follows h _
  · exact osc_close_follows h

theorem same_xml {P : Schedules} {wr : AnyWriter} {pc : Pieces wr.S} (h : ∀ t, Follows P (sinkOf wr.taken) (writeOver wr pc t) (write t))
    (σ : HashOrder) (s : wr.S) (cs : List (Call f.Obj)) : ∃ fs, P.mem fs ∧ SameXml wr pc σ s ⟨wr.taken s, fs⟩ cs := by
  obtain ⟨f1, p1, e1⟩ := run_follows (xmlCall_follows (f := f) h σ) cs (XMLWriterOver.new s)
  obtain ⟨f2, p2, e2⟩ := xml_drop_follows h σ (run (xmlCallOver wr pc σ) (XMLWriterOver.new s) cs).2
  have e1 := e1 f2 p2
  have e2 := e2 [] P.nil
  rw [List.append_nil] at e2
  refine ⟨f1 ++ f2, P.append p1 p2, ?_⟩
  have e1 : run (xmlCall σ) (XMLWriter.new ⟨wr.taken s, f1 ++ f2⟩) cs = _ := e1
  refine ⟨?_, ?_, ?_, ?_⟩
  · rw [e1]
  · rw [e1]; rfl
  · rw [e1, e2]
  · rw [e1, e2]; rfl

theorem same_osc {P : Schedules} {wr : AnyWriter} {pc : Pieces wr.S} (h : ∀ t, Follows P (sinkOf wr.taken) (writeOver wr pc t) (write t))
    (s : wr.S) (cs : List (Call f.Obj)) : ∃ fs, P.mem fs ∧ SameOsc wr pc s ⟨wr.taken s, fs⟩ cs := by
  obtain ⟨f1, p1, e1⟩ := run_follows (oscCall_follows (f := f) h) cs (OSCWriterOver.new s)
  obtain ⟨f2, p2, e2⟩ := osc_drop_follows h (run (oscCallOver wr pc) (OSCWriterOver.new s) cs).2
  have e1 := e1 f2 p2
  have e2 := e2 [] P.nil
  rw [List.append_nil] at e2
  refine ⟨f1 ++ f2, P.append p1 p2, ?_⟩
  have e1 : run oscCall (OSCWriter.new ⟨wr.taken s, f1 ++ f2⟩) cs = _ := e1
  refine ⟨?_, ?_, ?_, ?_⟩
  · rw [e1]
  · rw [e1]; rfl
  · rw [e1, e2]
  · rw [e1, e2]; rfl

/-- Any sink: some schedule of faults explains it. -/
theorem C82_xml (wr : AnyWriter) (pc : Pieces wr.S) (σ : HashOrder) (s : wr.S) (cs : List (Call f.Obj)) :
    ∃ faults, SameXml wr pc σ s ⟨wr.taken s, faults⟩ cs := by
  obtain ⟨fs, _, h⟩ := same_xml (write_follows_all wr pc) σ s cs
  exact ⟨fs, h⟩

theorem C82_osc (wr : AnyWriter) (pc : Pieces wr.S) (s : wr.S) (cs : List (Call f.Obj)) : ∃ faults, SameOsc wr pc s ⟨wr.taken s, faults⟩ cs := by
  obtain ⟨fs, _, h⟩ := same_osc (write_follows_all wr pc) s cs
  exact ⟨fs, h⟩

/-- A sink that never fails, however few bytes it takes at a time and however often it is interrupted: as if it took every text at once. -/
theorem C82_steady_xml {wr : AnyWriter} (h : Steady wr) (pc : Pieces wr.S) (σ : HashOrder) (s : wr.S) (cs : List (Call f.Obj)) :
    SameXml wr pc σ s ⟨wr.taken s, []⟩ cs := by
  obtain ⟨fs, rfl, h⟩ := same_xml (write_follows_none h pc) σ s cs
  exact h

theorem C82_steady_osc {wr : AnyWriter} (h : Steady wr) (pc : Pieces wr.S) (s : wr.S) (cs : List (Call f.Obj)) :
    SameOsc wr pc s ⟨wr.taken s, []⟩ cs := by
  obtain ⟨fs, rfl, h⟩ := same_osc (write_follows_none h pc) s cs
  exact h

/-- So an XML writer on such a sink writes one document, byte for byte (compare `C23_one_document_partial`). -/
theorem C82_document_xml {wr : AnyWriter} (h : Steady wr) (pc : Pieces wr.S) (σ : HashOrder) (s : wr.S) (cs : List (Call f.Obj))
    (hv : AllVersioned cs) (hc : ∀ c ∈ cs, c.isClose = false) :
    wr.taken (XMLWriterOver.drop (writeOver wr pc) σ (run (xmlCallOver wr pc σ) (XMLWriterOver.new s) cs).2).2.writer =
      wr.taken s ++ Utf8.encode (xmlDocument (σ.order (headersOf cs)) (cs.filterMap Call.obj?)) := by
  rw [(C82_steady_xml h pc σ s cs).2.2.2]
  exact C23_one_document_partial σ ⟨wr.taken s, []⟩ (by simp [Sink.Reliable]) cs hv hc

/-- And an OSC writer (compare `C24_one_document_partial`). -/
theorem C82_document_osc {wr : AnyWriter} (h : Steady wr) (pc : Pieces wr.S) (s : wr.S) (cs : List (Call f.Obj)) (hv : AllVersioned cs) :
    wr.taken (OSCWriterOver.drop (writeOver wr pc) (run (oscCallOver wr pc) (OSCWriterOver.new s) cs).2).2.writer =
      wr.taken s ++ Utf8.encode (oscDocument (written cs)) := by
  rw [(C82_steady_osc h pc s cs).2.2.2]
  exact (C24_one_document_partial ⟨wr.taken s, []⟩ (by simp [Sink.Reliable]) cs hv).2

/-- Whatever the sink does, what it has taken of a text is a beginning of it, and all of it exactly if `write!` says so. -/
theorem C82_text (wr : AnyWriter) (pc : Pieces wr.S) (t : Str) (s : wr.S) :
    ((writeOver wr pc t s).1 = .ok () ∧ wr.taken (writeOver wr pc t s).2 = wr.taken s ++ Utf8.encode t) ∨
    ((writeOver wr pc t s).1 = .err .xmlWriteIOError ∧ ∃ p, p <+: Utf8.encode t ∧ wr.taken (writeOver wr pc t s).2 = wr.taken s ++ p) := by
  obtain ⟨n, h1, h2⟩ := writePieces_taken wr (pc.cut s t) s
  rw [pc.whole] at h1 h2
  unfold writeOver
  rcases hw : writePieces wr (pc.cut s t) s with ⟨_ | _, s'⟩
  · rw [hw] at h1
    exact .inr ⟨rfl, _, List.take_prefix _ _, h1⟩
  · rw [hw] at h1 h2
    rw [h2 rfl] at h1
    exact .inl ⟨rfl, h1⟩

/-! The hypotheses are met: a sink that takes one byte at a time, and pieces of one character. -/

theorem narrow_steady {n : Nat} (h : 0 < n) : Steady (narrow n) := by
  intro s buf hb
  have := List.length_pos_iff.2 hb
  refine ⟨by simp [narrow], ?_⟩
  show WriteOut.ok (min n buf.length) ≠ .ok 0
  simp only [ne_eq, WriteOut.ok.injEq]
  omega

example : (narrow 1).taken (XMLWriterOver.drop (writeOver (narrow 1) Pieces.single) sampleOrder
      (run (xmlCallOver (narrow 1) Pieces.single sampleOrder) (XMLWriterOver.new []) sampleHistory).2).2.writer =
    Utf8.encode (xmlDocument (headersOf sampleHistory) (sampleHistory.filterMap Call.obj?)) :=
  C82_document_xml (narrow_steady (by decide)) Pieces.single sampleOrder [] sampleHistory C23_nonvacuous.1 C23_nonvacuous.2.1

/-- A sink that takes nothing is not steady, nor is one that may fail: a plan with a failure leaves a beginning of the text, and the error is told. -/
example : ¬ Steady (narrow 0) := fun h => (h [] [1] (by simp)).2 rfl
example : ¬ Steady planned := fun h => (h ⟨[], [.failed]⟩ [1] (by simp)).1 rfl

end Osmio
