import Verif.Props.Writer
/-!
# C26: `write_obj` panics exactly on objects without a version
-/

namespace Osmio
open Spec OSMObjBase

variable {f : Family}

theorem writeObjBody_unversioned (o : f.Obj) (hv : version o = none) (s : Sink) (hs : s.Reliable) :
    (writeObjBody o s).1 = .panic .unwrap := by
  have step : ∀ (t : Str) (m : M Sink Unit) (s : Sink), s.Reliable → (∀ s', s'.Reliable → (m s').1 = .panic .unwrap) →
      ((do write t; m : M Sink Unit) s).1 = .panic .unwrap := by
    intro t m s hs hm
    rw [seq_apply]
    obtain ⟨g1, g2⟩ := (emits_write t).reliable s hs
    rcases hw : write t s with ⟨q1, q2⟩
    rw [hw] at g1 g2
    cases g1
    exact hm q2 g2
  unfold writeObjBody
  refine step _ _ _ hs fun s hs => step _ _ _ hs fun s hs => step _ _ _ hs fun s hs => ?_
  rw [hv]
  rfl

/-- The OSC writer, too, panics on every object without a version as long as it is open and its sink works. -/
theorem C26_osc_unversioned_fails (o : f.Obj) (hv : version o = none) (w : OSCWriter)
    (hr : w.writer.Reliable) (ho : w.isOpen = true) : (OSCWriter.writeObj o w).1 = .panic .unwrap := by
  have hc : w.state ≠ .closed := by rintro h; simp [OSCWriter.isOpen, h] at ho
  have h := (osc_checkOpen_sends w hc).ok hr
  unfold OSCWriter.writeObj
  rw [seq_apply]
  rcases hE : OSCWriter.checkOpen w with ⟨r1, r2⟩
  rw [hE] at h
  obtain ⟨h1, _, _, h4⟩ := h
  cases h1
  exact writeObjBody_unversioned o hv _ h4

/-- **C26**, exactly: on an open writer whose sink works `write_obj` returns a result if and only if the object has a version. -/
theorem C26_no_panic_iff (σ : HashOrder) (o : f.Obj) :
    (∀ w : XMLWriter, w.writer.Reliable → w.isOpen = true →
      ((∀ p, (XMLWriter.writeObj σ o w).1 ≠ .panic p) ↔ version o ≠ none)) ∧
    (∀ w : OSCWriter, w.writer.Reliable → w.isOpen = true →
      ((∀ p, (OSCWriter.writeObj o w).1 ≠ .panic p) ↔ version o ≠ none)) :=
  ⟨fun w hr ho => ⟨fun h hv => h _ (C26_unversioned_fails σ o hv w hr ho), fun hv => (C26_no_panic_partial σ o hv).1 w⟩,
   fun w hr ho => ⟨fun h hv => h _ (C26_osc_unversioned_fails o hv w hr ho), fun hv => (C26_no_panic_partial σ o hv).2 w⟩⟩

/-- A closed writer does not panic on any object. -/
theorem C26_closed (σ : HashOrder) (o : f.Obj) :
    (∀ w : XMLWriter, w.isOpen = false → XMLWriter.writeObj σ o w = (.err .alreadyClosed, w)) ∧
    (∀ w : OSCWriter, w.isOpen = false → OSCWriter.writeObj o w = (.err .alreadyClosed, w)) := by
  constructor
  · intro w h
    have hc : w.state = .closed := by simpa [XMLWriter.isOpen] using h
    unfold XMLWriter.writeObj
    rw [seq_apply]
    have : XMLWriter.checkOpen σ w = (.err .alreadyClosed, w) := by unfold XMLWriter.checkOpen; rw [hc]
    rw [this]
    rfl
  · intro w h
    have hc : w.state = .closed := by simpa [OSCWriter.isOpen] using h
    unfold OSCWriter.writeObj
    rw [seq_apply]
    have : OSCWriter.checkOpen w = (.err .alreadyClosed, w) := by unfold OSCWriter.checkOpen; rw [hc]
    rw [this]
    rfl

/-- New writers on a working sink are open. -/
example (s : Sink) : (XMLWriter.new s).isOpen = true ∧ (OSCWriter.new s).isOpen = true := ⟨rfl, rfl⟩

end Osmio
