import Verif.Proofs.Write
import Verif.Spec.Writer
/-! What the calls of the writers send to the sink, and what they do to the state. -/

namespace Osmio
open Spec OSMObjBase

/-- The parts common to both writers. -/
class HasSink (S : Type) where
  sink : S → Sink
  st : S → WState

instance : HasSink XMLWriter := ⟨XMLWriter.writer, XMLWriter.state⟩
instance : HasSink OSCWriter := ⟨OSCWriter.writer, OSCWriter.state⟩
open HasSink

/-- `r` is the result of sending the text `t` and then putting the state to `s`. -/
structure Sends {S : Type} [HasSink S] (w : S) (r : Outcome Unit × S) (t : Str) (s : WState) : Prop where
  res : (r.1 = .ok () ∧ (sink r.2).out = (sink w).out ++ Utf8.encode t ∧ (sink w).Clean (sink r.2) ∧ st r.2 = s) ∨
    (r.1 = .err .xmlWriteIOError ∧ (∃ p, p <+: Utf8.encode t ∧ (sink r.2).out = (sink w).out ++ p) ∧
      (sink w).Hit (sink r.2) ∧ (st r.2 = st w ∨ (st w = .initial ∧ st r.2 = .writingObjects)))
  reliable : (sink w).Reliable → r.1 = .ok () ∧ (sink r.2).Reliable

section
variable {S : Type} [HasSink S]

theorem Sends.cast {w : S} {r : Outcome Unit × S} {t u : Str} {s s' : WState} (h : Sends w r t s)
    (e : t = u) (e' : s = s') : Sends w r u s' := e ▸ e' ▸ h

theorem Sends.then {w : S} {r : Outcome Unit × S} {t u : Str} {s1 s2 : WState} {g : M S Unit}
    (h : Sends w r t s1) (hs : s1 = st w ∨ (st w = .initial ∧ s1 = .writingObjects))
    (hg : r.1 = .ok () → st r.2 = s1 → Sends r.2 (g r.2) u s2) :
    Sends w (M.andThen (fun _ => g) r) (t ++ u) s2 := by
  obtain ⟨r1, r2⟩ := r
  rcases h.res with ⟨h1, h2, h3, h4⟩ | ⟨h1, ⟨p, hp, h2⟩, h3, h4⟩
  · cases h1
    have hg := hg rfl h4
    constructor
    · show ((g r2).1 = _ ∧ _) ∨ _
      rcases hg.res with ⟨g1, g2, g3, g4⟩ | ⟨g1, ⟨p, hp, g2⟩, g3, g4⟩
      · left
        refine ⟨g1, ?_, h3.trans g3, g4⟩
        show (sink (g r2).2).out = _
        rw [g2, h2, Utf8.encode_append, List.append_assoc]
      · right
        refine ⟨g1, ⟨Utf8.encode t ++ p, ?_, ?_⟩, h3.hit g3, ?_⟩
        · rw [Utf8.encode_append]; exact (List.prefix_append_right_inj _).2 hp
        · show (sink (g r2).2).out = _
          rw [g2, h2, List.append_assoc]
        · show st (g r2).2 = _ ∨ (_ ∧ st (g r2).2 = _)
          simp only at h4 g4
          rcases g4 with g4 | ⟨g4, g5⟩
          · rw [g4, h4]; exact hs
          · rw [h4] at g4
            rcases hs with hs | ⟨hs, hs'⟩
            · right; exact ⟨hs ▸ g4, g5⟩
            · rw [hs'] at g4; cases g4
    · intro hr
      exact hg.reliable (h.reliable hr).2
  · cases h1
    constructor
    · right
      refine ⟨rfl, ⟨p, ?_, h2⟩, h3, h4⟩
      rw [Utf8.encode_append]; exact hp.trans (List.prefix_append _ _)
    · intro hr
      have := (h.reliable hr).1
      cases this

theorem Sends.nothing (w : S) : Sends w (.ok (), w) [] (st w) := by
  constructor
  · left; exact ⟨rfl, by show _ = _ ++ []; simp, Sink.Clean.refl _, rfl⟩
  · intro h; exact ⟨rfl, h⟩

/-- What `close` does when the sink is dropped: an error becomes a panic; without faults nothing changes. -/
theorem Sends.ok {w : S} {r : Outcome Unit × S} {t : Str} {s : WState} (h : Sends w r t s)
    (hr : (sink w).Reliable) : r.1 = .ok () ∧ (sink r.2).out = (sink w).out ++ Utf8.encode t ∧ st r.2 = s ∧
      (sink r.2).Reliable := by
  have hk := h.reliable hr
  rcases h.res with ⟨h1, h2, h3, h4⟩ | ⟨h1, _⟩
  · exact ⟨h1, h2, h4, hk.2⟩
  · rw [hk.1] at h1; cases h1
end

theorem xml_onSink_sends {m : M Sink Unit} {t : Str} (h : Emits m t) (w : XMLWriter) :
    Sends w (XMLWriter.onSink m w) t w.state := by
  constructor
  · rcases h.res w.writer with ⟨h1, h2⟩ | ⟨h1, h2⟩
    · left; exact ⟨h1, h2, h.clean _ h1, rfl⟩
    · right; exact ⟨h1, h2, h.hit _ _ h1, Or.inl rfl⟩
  · exact h.reliable w.writer

theorem osc_onSink_sends {m : M Sink Unit} {t : Str} (h : Emits m t) (w : OSCWriter) :
    Sends w (OSCWriter.onSink m w) t w.state := by
  constructor
  · rcases h.res w.writer with ⟨h1, h2⟩ | ⟨h1, h2⟩
    · left; exact ⟨h1, h2, h.clean _ h1, rfl⟩
    · right; exact ⟨h1, h2, h.hit _ _ h1, Or.inl rfl⟩
  · exact h.reliable w.writer

theorem xml_setState_sends (s : WState) (w : XMLWriter) : Sends w (XMLWriter.setState s w) [] s := by
  constructor
  · left; exact ⟨rfl, by show _ = _ ++ []; simp [XMLWriter.setState, sink], Sink.Clean.refl _, rfl⟩
  · intro h; exact ⟨rfl, h⟩

theorem osc_setState_sends (s : WState) (w : OSCWriter) : Sends w (OSCWriter.setState s w) [] s := by
  constructor
  · left; exact ⟨rfl, by show _ = _ ++ []; simp [OSCWriter.setState, sink], Sink.Clean.refl _, rfl⟩
  · intro h; exact ⟨rfl, h⟩

theorem xmlHeader_emits (hs : List (Str × Str)) : Emits (XMLWriter.writeHeader hs) (xmlHead hs) := by
  unfold XMLWriter.writeHeader
  refine ((emits_write _).seq ((emits_write _).seq (Emits.seq
    (emits_each XMLWriter.writeHeaderAttr (fun h => rawAttr h.1 (escaped h.2)) (fun h => ?_) hs)
    (emits_write _)))).cast ?_
  · refine ((emits_write _).seq ((emits_escaped _).seq (emits_write _))).cast ?_
    simp [rawAttr]
  · simp [xmlHead, crateVersion]

theorem oscHeader_emits : Emits OSCWriter.writeHeader oscHead := by
  unfold OSCWriter.writeHeader
  refine ((emits_write _).seq ((emits_write _).seq ((emits_write _).seq (emits_write _)))).cast ?_
  simp [oscHead, crateVersion]

/-- The beginning of the document, if it is still to be written. -/
def xmlHead? (σ : HashOrder) (w : XMLWriter) : Str :=
  if w.state = .initial then xmlHead (σ.order w.headers) else []

/-- The beginning of the document, if it is still to be written. -/
def oscHead? (w : OSCWriter) : Str := if w.state = .initial then oscHead else []

/-- The state after the head has been written. -/
def headed (s : WState) : WState := if s = .initial then .writingObjects else s

theorem headed_step (s : WState) : headed s = s ∨ (s = .initial ∧ headed s = .writingObjects) := by
  cases s <;> simp [headed]

theorem xml_ensureHeader_sends (σ : HashOrder) (w : XMLWriter) :
    Sends w (XMLWriter.ensureHeader σ w) (xmlHead? σ w) (headed w.state) := by
  unfold XMLWriter.ensureHeader xmlHead? headed
  by_cases h : w.state = .initial
  · simp only [if_pos h]
    rw [seq_apply]
    exact ((xml_onSink_sends (xmlHeader_emits _) w).then (Or.inl rfl)
      (fun _ _ => xml_setState_sends .writingObjects _)).cast (by simp) rfl
  · simp only [if_neg h]
    exact Sends.nothing w

theorem osc_ensureHeader_sends (w : OSCWriter) :
    Sends w (OSCWriter.ensureHeader w) (oscHead? w) (headed w.state) := by
  unfold OSCWriter.ensureHeader oscHead? headed
  by_cases h : w.state = .initial
  · simp only [if_pos h]
    rw [seq_apply]
    exact ((osc_onSink_sends oscHeader_emits w).then (Or.inl rfl)
      (fun _ _ => osc_setState_sends .writingObjects _)).cast (by simp) rfl
  · simp only [if_neg h]
    exact Sends.nothing w

theorem xml_close_sends (σ : HashOrder) (w : XMLWriter) :
    Sends w (XMLWriter.close σ w) (xmlHead? σ w ++ xmlTail) .closed := by
  unfold XMLWriter.close
  rw [seq_apply]
  refine (xml_ensureHeader_sends σ w).then (headed_step _) (fun _ _ => ?_)
  rw [seq_apply]
  exact ((xml_onSink_sends (emits_write _) _).then (Or.inl rfl)
    (fun _ _ => xml_setState_sends .closed _)).cast (by simp [xmlTail]) rfl

/-- The end of the document, unless it is there already. -/
def oscTail? (w : OSCWriter) : Str := if w.state = .closed then [] else oscTail

theorem osc_close_sends (w : OSCWriter) :
    Sends w (OSCWriter.close w) (oscHead? w ++ oscTail? w) .closed := by
  unfold OSCWriter.close
  rw [seq_apply]
  refine (osc_ensureHeader_sends w).then (headed_step _) (fun _ hst => ?_)
  generalize (OSCWriter.ensureHeader w).2 = w' at *
  unfold OSCWriter.closeRest oscTail?
  have hst : w'.state = headed w.state := hst
  by_cases h : w.state = .closed
  · have h' : w'.state = .closed := by rw [hst, h]; rfl
    rw [if_pos h, if_neg (by simpa using h')]
    exact (Sends.nothing w').cast rfl h'
  · have h' : w'.state ≠ .closed := by
      rw [hst]; unfold headed; split
      · decide
      · exact h
    rw [if_neg h, if_pos h', seq_apply]
    refine ((osc_onSink_sends (emits_write _) w').then (u := str% "\n</osmChange>") (Or.inl rfl) (fun _ _ => ?_)).cast
      rfl rfl
    rw [seq_apply]
    exact ((osc_onSink_sends (emits_write _) _).then (Or.inl rfl)
      (fun _ _ => osc_setState_sends .closed _)).cast (by simp) rfl

section
set_option linter.unusedSectionVars false
variable {α N W R : Type} [OSMObjT α N W R] [NodeT N] [WayT W] [RelationT R] [LawfulObj α]

theorem emits_obj {o : α} (h : version o ≠ none) : Emits (writeObjBody o) (textOf o) := by
  unfold textOf
  cases hv : version o with
  | none => exact absurd hv h
  | some v => exact emits_body o v hv

theorem xml_checkOpen_sends (σ : HashOrder) (w : XMLWriter) (hc : w.state ≠ .closed) :
    Sends w (XMLWriter.checkOpen σ w) (xmlHead? σ w) .writingObjects := by
  have h := xml_ensureHeader_sends σ w
  unfold XMLWriter.checkOpen
  cases e : w.state with
  | initial => exact h.cast rfl (by rw [e]; rfl)
  | writingObjects => exact (Sends.nothing w).cast (by simp [xmlHead?, e]) e
  | closed => exact absurd e hc

theorem osc_checkOpen_sends (w : OSCWriter) (hc : w.state ≠ .closed) :
    Sends w (OSCWriter.checkOpen w) (oscHead? w) .writingObjects := by
  have h := osc_ensureHeader_sends w
  unfold OSCWriter.checkOpen
  cases e : w.state with
  | initial => exact h.cast rfl (by rw [e]; rfl)
  | writingObjects => exact (Sends.nothing w).cast (by simp [oscHead?, e]) e
  | closed => exact absurd e hc

theorem open_step {s : WState} (h : s ≠ .closed) :
    WState.writingObjects = s ∨ (s = .initial ∧ WState.writingObjects = .writingObjects) := by
  cases s <;> simp at *

theorem xml_write_sends (σ : HashOrder) (w : XMLWriter) {o : α} (hv : version o ≠ none)
    (hc : w.state ≠ .closed) :
    Sends w (XMLWriter.writeObj σ o w) (xmlHead? σ w ++ textOf o) .writingObjects := by
  unfold XMLWriter.writeObj
  rw [seq_apply]
  exact (xml_checkOpen_sends σ w hc).then (open_step hc)
    (fun _ hs => (xml_onSink_sends (emits_obj hv) _).cast rfl hs)

theorem osc_write_sends (w : OSCWriter) {o : α} (hv : version o ≠ none) (hc : w.state ≠ .closed) :
    Sends w (OSCWriter.writeObj o w) (oscHead? w ++ textOf o) .writingObjects := by
  unfold OSCWriter.writeObj
  rw [seq_apply]
  exact (osc_checkOpen_sends w hc).then (open_step hc)
    (fun _ hs => (osc_onSink_sends (emits_obj hv) _).cast rfl hs)

theorem xml_write_closed (σ : HashOrder) (w : XMLWriter) (o : α) (hc : w.state = .closed) :
    XMLWriter.writeObj σ o w = (.err .alreadyClosed, w) := by
  unfold XMLWriter.writeObj
  rw [seq_apply]
  unfold XMLWriter.checkOpen
  rw [hc]; rfl

theorem osc_write_closed (w : OSCWriter) (o : α) (hc : w.state = .closed) :
    OSCWriter.writeObj o w = (.err .alreadyClosed, w) := by
  unfold OSCWriter.writeObj
  rw [seq_apply]
  unfold OSCWriter.checkOpen
  rw [hc]; rfl

/-- `write_obj` and the state, for any object. -/
theorem xml_write_state (σ : HashOrder) (w : XMLWriter) (o : α) (hc : w.state ≠ .closed) :
    (XMLWriter.writeObj σ o w).2.state ≠ .closed ∧
    ((XMLWriter.writeObj σ o w).1 = .ok () → (XMLWriter.writeObj σ o w).2.state = .writingObjects) ∧
    (w.state = .writingObjects → (XMLWriter.writeObj σ o w).2.state = .writingObjects) := by
  have h := (xml_checkOpen_sends σ w hc).res
  unfold XMLWriter.writeObj
  rw [seq_apply]
  rcases hE : XMLWriter.checkOpen σ w with ⟨r1, r2⟩
  rw [hE] at h
  rcases h with ⟨h1, _, _, h4⟩ | ⟨h1, _, _, h4⟩
  · cases h1
    have h4 : r2.state = .writingObjects := h4
    have e : (M.andThen (fun _ => XMLWriter.onSink (writeObjBody o)) (Outcome.ok (), r2)).2.state = r2.state := rfl
    rw [e, h4]; simp
  · cases h1
    have h4 : r2.state = w.state ∨ (w.state = .initial ∧ r2.state = .writingObjects) := h4
    show r2.state ≠ _ ∧ ((Outcome.err _ : Outcome Unit) = _ → _) ∧ (_ → r2.state = _)
    refine ⟨?_, (fun h => by cases h), fun h => ?_⟩
    · rcases h4 with h4 | ⟨_, h4⟩
      · rw [h4]; exact hc
      · rw [h4]; decide
    · rcases h4 with h4 | ⟨h5, h4⟩
      · rw [h4]; exact h
      · exact h4

/-- `write_obj` and the state, for any object. -/
theorem osc_write_state (w : OSCWriter) (o : α) (hc : w.state ≠ .closed) :
    (OSCWriter.writeObj o w).2.state ≠ .closed := by
  have h := (osc_checkOpen_sends w hc).res
  unfold OSCWriter.writeObj
  rw [seq_apply]
  rcases hE : OSCWriter.checkOpen w with ⟨r1, r2⟩
  rw [hE] at h
  rcases h with ⟨h1, _, _, h4⟩ | ⟨h1, _, _, h4⟩
  · cases h1
    have h4 : r2.state = .writingObjects := h4
    have e : (M.andThen (fun _ => OSCWriter.onSink (writeObjBody o)) (Outcome.ok (), r2)).2.state = r2.state := rfl
    rw [e, h4]; simp
  · cases h1
    have h4 : r2.state = w.state ∨ (w.state = .initial ∧ r2.state = .writingObjects) := h4
    show r2.state ≠ _
    rcases h4 with h4 | ⟨_, h4⟩
    · rw [h4]; exact hc
    · rw [h4]; decide

end
end Osmio
