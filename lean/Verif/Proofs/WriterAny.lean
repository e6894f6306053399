import Verif.Spec.WriterAny
import Verif.Proofs.Sends
/-! What the calls of the writers send to the sink for objects with or without a version. -/

namespace Osmio
open Spec OSMObjBase HasSink

/-- `r` is the result of sending the text `t`, putting the state to `s` and ending with `o`. -/
structure Does {S : Type} [HasSink S] (w : S) (r : Outcome Unit × S) (t : Str) (s : WState) (o : Outcome Unit) : Prop where
  res : (r.1 = o ∧ (sink r.2).out = (sink w).out ++ Utf8.encode t ∧ (sink w).Clean (sink r.2) ∧ st r.2 = s) ∨
    (r.1 = .err .xmlWriteIOError ∧ (∃ p, p <+: Utf8.encode t ∧ (sink r.2).out = (sink w).out ++ p) ∧
      (sink w).Hit (sink r.2) ∧ (st r.2 = st w ∨ (st w = .initial ∧ st r.2 = .writingObjects)))
  reliable : (sink w).Reliable → r.1 = o ∧ (sink r.2).Reliable

section
variable {S : Type} [HasSink S]

theorem Does.ofSends {w : S} {r : Outcome Unit × S} {t : Str} {s : WState} (h : Sends w r t s) : Does w r t s (.ok ()) :=
  ⟨h.res, h.reliable⟩

theorem Does.cast {w : S} {r : Outcome Unit × S} {t u : Str} {s s' : WState} {o o' : Outcome Unit} (h : Does w r t s o)
    (e : t = u) (e' : s = s') (e'' : o = o') : Does w r u s' o' := e ▸ e' ▸ e'' ▸ h

theorem Does.sends {w : S} {r : Outcome Unit × S} {t u : Str} {s1 s2 : WState} {g : M S Unit} {o : Outcome Unit}
    (h : Sends w r t s1) (hs : s1 = st w ∨ (st w = .initial ∧ s1 = .writingObjects))
    (hg : r.1 = .ok () → st r.2 = s1 → Does r.2 (g r.2) u s2 o) :
    Does w (M.andThen (fun _ => g) r) (t ++ u) s2 o := by
  obtain ⟨r1, r2⟩ := r
  rcases h.res with ⟨h1, h2, h3, h4⟩ | ⟨h1, ⟨p, hp, h2⟩, h3, h4⟩
  · cases h1
    have hg := hg rfl h4
    constructor
    · show ((g r2).1 = _ ∧ _) ∨ _
      rcases hg.res with ⟨g1, g2, g3, g4⟩ | ⟨g1, ⟨p, hp, g2⟩, g3, g4⟩
      · left
        refine ⟨g1, ?_, h3.trans g3, g4⟩
        show (sink (g r2).2).out = _
        rw [g2, h2, Utf8.encode_append, List.append_assoc]
      · right
        refine ⟨g1, ⟨Utf8.encode t ++ p, ?_, ?_⟩, h3.hit g3, ?_⟩
        · rw [Utf8.encode_append]; exact (List.prefix_append_right_inj _).2 hp
        · show (sink (g r2).2).out = _
          rw [g2, h2, List.append_assoc]
        · show st (g r2).2 = _ ∨ (_ ∧ st (g r2).2 = _)
          simp only at h4 g4
          rcases g4 with g4 | ⟨g4, g5⟩
          · rw [g4, h4]; exact hs
          · rw [h4] at g4
            rcases hs with hs | ⟨hs, hs'⟩
            · right; exact ⟨hs ▸ g4, g5⟩
            · rw [hs'] at g4; cases g4
    · intro hr
      exact hg.reliable (h.reliable hr).2
  · cases h1
    constructor
    · right
      refine ⟨rfl, ⟨p, ?_, h2⟩, h3, h4⟩
      rw [Utf8.encode_append]; exact hp.trans (List.prefix_append _ _)
    · intro hr
      have := (h.reliable hr).1
      cases this

theorem Does.ok {w : S} {r : Outcome Unit × S} {t : Str} {s : WState} {o : Outcome Unit} (h : Does w r t s o)
    (ho : o ≠ .err .xmlWriteIOError) (hr : (sink w).Reliable) :
    r.1 = o ∧ (sink r.2).out = (sink w).out ++ Utf8.encode t ∧ st r.2 = s ∧ (sink r.2).Reliable := by
  have hk := h.reliable hr
  rcases h.res with ⟨h1, h2, h3, h4⟩ | ⟨h1, _⟩
  · exact ⟨h1, h2, h4, hk.2⟩
  · rw [hk.1] at h1; exact absurd h1 ho
end

/-- A text is sent, and then `unwrap` panics. -/
theorem panic_after {m : M Sink Unit} {t : Str} (h : Emits m t) (s : Sink) :
    (((do m; M.panic .unwrap : M Sink Unit) s).1 = .panic .unwrap ∧
      ((do m; M.panic .unwrap : M Sink Unit) s).2.out = s.out ++ Utf8.encode t ∧
      s.Clean ((do m; M.panic .unwrap : M Sink Unit) s).2) ∨
    (((do m; M.panic .unwrap : M Sink Unit) s).1 = .err .xmlWriteIOError ∧
      (∃ p, p <+: Utf8.encode t ∧ ((do m; M.panic .unwrap : M Sink Unit) s).2.out = s.out ++ p) ∧
      s.Hit ((do m; M.panic .unwrap : M Sink Unit) s).2) := by
  rw [seq_apply]
  have h1 := h.res s
  have h2 := h.clean s
  have h3 := h.hit s
  rcases hms : m s with ⟨r, s'⟩
  rw [hms] at h1 h2 h3
  rcases h1 with ⟨e, h1⟩ | ⟨e, h1⟩
  · cases e; exact Or.inl ⟨rfl, h1, h2 rfl⟩
  · cases e; exact Or.inr ⟨rfl, h1, h3 _ rfl⟩

theorem panic_after_reliable {m : M Sink Unit} {t : Str} (h : Emits m t) (s : Sink) (hs : s.Reliable) :
    ((do m; M.panic .unwrap : M Sink Unit) s).1 = .panic .unwrap ∧
      ((do m; M.panic .unwrap : M Sink Unit) s).2.Reliable := by
  rw [seq_apply]
  have h1 := h.reliable s hs
  rcases hms : m s with ⟨r, s'⟩
  rw [hms] at h1
  obtain ⟨h1, h2⟩ := h1
  cases h1
  exact ⟨rfl, h2⟩

theorem M.assoc {S : Type} (a b c : M S Unit) : (do a; b; c) = (do (do a; b); c) := by
  funext s
  simp only [seq_apply]
  rcases a s with ⟨r, s'⟩
  cases r <;> rfl

section
set_option linter.unusedSectionVars false
variable {α N W R : Type} [OSMObjT α N W R] [NodeT N] [WayT W] [RelationT R] [LawfulObj α]

/-- The code before the version is asked for. -/
def writeStub (o : α) : M Sink Unit := do
  (do
    write (openTag (objectType o))
    write (str% " id=\"" ++ i64Str (OSMObjBase.id o) ++ str% "\""))
  write (str% " visible=\"" ++ (if deleted o then str% "false" else str% "true") ++ str% "\"")

theorem writeObjBody_stub {o : α} (hv : version o = none) : writeObjBody o = (do writeStub o; M.panic .unwrap) := by
  unfold writeObjBody
  rw [hv, M.assoc, M.assoc]
  rfl

theorem emits_stub (o : α) : Emits (writeStub o) (stubOf o) := by
  unfold writeStub
  refine (((emits_write _).seq (emits_write _)).seq (emits_write _)).cast ?_
  have : openTag (objectType o) = str% "\n\t<" ++ (objectType o).nameLong := by cases objectType o <;> rfl
  rw [this]
  simp [stubOf, rawAttr, objData, view]
  rfl

theorem xml_write_does (σ : HashOrder) (w : XMLWriter) (o : α) (hc : w.state ≠ .closed) :
    Does w (XMLWriter.writeObj σ o w) (xmlHead? σ w ++ sentOf o) .writingObjects (outcomeOf o) := by
  unfold sentOf outcomeOf
  cases hv : version o with
  | some v => exact Does.ofSends (xml_write_sends σ w (by rw [hv]; simp) hc)
  | none =>
    unfold XMLWriter.writeObj
    rw [seq_apply]
    refine Does.sends (xml_checkOpen_sends σ w hc) (open_step hc) (fun _ hs => ?_)
    generalize (XMLWriter.checkOpen σ w).2 = w' at *
    rw [writeObjBody_stub hv]
    constructor
    · rcases panic_after (emits_stub o) w'.writer with ⟨h1, h2, h3⟩ | ⟨h1, h2, h3⟩
      · exact Or.inl ⟨h1, h2, h3, hs⟩
      · exact Or.inr ⟨h1, h2, h3, Or.inl rfl⟩
    · exact panic_after_reliable (emits_stub o) w'.writer

theorem osc_write_does (w : OSCWriter) (o : α) (hc : w.state ≠ .closed) :
    Does w (OSCWriter.writeObj o w) (oscHead? w ++ sentOf o) .writingObjects (outcomeOf o) := by
  unfold sentOf outcomeOf
  cases hv : version o with
  | some v => exact Does.ofSends (osc_write_sends w (by rw [hv]; simp) hc)
  | none =>
    unfold OSCWriter.writeObj
    rw [seq_apply]
    refine Does.sends (osc_checkOpen_sends w hc) (open_step hc) (fun _ hs => ?_)
    generalize (OSCWriter.checkOpen w).2 = w' at *
    rw [writeObjBody_stub hv]
    constructor
    · rcases panic_after (emits_stub o) w'.writer with ⟨h1, h2, h3⟩ | ⟨h1, h2, h3⟩
      · exact Or.inl ⟨h1, h2, h3, hs⟩
      · exact Or.inr ⟨h1, h2, h3, Or.inl rfl⟩
    · exact panic_after_reliable (emits_stub o) w'.writer
end

theorem Does.stop {S : Type} [HasSink S] {w : S} {r : Outcome Unit × S} {t : Str} {s : WState} (h : Does w r t s (.panic .unwrap))
    (g : M S Unit) : Does w (M.andThen (fun _ => g) r) t s (.panic .unwrap) := by
  obtain ⟨r1, r2⟩ := r
  have e : M.andThen (fun _ => g) (r1, r2) = (r1, r2) := by
    rcases h.res with ⟨h1, _⟩ | ⟨h1, _⟩ <;> · cases h1; rfl
  rw [e]; exact h

theorem xmlHead?_writing (σ : HashOrder) {w : XMLWriter} (h : w.state = .writingObjects) : xmlHead? σ w = [] := by
  simp [xmlHead?, h]
theorem oscHead?_writing {w : OSCWriter} (h : w.state = .writingObjects) : oscHead? w = [] := by
  simp [oscHead?, h]

section
set_option linter.unusedSectionVars false
variable {α N W R : Type} [OSMObjT α N W R] [NodeT N] [WayT W] [RelationT R] [LawfulObj α]

theorem each_cons {S β : Type} (f : β → M S Unit) (b : β) (bs : List β) (g : M S Unit) (w : S) :
    (do M.each f (b :: bs); g : M S Unit) w = M.andThen (fun _ => (do M.each f bs; g)) (f b w) := by
  rw [show M.each f (b :: bs) = (do f b; M.each f bs) from rfl, ← M.assoc]
  rfl

theorem each_nil {S β : Type} (f : β → M S Unit) (g : M S Unit) (w : S) :
    (do M.each f []; g : M S Unit) w = g w := rfl

theorem xml_iter_sends (σ : HashOrder) (os : List α) : ∀ (w : XMLWriter), w.state ≠ .closed → (∀ o ∈ os, version o ≠ none) →
    Sends w ((do M.each (fun o => XMLWriter.writeObj σ o) os; XMLWriter.close σ : M XMLWriter Unit) w)
      (xmlHead? σ w ++ os.flatMap textOf ++ xmlTail) .closed := by
  induction os with
  | nil =>
    intro w _ _
    rw [each_nil]
    exact (xml_close_sends σ w).cast (by simp) rfl
  | cons o os ih =>
    intro w hc hv
    rw [each_cons]
    refine ((xml_write_sends σ w (hv o List.mem_cons_self) hc).then (u := os.flatMap textOf ++ xmlTail) (open_step hc)
      (fun _ hs => ?_)).cast (by simp) rfl
    have hs : (XMLWriter.writeObj σ o w).2.state = .writingObjects := hs
    exact (ih _ (by rw [hs]; decide) fun x hx => hv x (List.mem_cons_of_mem _ hx)).cast (by simp [xmlHead?_writing σ hs]) rfl

theorem osc_iter_sends (os : List α) : ∀ (w : OSCWriter), w.state ≠ .closed → (∀ o ∈ os, version o ≠ none) →
    Sends w ((do M.each (fun o => OSCWriter.writeObj o) os; OSCWriter.close : M OSCWriter Unit) w)
      (oscHead? w ++ os.flatMap textOf ++ oscTail) .closed := by
  induction os with
  | nil =>
    intro w hc _
    rw [each_nil]
    exact (osc_close_sends w).cast (by simp [oscTail?, hc]) rfl
  | cons o os ih =>
    intro w hc hv
    rw [each_cons]
    refine ((osc_write_sends w (hv o List.mem_cons_self) hc).then (u := os.flatMap textOf ++ oscTail) (open_step hc)
      (fun _ hs => ?_)).cast (by simp) rfl
    have hs : (OSCWriter.writeObj o w).2.state = .writingObjects := hs
    exact (ih _ (by rw [hs]; decide) fun x hx => hv x (List.mem_cons_of_mem _ hx)).cast (by simp [oscHead?_writing hs]) rfl

theorem xml_iter_stops (σ : HashOrder) {o : α} (ho : version o = none) (post : List α) (pre : List α) :
    ∀ (w : XMLWriter), w.state ≠ .closed → (∀ x ∈ pre, version x ≠ none) →
    Does w ((do M.each (fun o => XMLWriter.writeObj σ o) (pre ++ o :: post); XMLWriter.close σ : M XMLWriter Unit) w)
      (xmlHead? σ w ++ pre.flatMap textOf ++ stubOf o) .writingObjects (.panic .unwrap) := by
  induction pre with
  | nil =>
    intro w hc _
    rw [List.nil_append, each_cons]
    exact Does.stop ((xml_write_does σ w o hc).cast (by simp [sentOf, ho]) rfl (by simp [outcomeOf, ho])) _
  | cons x pre ih =>
    intro w hc hv
    rw [List.cons_append, each_cons]
    refine (Does.sends (u := pre.flatMap textOf ++ stubOf o) (xml_write_sends σ w (hv x List.mem_cons_self) hc) (open_step hc)
      (fun _ hs => ?_)).cast (by simp) rfl rfl
    have hs : (XMLWriter.writeObj σ x w).2.state = .writingObjects := hs
    exact (ih _ (by rw [hs]; decide) fun x hx => hv x (List.mem_cons_of_mem _ hx)).cast (by simp [xmlHead?_writing σ hs]) rfl rfl

theorem osc_iter_stops {o : α} (ho : version o = none) (post : List α) (pre : List α) :
    ∀ (w : OSCWriter), w.state ≠ .closed → (∀ x ∈ pre, version x ≠ none) →
    Does w ((do M.each (fun o => OSCWriter.writeObj o) (pre ++ o :: post); OSCWriter.close : M OSCWriter Unit) w)
      (oscHead? w ++ pre.flatMap textOf ++ stubOf o) .writingObjects (.panic .unwrap) := by
  induction pre with
  | nil =>
    intro w hc _
    rw [List.nil_append, each_cons]
    exact Does.stop ((osc_write_does w o hc).cast (by simp [sentOf, ho]) rfl (by simp [outcomeOf, ho])) _
  | cons x pre ih =>
    intro w hc hv
    rw [List.cons_append, each_cons]
    refine (Does.sends (u := pre.flatMap textOf ++ stubOf o) (osc_write_sends w (hv x List.mem_cons_self) hc) (open_step hc)
      (fun _ hs => ?_)).cast (by simp) rfl rfl
    have hs : (OSCWriter.writeObj x w).2.state = .writingObjects := hs
    exact (ih _ (by rw [hs]; decide) fun x hx => hv x (List.mem_cons_of_mem _ hx)).cast (by simp [oscHead?_writing hs]) rfl rfl
end

end Osmio
