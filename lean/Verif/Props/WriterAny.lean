import Verif.Proofs.WriterAny
import Verif.Props.WriterExact
/-!
# Writers and any objects: C23–C26 and C106

Histories in which some objects have no version. `write_obj` panics for those; the caller may catch the panic and go on, or
the panic unwinds, which drops the writer. `sentOf o` is what is sent for an object: its element, or `stubOf o`, the beginning of the
element up to the place of the version.
-/

namespace Osmio
open Spec OSMObjBase HasSink

variable {f : Family}

theorem sentOf_some {o : f.Obj} (h : version o ≠ none) : sentOf o = textOf o := by
  unfold sentOf
  cases hv : version o with
  | none => exact absurd hv h
  | some v => rfl

theorem sentOf_none {o : f.Obj} (h : version o = none) : sentOf o = stubOf o := by
  unfold sentOf; rw [h]; rfl

theorem outcomeOf_ne (o : f.Obj) : outcomeOf o ≠ .err .xmlWriteIOError := by
  unfold outcomeOf; split <;> simp

theorem sentOf_flatMap {os : List f.Obj} (h : ∀ o ∈ os, version o ≠ none) : os.flatMap sentOf = os.flatMap textOf := by
  induction os with
  | nil => rfl
  | cons o os ih =>
    rw [List.flatMap_cons, List.flatMap_cons, sentOf_some (h o List.mem_cons_self),
      ih fun x hx => h x (List.mem_cons_of_mem _ hx)]

theorem sentOf_longer (os : List f.Obj) : (Utf8.encode (os.flatMap textOf)).length ≤ (Utf8.encode (os.flatMap sentOf)).length ∧
    ((Utf8.encode (os.flatMap textOf)).length = (Utf8.encode (os.flatMap sentOf)).length → ∀ o ∈ os, version o ≠ none) := by
  induction os with
  | nil => exact ⟨le_refl _, fun _ o h => by cases h⟩
  | cons o os ih =>
    simp only [List.flatMap_cons, Utf8.encode_append, List.length_append]
    cases hv : version o with
    | some v =>
      rw [sentOf_some (o := o) (by rw [hv]; simp)]
      refine ⟨by omega, fun h x hx => ?_⟩
      rcases List.mem_cons.1 hx with rfl | hx
      · rw [hv]; simp
      · exact ih.2 (by omega) x hx
    | none =>
      have h1 : textOf o = [] := by unfold textOf; rw [hv]
      have h2 : 0 < (Utf8.encode (sentOf o)).length := by
        rw [sentOf_none hv]
        have : stubOf o = '\n' :: (stubOf o).tail := rfl
        rw [this]
        exact Nat.lt_of_lt_of_le (by decide : 0 < (Utf8.encode ['\n']).length)
          (by rw [show ('\n' :: (stubOf o).tail) = ['\n'] ++ (stubOf o).tail from rfl, Utf8.encode_append, List.length_append]; omega)
      rw [h1]
      have h3 : (Utf8.encode []).length = 0 := rfl
      exact ⟨by omega, fun h => by omega⟩

/-! ## C23 -/

/-- What remains to be sent in a history from a state, including the final drop. -/
def sentRemaining (σ : HashOrder) (w : XMLWriter) (cs : List (Call f.Obj)) : Str :=
  match w.state with
  | .initial => xmlHead (σ.order (headersFrom w.headers cs)) ++ (written cs).flatMap sentOf ++ tails (closes cs + 1)
  | .writingObjects => (written cs).flatMap sentOf ++ tails (closes cs + 1)
  | .closed => tails (closes cs + 1)

theorem xml_run_sent (σ : HashOrder) (cs : List (Call f.Obj)) : ∀ (w : XMLWriter), w.writer.Reliable →
    let r := run (xmlCall σ) w cs
    let d := XMLWriter.drop σ r.2
    d.1 = .ok () ∧ d.2.writer.out = w.writer.out ++ Utf8.encode (sentRemaining σ w cs) := by
  induction cs with
  | nil =>
    intro w hr
    obtain ⟨h1, h2⟩ := xml_drop_ok σ w hr
    refine ⟨h1, ?_⟩
    show (XMLWriter.drop σ w).2.writer.out = _
    rw [h2]
    congr 2
    unfold xmlHead? sentRemaining
    cases w.state <;> simp [headersFrom, written, closes, tails]
  | cons c cs ih =>
    intro w hr
    simp only [run_cons]
    have hs : ∀ r : XMLWriter, HasSink.st r = r.state := fun _ => rfl
    cases c with
    | setHeader k v =>
      simp only [xmlCall, XMLWriter.setHeader]
      cases h : w.state with
      | initial =>
        obtain ⟨h1, h2⟩ := ih { w with headers := hashInsert k v w.headers } hr
        simp only [h] at h1 h2
        refine ⟨h1, ?_⟩
        rw [h2]
        unfold sentRemaining
        simp only [h, written_cons_header, hashInsert_eq]
        rfl
      | writingObjects =>
        simp only
        obtain ⟨h1, h2⟩ := ih w hr
        refine ⟨h1, ?_⟩
        rw [h2]
        unfold sentRemaining
        simp only [h, written_cons_header]; rfl
      | closed =>
        simp only
        obtain ⟨h1, h2⟩ := ih w hr
        refine ⟨h1, ?_⟩
        rw [h2]
        unfold sentRemaining
        simp only [h]; rfl
    | writeObj o =>
      simp only [xmlCall]
      by_cases hc : w.state = .closed
      · rw [xml_write_closed σ w o hc]
        obtain ⟨h1, h2⟩ := ih w hr
        refine ⟨h1, ?_⟩
        rw [h2]
        unfold sentRemaining
        simp only [hc]; rfl
      · obtain ⟨_, g2, g3, g4⟩ := (xml_write_does σ w o hc).ok (outcomeOf_ne o) hr
        obtain ⟨h1, h2⟩ := ih _ g4
        refine ⟨h1, ?_⟩
        rw [h2]
        have g2' : (XMLWriter.writeObj σ o w).2.writer.out = w.writer.out ++ Utf8.encode (xmlHead? σ w ++ sentOf o) := g2
        rw [g2', List.append_assoc, ← Utf8.encode_append]
        rw [hs] at g3
        congr 2
        unfold sentRemaining xmlHead?
        rw [g3]
        cases h : w.state with
        | initial =>
          simp [written_cons_write, headersFrom, Call.isHeader, closes, Call.isClose]
        | writingObjects =>
          simp [written_cons_write, closes, Call.isClose]
        | closed => exact absurd h hc
    | close =>
      simp only [xmlCall]
      obtain ⟨_, g2, g3, g4⟩ := (xml_close_sends σ w).ok hr
      obtain ⟨h1, h2⟩ := ih _ g4
      refine ⟨h1, ?_⟩
      rw [h2]
      have g2' : (XMLWriter.close σ w).2.writer.out = w.writer.out ++ Utf8.encode (xmlHead? σ w ++ xmlTail) := g2
      rw [g2', List.append_assoc, ← Utf8.encode_append]
      rw [hs] at g3
      congr 2
      unfold sentRemaining xmlHead?
      rw [g3]
      have hcl : closes (Call.close :: cs) = closes cs + 1 := List.countP_cons_of_pos rfl
      cases h : w.state <;>
        simp [written_cons_close, headersFrom, Call.isHeader, hcl, tails_succ]

/-- **C23**, what any history really writes when the sink has no faults: one prolog and start tag with the headers set before
anything else; for each `write_obj` before the first `close`, in order, the element of the object, or the beginning of one if the
object has no version; then one end tag for every `close` and one more for the drop. -/
theorem C23_any_history (σ : HashOrder) (k : Sink) (hk : k.Reliable) (cs : List (Call f.Obj)) :
    let r := run (xmlCall σ) (XMLWriter.new k) cs
    let d := XMLWriter.drop σ r.2
    d.1 = .ok () ∧ d.2.writer.out = k.out ++ Utf8.encode (xmlHead (σ.order (headersOf cs)) ++
      (written cs).flatMap sentOf ++ (List.replicate (cs.countP Call.isClose + 1) xmlTail).flatten) :=
  xml_run_sent σ cs (XMLWriter.new k) hk

/-- **C23**, exactly: a history writes the one document it should if and only if `close` is never called and every object written has a
version. -/
theorem C23_one_document_iff (σ : HashOrder) (k : Sink) (hk : k.Reliable) (cs : List (Call f.Obj)) :
    (XMLWriter.drop σ (run (xmlCall σ) (XMLWriter.new k) cs).2).2.writer.out =
      k.out ++ Utf8.encode (xmlDocument (σ.order (headersOf cs)) (written cs)) ↔
    (∀ c ∈ cs, c.isClose = false) ∧ AllVersioned cs := by
  constructor
  · intro h
    rw [(C23_any_history σ k hk cs).2] at h
    have h := congrArg List.length (List.append_cancel_left h)
    unfold xmlDocument at h
    simp only [Utf8.encode_append, List.length_append, List.append_assoc] at h
    have ht : (Utf8.encode ((List.replicate (cs.countP Call.isClose + 1) xmlTail).flatten)).length =
        (cs.countP Call.isClose + 1) * (Utf8.encode xmlTail).length := by
      generalize cs.countP Call.isClose + 1 = n
      induction n with
      | zero => simp [Utf8.encode_nil]
      | succ n ih => rw [List.replicate_succ, List.flatten_cons, Utf8.encode_append, List.length_append, ih]; ring
    have h7 : (Utf8.encode xmlTail).length = 7 := by decide
    rw [ht, h7] at h
    have hl := sentOf_longer (written cs)
    have h0 : cs.countP Call.isClose = 0 := by omega
    have hcl : ∀ c ∈ cs, c.isClose = false := fun c hc => by simpa using List.countP_eq_zero.1 h0 c hc
    refine ⟨hcl, fun c hc o ho => hl.2 (by omega) o ?_⟩
    unfold written
    rw [List.takeWhile_eq_self_iff.2 (fun c hc' => by simp [hcl c hc'])]
    exact List.mem_filterMap.2 ⟨c, hc, ho⟩
  · rintro ⟨hc, hv⟩
    rw [C23_one_document_partial σ k hk cs hv hc]
    unfold written
    rw [List.takeWhile_eq_self_iff.2 (fun c hc' => by simp [hc c hc'])]

/-! ## C24 -/

/-- What remains to be sent in a history from a state, including the final drop. -/
def oscSentRemaining (w : OSCWriter) (cs : List (Call f.Obj)) : Str :=
  match w.state with
  | .initial => oscHead ++ (written cs).flatMap sentOf ++ oscTail
  | .writingObjects => (written cs).flatMap sentOf ++ oscTail
  | .closed => []

theorem osc_run_sent (cs : List (Call f.Obj)) : ∀ (w : OSCWriter), w.writer.Reliable →
    let r := run oscCall w cs
    let d := OSCWriter.drop r.2
    d.1 = .ok () ∧ d.2.writer.out = w.writer.out ++ Utf8.encode (oscSentRemaining w cs) := by
  induction cs with
  | nil =>
    intro w hr
    obtain ⟨h1, h2⟩ := osc_drop_ok w hr
    refine ⟨h1, ?_⟩
    show (OSCWriter.drop w).2.writer.out = _
    rw [h2]
    congr 2
    unfold oscHead? oscTail? oscSentRemaining
    cases w.state <;> simp [written]
  | cons c cs ih =>
    intro w hr
    simp only [run_cons]
    have hs : ∀ r : OSCWriter, HasSink.st r = r.state := fun _ => rfl
    cases c with
    | setHeader k v =>
      simp only [oscCall, OSCWriter.setHeader, M.panic]
      obtain ⟨h1, h2⟩ := ih w hr
      refine ⟨h1, ?_⟩
      rw [h2]
      unfold oscSentRemaining
      cases w.state <;> simp only [written_cons_header]
    | writeObj o =>
      simp only [oscCall]
      by_cases hc : w.state = .closed
      · rw [osc_write_closed w o hc]
        obtain ⟨h1, h2⟩ := ih w hr
        refine ⟨h1, ?_⟩
        rw [h2]
        unfold oscSentRemaining
        simp only [hc]
      · obtain ⟨_, g2, g3, g4⟩ := (osc_write_does w o hc).ok (outcomeOf_ne o) hr
        obtain ⟨h1, h2⟩ := ih _ g4
        refine ⟨h1, ?_⟩
        rw [h2]
        have g2' : (OSCWriter.writeObj o w).2.writer.out = w.writer.out ++ Utf8.encode (oscHead? w ++ sentOf o) := g2
        rw [g2', List.append_assoc, ← Utf8.encode_append]
        rw [hs] at g3
        congr 2
        unfold oscSentRemaining oscHead?
        rw [g3]
        cases h : w.state with
        | initial => simp [written_cons_write]
        | writingObjects => simp [written_cons_write]
        | closed => exact absurd h hc
    | close =>
      simp only [oscCall]
      obtain ⟨_, g2, g3, g4⟩ := (osc_close_sends w).ok hr
      obtain ⟨h1, h2⟩ := ih _ g4
      refine ⟨h1, ?_⟩
      rw [h2]
      have g2' : (OSCWriter.close w).2.writer.out = w.writer.out ++ Utf8.encode (oscHead? w ++ oscTail? w) := g2
      rw [g2', List.append_assoc, ← Utf8.encode_append]
      rw [hs] at g3
      congr 2
      unfold oscSentRemaining oscHead? oscTail?
      rw [g3]
      cases h : w.state <;> simp [written_cons_close]

/-- **C24**, what any history really writes when the sink has no faults. -/
theorem C24_any_history (k : Sink) (hk : k.Reliable) (cs : List (Call f.Obj)) :
    let r := run oscCall (OSCWriter.new k) cs
    let d := OSCWriter.drop r.2
    d.1 = .ok () ∧ d.2.writer.out = k.out ++ Utf8.encode (oscHead ++ (written cs).flatMap sentOf ++ oscTail) :=
  osc_run_sent cs (OSCWriter.new k) hk

/-- **C24**, exactly: a history writes the one document it should if and only if every object written before the first `close` has a version. -/
theorem C24_one_document_iff (k : Sink) (hk : k.Reliable) (cs : List (Call f.Obj)) :
    (OSCWriter.drop (run oscCall (OSCWriter.new k) cs).2).2.writer.out = k.out ++ Utf8.encode (oscDocument (written cs)) ↔
    ∀ o ∈ written cs, version o ≠ none := by
  rw [(C24_any_history k hk cs).2]
  unfold oscDocument
  constructor
  · intro h
    have h := congrArg List.length (List.append_cancel_left h)
    simp only [Utf8.encode_append, List.length_append] at h
    exact (sentOf_longer (written cs)).2 (by omega)
  · intro h
    rw [sentOf_flatMap h]

/-! ## C25 -/

/-- **C25**, for any object: a `write_obj` on a writer that is not closed, whatever faults the sink may produce, does one of three things.
It returns `Ok`: the object has a version and its whole text has been appended. It returns the I/O error, at the first request that failed: a prefix
of what would have been sent has been appended. Or it panics: the object has no version, and the beginning of its element has been appended. The writer
is not closed by it. -/
theorem C25_any_object (σ : HashOrder) (o : f.Obj) :
    (∀ w : XMLWriter, w.isOpen = true →
      let r := XMLWriter.writeObj σ o w
      let head := if w.state = .initial then xmlHead (σ.order w.headers) else []
      r.2.isOpen = true ∧
      ((r.1 = .ok () ∧ version o ≠ none ∧ r.2.writer.out = w.writer.out ++ Utf8.encode (head ++ textOf o) ∧ w.writer.Clean r.2.writer) ∨
       (r.1 = .err .xmlWriteIOError ∧ (∃ p, p <+: Utf8.encode (head ++ sentOf o) ∧ r.2.writer.out = w.writer.out ++ p) ∧
         w.writer.Hit r.2.writer) ∨
       (r.1 = .panic .unwrap ∧ version o = none ∧ r.2.writer.out = w.writer.out ++ Utf8.encode (head ++ stubOf o) ∧
         w.writer.Clean r.2.writer))) ∧
    (∀ w : OSCWriter, w.isOpen = true →
      let r := OSCWriter.writeObj o w
      let head := if w.state = .initial then oscHead else []
      r.2.isOpen = true ∧
      ((r.1 = .ok () ∧ version o ≠ none ∧ r.2.writer.out = w.writer.out ++ Utf8.encode (head ++ textOf o) ∧ w.writer.Clean r.2.writer) ∨
       (r.1 = .err .xmlWriteIOError ∧ (∃ p, p <+: Utf8.encode (head ++ sentOf o) ∧ r.2.writer.out = w.writer.out ++ p) ∧
         w.writer.Hit r.2.writer) ∨
       (r.1 = .panic .unwrap ∧ version o = none ∧ r.2.writer.out = w.writer.out ++ Utf8.encode (head ++ stubOf o) ∧
         w.writer.Clean r.2.writer))) := by
  constructor
  · intro w ho
    have hc : w.state ≠ .closed := by rintro h; simp [XMLWriter.isOpen, h] at ho
    refine ⟨by simpa [XMLWriter.isOpen] using (xml_write_state σ w o hc).1, ?_⟩
    rcases (xml_write_does σ w o hc).res with ⟨h1, h2, h3, _⟩ | ⟨h1, h2, h3, _⟩
    · cases hv : version o with
      | some v =>
        left
        have e1 : outcomeOf o = .ok () := by unfold outcomeOf; rw [hv]; rfl
        rw [sentOf_some (o := o) (by rw [hv]; simp)] at h2
        exact ⟨h1.trans e1, by simp, h2, h3⟩
      | none =>
        right; right
        have e1 : outcomeOf o = .panic .unwrap := by unfold outcomeOf; rw [hv]; rfl
        rw [sentOf_none hv] at h2
        exact ⟨h1.trans e1, rfl, h2, h3⟩
    · exact Or.inr (Or.inl ⟨h1, h2, h3⟩)
  · intro w ho
    have hc : w.state ≠ .closed := by rintro h; simp [OSCWriter.isOpen, h] at ho
    refine ⟨by simpa [OSCWriter.isOpen] using osc_write_state w o hc, ?_⟩
    rcases (osc_write_does w o hc).res with ⟨h1, h2, h3, _⟩ | ⟨h1, h2, h3, _⟩
    · cases hv : version o with
      | some v =>
        left
        have e1 : outcomeOf o = .ok () := by unfold outcomeOf; rw [hv]; rfl
        rw [sentOf_some (o := o) (by rw [hv]; simp)] at h2
        exact ⟨h1.trans e1, by simp, h2, h3⟩
      | none =>
        right; right
        have e1 : outcomeOf o = .panic .unwrap := by unfold outcomeOf; rw [hv]; rfl
        rw [sentOf_none hv] at h2
        exact ⟨h1.trans e1, rfl, h2, h3⟩
    · exact Or.inr (Or.inl ⟨h1, h2, h3⟩)

/-! ### Concrete cases -/

/-- Two headers, an object, one without a version, whose panic is caught, and another object. -/
def caught : List (Call Family.string.Obj) :=
  [.setHeader (str% "a") (str% "1"), .writeObj sampleObj, .writeObj unversionedObj, .writeObj sampleObj]

example : (XMLWriter.drop sampleOrder (run (xmlCall sampleOrder) (XMLWriter.new ⟨[], []⟩) (caught ++ [.close])).2).2.writer.out =
    Utf8.encode (xmlHead [(str% "a", str% "1")] ++ textOf (α := Family.string.Obj) sampleObj ++ str% "\n\t<node id=\"7\" visible=\"true\"" ++
      textOf (α := Family.string.Obj) sampleObj ++ xmlTail ++ xmlTail) := by decide +kernel
example : written caught = [sampleObj, unversionedObj, sampleObj] := rfl
/-- After `close` objects without a version do no harm. -/
example : ∀ o ∈ written (sampleHistory ++ [.close, .writeObj unversionedObj]), version o ≠ none := by
  have : (version (α := Family.string.Obj) sampleObj) ≠ none := by decide +kernel
  intro o ho
  have ho : o ∈ [sampleObj, sampleObj] := ho
  rcases List.mem_cons.1 ho with rfl | ho
  · exact this
  · rw [List.mem_singleton.1 ho]; exact this
example : (XMLWriter.new ⟨[], [none, some 3]⟩).isOpen = true ∧ (OSCWriter.new ⟨[], [none, some 3]⟩).isOpen = true := by decide

/-- A sink that already holds a byte and accepts the next two requests, as it does all later ones. -/
theorem acceptingSink : (⟨[10], [none, none]⟩ : Sink).Reliable := by
  intro x hx
  rcases List.mem_cons.1 hx with rfl | hx
  · rfl
  · exact List.mem_singleton.1 hx

example : (XMLWriter.drop sampleOrder (run (xmlCall sampleOrder) (XMLWriter.new ⟨[10], [none, none]⟩) (caught ++ [.close])).2).1 = .ok () ∧
    (OSCWriter.drop (run oscCall (OSCWriter.new ⟨[10], [none, none]⟩) (caught ++ [.close, .writeObj unversionedObj])).2).2.writer.out =
      10 :: Utf8.encode (oscHead ++ [sampleObj, unversionedObj, sampleObj].flatMap (sentOf (α := Family.string.Obj)) ++ oscTail) :=
  ⟨(C23_any_history sampleOrder _ acceptingSink _).1, (C24_any_history _ acceptingSink _).2⟩
/-- One object without a version, or one `close`, spoils the document. -/
example : (XMLWriter.drop sampleOrder (run (xmlCall sampleOrder) (XMLWriter.new ⟨[10], [none, none]⟩) caught).2).2.writer.out ≠
      10 :: Utf8.encode (xmlDocument [(str% "a", str% "1")] (written caught)) ∧
    (OSCWriter.drop (run oscCall (OSCWriter.new ⟨[10], [none, none]⟩) caught).2).2.writer.out ≠
      10 :: Utf8.encode (oscDocument (written caught)) := by
  have hn : version (unversionedObj : Family.string.Obj) = none := by decide +kernel
  have hm : unversionedObj ∈ written caught := List.mem_cons_of_mem _ List.mem_cons_self
  exact ⟨fun h => ((C23_one_document_iff sampleOrder _ acceptingSink caught).1 h).2 (.writeObj unversionedObj)
      (List.mem_cons_of_mem _ (List.mem_cons_of_mem _ List.mem_cons_self)) unversionedObj rfl hn,
    fun h => (C24_one_document_iff _ acceptingSink caught).1 h _ hm hn⟩

end Osmio
