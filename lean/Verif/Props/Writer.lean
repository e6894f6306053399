import Verif.Proofs.Sends
import Verif.Spec.Writer
import Verif.Spec.Xml
import Verif.Props.Objects
/-!
# Writers: C21–C26

`f : Family` ranges over the object families; `σ : HashOrder` over the iteration orders of the header map;
sinks over all fault schedules.
-/

namespace Osmio
open Spec OSMObjBase

/-! ## C21 -/

theorem escaped_cons (c : Char) (s : Str) : escaped (c :: s) = escaped1 c ++ escaped s := rfl

theorem unescape_escaped (s : Str) : unescape (escaped s) = some s := by
  induction s with
  | nil => rfl
  | cons c s ih =>
    rw [escaped_cons]
    unfold escaped1 entity
    split
    · rename_i e heq
      split at heq <;> cases heq <;> simp [unescape, ih]
    · rename_i heq
      have h : c ≠ '&' := by rintro rfl; simp at heq
      rw [List.singleton_append]
      rw [unescape.eq_8 c (escaped s) (fun _ e => absurd e h) (fun _ e => absurd e h) (fun _ e => absurd e h)
        (fun _ e => absurd e h) (fun _ e => absurd e h) (fun e => absurd e h), ih]
      rfl

/-- **C21.** What `write_xml_escaped` writes (to a sink without faults) is, as UTF-8, a text without `<`,
`>`, quote or apostrophe in which every `&` begins one of the five entities, and which unescapes to the
original. -/
theorem C21_escaping (s : Str) (k : Sink) (hk : k.Reliable) :
    ∃ t : Str, (writeXmlEscaped s k).1 = .ok () ∧ (writeXmlEscaped s k).2.out = k.out ++ Utf8.encode t ∧
      (∀ c ∈ t, c ≠ '<' ∧ c ≠ '>' ∧ c ≠ '"' ∧ c ≠ '\'') ∧
      (∀ pre post, t = pre ++ '&' :: post → ∃ e ∈ predefined, (e.1 ++ [';']) <+: post) ∧
      unescape t = some s := by
  have he := emits_escaped s
  refine ⟨escaped s, (he.reliable k hk).1, ?_, ?_, ?_, unescape_escaped s⟩
  · rcases he.res k with h | h
    · exact h.2
    · have := (he.reliable k hk).1
      rw [h.1] at this; cases this
  · intro c hc
    unfold escaped at hc
    obtain ⟨d, _, hd⟩ := List.mem_flatMap.1 hc
    unfold escaped1 entity at hd
    split at hd
    · rename_i e heq
      split at heq <;> cases heq <;> simp at hd <;> rcases hd with rfl | rfl | rfl | rfl | rfl | rfl <;> decide
    · rename_i heq
      simp only [List.mem_singleton] at hd
      subst hd
      refine ⟨?_, ?_, ?_, ?_⟩ <;> rintro rfl <;> simp at heq
  · clear he
    induction s with
    | nil =>
      intro pre post h
      simp [escaped] at h
    | cons c s ih =>
      intro pre post h
      rw [escaped_cons] at h
      rw [List.append_eq_append_iff] at h
      rcases h with ⟨as, h1, h2⟩ | ⟨bs, h1, h2⟩
      · exact ih as post h2
      · cases bs with
        | nil =>
          simp only [List.nil_append] at h2
          exact ih [] post h2.symm
        | cons b bs =>
          simp only [List.cons_append, List.cons.injEq] at h2
          obtain ⟨rfl, h2⟩ := h2
          unfold escaped1 at h1
          split at h1
          · rename_i e heq
            have hmem : (e, c) ∈ predefined := by
              unfold entity at heq
              split at heq <;> cases heq <;> decide
            have hne : '&' ∉ e := by
              unfold entity at heq
              split at heq <;> cases heq <;> decide
            refine ⟨_, hmem, ?_⟩
            cases pre with
            | nil =>
              simp only [List.nil_append, List.cons.injEq, true_and] at h1
              rw [h2, ← h1]
              exact List.prefix_append _ _
            | cons p ps =>
              simp only [List.cons_append, List.cons.injEq] at h1
              have : '&' ∈ e ++ [';'] := by rw [h1.2]; simp
              simp at this
              exact absurd this hne
          · rename_i heq
            cases pre with
            | nil =>
              simp only [List.nil_append, List.cons.injEq] at h1
              rw [h1.1] at heq
              simp [entity] at heq
            | cons p ps => simp at h1

example : (writeXmlEscaped (str% "a<&>\"'b") ⟨[], []⟩).2.out =
    Utf8.encode (str% "a&lt;&amp;&gt;&quot;&apos;b") := by decide +kernel

/-! ## What single calls send -/

variable {f : Family}

theorem hashInsert_eq (k v : Str) (l : List (Str × Str)) : hashInsert k v l = put k v l := by
  induction l with
  | nil => rfl
  | cons a l ih =>
    obtain ⟨k', v'⟩ := a
    unfold hashInsert put
    by_cases h : k' = k
    · simp [h]
    · simp [h, ih]

theorem run_cons {S α : Type} (call : Call α → M S Unit) (w : S) (c : Call α) (cs : List (Call α)) :
    run call w (c :: cs) = ((c, (call c w).1) :: (run call (call c w).2 cs).1, (run call (call c w).2 cs).2) := rfl

/-- The state of an XML writer after one call. -/
theorem xml_call_state (σ : HashOrder) (w : XMLWriter) (c : Call f.Obj) :
    ((xmlCall σ c w).2.state = .closed ↔ w.state = .closed ∨ (c.isClose = true ∧ (xmlCall σ c w).1 = .ok ())) ∧
    ((w.state ≠ .initial ∨ (c.obj?.isSome = true ∧ (xmlCall σ c w).1 = .ok ())) →
      (xmlCall σ c w).2.state ≠ .initial) := by
  cases c with
  | setHeader k v =>
    simp only [xmlCall, XMLWriter.setHeader, Call.isClose, Call.obj?]
    cases h : w.state <;> simp [h]
  | writeObj o =>
    simp only [xmlCall, Call.isClose, Call.obj?]
    by_cases hc : w.state = .closed
    · rw [xml_write_closed σ w o hc]; simp [hc]
    · have h := xml_write_state σ w o hc
      simp only [h.1, hc, Bool.false_eq_true, false_and, or_false, true_and,
        Option.isSome_some]
      rintro (h1 | h1)
      · have : w.state = .writingObjects := by cases e : w.state <;> simp_all
        rw [h.2.2 this]; decide
      · rw [h.2.1 h1]; decide
  | close =>
    simp only [xmlCall, Call.isClose, Call.obj?]
    have hs : ∀ r : XMLWriter, HasSink.st r = r.state := fun _ => rfl
    rcases (xml_close_sends σ w).res with ⟨h1, _, _, h4⟩ | ⟨h1, _, _, h4⟩
    · rw [hs] at h4
      rw [h1, h4]; simp
    · rw [hs, hs] at h4
      rw [h1]
      rcases h4 with h4 | ⟨h5, h4⟩ <;> rw [h4] <;> simp
      exact h5 ▸ (by decide)

/-- **C22**, XML writer. `is_open` is false exactly when some `close` has returned `Ok`; from then on
`write_obj` and `set_header` return `AlreadyClosed` and change nothing (in particular not the output); after an object
has been written, `set_header` on a writer that is still open returns `AlreadyStarted`. -/
theorem C22_xml_life_cycle (σ : HashOrder) (k : Sink) (cs : List (Call f.Obj)) :
    let r := run (xmlCall σ) (XMLWriter.new k) cs
    (r.2.isOpen = false ↔ ∃ e ∈ r.1, e.1.isClose = true ∧ e.2 = .ok ()) ∧
    (r.2.isOpen = false → ∀ o : f.Obj, XMLWriter.writeObj σ o r.2 = (.err .alreadyClosed, r.2)) ∧
    (r.2.isOpen = false → ∀ key v, XMLWriter.setHeader key v r.2 = (.err .alreadyClosed, r.2)) ∧
    (r.2.isOpen = true → (∃ e ∈ r.1, e.1.obj?.isSome = true ∧ e.2 = .ok ()) →
      ∀ key v, XMLWriter.setHeader key v r.2 = (.err .alreadyStarted, r.2)) := by
  have inv : ∀ (cs : List (Call f.Obj)) (w : XMLWriter),
      ((run (xmlCall σ) w cs).2.state = .closed ↔ w.state = .closed ∨
        ∃ e ∈ (run (xmlCall σ) w cs).1, e.1.isClose = true ∧ e.2 = .ok ()) ∧
      ((w.state ≠ .initial ∨ ∃ e ∈ (run (xmlCall σ) w cs).1, e.1.obj?.isSome = true ∧ e.2 = .ok ()) →
        (run (xmlCall σ) w cs).2.state ≠ .initial) := by
    intro cs
    induction cs with
    | nil => intro w; simp [run]
    | cons c cs ih =>
      intro w
      have hc := xml_call_state σ w c
      obtain ⟨i1, i2⟩ := ih (xmlCall σ c w).2
      rw [run_cons]
      simp only
      constructor
      · rw [i1, hc.1]
        simp only [List.mem_cons, exists_eq_or_imp, or_assoc]
      · rintro (h | ⟨e, he, h1, h2⟩)
        · exact i2 (Or.inl (hc.2 (Or.inl h)))
        · rcases List.mem_cons.1 he with rfl | he
          · exact i2 (Or.inl (hc.2 (Or.inr ⟨h1, h2⟩)))
          · exact i2 (Or.inr ⟨e, he, h1, h2⟩)
  obtain ⟨i1, i2⟩ := inv cs (XMLWriter.new k)
  intro r
  have ho : r.2.isOpen = false ↔ r.2.state = .closed := by
    unfold XMLWriter.isOpen; cases r.2.state <;> decide
  refine ⟨?_, ?_, ?_, ?_⟩
  · rw [ho, i1]
    simp only [XMLWriter.new, reduceCtorEq, false_or]; rfl
  · intro h o; exact xml_write_closed σ _ o (ho.1 h)
  · intro h key v
    unfold XMLWriter.setHeader; rw [ho.1 h]
  · intro h he key v
    have hn := i2 (Or.inr he)
    have hw : r.2.state = .writingObjects := by
      cases e : r.2.state with
      | initial => exact absurd e hn
      | writingObjects => rfl
      | closed => rw [← ho] at e; rw [e] at h; cases h
    unfold XMLWriter.setHeader; rw [hw]

/-- The state of an OSC writer after one call. -/
theorem osc_call_state (w : OSCWriter) (c : Call f.Obj) :
    (oscCall c w).2.state = .closed ↔ w.state = .closed ∨ (c.isClose = true ∧ (oscCall c w).1 = .ok ()) := by
  cases c with
  | setHeader k v => simp [oscCall, OSCWriter.setHeader, M.panic, Call.isClose]
  | writeObj o =>
    simp only [oscCall, Call.isClose]
    by_cases hc : w.state = .closed
    · rw [osc_write_closed w o hc]; simp [hc]
    · have h := osc_write_state w o hc
      simp [h, hc]
  | close =>
    simp only [oscCall, Call.isClose]
    have hs : ∀ r : OSCWriter, HasSink.st r = r.state := fun _ => rfl
    rcases (osc_close_sends w).res with ⟨h1, _, _, h4⟩ | ⟨h1, _, _, h4⟩
    · rw [hs] at h4
      rw [h1, h4]; simp
    · rw [hs, hs] at h4
      rw [h1]
      rcases h4 with h4 | ⟨h5, h4⟩ <;> rw [h4] <;> simp
      exact h5 ▸ (by decide)

/-- **C22**, OSC writer, for `write_obj`, `close` and `is_open`. Missing: `set_header`, which panics in every state, see
`C22_osc_set_header_fails`. -/
theorem C22_osc_life_cycle_partial (k : Sink) (cs : List (Call f.Obj)) :
    let r := run oscCall (OSCWriter.new k) cs
    (r.2.isOpen = false ↔ ∃ e ∈ r.1, e.1.isClose = true ∧ e.2 = .ok ()) ∧
    (r.2.isOpen = false → ∀ o : f.Obj, OSCWriter.writeObj o r.2 = (.err .alreadyClosed, r.2)) := by
  have inv : ∀ (cs : List (Call f.Obj)) (w : OSCWriter),
      ((run oscCall w cs).2.state = .closed ↔ w.state = .closed ∨
        ∃ e ∈ (run oscCall w cs).1, e.1.isClose = true ∧ e.2 = .ok ()) := by
    intro cs
    induction cs with
    | nil => intro w; simp [run]
    | cons c cs ih =>
      intro w
      rw [run_cons]
      simp only
      rw [ih, osc_call_state w c]
      simp only [List.mem_cons, exists_eq_or_imp, or_assoc]
  intro r
  have ho : r.2.isOpen = false ↔ r.2.state = .closed := by
    unfold OSCWriter.isOpen; cases r.2.state <;> decide
  refine ⟨?_, ?_⟩
  · rw [ho, inv cs (OSCWriter.new k)]
    simp only [OSCWriter.new, reduceCtorEq, false_or]; rfl
  · intro h o; exact osc_write_closed _ o (ho.1 h)

/-- `set_header` on an OSC writer panics instead of returning `AlreadyStarted`, `AlreadyClosed` or an error
that headers are not supported. -/
theorem C22_osc_set_header_fails (w : OSCWriter) (k v : Str) :
    OSCWriter.setHeader k v w = (.panic .unimplemented, w) := rfl

/-- The order in which the headers were first set: one possible iteration order. -/
def sampleOrder : HashOrder := ⟨fun l => l, fun l => List.Perm.refl l⟩

/-- A written object in a history. -/
def sampleObj : StringOSMObj := .node sampleNode

/-- Objects without a version cannot be written. -/
def unversionedObj : StringOSMObj := .node (StringNode.default 7)

def sampleHistory : List (Call Family.string.Obj) :=
  [.setHeader (str% "a") (str% "1"), .setHeader (str% "b") (str% "2"), .setHeader (str% "a") (str% "3"),
   .writeObj sampleObj, .writeObj sampleObj]

example : (run (xmlCall sampleOrder) (XMLWriter.new ⟨[], []⟩) sampleHistory).2.isOpen = true ∧
    ∃ e ∈ (run (xmlCall sampleOrder) (XMLWriter.new ⟨[], []⟩) sampleHistory).1,
      e.1.obj?.isSome = true ∧ e.2 = .ok () := by
  refine ⟨by decide +kernel, (.writeObj sampleObj, .ok ()), ?_, rfl, rfl⟩
  have : (run (xmlCall sampleOrder) (XMLWriter.new ⟨[], []⟩) sampleHistory).1.map Prod.snd =
    [.ok (), .ok (), .ok (), .ok (), .ok ()] := by decide +kernel
  have h4 := congrArg (fun l => l[3]?) this
  simp only [sampleHistory, run_cons] at h4 ⊢
  simp only [List.map_cons, List.getElem?_cons_succ, List.getElem?_cons_zero, Option.some.injEq] at h4
  rw [h4]; simp
example : (run (xmlCall sampleOrder) (XMLWriter.new ⟨[], [none, some 3]⟩)
    ([.close, .close] : List (Call Family.string.Obj))).2.isOpen = false := by decide +kernel
example : (run oscCall (OSCWriter.new ⟨[], [none, some 3]⟩)
    ([.close, .writeObj sampleObj, .close] : List (Call Family.string.Obj))).2.isOpen = false := by decide +kernel

/-! ## C23 -/

/-- Every object written in the history has a version. -/
def AllVersioned (cs : List (Call f.Obj)) : Prop := ∀ c ∈ cs, ∀ o, c.obj? = some o → version o ≠ none

theorem xml_drop_ok (σ : HashOrder) (w : XMLWriter) (hr : w.writer.Reliable) :
    (XMLWriter.drop σ w).1 = .ok () ∧
    (XMLWriter.drop σ w).2.writer.out = w.writer.out ++ Utf8.encode (xmlHead? σ w ++ xmlTail) := by
  have h := (xml_close_sends σ w).ok hr
  unfold XMLWriter.drop
  rcases hE : XMLWriter.close σ w with ⟨r1, r2⟩
  rw [hE] at h
  obtain ⟨h1, h2, _⟩ := h
  cases h1
  exact ⟨rfl, h2⟩

theorem osc_drop_ok (w : OSCWriter) (hr : w.writer.Reliable) :
    (OSCWriter.drop w).1 = .ok () ∧
    (OSCWriter.drop w).2.writer.out = w.writer.out ++ Utf8.encode (oscHead? w ++ oscTail? w) := by
  have h := (osc_close_sends w).ok hr
  unfold OSCWriter.drop
  rcases hE : OSCWriter.close w with ⟨r1, r2⟩
  rw [hE] at h
  obtain ⟨h1, h2, _⟩ := h
  cases h1
  exact ⟨rfl, h2⟩

/-- The number of `close` calls. -/
def closes {α : Type} (cs : List (Call α)) : Nat := cs.countP Call.isClose

theorem written_cons_close {α : Type} (cs : List (Call α)) : written (.close :: cs) = [] := rfl
theorem written_cons_write {α : Type} (o : α) (cs : List (Call α)) : written (.writeObj o :: cs) = o :: written cs := by
  simp [written, Call.isClose, Call.obj?]
theorem written_cons_header {α : Type} (k v : Str) (cs : List (Call α)) :
    written (.setHeader k v :: cs) = written cs := rfl

/-- `n` copies of the closing text. -/
def tails (n : Nat) : Str := (List.replicate n xmlTail).flatten
theorem tails_succ (n : Nat) : tails (n + 1) = xmlTail ++ tails n := by simp [tails, List.replicate_succ]

/-- The headers in force when the document head is written, starting from the headers `h`. -/
def headersFrom {α : Type} (h : List (Str × Str)) (cs : List (Call α)) : List (Str × Str) :=
  ((cs.takeWhile Call.isHeader).filterMap Call.header?).foldl (fun h kv => put kv.1 kv.2 h) h

/-- What remains to be written in a history from a state, including the final drop. -/
def remaining (σ : HashOrder) (w : XMLWriter) (cs : List (Call f.Obj)) : Str :=
  match w.state with
  | .initial => xmlHead (σ.order (headersFrom w.headers cs)) ++ (written cs).flatMap textOf ++ tails (closes cs + 1)
  | .writingObjects => (written cs).flatMap textOf ++ tails (closes cs + 1)
  | .closed => tails (closes cs + 1)

theorem xml_run_output (σ : HashOrder) (cs : List (Call f.Obj)) : ∀ (w : XMLWriter), w.writer.Reliable →
    AllVersioned cs →
    let r := run (xmlCall σ) w cs
    let d := XMLWriter.drop σ r.2
    d.1 = .ok () ∧ d.2.writer.out = w.writer.out ++ Utf8.encode (remaining σ w cs) := by
  induction cs with
  | nil =>
    intro w hr _
    obtain ⟨h1, h2⟩ := xml_drop_ok σ w hr
    refine ⟨h1, ?_⟩
    show (XMLWriter.drop σ w).2.writer.out = _
    rw [h2]
    congr 2
    unfold xmlHead? remaining
    cases w.state <;> simp [headersFrom, written, closes, tails]
  | cons c cs ih =>
    intro w hr hv
    have hv' : AllVersioned cs := fun d hd => hv d (List.mem_cons_of_mem _ hd)
    simp only [run_cons]
    have hs : ∀ r : XMLWriter, HasSink.st r = r.state := fun _ => rfl
    cases c with
    | setHeader k v =>
      simp only [xmlCall, XMLWriter.setHeader]
      cases h : w.state with
      | initial =>
        obtain ⟨h1, h2⟩ := ih { w with headers := hashInsert k v w.headers } hr hv'
        simp only [h] at h1 h2
        refine ⟨h1, ?_⟩
        rw [h2]
        unfold remaining
        simp only [h, written_cons_header, hashInsert_eq]
        rfl
      | writingObjects =>
        simp only
        obtain ⟨h1, h2⟩ := ih w hr hv'
        refine ⟨h1, ?_⟩
        rw [h2]
        unfold remaining
        simp only [h, written_cons_header]; rfl
      | closed =>
        simp only
        obtain ⟨h1, h2⟩ := ih w hr hv'
        refine ⟨h1, ?_⟩
        rw [h2]
        unfold remaining
        simp only [h]; rfl
    | writeObj o =>
      have ho : version o ≠ none := hv _ List.mem_cons_self o rfl
      simp only [xmlCall]
      by_cases hc : w.state = .closed
      · rw [xml_write_closed σ w o hc]
        obtain ⟨h1, h2⟩ := ih w hr hv'
        refine ⟨h1, ?_⟩
        rw [h2]
        unfold remaining
        simp only [hc]; rfl
      · obtain ⟨_, g2, g3, g4⟩ := (xml_write_sends σ w ho hc).ok hr
        obtain ⟨h1, h2⟩ := ih _ g4 hv'
        refine ⟨h1, ?_⟩
        rw [h2]
        have g2' : (XMLWriter.writeObj σ o w).2.writer.out = w.writer.out ++ Utf8.encode (xmlHead? σ w ++ textOf o) := g2
        rw [g2', List.append_assoc, ← Utf8.encode_append]
        rw [hs] at g3
        congr 2
        unfold remaining xmlHead?
        rw [g3]
        cases h : w.state with
        | initial =>
          simp [written_cons_write, headersFrom, Call.isHeader, closes, Call.isClose]
        | writingObjects =>
          simp [written_cons_write, closes, Call.isClose]
        | closed => exact absurd h hc
    | close =>
      simp only [xmlCall]
      obtain ⟨_, g2, g3, g4⟩ := (xml_close_sends σ w).ok hr
      obtain ⟨h1, h2⟩ := ih _ g4 hv'
      refine ⟨h1, ?_⟩
      rw [h2]
      have g2' : (XMLWriter.close σ w).2.writer.out = w.writer.out ++ Utf8.encode (xmlHead? σ w ++ xmlTail) := g2
      rw [g2', List.append_assoc, ← Utf8.encode_append]
      rw [hs] at g3
      congr 2
      unfold remaining xmlHead?
      rw [g3]
      have hcl : closes (Call.close :: cs) = closes cs + 1 := List.countP_cons_of_pos rfl
      cases h : w.state <;>
        simp [written_cons_close, headersFrom, Call.isHeader, hcl, tails_succ]

/-- **C23**, what a history really writes when the sink has no faults and every object has a version: one prolog and start
tag with the headers set before anything else, the objects written before the first `close`, once and in
order, then one end tag for every `close` and one more for the drop. -/
theorem C23_output_partial (σ : HashOrder) (k : Sink) (hk : k.Reliable) (cs : List (Call f.Obj))
    (hv : AllVersioned cs) :
    let r := run (xmlCall σ) (XMLWriter.new k) cs
    let d := XMLWriter.drop σ r.2
    d.1 = .ok () ∧ d.2.writer.out = k.out ++ Utf8.encode (xmlHead (σ.order (headersOf cs)) ++
      (written cs).flatMap textOf ++ (List.replicate (cs.countP Call.isClose + 1) xmlTail).flatten) :=
  xml_run_output σ cs (XMLWriter.new k) hk hv

/-- **C23**, for histories without an explicit `close`. Missing: histories that call `close` (where the end
tag is written again, see `C23_close_fails`) and objects without a version (`C23_unversioned_fails`). -/
theorem C23_one_document_partial (σ : HashOrder) (k : Sink) (hk : k.Reliable) (cs : List (Call f.Obj))
    (hv : AllVersioned cs) (hc : ∀ c ∈ cs, c.isClose = false) :
    (XMLWriter.drop σ (run (xmlCall σ) (XMLWriter.new k) cs).2).2.writer.out =
      k.out ++ Utf8.encode (xmlDocument (σ.order (headersOf cs)) (cs.filterMap Call.obj?)) := by
  have h := (C23_output_partial σ k hk cs hv).2
  rw [h]
  have h0 : cs.countP Call.isClose = 0 := by
    rw [List.countP_eq_zero]; intro c hc'; simp [hc c hc']
  have hw : written cs = cs.filterMap Call.obj? := by
    unfold written
    rw [List.takeWhile_eq_self_iff.2]
    intro c hc'; simp [hc c hc']
  rw [h0, hw]
  simp [xmlDocument]

theorem C23_nonvacuous : AllVersioned (f := .string) sampleHistory ∧ (∀ c ∈ sampleHistory, c.isClose = false) ∧
    headersOf sampleHistory = [(str% "a", str% "3"), (str% "b", str% "2")] := by
  refine ⟨?_, ?_, by decide +kernel⟩
  · intro c hc o ho
    have : (version sampleObj) ≠ none := by decide +kernel
    simp only [sampleHistory, List.mem_cons, List.not_mem_nil, or_false] at hc
    rcases hc with rfl | rfl | rfl | rfl | rfl <;> cases ho <;> exact this
  · intro c hc
    simp only [sampleHistory, List.mem_cons, List.not_mem_nil, or_false] at hc
    rcases hc with rfl | rfl | rfl | rfl | rfl <;> rfl

/-- An explicit `close` before the drop (which is also what `from_iter` does) makes the end tag appear twice. -/
theorem C23_close_fails (σ : HashOrder) (k : Sink) (hk : k.Reliable) (cs : List (Call f.Obj))
    (hv : AllVersioned cs) (hc : ∃ c ∈ cs, c.isClose = true) :
    ∃ t n, (XMLWriter.drop σ (run (xmlCall σ) (XMLWriter.new k) cs).2).2.writer.out =
      k.out ++ Utf8.encode (t ++ xmlTail ++ xmlTail ++ n) := by
  have h := (C23_output_partial σ k hk cs hv).2
  have h0 : 0 < cs.countP Call.isClose := List.countP_pos_iff.2 hc
  obtain ⟨m, hm⟩ : ∃ m, cs.countP Call.isClose = m + 1 := ⟨_, (Nat.succ_pred_eq_of_pos h0).symm⟩
  refine ⟨xmlHead (σ.order (headersOf cs)) ++ (written cs).flatMap textOf,
    (List.replicate m xmlTail).flatten, ?_⟩
  rw [h, hm]
  simp [List.replicate_succ]

theorem C23_from_iter_fails : (XMLWriter.drop sampleOrder (XMLWriter.fromIter (α := Family.string.Obj) sampleOrder
    ⟨[], []⟩ []).2).2.writer.out = Utf8.encode (xmlDocument (α := Family.string.Obj) [] [] ++ xmlTail) := by
  decide +kernel

/-- A caught panic of `write_obj` leaves half an element in the document. -/
theorem C23_unversioned_fails : (XMLWriter.drop sampleOrder (run (xmlCall (α := Family.string.Obj) sampleOrder)
    (XMLWriter.new ⟨[], []⟩) [.writeObj unversionedObj]).2).2.writer.out =
    Utf8.encode (xmlHead [] ++ str% "\n\t<node id=\"7\" visible=\"true\"" ++ xmlTail) := by
  decide +kernel

/-! ## C24 -/

/-- What remains to be written in a history from a state, including the final drop. -/
def oscRemaining (w : OSCWriter) (cs : List (Call f.Obj)) : Str :=
  match w.state with
  | .initial => oscHead ++ (written cs).flatMap textOf ++ oscTail
  | .writingObjects => (written cs).flatMap textOf ++ oscTail
  | .closed => []

/-- **C24**, for objects with a version: whatever calls are made — any number of `close`s, writes after
`close`, and `set_header` calls that panic and are caught — the sink receives exactly one document, with the objects written before the
first `close`. Missing: objects without a version, see `C24_unversioned_fails`. -/
theorem C24_one_document_partial (k : Sink) (hk : k.Reliable) (cs : List (Call f.Obj)) (hv : AllVersioned cs) :
    let r := run oscCall (OSCWriter.new k) cs
    let d := OSCWriter.drop r.2
    d.1 = .ok () ∧ d.2.writer.out = k.out ++ Utf8.encode (oscDocument (written cs)) := by
  have key : ∀ (cs : List (Call f.Obj)) (w : OSCWriter), w.writer.Reliable → AllVersioned cs →
      let r := run oscCall w cs
      let d := OSCWriter.drop r.2
      d.1 = .ok () ∧ d.2.writer.out = w.writer.out ++ Utf8.encode (oscRemaining w cs) := by
    intro cs
    induction cs with
    | nil =>
      intro w hr _
      obtain ⟨h1, h2⟩ := osc_drop_ok w hr
      refine ⟨h1, ?_⟩
      show (OSCWriter.drop w).2.writer.out = _
      rw [h2]
      congr 2
      unfold oscHead? oscTail? oscRemaining
      cases w.state <;> simp [written]
    | cons c cs ih =>
      intro w hr hv
      have hv' : AllVersioned cs := fun d hd => hv d (List.mem_cons_of_mem _ hd)
      simp only [run_cons]
      have hs : ∀ r : OSCWriter, HasSink.st r = r.state := fun _ => rfl
      cases c with
      | setHeader k v =>
        simp only [oscCall, OSCWriter.setHeader, M.panic]
        obtain ⟨h1, h2⟩ := ih w hr hv'
        refine ⟨h1, ?_⟩
        rw [h2]
        unfold oscRemaining
        cases w.state <;> simp only [written_cons_header]
      | writeObj o =>
        have ho : version o ≠ none := hv _ List.mem_cons_self o rfl
        simp only [oscCall]
        by_cases hc : w.state = .closed
        · rw [osc_write_closed w o hc]
          obtain ⟨h1, h2⟩ := ih w hr hv'
          refine ⟨h1, ?_⟩
          rw [h2]
          unfold oscRemaining
          simp only [hc]
        · obtain ⟨_, g2, g3, g4⟩ := (osc_write_sends w ho hc).ok hr
          obtain ⟨h1, h2⟩ := ih _ g4 hv'
          refine ⟨h1, ?_⟩
          rw [h2]
          have g2' : (OSCWriter.writeObj o w).2.writer.out = w.writer.out ++ Utf8.encode (oscHead? w ++ textOf o) := g2
          rw [g2', List.append_assoc, ← Utf8.encode_append]
          rw [hs] at g3
          congr 2
          unfold oscRemaining oscHead?
          rw [g3]
          cases h : w.state with
          | initial => simp [written_cons_write]
          | writingObjects => simp [written_cons_write]
          | closed => exact absurd h hc
      | close =>
        simp only [oscCall]
        obtain ⟨_, g2, g3, g4⟩ := (osc_close_sends w).ok hr
        obtain ⟨h1, h2⟩ := ih _ g4 hv'
        refine ⟨h1, ?_⟩
        rw [h2]
        have g2' : (OSCWriter.close w).2.writer.out = w.writer.out ++ Utf8.encode (oscHead? w ++ oscTail? w) := g2
        rw [g2', List.append_assoc, ← Utf8.encode_append]
        rw [hs] at g3
        congr 2
        unfold oscRemaining oscHead? oscTail?
        rw [g3]
        cases h : w.state <;> simp [written_cons_close]
  exact key cs (OSCWriter.new k) hk hv

/-- A caught panic of `write_obj` leaves half an element in the document. -/
theorem C24_unversioned_fails : (OSCWriter.drop (run (oscCall (α := Family.string.Obj))
    (OSCWriter.new ⟨[], []⟩) [.writeObj unversionedObj]).2).2.writer.out =
    Utf8.encode (oscHead ++ str% "\n\t<node id=\"7\" visible=\"true\"" ++ oscTail) := by
  decide +kernel

example : written (sampleHistory ++ [.close, .writeObj unversionedObj, .close]) = [sampleObj, sampleObj] := rfl

/-! ## C25 -/

/-- What a call on an XML writer would write if nothing fails. -/
def xmlCallText (σ : HashOrder) (w : XMLWriter) : Call f.Obj → Str
  | .setHeader _ _ => []
  | .writeObj o => (if w.state = .initial then xmlHead (σ.order w.headers) else []) ++ textOf o
  | .close => (if w.state = .initial then xmlHead (σ.order w.headers) else []) ++ xmlTail

/-- What a call on an OSC writer would write if nothing fails. -/
def oscCallText (w : OSCWriter) : Call f.Obj → Str
  | .setHeader _ _ => []
  | .writeObj o => (if w.state = .initial then oscHead else []) ++ textOf o
  | .close => (if w.state = .initial then oscHead else []) ++ (if w.state = .closed then [] else oscTail)

/-- **C25**, XML writer. In any state of the writer and for any faults the sink may produce, a call (with
an object that has a version) does one of three things: it returns `Ok`, every request to the sink has succeeded and its
whole text has been appended; it returns the I/O error, at the first request that failed, a prefix of
its text has been appended, and an open writer is still open; or it returns `AlreadyClosed` or
`AlreadyStarted` and nothing has changed. -/
theorem C25_xml_faults (σ : HashOrder) (w : XMLWriter) (c : Call f.Obj) (hv : AllVersioned [c]) :
    let r := xmlCall σ c w
    (r.1 = .ok () ∧ r.2.writer.out = w.writer.out ++ Utf8.encode (xmlCallText σ w c) ∧ w.writer.Clean r.2.writer) ∨
    (r.1 = .err .xmlWriteIOError ∧ (∃ p, p <+: Utf8.encode (xmlCallText σ w c) ∧ r.2.writer.out = w.writer.out ++ p) ∧
      w.writer.Hit r.2.writer ∧ (w.isOpen = true → r.2.isOpen = true)) ∨
    ((r.1 = .err .alreadyClosed ∨ r.1 = .err .alreadyStarted) ∧ r.2 = w) := by
  have hs : ∀ r : XMLWriter, HasSink.st r = r.state := fun _ => rfl
  have conv : ∀ {r : Outcome Unit × XMLWriter} {t s}, Sends w r t s →
      (r.1 = .ok () ∧ r.2.writer.out = w.writer.out ++ Utf8.encode t ∧ w.writer.Clean r.2.writer) ∨
      (r.1 = .err .xmlWriteIOError ∧ (∃ p, p <+: Utf8.encode t ∧ r.2.writer.out = w.writer.out ++ p) ∧
        w.writer.Hit r.2.writer ∧ (w.isOpen = true → r.2.isOpen = true)) := by
    intro r t s h
    rcases h.res with ⟨h1, h2, h3, _⟩ | ⟨h1, h2, h3, h4⟩
    · exact Or.inl ⟨h1, h2, h3⟩
    · refine Or.inr ⟨h1, h2, h3, ?_⟩
      rw [hs, hs] at h4
      unfold XMLWriter.isOpen
      rcases h4 with h4 | ⟨_, h4⟩ <;> rw [h4]
      · exact fun h => h
      · exact fun _ => rfl
  cases c with
  | setHeader k v =>
    simp only [xmlCall, XMLWriter.setHeader, xmlCallText]
    cases h : w.state with
    | initial => left; exact ⟨rfl, by simp [Utf8.encode_nil], Sink.Clean.refl _⟩
    | writingObjects => right; right; exact ⟨Or.inr rfl, rfl⟩
    | closed => right; right; exact ⟨Or.inl rfl, rfl⟩
  | writeObj o =>
    have ho : version o ≠ none := hv _ List.mem_cons_self o rfl
    by_cases hc : w.state = .closed
    · right; right
      simp only [xmlCall]
      rw [xml_write_closed σ w o hc]
      exact ⟨Or.inl rfl, rfl⟩
    · rcases conv (xml_write_sends σ w ho hc) with h | h
      · exact Or.inl h
      · exact Or.inr (Or.inl h)
  | close =>
    rcases conv (xml_close_sends σ w) with h | h
    · exact Or.inl h
    · exact Or.inr (Or.inl h)

/-- **C25**, OSC writer, for `write_obj` and `close` (`set_header` always panics and changes nothing). -/
theorem C25_osc_faults (w : OSCWriter) (c : Call f.Obj) (hv : AllVersioned [c]) (hh : c.isHeader = false) :
    let r := oscCall c w
    (r.1 = .ok () ∧ r.2.writer.out = w.writer.out ++ Utf8.encode (oscCallText w c) ∧ w.writer.Clean r.2.writer) ∨
    (r.1 = .err .xmlWriteIOError ∧ (∃ p, p <+: Utf8.encode (oscCallText w c) ∧ r.2.writer.out = w.writer.out ++ p) ∧
      w.writer.Hit r.2.writer ∧ (w.isOpen = true → r.2.isOpen = true)) ∨
    (r.1 = .err .alreadyClosed ∧ r.2 = w) := by
  have hs : ∀ r : OSCWriter, HasSink.st r = r.state := fun _ => rfl
  have conv : ∀ {r : Outcome Unit × OSCWriter} {t s}, Sends w r t s →
      (r.1 = .ok () ∧ r.2.writer.out = w.writer.out ++ Utf8.encode t ∧ w.writer.Clean r.2.writer) ∨
      (r.1 = .err .xmlWriteIOError ∧ (∃ p, p <+: Utf8.encode t ∧ r.2.writer.out = w.writer.out ++ p) ∧
        w.writer.Hit r.2.writer ∧ (w.isOpen = true → r.2.isOpen = true)) := by
    intro r t s h
    rcases h.res with ⟨h1, h2, h3, _⟩ | ⟨h1, h2, h3, h4⟩
    · exact Or.inl ⟨h1, h2, h3⟩
    · refine Or.inr ⟨h1, h2, h3, ?_⟩
      rw [hs, hs] at h4
      unfold OSCWriter.isOpen
      rcases h4 with h4 | ⟨_, h4⟩ <;> rw [h4]
      · exact fun h => h
      · exact fun _ => rfl
  cases c with
  | setHeader k v => cases hh
  | writeObj o =>
    have ho : version o ≠ none := hv _ List.mem_cons_self o rfl
    by_cases hc : w.state = .closed
    · right; right
      simp only [oscCall]
      rw [osc_write_closed w o hc]
      exact ⟨rfl, rfl⟩
    · rcases conv (osc_write_sends w ho hc) with h | h
      · exact Or.inl h
      · exact Or.inr (Or.inl h)
  | close =>
    rcases conv (osc_close_sends w) with h | h
    · exact Or.inl h
    · exact Or.inr (Or.inl h)

/-- A sink that fails in the middle of the first object. -/
example : (xmlCall sampleOrder (.writeObj (sampleObj : Family.string.Obj))
    (XMLWriter.new ⟨[], [none, none, none, none, some 3]⟩)).1 = .err .xmlWriteIOError ∧
  (xmlCall sampleOrder (.writeObj (sampleObj : Family.string.Obj))
    (XMLWriter.new ⟨[], [none, none, none, none, some 3]⟩)).2.writer.out =
    Utf8.encode (xmlHead [] ++ str% "\n\t<node id") := by decide +kernel

/-! ## C26 -/

/-- **C26**, for objects with a version: no panic, in any state and with any faults. Missing: objects without a version; see
`C26_unversioned_fails`. -/
theorem C26_no_panic_partial (σ : HashOrder) (o : f.Obj) (hv : version o ≠ none) :
    (∀ (w : XMLWriter) p, (XMLWriter.writeObj σ o w).1 ≠ .panic p) ∧
    (∀ (w : OSCWriter) p, (OSCWriter.writeObj o w).1 ≠ .panic p) := by
  have hv' : AllVersioned [Call.writeObj o] := by
    intro c hc o' ho'
    rw [List.mem_singleton] at hc
    subst hc
    cases ho'
    exact hv
  constructor
  · intro w p h
    rcases C25_xml_faults σ w (.writeObj o) hv' with ⟨h1, _⟩ | ⟨h1, _⟩ | ⟨h1 | h1, _⟩ <;>
      (simp only [xmlCall] at h1; rw [h1] at h; cases h)
  · intro w p h
    rcases C25_osc_faults w (.writeObj o) hv' rfl with ⟨h1, _⟩ | ⟨h1, _⟩ | ⟨h1, _⟩ <;>
      (simp only [oscCall] at h1; rw [h1] at h; cases h)

/-- Without a version `write_obj` panics on every open writer whose sink works. -/
theorem C26_unversioned_fails (σ : HashOrder) (o : f.Obj) (hv : version o = none) (w : XMLWriter)
    (hr : w.writer.Reliable) (ho : w.isOpen = true) : (XMLWriter.writeObj σ o w).1 = .panic .unwrap := by
  have hc : w.state ≠ .closed := by rintro h; simp [XMLWriter.isOpen, h] at ho
  have h := (xml_checkOpen_sends σ w hc).ok hr
  unfold XMLWriter.writeObj
  rw [seq_apply]
  rcases hE : XMLWriter.checkOpen σ w with ⟨r1, r2⟩
  rw [hE] at h
  obtain ⟨h1, _, _, h4⟩ := h
  cases h1
  show (writeObjBody o r2.writer).1 = _
  have h4 : r2.writer.Reliable := h4
  have step : ∀ (t : Str) (m : M Sink Unit) (s : Sink), s.Reliable → (∀ s', s'.Reliable → (m s').1 = .panic .unwrap) →
      ((do write t; m : M Sink Unit) s).1 = .panic .unwrap := by
    intro t m s hs hm
    rw [seq_apply]
    obtain ⟨g1, g2⟩ := (emits_write t).reliable s hs
    rcases hw : write t s with ⟨q1, q2⟩
    rw [hw] at g1 g2
    cases g1
    exact hm q2 g2
  unfold writeObjBody
  refine step _ _ _ h4 fun s hs => step _ _ _ hs fun s hs => step _ _ _ hs fun s hs => ?_
  rw [hv]
  rfl

example : version (unversionedObj : Family.string.Obj) = none := by decide +kernel
example : version (sampleObj : Family.string.Obj) ≠ none := by decide +kernel

end Osmio
