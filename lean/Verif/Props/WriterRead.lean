import Verif.Props.WriterAny
import Verif.Props.XmlExact
import Verif.Props.Join
/-!
# Reading what a closed XML writer wrote: C27

The end tag is written by `close` and again when the writer is dropped (`C23_any_history`). A reader gives the objects and then panics.
-/

namespace Osmio
open Spec OSMObjBase Xml

/-- A document that is read to its end, and after it one more end tag: the reader gives the objects of the document and then panics. -/
theorem xml_then_end {norm : Xml.Config} {a : List UInt8} {os : List StringOSMObj} (h : Drain XMLReader.next (XMLReader.new norm a) os none [])
    (rest : List UInt8) : Drain XMLReader.next (XMLReader.new norm (a ++ Utf8.encode xmlTail ++ rest)) os (some .unwrap) [] := by
  have hc : complete ((Utf8.decodePrefix a).1.foldl (step norm) initial) = true ∧ (Utf8.decodePrefix a).2 = true := by
    by_contra hc
    unfold XMLReader.new eventsOfBytes events at h
    simp only [← Bool.and_eq_true] at hc
    simp only [if_neg hc] at h
    exact drain_not_failing _ h
  obtain ⟨hc, hp⟩ := hc
  have ha := Utf8.eq_encode_of_prefix hp
  set t := (Utf8.decodePrefix a).1 with ht
  have ho : XMLReader.new norm a = (Xml.run norm initial t).events.map some ++ [some .other] := by
    unfold XMLReader.new eventsOfBytes events
    simp only [hc, hp, ← ht, Bool.and_self, if_true]
    rfl
  have hg : ∃ g : Forest, g.events = (Xml.run norm initial t).events := by
    rcases events_forest norm a with ⟨g, hg⟩ | ⟨evs, he⟩
    · refine ⟨g, ?_⟩
      have := hg.symm.trans ho
      have := (List.append_inj' this rfl).1
      exact List.map_injective_iff.2 (Option.some_injective _) this
    · have := (List.append_inj' (he.symm.trans ho) rfl).2
      simp at this
  obtain ⟨g, hg⟩ := hg
  rw [ho] at h
  have hd := drain_then_fails g _ [] (by simpa using hg) h
  change complete (Xml.run norm initial t) = true at hc
  obtain ⟨u, hu⟩ := Utf8.decodePrefix_append (Utf8.encode (t ++ xmlTail)) rest
  rw [Utf8.decodePrefix_encode, Utf8.encode_append, ← ha] at hu
  unfold XMLReader.new eventsOfBytes events
  simp only
  rw [← hu, List.foldl_append, List.foldl_append]
  change Drain XMLReader.next ((Xml.run norm (Xml.run norm (Xml.run norm initial t) xmlTail) u).events.map some ++
    [if (complete (Xml.run norm (Xml.run norm (Xml.run norm initial t) xmlTail) u) && _) = true then _ else _]) _ _ _
  generalize Xml.run norm initial t = z at *
  obtain ⟨p, hm, hz⟩ : ∃ p, z.mode = .text p ∧ z.opened = [] := by
    unfold complete at hc
    split at hc
    · rename_i p hm
      simp only [Bool.and_eq_true, List.isEmpty_iff] at hc
      exact ⟨p, hm, hc.1⟩
    · cases hc
  obtain ⟨m, o, r, ev⟩ := z
  simp only at hm hz hd
  subst hm hz
  have h0 : Xml.run norm ⟨.text p, [], r, ev⟩ xmlTail = ⟨.fail, [], r, ev ++ [.other]⟩ := rfl
  have h1 : ∀ u, Xml.run norm ⟨.fail, [], r, ev ++ [.other]⟩ u = ⟨.fail, [], r, ev ++ [.other]⟩ := by
    intro u
    induction u with
    | nil => rfl
    | cons c u ih => exact ih
  rw [h0, h1]
  simp only [complete, Bool.false_and, Bool.false_eq_true, if_false, List.map_append, List.map_cons, List.map_nil, List.append_assoc,
    List.singleton_append]
  exact next_other _ hd

variable {f : Family}

/-- **C27, counterexample for `close`.** After any history of calls with a `close` in it (and otherwise as in `C27_exact`), the reader gives the
objects written before the first `close`, equal in everything, and then panics, because the end tag is there more than once. -/
theorem C27_close_fails (norm : Xml.Config) (hn : IsNorm norm) (σ : HashOrder) (k : Sink) (hk : k.Reliable)
    (hk0 : k.out = []) (cs : List (Call f.Obj)) (hv : ∀ o ∈ written cs, version o ≠ none) (hh : HeadersOk (headersOf cs))
    (hc : ∃ c ∈ cs, c.isClose = true) (ht : ∀ o ∈ written cs, TimeUnquoted (objData o))
    (hg : ∀ o ∈ written cs, (objectType o = .node → (objData o).pos ≠ none) ∧
      ∀ t ∈ textsOf (objData o), ∀ c ∈ t, XmlChar c ∧ norm c = c) :
    ∃ os : List StringOSMObj,
      Drain XMLReader.next (XMLReader.new norm (XMLWriter.drop σ (run (xmlCall σ) (XMLWriter.new k) cs).2).2.writer.out) os (some .unwrap) [] ∧
      os.map objData = (written cs).map fun o => readBack (objData o) := by
  obtain ⟨rs, hd, hrs⟩ := docForm_drain (xml_form hn (headersOk_perm (σ.perm _).symm hh)) (written cs) fun o ho =>
    (parsable_iff (hv o ho) (ht o ho)).2 ⟨(hg o ho).1, fun t hmem c hc => ((hg o ho).2 t hmem c hc).1⟩
  refine ⟨rs, ?_, hrs.trans (List.map_congr_left fun o ho => readBack_mapTexts_iff.2 fun t hmem c hc => ((hg o ho).2 t hmem c hc).2)⟩
  obtain ⟨m, hm⟩ : ∃ m, cs.countP Call.isClose = m + 1 := ⟨_, (Nat.succ_pred_eq_of_pos (List.countP_pos_iff.2 hc)).symm⟩
  have h := (C23_any_history σ k hk cs).2
  rw [h, hk0, List.nil_append, sentOf_flatMap hv, hm, List.replicate_succ, List.replicate_succ, List.flatten_cons, List.flatten_cons]
  rw [← List.append_assoc, ← List.append_assoc, Utf8.encode_append, Utf8.encode_append _ xmlTail]
  exact xml_then_end hd _

theorem run_stays {norm : Xml.Config} {z : PState} (h : z.mode = .fail) (u : Str) : Xml.run norm z u = z := by
  obtain ⟨m, o, r, ev⟩ := z
  simp only at h
  subst h
  induction u with
  | nil => rfl
  | cons c u ih => exact ih

/-- A document with more end tags after it is not read to the end with as many objects as it has. -/
theorem docForm_more {norm : Xml.Config} {head tail : Str} {F : List (ObjData × UInt32) → Forest}
    (hF : DocForm norm head tail F) (os : List f.Obj) (hv : ∀ o ∈ os, version o ≠ none) (ht : ∀ o ∈ os, TimeUnquoted (objData o)) (more : Str)
    {rs : List StringOSMObj} {q : List (Option XmlEvent)}
    (hd : Drain XMLReader.next (eventsOfBytes norm (Utf8.encode (head ++ os.flatMap textOf ++ tail ++ (xmlTail ++ more)))) rs none q)
    (hrs : rs.length = os.length) : False := by
  by_cases hpar : ∀ o ∈ os, Parsable o
  · obtain ⟨rs', hd', -⟩ := docForm_drain hF os hpar
    have := xml_then_end hd' (Utf8.encode more)
    rw [← Utf8.encode_append, ← Utf8.encode_append, List.append_assoc] at this
    exact absurd (Drain.unique hd this).2.1 (by simp)
  have happ : ∀ a b : Str, Xml.run norm initial (a ++ b) = Xml.run norm (Xml.run norm initial a) b := fun a b => List.foldl_append
  by_cases hill : ∃ c ∈ head ++ os.flatMap textOf ++ tail, isXmlChar c = false
  · have r1 := (run_scrub norm _ initial rfl hill).1
    have e := happ (head ++ os.flatMap textOf ++ tail) (xmlTail ++ more)
    rw [run_stays r1] at e
    rw [events_of_fail (by rw [e]; exact r1), e, ← events_of_fail r1] at hd
    exact hpar (docForm_parsable hF os hv ht hd hrs)
  · have hx : ∀ o ∈ os, XmlTexts (objData o) := by
      intro o ho
      rw [xmlTexts_iff (ht o ho)]
      intro t hmem c hc
      by_contra h
      rw [Bool.not_eq_true] at h
      refine hill ⟨c, ?_, h⟩
      rw [flatMap_text _ hv, List.mem_append, List.mem_append, List.mem_flatMap]
      exact .inl (.inr ⟨_, List.mem_map.2 ⟨o, ho, rfl⟩, mem_objText (objData_shape o) _ hmem hc h⟩)
    have hok : ∀ x ∈ withVersions os, DataOk x.1 := by
      intro x hx'
      obtain ⟨o, ho, rfl⟩ := List.mem_map.1 hx'
      exact objData_ok (hx o ho)
    have hrun := hF.events _ hok
    rw [← flatMap_text _ hv] at hrun
    have e := happ (head ++ os.flatMap textOf ++ tail) (xmlTail ++ more)
    have h0 : ∀ ev, Xml.run norm ⟨.text false, [], true, ev⟩ xmlTail = ⟨.fail, [], true, ev ++ [.other]⟩ := fun _ => rfl
    have e2 : ∀ z, Xml.run norm z (xmlTail ++ more) = Xml.run norm (Xml.run norm z xmlTail) more := fun z => List.foldl_append
    rw [hrun, e2, h0, run_stays (z := ⟨.fail, _, _, _⟩) rfl] at e
    rw [events_of_fail (by rw [e]), e] at hd
    simp only [List.map_append, List.map_cons, List.map_nil, List.append_assoc, List.singleton_append] at hd
    have hno : none ∈ (F (normed norm (withVersions os))).objects.map readElem := by
      by_contra hno
      refine hpar fun o ho => ⟨hv o ho, hx o ho, fun hk hp => hno ?_⟩
      rw [hF.objects, List.mem_map]
      refine ⟨_, List.mem_map.2 ⟨(mapTexts norm (objData o), (version o).getD 0),
        List.mem_map.2 ⟨_, List.mem_map.2 ⟨o, ho, rfl⟩, rfl⟩, rfl⟩, ?_⟩
      exact readElem_unplaced (d := mapTexts norm (objData o)) hk hp _
    obtain ⟨rs', q', hd3, hlt⟩ := drain_short _ (hF.flat _) (hF.distinct _) hno [some .other, none] (some .unwrap) (.panic rfl)
    obtain ⟨rfl, _, _⟩ := Drain.unique hd hd3
    rw [hF.objects] at hlt
    simp only [normed, withVersions, List.length_map] at hlt
    omega

/-- **C27**, exactly, for all histories, with or without `close` (versions before the first `close`; text timestamps that need no escapes;
representable headers; no faults): the document is read back as the objects written, equal in everything, and then the end, if and only if `close` is
never called, every node has a position and every character of every text is one that XML has and that the parser does not turn into a space. -/
theorem C27_iff (norm : Xml.Config) (hn : IsNorm norm) (σ : HashOrder) (k : Sink) (hk : k.Reliable)
    (hk0 : k.out = []) (cs : List (Call f.Obj)) (hv : ∀ o ∈ written cs, version o ≠ none) (hh : HeadersOk (headersOf cs))
    (ht : ∀ o ∈ written cs, TimeUnquoted (objData o)) :
    (∃ (os : List StringOSMObj) (q : List (Option XmlEvent)),
      Drain XMLReader.next (XMLReader.new norm (XMLWriter.drop σ (run (xmlCall σ) (XMLWriter.new k) cs).2).2.writer.out) os none q ∧
      os.map objData = (written cs).map fun o => readBack (objData o)) ↔
    (∀ c ∈ cs, c.isClose = false) ∧ ∀ o ∈ written cs, (objectType o = .node → (objData o).pos ≠ none) ∧
      ∀ t ∈ textsOf (objData o), ∀ c ∈ t, XmlChar c ∧ norm c = c := by
  have hF := xml_form hn (headersOk_perm (σ.perm _).symm hh)
  have h := (C23_any_history σ k hk cs).2
  rw [h, hk0, List.nil_append, sentOf_flatMap hv]
  by_cases hc : ∀ c ∈ cs, c.isClose = false
  · have h0 : cs.countP Call.isClose = 0 := List.countP_eq_zero.2 fun c hm => by rw [hc c hm]; simp
    have e : (List.replicate (0 + 1) xmlTail).flatten = xmlTail := by simp
    rw [h0, e]
    exact (docForm_exact hF _ hv ht).trans ⟨fun h => ⟨hc, h⟩, fun h => h.2⟩
  · constructor
    · rintro ⟨os, q, hd, he⟩
      obtain ⟨m, hm⟩ : ∃ m, cs.countP Call.isClose = m + 1 := by
        refine ⟨_, (Nat.succ_pred_eq_of_pos (List.countP_pos_iff.2 ?_)).symm⟩
        push Not at hc
        obtain ⟨c, h1, h2⟩ := hc
        exact ⟨c, h1, by simpa using h2⟩
      rw [hm, List.replicate_succ, List.replicate_succ, List.flatten_cons, List.flatten_cons, ← List.append_assoc] at hd
      exact (docForm_more hF _ hv ht _ hd (by simpa using congrArg List.length he)).elim
    · exact fun h => absurd h.1 hc

/-- **C28**, exactly, for all histories (versions before the first `close`; text timestamps that need no escapes; no faults): `close` may be called
at any time and any number of times, and calls after it write nothing. -/
theorem C28_iff (norm : Xml.Config) (hn : IsNorm norm) (k : Sink) (hk : k.Reliable)
    (hk0 : k.out = []) (cs : List (Call f.Obj)) (hv : ∀ o ∈ written cs, version o ≠ none) (ht : ∀ o ∈ written cs, TimeUnquoted (objData o)) :
    (∃ (os : List StringOSMObj) (q : List (Option XmlEvent)),
      Drain OSCReader.next (OSCReader.new norm (OSCWriter.drop (run oscCall (OSCWriter.new k) cs).2).2.writer.out) os none q ∧
      os.map objData = (written cs).map fun o => readBack (objData o)) ↔
    ∀ o ∈ written cs, (objectType o = .node → (objData o).pos ≠ none) ∧
      ∀ t ∈ textsOf (objData o), ∀ c ∈ t, XmlChar c ∧ norm c = c := by
  rw [(C24_any_history k hk cs).2, hk0, List.nil_append, sentOf_flatMap hv, osc_next_eq]
  exact docForm_exact (osc_form hn) _ hv ht

/-! ## C106 -/

theorem headersOk_nil : HeadersOk [] := ⟨(fun h hh => by cases hh), List.nodup_nil⟩

theorem first_unversioned {os : List f.Obj} (h : ¬ ∀ o ∈ os, version o ≠ none) :
    ∃ pre o post, os = pre ++ o :: post ∧ (∀ x ∈ pre, version x ≠ none) ∧ version o = none := by
  induction os with
  | nil => exact absurd (fun o ho => by cases ho) h
  | cons a os ih =>
    cases hv : version a with
    | none => exact ⟨[], a, os, rfl, (fun x hx => by cases hx), hv⟩
    | some v =>
      obtain ⟨pre, o, post, rfl, h1, h2⟩ := ih fun hall => h fun o ho => by
        rcases List.mem_cons.1 ho with rfl | ho
        · rw [hv]; simp
        · exact hall o ho
      refine ⟨a :: pre, o, post, rfl, fun x hx => ?_, h2⟩
      rcases List.mem_cons.1 hx with rfl | hx
      · rw [hv]; simp
      · exact h1 x hx

theorem not_hit {k s : Sink} (hk : k.Reliable) : ¬ k.Hit s := by
  rintro ⟨pre, n, h, _⟩
  have := hk (some n) (by rw [h]; simp)
  cases this

/-- **C106**, XML. `from_iter` returns the writer exactly if each object has a version and the sink takes everything; the sink then has the document of the objects,
in order, and the writer is closed. Otherwise it panics: if all objects have versions, the sink has refused a request, and has a beginning of that document;
if not, the sink has the document up to the place of the first missing version, or a beginning of that if it has refused a request. Nothing is written of
the objects after it. -/
theorem C106_xml (σ : HashOrder) (k : Sink) (os : List f.Obj) :
    let r := XMLWriter.fromIter σ k os
    ((∀ o ∈ os, version o ≠ none) →
      (r.1 = .ok () ∧ r.2.isOpen = false ∧ r.2.writer.out = k.out ++ Utf8.encode (xmlDocument [] os) ∧ k.Clean r.2.writer) ∨
      (r.1 = .panic .unwrap ∧ r.2.isOpen = true ∧ (∃ p, p <+: Utf8.encode (xmlDocument [] os) ∧ r.2.writer.out = k.out ++ p) ∧
        k.Hit r.2.writer)) ∧
    (∀ pre o post, os = pre ++ o :: post → (∀ x ∈ pre, version x ≠ none) → version o = none →
      r.1 = .panic .unwrap ∧ r.2.isOpen = true ∧
      ((r.2.writer.out = k.out ++ Utf8.encode (xmlHead [] ++ pre.flatMap textOf ++ stubOf o) ∧ k.Clean r.2.writer) ∨
       ((∃ p, p <+: Utf8.encode (xmlHead [] ++ pre.flatMap textOf ++ stubOf o) ∧ r.2.writer.out = k.out ++ p) ∧ k.Hit r.2.writer))) := by
  have hσ : σ.order [] = [] := List.perm_nil.1 (σ.perm [])
  have hh : xmlHead? σ (XMLWriter.new k) = xmlHead [] := by simp [xmlHead?, XMLWriter.new, hσ]
  have hne : (XMLWriter.new k).state ≠ .closed := by simp [XMLWriter.new]
  have hopen : ∀ w : XMLWriter, (w.state = .initial ∨ w.state = .writingObjects) → w.isOpen = true := by
    rintro w (h | h) <;> simp [XMLWriter.isOpen, h]
  intro r
  constructor
  · intro hv
    have h := xml_iter_sends σ os (XMLWriter.new k) hne hv
    rw [hh] at h
    simp only [r, XMLWriter.fromIter]
    generalize (do M.each (fun o => XMLWriter.writeObj σ o) os; XMLWriter.close σ : M XMLWriter Unit) (XMLWriter.new k) = x at h
    obtain ⟨x1, x2⟩ := x
    rcases h.res with ⟨h1, h2, h3, h4⟩ | ⟨h1, h2, h3, h4⟩
    · cases h1
      have h4 : x2.state = .closed := h4
      exact Or.inl ⟨rfl, by simp [XMLWriter.isOpen, h4], h2, h3⟩
    · cases h1
      exact Or.inr ⟨rfl, hopen x2 (h4.imp id fun h => h.2), h2, h3⟩
  · rintro pre o post rfl hv ho
    have h := xml_iter_stops σ ho post pre (XMLWriter.new k) hne hv
    rw [hh] at h
    simp only [r, XMLWriter.fromIter]
    generalize (do M.each (fun o => XMLWriter.writeObj σ o) (pre ++ o :: post); XMLWriter.close σ : M XMLWriter Unit) (XMLWriter.new k) = x at h
    obtain ⟨x1, x2⟩ := x
    rcases h.res with ⟨h1, h2, h3, h4⟩ | ⟨h1, h2, h3, h4⟩
    · cases h1
      exact ⟨rfl, hopen x2 (Or.inr h4), Or.inl ⟨h2, h3⟩⟩
    · cases h1
      exact ⟨rfl, hopen x2 (h4.imp id fun h => h.2), Or.inr ⟨h2, h3⟩⟩

/-- **C106**, change files. -/
theorem C106_osc (k : Sink) (os : List f.Obj) :
    let r := OSCWriter.fromIter k os
    ((∀ o ∈ os, version o ≠ none) →
      (r.1 = .ok () ∧ r.2.isOpen = false ∧ r.2.writer.out = k.out ++ Utf8.encode (oscDocument os) ∧ k.Clean r.2.writer) ∨
      (r.1 = .panic .unwrap ∧ r.2.isOpen = true ∧ (∃ p, p <+: Utf8.encode (oscDocument os) ∧ r.2.writer.out = k.out ++ p) ∧
        k.Hit r.2.writer)) ∧
    (∀ pre o post, os = pre ++ o :: post → (∀ x ∈ pre, version x ≠ none) → version o = none →
      r.1 = .panic .unwrap ∧ r.2.isOpen = true ∧
      ((r.2.writer.out = k.out ++ Utf8.encode (oscHead ++ pre.flatMap textOf ++ stubOf o) ∧ k.Clean r.2.writer) ∨
       ((∃ p, p <+: Utf8.encode (oscHead ++ pre.flatMap textOf ++ stubOf o) ∧ r.2.writer.out = k.out ++ p) ∧ k.Hit r.2.writer))) := by
  have hh : oscHead? (OSCWriter.new k) = oscHead := by simp [oscHead?, OSCWriter.new]
  have hne : (OSCWriter.new k).state ≠ .closed := by simp [OSCWriter.new]
  have hopen : ∀ w : OSCWriter, (w.state = .initial ∨ w.state = .writingObjects) → w.isOpen = true := by
    rintro w (h | h) <;> simp [OSCWriter.isOpen, h]
  intro r
  constructor
  · intro hv
    have h := osc_iter_sends os (OSCWriter.new k) hne hv
    rw [hh] at h
    simp only [r, OSCWriter.fromIter]
    generalize (do M.each (fun o => OSCWriter.writeObj o) os; OSCWriter.close : M OSCWriter Unit) (OSCWriter.new k) = x at h
    obtain ⟨x1, x2⟩ := x
    rcases h.res with ⟨h1, h2, h3, h4⟩ | ⟨h1, h2, h3, h4⟩
    · cases h1
      have h4 : x2.state = .closed := h4
      exact Or.inl ⟨rfl, by simp [OSCWriter.isOpen, h4], h2, h3⟩
    · cases h1
      exact Or.inr ⟨rfl, hopen x2 (h4.imp id fun h => h.2), h2, h3⟩
  · rintro pre o post rfl hv ho
    have h := osc_iter_stops ho post pre (OSCWriter.new k) hne hv
    rw [hh] at h
    simp only [r, OSCWriter.fromIter]
    generalize (do M.each (fun o => OSCWriter.writeObj o) (pre ++ o :: post); OSCWriter.close : M OSCWriter Unit) (OSCWriter.new k) = x at h
    obtain ⟨x1, x2⟩ := x
    rcases h.res with ⟨h1, h2, h3, h4⟩ | ⟨h1, h2, h3, h4⟩
    · cases h1
      exact ⟨rfl, hopen x2 (Or.inr h4), Or.inl ⟨h2, h3⟩⟩
    · cases h1
      exact ⟨rfl, hopen x2 (h4.imp id fun h => h.2), Or.inr ⟨h2, h3⟩⟩

/-- **C106**, the sink when the writer is gone, change files: dropping the writer that `from_iter` returned adds nothing; after a panic the writer is
dropped too, and the end of the document follows the broken element. -/
theorem C106_osc_dropped (k : Sink) (hk : k.Reliable) (os : List f.Obj) :
    let d := OSCWriter.drop (OSCWriter.fromIter k os).2
    d.1 = .ok () ∧
    ((∀ o ∈ os, version o ≠ none) → d.2.writer.out = k.out ++ Utf8.encode (oscDocument os)) ∧
    (∀ pre o post, os = pre ++ o :: post → (∀ x ∈ pre, version x ≠ none) → version o = none →
      d.2.writer.out = k.out ++ Utf8.encode (oscHead ++ pre.flatMap textOf ++ stubOf o ++ oscTail)) := by
  have hrel : (OSCWriter.fromIter k os).2.writer.Reliable := by
    have h := C106_osc k os
    have hsuf : (OSCWriter.fromIter k os).2.writer.faults <:+ k.faults := by
      by_cases hv : ∀ o ∈ os, version o ≠ none
      · rcases h.1 hv with ⟨_, _, _, pre, h1, _⟩ | ⟨_, _, _, pre, n, h1, _⟩
        · exact ⟨pre, h1.symm⟩
        · exact ⟨pre ++ [some n], by rw [h1]; simp⟩
      · obtain ⟨pre, o, post, he, h1, h2⟩ := first_unversioned hv
        rcases (h.2 pre o post he h1 h2).2.2 with ⟨_, pre, h1, _⟩ | ⟨_, pre, n, h1, _⟩
        · exact ⟨pre, h1.symm⟩
        · exact ⟨pre ++ [some n], by rw [h1]; simp⟩
    exact fun x hx => hk x (hsuf.subset hx)
  obtain ⟨d1, d2⟩ := osc_drop_ok _ hrel
  refine ⟨d1, fun hv => ?_, fun pre o post he h1 h2 => ?_⟩
  · rcases (C106_osc k os).1 hv with ⟨_, g2, g3, _⟩ | ⟨_, _, _, g4⟩
    · have hs : (OSCWriter.fromIter k os).2.state = .closed := by simpa [OSCWriter.isOpen] using g2
      rw [d2, g3]
      simp [oscHead?, oscTail?, hs, Utf8.encode_nil]
    · exact absurd g4 (not_hit hk)
  · rcases (C106_osc k os).2 pre o post he h1 h2 with ⟨_, g2, ⟨g3, _⟩ | ⟨_, g4⟩⟩
    · have hs := (osc_iter_stops h2 post pre (OSCWriter.new k) (by simp [OSCWriter.new]) h1).ok (by simp) hk
      have hs : (OSCWriter.fromIter k os).2.state = .writingObjects := by
        subst he
        unfold OSCWriter.fromIter
        generalize (do M.each (fun o => OSCWriter.writeObj o) (pre ++ o :: post); OSCWriter.close : M OSCWriter Unit) (OSCWriter.new k) = x at hs
        obtain ⟨x1, x2⟩ := x
        have : x1 = .panic .unwrap := hs.1
        subst this
        exact hs.2.2.1
      rw [d2, g3]
      simp [oscHead?, oscTail?, hs, Utf8.encode_append]
    · exact absurd g4 (not_hit hk)

/-- **C106**, the sink when the writer is gone, XML: the end tag is there once more than it should be if `from_iter` has returned (`C23`), and once if it has
panicked. -/
theorem C106_xml_dropped (σ : HashOrder) (k : Sink) (hk : k.Reliable) (os : List f.Obj) :
    let d := XMLWriter.drop σ (XMLWriter.fromIter σ k os).2
    d.1 = .ok () ∧
    ((∀ o ∈ os, version o ≠ none) → d.2.writer.out = k.out ++ Utf8.encode (xmlDocument [] os ++ xmlTail)) ∧
    (∀ pre o post, os = pre ++ o :: post → (∀ x ∈ pre, version x ≠ none) → version o = none →
      d.2.writer.out = k.out ++ Utf8.encode (xmlHead [] ++ pre.flatMap textOf ++ stubOf o ++ xmlTail)) := by
  have hrel : (XMLWriter.fromIter σ k os).2.writer.Reliable := by
    have h := C106_xml σ k os
    have hsuf : (XMLWriter.fromIter σ k os).2.writer.faults <:+ k.faults := by
      by_cases hv : ∀ o ∈ os, version o ≠ none
      · rcases h.1 hv with ⟨_, _, _, pre, h1, _⟩ | ⟨_, _, _, pre, n, h1, _⟩
        · exact ⟨pre, h1.symm⟩
        · exact ⟨pre ++ [some n], by rw [h1]; simp⟩
      · obtain ⟨pre, o, post, he, h1, h2⟩ := first_unversioned hv
        rcases (h.2 pre o post he h1 h2).2.2 with ⟨_, pre, h1, _⟩ | ⟨_, pre, n, h1, _⟩
        · exact ⟨pre, h1.symm⟩
        · exact ⟨pre ++ [some n], by rw [h1]; simp⟩
    exact fun x hx => hk x (hsuf.subset hx)
  obtain ⟨d1, d2⟩ := xml_drop_ok σ _ hrel
  refine ⟨d1, fun hv => ?_, fun pre o post he h1 h2 => ?_⟩
  · rcases (C106_xml σ k os).1 hv with ⟨_, g2, g3, _⟩ | ⟨_, _, _, g4⟩
    · have hs : (XMLWriter.fromIter σ k os).2.state = .closed := by simpa [XMLWriter.isOpen] using g2
      rw [d2, g3]
      simp [xmlHead?, hs, Utf8.encode_append]
    · exact absurd g4 (not_hit hk)
  · rcases (C106_xml σ k os).2 pre o post he h1 h2 with ⟨_, g2, ⟨g3, _⟩ | ⟨_, g4⟩⟩
    · have hs := (xml_iter_stops σ h2 post pre (XMLWriter.new k) (by simp [XMLWriter.new]) h1).ok (by simp) hk
      have hs : (XMLWriter.fromIter σ k os).2.state = .writingObjects := by
        subst he
        unfold XMLWriter.fromIter
        generalize (do M.each (fun o => XMLWriter.writeObj σ o) (pre ++ o :: post); XMLWriter.close σ : M XMLWriter Unit) (XMLWriter.new k) = x at hs
        obtain ⟨x1, x2⟩ := x
        have : x1 = .panic .unwrap := hs.1
        subst this
        exact hs.2.2.1
      rw [d2, g3]
      simp [xmlHead?, hs, Utf8.encode_append]
    · exact absurd g4 (not_hit hk)

/-- **C106**, read back, change files: the objects given to `from_iter` are read back from what it wrote, and then the end, exactly if they can be represented. -/
theorem C106_osc_read (norm : Xml.Config) (hn : IsNorm norm) (k : Sink) (hk : k.Reliable) (hk0 : k.out = []) (os : List f.Obj)
    (hv : ∀ o ∈ os, version o ≠ none) (ht : ∀ o ∈ os, TimeUnquoted (objData o)) :
    (∃ (rs : List StringOSMObj) (q : List (Option XmlEvent)),
      Drain OSCReader.next (OSCReader.new norm (OSCWriter.drop (OSCWriter.fromIter k os).2).2.writer.out) rs none q ∧
      rs.map objData = os.map fun o => readBack (objData o)) ↔
    ∀ o ∈ os, (objectType o = .node → (objData o).pos ≠ none) ∧ ∀ t ∈ textsOf (objData o), ∀ c ∈ t, XmlChar c ∧ norm c = c := by
  rw [(C106_osc_dropped k hk os).2.1 hv, hk0, List.nil_append, osc_next_eq]
  exact docForm_exact (osc_form hn) os hv ht

/-- **C106, counterexample for XML**: the objects given to `from_iter` are read back, and then the reader panics. -/
theorem C106_xml_read_fails (norm : Xml.Config) (hn : IsNorm norm) (σ : HashOrder) (k : Sink) (hk : k.Reliable) (hk0 : k.out = []) (os : List f.Obj)
    (hv : ∀ o ∈ os, version o ≠ none) (ht : ∀ o ∈ os, TimeUnquoted (objData o))
    (hg : ∀ o ∈ os, (objectType o = .node → (objData o).pos ≠ none) ∧ ∀ t ∈ textsOf (objData o), ∀ c ∈ t, XmlChar c ∧ norm c = c) :
    ∃ rs : List StringOSMObj,
      Drain XMLReader.next (XMLReader.new norm (XMLWriter.drop σ (XMLWriter.fromIter σ k os).2).2.writer.out) rs (some .unwrap) [] ∧
      rs.map objData = os.map fun o => readBack (objData o) := by
  obtain ⟨rs, hd, hrs⟩ := docForm_drain (xml_form hn headersOk_nil) os fun o ho =>
    (parsable_iff (hv o ho) (ht o ho)).2 ⟨(hg o ho).1, fun t hmem c hc => ((hg o ho).2 t hmem c hc).1⟩
  refine ⟨rs, ?_, hrs.trans (List.map_congr_left fun o ho => readBack_mapTexts_iff.2 fun t hmem c hc => ((hg o ho).2 t hmem c hc).2)⟩
  rw [(C106_xml_dropped σ k hk os).2.1 hv, hk0, List.nil_append, Utf8.encode_append]
  have := xml_then_end hd []
  rwa [List.append_nil] at this

/-! ### Concrete cases -/

section cases

/-- Two objects that can be written, and one that cannot between them. -/
def mixed : List Family.string.Obj := [sampleObj, unversionedObj, sampleObj]

theorem mixed_split : mixed = [sampleObj] ++ unversionedObj :: [sampleObj] ∧
    (∀ x ∈ [sampleObj], version (α := Family.string.Obj) x ≠ none) ∧ version (unversionedObj : Family.string.Obj) = none :=
  ⟨rfl, fun x hx => by rw [List.mem_singleton.1 hx]; decide +kernel, by decide +kernel⟩

example : (OSCWriter.drop (OSCWriter.fromIter ⟨[], []⟩ mixed).2).2.writer.out =
    Utf8.encode (oscHead ++ textOf (α := Family.string.Obj) sampleObj ++ str% "\n\t<node id=\"7\" visible=\"true\"" ++ oscTail) := by decide +kernel
example : (XMLWriter.fromIter (α := Family.string.Obj) sampleOrder ⟨[], []⟩ mixed).1 = .panic .unwrap := by decide +kernel
/-- A sink that fails when the document is closed. -/
example : (XMLWriter.fromIter (α := Family.string.Obj) sampleOrder ⟨[], List.replicate 3 none ++ [some 2]⟩ []).1 = .panic .unwrap ∧
    (XMLWriter.fromIter (α := Family.string.Obj) sampleOrder ⟨[], List.replicate 3 none ++ [some 2]⟩ []).2.writer.out =
      Utf8.encode (xmlHead [] ++ str% "\n<") := by decide +kernel
example : (OSCWriter.fromIter (α := Family.string.Obj) ⟨[], []⟩ [sampleObj, sampleObj]).1 = .ok () ∧
    (OSCWriter.fromIter (α := Family.string.Obj) ⟨[], []⟩ [sampleObj, sampleObj]).2.isOpen = false := by decide +kernel

/-- The same, from the theorems. -/
example : (OSCWriter.drop (OSCWriter.fromIter ⟨[10], [none, none]⟩ mixed).2).2.writer.out =
      10 :: Utf8.encode (oscHead ++ [sampleObj].flatMap textOf ++ stubOf (α := Family.string.Obj) unversionedObj ++ oscTail) ∧
    (XMLWriter.drop sampleOrder (XMLWriter.fromIter sampleOrder ⟨[10], [none, none]⟩ mixed).2).2.writer.out =
      10 :: Utf8.encode (xmlHead [] ++ [sampleObj].flatMap textOf ++ stubOf (α := Family.string.Obj) unversionedObj ++ xmlTail) :=
  ⟨(C106_osc_dropped _ acceptingSink mixed).2.2 _ _ _ mixed_split.1 mixed_split.2.1 mixed_split.2.2,
   (C106_xml_dropped sampleOrder _ acceptingSink mixed).2.2 _ _ _ mixed_split.1 mixed_split.2.1 mixed_split.2.2⟩

/-- A node with a tag. -/
def tagged1 : Family.string.Obj := StringOSMObj.node { plainNode with tags_ := [(str% "note", str% "a & b")] }

/-- It can be written and read back. -/
theorem tagged1_ok : ∀ o ∈ [tagged1], version o ≠ none ∧ TimeUnquoted (objData o) ∧ (objectType o = .node → (objData o).pos ≠ none) ∧
      ∀ t ∈ textsOf (objData o), ∀ c ∈ t, XmlChar c ∧ Xml.Config.keep c = c := by
  obtain ⟨h1, _, _, h4, h5⟩ := C27_exact_nonvacuous (str% "a & b")
  have h6 := h5.2 (by decide)
  exact fun o ho => ⟨h1 _ (List.mem_singleton.2 rfl) o (by rw [List.mem_singleton.1 ho]; rfl), h4 o ho, (h6 o ho).1, (h6 o ho).2⟩

/-- Written, closed and read back. -/
example (σ : HashOrder) : ∃ rs : List StringOSMObj, rs.length = 1 ∧
    Drain XMLReader.next (XMLReader.new .keep (XMLWriter.drop σ (run (xmlCall (α := Family.string.Obj) σ) (XMLWriter.new ⟨[], []⟩)
      [.writeObj tagged1, .close]).2).2.writer.out) rs (some .unwrap) [] := by
  obtain ⟨rs, hd, hrs⟩ := C27_close_fails (f := .string) .keep (fun _ _ _ _ => rfl) σ ⟨[], []⟩ (fun _ h => by cases h) rfl
    [.writeObj tagged1, .close] (fun o ho => (tagged1_ok o ho).1) headersOk_nil ⟨.close, by simp, rfl⟩
    (fun o ho => (tagged1_ok o ho).2.1) (fun o ho => (tagged1_ok o ho).2.2)
  exact ⟨rs, by simpa [written, Call.isClose, Call.obj?] using congrArg List.length hrs, hd⟩

/-- Whatever is called: it comes back if and only if `close` is not called. -/
example (σ : HashOrder) (cs : List (Call Family.string.Obj)) (h : written cs = [tagged1]) (hh : HeadersOk (headersOf cs)) :
    (∃ (rs : List StringOSMObj) (q : List (Option XmlEvent)),
      Drain XMLReader.next (XMLReader.new .keep (XMLWriter.drop σ (run (xmlCall (α := Family.string.Obj) σ) (XMLWriter.new ⟨[], []⟩) cs).2).2.writer.out)
        rs none q ∧ rs.map objData = [readBack (objData tagged1)]) ↔ ∀ c ∈ cs, c.isClose = false := by
  have e := C27_iff (f := .string) .keep (fun _ _ _ _ => rfl) σ ⟨[], []⟩ (fun _ h => by cases h) rfl cs
    (fun o ho => (tagged1_ok o (h ▸ ho)).1) hh (fun o ho => (tagged1_ok o (h ▸ ho)).2.1)
  rw [h] at e
  exact e.trans ⟨fun h => h.1, fun h => ⟨h, fun o ho => (tagged1_ok o ho).2.2⟩⟩
example : written [.setHeader (str% "generator") (str% "x"), .writeObj tagged1, .close] = [tagged1] := rfl

/-- A change file that is closed before more is written. -/
example : ∃ (rs : List StringOSMObj) (q : List (Option XmlEvent)),
    Drain OSCReader.next (OSCReader.new .keep (OSCWriter.drop (run (oscCall (α := Family.string.Obj)) (OSCWriter.new ⟨[], []⟩)
      [.writeObj tagged1, .close, .writeObj unversionedObj, .close]).2).2.writer.out) rs none q ∧ rs.map objData = [readBack (objData tagged1)] :=
  (C28_iff (f := .string) .keep (fun _ _ _ _ => rfl) ⟨[], []⟩ (fun _ h => by cases h) rfl
    [.writeObj tagged1, .close, .writeObj unversionedObj, .close] (fun o ho => (tagged1_ok o ho).1) (fun o ho => (tagged1_ok o ho).2.1)).2
    fun o ho => (tagged1_ok o ho).2.2

/-- Written by `from_iter` and read back. -/
example (σ : HashOrder) : (∃ rs : List StringOSMObj, rs.length = 1 ∧
    Drain XMLReader.next (XMLReader.new .keep (XMLWriter.drop σ (XMLWriter.fromIter σ ⟨[], []⟩ [tagged1]).2).2.writer.out) rs (some .unwrap) []) ∧
    ∃ (rs : List StringOSMObj) (q : List (Option XmlEvent)), rs.length = 1 ∧
    Drain OSCReader.next (OSCReader.new .keep (OSCWriter.drop (OSCWriter.fromIter ⟨[], []⟩ [tagged1]).2).2.writer.out) rs none q := by
  constructor
  · obtain ⟨rs, hd, hrs⟩ := C106_xml_read_fails (f := .string) .keep (fun _ _ _ _ => rfl) σ ⟨[], []⟩ (fun _ h => by cases h) rfl
      [tagged1] (fun o ho => (tagged1_ok o ho).1) (fun o ho => (tagged1_ok o ho).2.1) (fun o ho => (tagged1_ok o ho).2.2)
    exact ⟨rs, by simpa using congrArg List.length hrs, hd⟩
  · obtain ⟨rs, q, hd, hrs⟩ := (C106_osc_read (f := .string) .keep (fun _ _ _ _ => rfl) ⟨[], []⟩ (fun _ h => by cases h) rfl
      [tagged1] (fun o ho => (tagged1_ok o ho).1) (fun o ho => (tagged1_ok o ho).2.1)).2 (fun o ho => (tagged1_ok o ho).2.2)
    exact ⟨rs, q, by simpa using congrArg List.length hrs, hd⟩
end cases

end Osmio
