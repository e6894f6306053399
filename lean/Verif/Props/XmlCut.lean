import Verif.Proofs.XmlCut
/-!
# Files cut short and sources that fail, XML and OSC readers (C83)

`a` is what could be read, `b` is what would have followed. A reader that has reported an error yields nothing afterwards.
-/

namespace Osmio
open Spec Spec.Lex Xml OSMObjBase

theorem oscOver_eq : OSCReader.over = XMLReader.over := rfl

/-- **C83.** The source fails after `a`. For some number of calls the reader answers as it would on the whole file, whatever the rest `b` of the
file is; then it panics; from then on there is nothing. -/
theorem C83_failing (norm : Xml.Config) (a : List UInt8) (after : Source) :
    ∃ n, ∀ b, (∀ r ∈ (calls XMLReader.next n (XMLReader.new norm (a ++ b))).1, ∃ o, r = .ok o) ∧
      ∀ k, (calls XMLReader.next (n + 1 + k) (XMLReader.over norm (a.map some ++ none :: after))).1 =
        (calls XMLReader.next n (XMLReader.new norm (a ++ b))).1 ++ .error .unwrap :: List.replicate k (.ok none) := by
  refine ⟨ends (eventsIn norm a), fun b => ?_⟩
  obtain ⟨rest, hr⟩ := new_append norm a b
  rw [over_failing, hr]
  exact calls_fails _ rest

/-- The file ends after `a`. If `a` is not a document, that is noticed just as an error is; if it is one, reading it ends there. -/
theorem C83_cut (norm : Xml.Config) (a : List UInt8) :
    ∃ n, ∀ b, (∀ r ∈ (calls XMLReader.next n (XMLReader.new norm (a ++ b))).1, ∃ o, r = .ok o) ∧
      ((none ∈ XMLReader.new norm a ∧
        ∀ k, (calls XMLReader.next (n + 1 + k) (XMLReader.new norm a)).1 =
          (calls XMLReader.next n (XMLReader.new norm (a ++ b))).1 ++ .error .unwrap :: List.replicate k (.ok none)) ∨
       (none ∉ XMLReader.new norm a ∧
        ∀ k, (calls XMLReader.next (n + k) (XMLReader.new norm a)).1 =
          (calls XMLReader.next n (XMLReader.new norm (a ++ b))).1 ++ List.replicate k (.ok none))) := by
  refine ⟨ends (eventsIn norm a), fun b => ?_⟩
  obtain ⟨rest, hr⟩ := new_append norm a b
  rw [hr]
  refine ⟨(calls_fails _ rest).1, ?_⟩
  obtain ⟨last, hl, hlast⟩ := new_eq norm a
  rw [hl]
  rcases hlast with rfl | rfl
  · exact .inl ⟨by simp, (calls_fails _ rest).2⟩
  · refine .inr ⟨by simp, ?_⟩
    rcases events_forest norm a with ⟨g, hg⟩ | ⟨evs, he⟩
    · have h2 : (eventsIn norm a).map some ++ [some XmlEvent.other] = g.events.map some ++ [some .other] := hl.symm.trans hg
      have h3 : eventsIn norm a = g.events :=
        List.map_injective_iff.2 (Option.some_injective _) (List.append_cancel_right h2)
      exact calls_complete g [] _ h3.symm rest
    · have h2 : (eventsIn norm a).map some ++ [some XmlEvent.other] = evs.map some ++ [none] := hl.symm.trans he
      have := (List.append_inj' h2 rfl).2
      cases this

theorem ends_document {norm : Xml.Config} (hn : IsNorm norm) {a : Str} {open_ : List Str} (ho : ∀ x ∈ open_, x ∈ holders)
    {ts : List Tok} {doc : Forest} (h : Document (a ++ open_.flatMap endTag) ts doc) (hf : doc.Flat) :
    ends (eventsIn norm (Utf8.encode a)) = doc.objects.length := by
  obtain ⟨l, hl, hz⟩ := run_endTags norm open_ ho (Xml.run norm initial a)
  have hin : eventsIn norm (Utf8.encode a) = (Xml.run norm initial a).events := by
    unfold eventsIn
    rw [Utf8.decodePrefix_encode]
  have hin2 : eventsIn norm (Utf8.encode (a ++ open_.flatMap endTag)) = eventsIn norm (Utf8.encode a) ++ l := by
    rw [hin, ← hl]
    unfold eventsIn
    rw [Utf8.decodePrefix_encode, run_append]
  rw [← ends_forest doc hf]
  have e1 : ends (eventsIn norm (Utf8.encode a)) = ends (eventsIn norm (Utf8.encode (a ++ open_.flatMap endTag))) := by
    rw [hin2, ends_append, hz]; rfl
  rw [e1]
  obtain ⟨last, hl2, hlast⟩ := new_eq norm (Utf8.encode (a ++ open_.flatMap endTag))
  rcases document_events hn h with e | e
  · have h3 := hl2.symm.trans e
    rw [List.map_injective_iff.2 (Option.some_injective _) (List.append_inj' h3 rfl).1]
  · have h3 := hl2.symm.trans e
    obtain ⟨l1, l2, e3, e4, e5⟩ := List.map_eq_append_iff.1 h3.symm
    obtain ⟨x, rfl⟩ : ∃ x, l2 = [x] := by
      have := congrArg List.length e5
      simp only [List.length_map, List.length_cons, List.length_nil] at this
      exact List.length_eq_one_iff.1 this
    rw [e3, ends_append, List.map_injective_iff.2 (Option.some_injective _) e4]
    simp only [List.map_cons, List.map_nil, List.cons.injEq, and_true] at e5
    rcases hlast with rfl | rfl
    · cases e5
    · cases e5; rfl

/-- How many calls succeed: if only the end tags of elements that hold objects are missing from `a`, as many as there are objects. -/
theorem C83_delivered {norm : Xml.Config} (hn : IsNorm norm) {a : Str} {open_ : List Str} (ho : ∀ x ∈ open_, x ∈ holders)
    {ts : List Tok} {doc : Forest} (h : Document (a ++ open_.flatMap endTag) ts doc) (hf : doc.Flat) (after : Source) :
    ∃ rs : List (Option StringOSMObj), rs.map (Option.map objData) = doc.objects.map readElem ∧
      ∀ k, (calls XMLReader.next (doc.objects.length + 1 + k) (XMLReader.over norm ((Utf8.encode a).map some ++ none :: after))).1 =
        rs.map .ok ++ .error .unwrap :: List.replicate k (.ok none) := by
  obtain ⟨rs, h1, h2, _⟩ := calls_text hn h hf
  refine ⟨rs, h2, ?_⟩
  have hends := ends_document hn ho h hf
  have hc := (calls_fails (eventsIn norm (Utf8.encode a)))
  obtain ⟨rest, hr⟩ := new_append norm (Utf8.encode a) (Utf8.encode (open_.flatMap endTag))
  rw [← Utf8.encode_append] at hr
  intro k
  rw [over_failing, ← hends, (hc rest).2 k, ← hr, hends, h1]

/-- The change reader. -/
theorem C83_failing_osc (norm : Xml.Config) (a : List UInt8) (after : Source) :
    ∃ n, ∀ b, (∀ r ∈ (calls OSCReader.next n (OSCReader.new norm (a ++ b))).1, ∃ o, r = .ok o) ∧
      ∀ k, (calls OSCReader.next (n + 1 + k) (OSCReader.over norm (a.map some ++ none :: after))).1 =
        (calls OSCReader.next n (OSCReader.new norm (a ++ b))).1 ++ .error .unwrap :: List.replicate k (.ok none) := by
  rw [osc_next_eq]
  exact C83_failing norm a after

theorem C83_cut_osc (norm : Xml.Config) (a : List UInt8) :
    ∃ n, ∀ b, (∀ r ∈ (calls OSCReader.next n (OSCReader.new norm (a ++ b))).1, ∃ o, r = .ok o) ∧
      ((none ∈ OSCReader.new norm a ∧
        ∀ k, (calls OSCReader.next (n + 1 + k) (OSCReader.new norm a)).1 =
          (calls OSCReader.next n (OSCReader.new norm (a ++ b))).1 ++ .error .unwrap :: List.replicate k (.ok none)) ∨
       (none ∉ OSCReader.new norm a ∧
        ∀ k, (calls OSCReader.next (n + k) (OSCReader.new norm a)).1 =
          (calls OSCReader.next n (OSCReader.new norm (a ++ b))).1 ++ List.replicate k (.ok none))) := by
  rw [osc_next_eq]
  exact C83_cut norm a

theorem C83_delivered_osc {norm : Xml.Config} (hn : IsNorm norm) {a : Str} {open_ : List Str} (ho : ∀ x ∈ open_, x ∈ holders)
    {ts : List Tok} {doc : Forest} (h : Document (a ++ open_.flatMap endTag) ts doc) (hf : doc.Flat) (after : Source) :
    ∃ rs : List (Option StringOSMObj), rs.map (Option.map objData) = doc.objects.map readElem ∧
      ∀ k, (calls OSCReader.next (doc.objects.length + 1 + k) (OSCReader.over norm ((Utf8.encode a).map some ++ none :: after))).1 =
        rs.map .ok ++ .error .unwrap :: List.replicate k (.ok none) := by
  rw [osc_next_eq]
  exact C83_delivered hn ho h hf after

/-- A source that does not fail: the reader over its bytes. -/
theorem C83_whole (norm : Xml.Config) (a : List UInt8) :
    XMLReader.over norm (a.map some) = XMLReader.new norm a ∧ OSCReader.over norm (a.map some) = OSCReader.new norm a :=
  ⟨over_new norm a, over_new norm a⟩

/-! The hypotheses are met: the sample document without its last end tag. The object is read, then the error is reported. -/

theorem sample_open : sampleText = sampleText.take (sampleText.length - 6) ++ [str% "osm"].flatMap endTag := by decide +kernel

example : ∃ o, objData o = (sampleTree.objects.map readElem).head?.join.getD (objData o) ∧
    ∀ k, (calls XMLReader.next (1 + 1 + k) (XMLReader.over .keep ((Utf8.encode (sampleText.take (sampleText.length - 6))).map some ++
      [none, some 60]))).1 = .ok (some o) :: .error .unwrap :: List.replicate k (.ok none) := by
  have h := sample_document
  rw [sample_open] at h
  obtain ⟨rs, h1, h2⟩ := C83_delivered (norm := .keep) (fun _ _ _ _ => rfl) (by simp [holders]) h sample_flat [some 60]
  have hl : rs.length = 1 := by
    have := congrArg List.length h1
    rw [List.length_map, List.length_map] at this
    exact this
  obtain ⟨r, rfl⟩ := List.length_eq_one_iff.1 hl
  cases r with
  | none =>
    have : readElem _ = none := (List.cons.inj h1).1.symm
    exact absurd this (sample_readable _ (by simp [sampleTree, Forest.objects, kindOf]))
  | some o =>
    refine ⟨o, ?_, fun k => h2 k⟩
    have : some (objData o) = readElem _ := (List.cons.inj h1).1
    rw [show sampleTree.objects.map readElem = [some (objData o)] from h1.symm]
    rfl

end Osmio
