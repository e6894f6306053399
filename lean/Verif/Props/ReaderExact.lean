import Verif.Props.XmlExact
import Verif.Props.XmlText
/-!
# What a loop over an XML reader yields (C30, C33)

`readElem` (Spec) says which object an element stands for, and which elements stand for none.
-/

namespace Osmio
open Spec Xml OSMObjBase Spec.Lex

/-- A loop sees the objects up to the first call that gives none. -/
theorem loop_of_calls {es : List (OSMObjectType × List Attr × Forest)} {s : List (Option XmlEvent)}
    {rs : List (Option StringOSMObj)} (h1 : (calls XMLReader.next es.length s).1 = rs.map .ok)
    (h2 : rs.map (Option.map objData) = es.map readElem)
    (h3 : XMLReader.next (calls XMLReader.next es.length s).2 = (.ok none, [])) :
    ∃ (os : List StringOSMObj) (q : List (Option XmlEvent)), Drain XMLReader.next s os none q ∧
      os.map (fun o => some (objData o)) = (es.map readElem).takeWhile Option.isSome := by
  have hlen : es.length = rs.length := by
    have := congrArg List.length h2; simpa using this.symm
  rw [hlen] at h1 h3
  have hmap : ∀ rs : List (Option StringOSMObj), (rs.takeWhile Option.isSome).reduceOption.map (fun o => some (objData o)) =
      (rs.map (Option.map objData)).takeWhile Option.isSome := by
    intro rs
    induction rs with
    | nil => rfl
    | cons r rs ih => cases r <;> simp [List.reduceOption] at * <;> exact ih
  rw [← h2]
  obtain ⟨ha, hb⟩ := drain_of_calls rs s h1 (.done h3)
  cases hall : rs.all Option.isSome with
  | false =>
    obtain ⟨q, hq⟩ := hb hall
    exact ⟨_, q, hq, hmap rs⟩
  | true =>
    have e : rs.takeWhile Option.isSome = rs := by
      rw [List.all_eq_true] at hall
      exact List.takeWhile_eq_self_iff.2 hall
    refine ⟨_, _, ha hall, ?_⟩
    rw [← hmap rs, e, List.append_nil]

theorem loop_reported {norm : Xml.Config} {t : Str} {doc : Forest} (h : ReportedAs norm t doc) (hd : doc.Distinct) (hf : doc.Flat) :
    ∃ (os : List StringOSMObj) (q : List (Option XmlEvent)), Drain XMLReader.next (XMLReader.new norm (Utf8.encode t)) os none q ∧
      os.map (fun o => some (objData o)) = (doc.objects.map readElem).takeWhile Option.isSome := by
  obtain ⟨rs, h1, h2, h3⟩ := calls_reported h hd hf
  exact loop_of_calls h1 h2 h3

theorem loop_reported_iff {norm : Xml.Config} {t : Str} {doc : Forest} (h : ReportedAs norm t doc) (hdoc : doc.Distinct) (hf : doc.Flat) :
    (∃ (os : List StringOSMObj) (q : List (Option XmlEvent)), Drain XMLReader.next (XMLReader.new norm (Utf8.encode t)) os none q ∧
      os.length = doc.objects.length) ↔ ∀ e ∈ doc.objects, readElem e ≠ none := by
  obtain ⟨os, q, hd, hos⟩ := loop_reported h hdoc hf
  have hl := congrArg List.length hos
  rw [List.length_map] at hl
  constructor
  · rintro ⟨os', q', hd', hl'⟩ e he hno
    obtain ⟨rfl, -, -⟩ := hd.unique hd'
    have hpre : (doc.objects.map readElem).takeWhile Option.isSome = doc.objects.map readElem :=
      (List.takeWhile_prefix _).eq_of_length (by rw [← hl, hl', List.length_map])
    have := List.takeWhile_eq_self_iff.1 hpre (readElem e) (List.mem_map.2 ⟨e, he, rfl⟩)
    rw [hno] at this
    cases this
  · intro hall
    refine ⟨os, q, hd, ?_⟩
    rw [hl, List.takeWhile_eq_self_iff.2, List.length_map]
    intro r hr
    obtain ⟨e, he, rfl⟩ := List.mem_map.1 hr
    exact Option.isSome_iff_ne_none.2 (hall e he)

/-- **C33.** Exactly what a loop over a document yields: the objects of the elements before the first one that stands for no
object, and then it ends as at the end of the file. -/
theorem C33_loop_partial {norm : Xml.Config} (hn : IsNorm norm) {t : Str} {ts : List Tok} {doc : Forest}
    (h : Document t ts doc) (hf : doc.Flat) :
    ∃ (os : List StringOSMObj) (q : List (Option XmlEvent)), Drain XMLReader.next (XMLReader.new norm (Utf8.encode t)) os none q ∧
      os.map (fun o => some (objData o)) = (doc.objects.map readElem).takeWhile Option.isSome :=
  loop_reported (document_events hn h) (document_distinct h) hf

/-- **C30.** A loop over a document yields as many objects as it has elements for them if and only if every one of them stands for
an object. -/
theorem C30_iff {norm : Xml.Config} (hn : IsNorm norm) {t : Str} {ts : List Tok} {doc : Forest} (h : Document t ts doc)
    (hf : doc.Flat) :
    (∃ (os : List StringOSMObj) (q : List (Option XmlEvent)), Drain XMLReader.next (XMLReader.new norm (Utf8.encode t)) os none q ∧
      os.length = doc.objects.length) ↔ ∀ e ∈ doc.objects, readElem e ≠ none :=
  loop_reported_iff (document_events hn h) (document_distinct h) hf

example : ∃ (os : List StringOSMObj) (q : List (Option XmlEvent)),
    Drain XMLReader.next (XMLReader.new .keep (Utf8.encode sampleText)) os none q ∧ os.length = sampleTree.objects.length :=
  (C30_iff (fun _ _ _ _ => rfl) sample_document sample_flat).2 sample_readable

end Osmio
