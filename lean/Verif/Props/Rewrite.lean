import Verif.Proofs.XmlLegal
import Verif.Props.Convert
import Verif.Props.WriterExact
/-!
# Rewriting XML and change files (C79)

The program that reads an XML or OSC file to its end, or to a panic, writes every object it gets to an XML or OSC writer, and drops the writer.
-/

namespace Osmio
open Spec Xml OSMObjBase

theorem spaces_norm {norm : Xml.Config} (h : SpacesOnly norm) : IsNorm norm := by
  intro c h1 h2 h3
  rcases h c with h | ⟨h | h | h, _⟩
  · exact h
  · exact absurd h h1
  · exact absurd h h2
  · exact absurd h h3

theorem spaces_xml {norm : Xml.Config} (h : SpacesOnly norm) (c : Char) (hc : isXmlChar c = true) : isXmlChar (norm c) = true := by
  rcases h c with h | ⟨_, h⟩ <;> rw [h]
  · exact hc
  · decide

theorem spaces_idem {norm : Xml.Config} (h : SpacesOnly norm) (c : Char) : norm (norm c) = norm c := by
  rcases h c with h1 | ⟨_, h1⟩
  · rw [h1, h1]
  · rw [h1]
    exact spaces_norm h ' ' (by decide) (by decide) (by decide)

theorem spaces_only {norm : Xml.Config} (h : SpacesOnly norm) {c d : Char} (hd : d ≠ ' ') (he : norm c = d) : c = d := by
  rcases h c with h1 | ⟨_, h1⟩
  · exact h1.symm.trans he
  · exact absurd (he.symm.trans h1) hd

/-! ## What is read -/

/-- **C79**, what an XML or OSC reader gives, whatever the file: every character of every text of every object is one that XML has, and timestamps are
texts. -/
theorem C79_read (norm : Xml.Config) (hn : SpacesOnly norm) {next : List (Option XmlEvent) → Res (Option StringOSMObj) × List (Option XmlEvent)}
    (hnext : next = XMLReader.next ∨ next = OSCReader.next) {doc : List UInt8} {os : List StringOSMObj} {e : Option Panic}
    {q : List (Option XmlEvent)} (h : Drain next (XMLReader.new norm doc) os e q) :
    ∀ o ∈ os, (∀ t ∈ textsOf (objData o), ∀ c ∈ t, XmlChar c) ∧ ∀ t, (objData o).view.timestamp ≠ some (.epoch t) := by
  have h : Drain XMLReader.next (XMLReader.new norm doc) os e q := by
    rcases hnext with rfl | rfl
    · exact h
    · rw [osc_next_eq] at h; exact h
  have hev := events_in (P := fun c => isXmlChar c = true) (spaces_xml hn) (fun _ _ h => resolve_xml h) doc
  intro o ho
  obtain ⟨h1, h2⟩ := drain_in h hev o ho
  exact ⟨fun t ht c hc => (isXmlChar_iff c).1 (h1 t ht c hc), h2⟩

theorem readBack_text {d : ObjData} (h : ∀ t, d.view.timestamp ≠ some (.epoch t)) : readBack d = d := by
  obtain ⟨v, p, n, m⟩ := d
  obtain ⟨i, ver, del, cs, ts, uid, user, tags, kind⟩ := v
  simp only at h
  unfold readBack
  simp only [ObjData.mk.injEq, View.mk.injEq, true_and, and_true]
  rcases ts with _ | (s | t)
  · rfl
  · rfl
  · exact absurd rfl (h t)

/-! ## Copies of what is read -/

section
variable {norm : Xml.Config} {head tail : Str} {F : List (ObjData × UInt32) → Forest} {os : List StringOSMObj}

/-- What a document of read objects gives. -/
def Rewritable (os : List StringOSMObj) : Prop := ∀ o ∈ os, objectType (α := Family.string.Obj) o = .node → (objData o).pos ≠ none

theorem rewrite_count (hF : DocForm norm head tail F) (hv : ∀ o ∈ os, version (α := Family.string.Obj) o ≠ none)
    (ht : ∀ o ∈ os, TimeUnquoted (objData o)) (hr : ∀ o ∈ os, ∀ t ∈ textsOf (objData o), ∀ c ∈ t, XmlChar c) :
    (∃ (rs : List StringOSMObj) (q : List (Option XmlEvent)),
      Drain XMLReader.next (eventsOfBytes norm (Utf8.encode (head ++ os.flatMap textOf ++ tail))) rs none q ∧ rs.length = os.length) ↔
    Rewritable os :=
  Iff.trans (docForm_complete (f := .string) hF os hv ht)
    ⟨fun h o ho => (h o ho).1, fun h o ho => ⟨h o ho, hr o ho⟩⟩

theorem rewrite_exact (hF : DocForm norm head tail F) (hv : ∀ o ∈ os, version (α := Family.string.Obj) o ≠ none)
    (ht : ∀ o ∈ os, TimeUnquoted (objData o))
    (hr : ∀ o ∈ os, (∀ t ∈ textsOf (objData o), ∀ c ∈ t, XmlChar c) ∧ ∀ t, (objData o).view.timestamp ≠ some (.epoch t)) :
    (∃ (rs : List StringOSMObj) (q : List (Option XmlEvent)),
      Drain XMLReader.next (eventsOfBytes norm (Utf8.encode (head ++ os.flatMap textOf ++ tail))) rs none q ∧
      rs.map objData = os.map objData) ↔
    Rewritable os ∧ ∀ o ∈ os, ∀ t ∈ textsOf (objData o), ∀ c ∈ t, norm c = c := by
  have he : (os.map fun o => readBack (objData o)) = os.map objData :=
    List.map_congr_left fun o ho => readBack_text (hr o ho).2
  have := docForm_exact (f := .string) hF os hv ht
  refine Iff.trans ?_ (this.trans ?_)
  · constructor
    · rintro ⟨rs, q, h1, h2⟩; exact ⟨rs, q, h1, h2.trans he.symm⟩
    · rintro ⟨rs, q, h1, h2⟩; exact ⟨rs, q, h1, h2.trans he⟩
  · constructor
    · exact fun h => ⟨fun o ho => (h o ho).1, fun o ho t htx c hc => ((h o ho).2 t htx c hc).2⟩
    · exact fun h o ho => ⟨h.1 o ho, fun t htx c hc => ⟨(hr o ho).1 t htx c hc, h.2 o ho t htx c hc⟩⟩

end

theorem textOf_congr {os rs : List StringOSMObj} (h : rs.map objData = os.map objData) :
    rs.flatMap (textOf (α := Family.string.Obj)) = os.flatMap (textOf (α := Family.string.Obj)) := by
  have hg : ∀ o : StringOSMObj, textOf (α := Family.string.Obj) o =
      (fun d : ObjData => match d.view.version with | some v => objText d v | none => []) (objData o) := by
    intro o; rfl
  have : ∀ l : List StringOSMObj, l.flatMap (textOf (α := Family.string.Obj)) =
      (l.map objData).flatMap (fun d : ObjData => match d.view.version with | some v => objText d v | none => []) := by
    intro l
    rw [List.flatMap_map]
    rfl
  rw [this, this, h]

theorem mem_mapTexts {g : Char → Char} {d : ObjData} {t : Str} (h : t ∈ textsOf (mapTexts g d)) : ∃ s ∈ textsOf d, t = s.map g := by
  simp only [textsOf, List.mem_append, List.mem_map, Option.mem_toList, mapTexts, Option.map_eq_some_iff] at h
  rcases h with (((⟨u, hu, rfl⟩ | hm) | ⟨kv, ⟨x, hx, rfl⟩, rfl⟩) | ⟨kv, ⟨x, hx, rfl⟩, rfl⟩) | ⟨m, ⟨x, hx, rfl⟩, rfl⟩
  · exact ⟨u, by simp [textsOf, hu], rfl⟩
  · cases hts : d.view.timestamp with
    | none => rw [hts] at hm; simp [isoText] at hm
    | some t0 =>
      rw [hts] at hm
      cases t0 with
      | iso t0 => exact ⟨t0, by simp [textsOf, hts, isoText], by simpa [isoText, mapTime] using hm⟩
      | epoch e => simp [isoText, mapTime] at hm
  · exact ⟨x.1, by simp only [textsOf, List.mem_append, List.mem_map]; exact .inl (.inl (.inr ⟨x, hx, rfl⟩)), rfl⟩
  · exact ⟨x.2, by simp only [textsOf, List.mem_append, List.mem_map]; exact .inl (.inr ⟨x, hx, rfl⟩), rfl⟩
  · exact ⟨x.2.2, by simp only [textsOf, List.mem_append, List.mem_map]; exact .inr ⟨x, hx, rfl⟩, rfl⟩

theorem isoText_mapTexts {g : Char → Char} {d : ObjData} {t : Str} (h : t ∈ isoText (mapTexts g d).view.timestamp) :
    ∃ s ∈ isoText d.view.timestamp, t = s.map g := by
  have h : t ∈ isoText (d.view.timestamp.map (mapTime g)) := h
  cases hts : d.view.timestamp with
  | none => rw [hts] at h; simp [isoText] at h
  | some t0 =>
    rw [hts] at h
    cases t0 with
    | iso t0 => exact ⟨t0, by simp [isoText], by simpa [isoText, mapTime] using h⟩
    | epoch e => simp [isoText, mapTime] at h

/-- The objects of a copy. -/
theorem copied_objects {norm : Xml.Config} (hn : SpacesOnly norm) {head tail : Str} {F : List (ObjData × UInt32) → Forest}
    (hF : DocForm norm head tail F) {os rs : List StringOSMObj} {q : List (Option XmlEvent)}
    (hv : ∀ o ∈ os, version (α := Family.string.Obj) o ≠ none) (ht : ∀ o ∈ os, TimeUnquoted (objData o))
    (hr : ∀ o ∈ os, (∀ t ∈ textsOf (objData o), ∀ c ∈ t, XmlChar c) ∧ ∀ t, (objData o).view.timestamp ≠ some (.epoch t))
    (hd : Drain XMLReader.next (eventsOfBytes norm (Utf8.encode (head ++ os.flatMap (textOf (α := Family.string.Obj)) ++ tail))) rs none q)
    (hlen : rs.length = os.length) :
    (∀ r ∈ rs, version (α := Family.string.Obj) r ≠ none ∧ TimeUnquoted (objData r) ∧
      ∀ t ∈ textsOf (objData r), ∀ c ∈ t, norm c = c) ∧ Rewritable rs := by
  have hpar := docForm_parsable (f := .string) hF os hv ht hd hlen
  obtain ⟨rs', hd', hrs⟩ := docForm_drain (f := .string) hF os hpar
  obtain ⟨rfl, _, _⟩ := Drain.unique hd hd'
  have key : ∀ r ∈ rs, ∃ o ∈ os, objData r = mapTexts norm (objData o) := by
    intro r hr'
    have : objData r ∈ rs.map objData := List.mem_map.2 ⟨r, hr', rfl⟩
    rw [hrs] at this
    obtain ⟨o, ho, he⟩ := List.mem_map.1 this
    refine ⟨o, ho, he.symm.trans (readBack_text ?_)⟩
    intro t hts
    have hts : (objData o).view.timestamp.map (mapTime norm) = some (.epoch t) := hts
    obtain ⟨x, hx, hx2⟩ := Option.map_eq_some_iff.1 hts
    cases x with
    | iso s => cases hx2
    | epoch e => exact (hr o ho).2 e hx
  refine ⟨fun r hr' => ?_, fun r hr' hk => ?_⟩
  · obtain ⟨o, ho, he⟩ := key r hr'
    refine ⟨?_, ?_, ?_⟩
    · show (objData r).view.version ≠ none
      rw [he]; exact hv o ho
    · rw [he]
      intro s hs
      obtain ⟨s', hs', rfl⟩ := isoText_mapTexts hs
      obtain ⟨q1, q2, q3⟩ := ht o ho s' hs'
      simp only [List.mem_map, not_exists, not_and]
      exact ⟨fun x hx he => q1 (spaces_only hn (by decide) he ▸ hx), fun x hx he => q2 (spaces_only hn (by decide) he ▸ hx),
        fun x hx he => q3 (spaces_only hn (by decide) he ▸ hx)⟩
    · rw [he]
      intro t htx c hc
      obtain ⟨s, _, rfl⟩ := mem_mapTexts htx
      obtain ⟨x, _, rfl⟩ := List.mem_map.1 hc
      exact spaces_idem hn x
  · obtain ⟨o, ho, he⟩ := key r hr'
    rw [he]
    refine (hpar o ho).2.2 ?_
    have hk : (objData r).view.kind = .node := hk
    rw [he] at hk
    exact hk

/-! ## C79 -/

section
variable (norm : Xml.Config) (hn : SpacesOnly norm) (σ : HashOrder) (k : Sink) (hk : k.Reliable) (hk0 : k.out = [])

include hn hk hk0

variable {next : List (Option XmlEvent) → Res (Option StringOSMObj) × List (Option XmlEvent)}
  (hnext : next = XMLReader.next ∨ next = OSCReader.next) {doc : List UInt8} {os : List StringOSMObj} {e : Option Panic}
  {q : List (Option XmlEvent)} (h : Drain next (XMLReader.new norm doc) os e q)
  (hv : ∀ o ∈ os, version (α := Family.string.Obj) o ≠ none) (ht : ∀ o ∈ os, TimeUnquoted (objData o))

include hnext h hv ht

/-- **C79**, rewriting to XML. Whatever the XML or OSC file, if the objects read from it, to the end or to a panic, have versions and timestamps without
quotes, `<` and `&`: every call of the writer, and its drop, returns `Ok`. The new file has as many objects if and only if every node has a position. It has
the same objects, equal in everything, in the same order, if and only if moreover the parser leaves alone every character of every text. -/
theorem C79_xml_partial :
    ((∀ x ∈ (run (xmlCall (α := Family.string.Obj) σ) (XMLWriter.new k) (copyCalls os)).1, x.2 = .ok ()) ∧
      (xmlCopy (f := .string) σ k os).1 = .ok ()) ∧
    ((∃ (rs : List StringOSMObj) (q : List (Option XmlEvent)),
      Drain XMLReader.next (XMLReader.new norm (xmlCopy (f := .string) σ k os).2.writer.out) rs none q ∧ rs.length = os.length) ↔
      ∀ o ∈ os, objectType (α := Family.string.Obj) o = .node → (objData o).pos ≠ none) ∧
    ((∃ (rs : List StringOSMObj) (q : List (Option XmlEvent)),
      Drain XMLReader.next (XMLReader.new norm (xmlCopy (f := .string) σ k os).2.writer.out) rs none q ∧ rs.map objData = os.map objData) ↔
      (∀ o ∈ os, objectType (α := Family.string.Obj) o = .node → (objData o).pos ≠ none) ∧
        ∀ o ∈ os, ∀ t ∈ textsOf (objData o), ∀ c ∈ t, norm c = c) := by
  have hr := C79_read norm hn hnext h
  have hF := xml_form (spaces_norm hn) (headersOk_perm (σ.perm []).symm noHeaders)
  refine ⟨⟨xml_copy_ok (f := .string) σ hv _ hk (fun h => by cases h),
    (C23_output_partial (f := .string) σ k hk _ (copy_versioned hv)).1⟩, ?_, ?_⟩
  · rw [xmlCopy_out (f := .string) σ k hk hk0 hv]
    exact rewrite_count hF hv ht fun o ho => (hr o ho).1
  · rw [xmlCopy_out (f := .string) σ k hk hk0 hv]
    exact rewrite_exact hF hv ht hr

/-- **C79**, rewriting to a change file. -/
theorem C79_osc_partial :
    ((∀ x ∈ (run (oscCall (α := Family.string.Obj)) (OSCWriter.new k) (copyCalls os)).1, x.2 = .ok ()) ∧
      (oscCopy (f := .string) k os).1 = .ok ()) ∧
    ((∃ (rs : List StringOSMObj) (q : List (Option XmlEvent)),
      Drain OSCReader.next (OSCReader.new norm (oscCopy (f := .string) k os).2.writer.out) rs none q ∧ rs.length = os.length) ↔
      ∀ o ∈ os, objectType (α := Family.string.Obj) o = .node → (objData o).pos ≠ none) ∧
    ((∃ (rs : List StringOSMObj) (q : List (Option XmlEvent)),
      Drain OSCReader.next (OSCReader.new norm (oscCopy (f := .string) k os).2.writer.out) rs none q ∧ rs.map objData = os.map objData) ↔
      (∀ o ∈ os, objectType (α := Family.string.Obj) o = .node → (objData o).pos ≠ none) ∧
        ∀ o ∈ os, ∀ t ∈ textsOf (objData o), ∀ c ∈ t, norm c = c) := by
  have hr := C79_read norm hn hnext h
  have hF := osc_form (spaces_norm hn)
  refine ⟨⟨osc_copy_ok (f := .string) hv _ hk (fun h => by cases h),
    (C24_one_document_partial (f := .string) k hk _ (copy_versioned hv)).1⟩, ?_, ?_⟩
  · rw [osc_next_eq, oscCopy_out (f := .string) k hk hk0 hv]
    exact rewrite_count hF hv ht fun o ho => (hr o ho).1
  · rw [osc_next_eq, oscCopy_out (f := .string) k hk hk0 hv]
    exact rewrite_exact hF hv ht hr

/-- **C79**, rewriting again: once a file has been rewritten (and kept its objects), rewriting the new file gives exactly the same objects, and rewriting
that one gives the same bytes, for ever after. -/
theorem C79_again_xml (hpos : ∀ o ∈ os, objectType (α := Family.string.Obj) o = .node → (objData o).pos ≠ none) :
    ∃ (rs rs' : List StringOSMObj) (q q' : List (Option XmlEvent)),
      Drain XMLReader.next (XMLReader.new norm (xmlCopy (f := .string) σ k os).2.writer.out) rs none q ∧
      Drain XMLReader.next (XMLReader.new norm (xmlCopy (f := .string) σ k rs).2.writer.out) rs' none q' ∧
      rs.length = os.length ∧ rs'.map objData = rs.map objData ∧
      (xmlCopy (f := .string) σ k rs').2.writer.out = (xmlCopy (f := .string) σ k rs).2.writer.out := by
  have hF := xml_form (spaces_norm hn) (headersOk_perm (σ.perm []).symm noHeaders)
  obtain ⟨rs, q1, hd, hlen⟩ := (C79_xml_partial norm hn σ k hk hk0 hnext h hv ht).2.1.2 hpos
  have hd2 := hd
  rw [xmlCopy_out (f := .string) σ k hk hk0 hv] at hd2
  obtain ⟨h1, h2⟩ := copied_objects hn hF hv ht (C79_read norm hn hnext h) hd2 hlen
  have hv1 : ∀ r ∈ rs, version (α := Family.string.Obj) r ≠ none := fun r hr => (h1 r hr).1
  obtain ⟨rs', q2, hd3, he⟩ := (C79_xml_partial norm hn σ k hk hk0 (.inl rfl) hd hv1
    (fun r hr => (h1 r hr).2.1)).2.2.2 ⟨h2, fun r hr => (h1 r hr).2.2⟩
  refine ⟨rs, rs', q1, q2, hd, hd3, hlen, he, ?_⟩
  have hv2 : ∀ r ∈ rs', version (α := Family.string.Obj) r ≠ none := by
    intro r hr
    have : objData r ∈ rs'.map objData := List.mem_map.2 ⟨r, hr, rfl⟩
    rw [he] at this
    obtain ⟨o, ho, heo⟩ := List.mem_map.1 this
    show (objData r).view.version ≠ none
    rw [← heo]
    exact hv1 o ho
  rw [xmlCopy_out (f := .string) σ k hk hk0 hv1, xmlCopy_out (f := .string) σ k hk hk0 hv2, textOf_congr he]

/-- **C79**, rewriting change files again. -/
theorem C79_again_osc (hpos : ∀ o ∈ os, objectType (α := Family.string.Obj) o = .node → (objData o).pos ≠ none) :
    ∃ (rs rs' : List StringOSMObj) (q q' : List (Option XmlEvent)),
      Drain OSCReader.next (OSCReader.new norm (oscCopy (f := .string) k os).2.writer.out) rs none q ∧
      Drain OSCReader.next (OSCReader.new norm (oscCopy (f := .string) k rs).2.writer.out) rs' none q' ∧
      rs.length = os.length ∧ rs'.map objData = rs.map objData ∧
      (oscCopy (f := .string) k rs').2.writer.out = (oscCopy (f := .string) k rs).2.writer.out := by
  have hF := osc_form (spaces_norm hn)
  obtain ⟨rs, q1, hd, hlen⟩ := (C79_osc_partial norm hn k hk hk0 hnext h hv ht).2.1.2 hpos
  have hd2 := hd
  rw [osc_next_eq, oscCopy_out (f := .string) k hk hk0 hv] at hd2
  obtain ⟨h1, h2⟩ := copied_objects hn hF hv ht (C79_read norm hn hnext h) hd2 hlen
  have hv1 : ∀ r ∈ rs, version (α := Family.string.Obj) r ≠ none := fun r hr => (h1 r hr).1
  obtain ⟨rs', q2, hd3, he⟩ := (C79_osc_partial norm hn k hk hk0 (.inr rfl) hd hv1
    (fun r hr => (h1 r hr).2.1)).2.2.2 ⟨h2, fun r hr => (h1 r hr).2.2⟩
  refine ⟨rs, rs', q1, q2, hd, hd3, hlen, he, ?_⟩
  have hv2 : ∀ r ∈ rs', version (α := Family.string.Obj) r ≠ none := by
    intro r hr
    have : objData r ∈ rs'.map objData := List.mem_map.2 ⟨r, hr, rfl⟩
    rw [he] at this
    obtain ⟨o, ho, heo⟩ := List.mem_map.1 this
    show (objData r).view.version ≠ none
    rw [← heo]
    exact hv1 o ho
  rw [oscCopy_out (f := .string) k hk hk0 hv1, oscCopy_out (f := .string) k hk hk0 hv2, textOf_congr he]

end

/-! ### Examples -/

namespace RewriteEx

/-- A way with a line break in a tag, given by a reference. -/
def lines : Str :=
  str% "<osm version=\"0.6\"><way id=\"7\" version=\"1\" timestamp=\"2020\"><nd ref=\"5\"/><tag k=\"a\" v=\"x&#10;y\"/></way></osm>"
/-- An object without a version. -/
def unversioned : Str := str% "<osm version=\"0.6\"><way id=\"7\"/></osm>"
/-- A node whose latitude is not a number, and a way. -/
def misplaced : Str :=
  str% "<osm version=\"0.6\"><node id=\"1\" version=\"1\" lat=\"north\" lon=\"0\"/><way id=\"7\" version=\"1\"/></osm>"
/-- A quote in a timestamp. -/
def quoted : Str :=
  str% "<osm version=\"0.6\"><way id=\"7\" version=\"1\" timestamp=\"2020&quot; user=&quot;root\"/></osm>"

/-- Tabs and line breaks become spaces. -/
def toSpace (c : Char) : Char := if c = '\t' ∨ c = '\n' ∨ c = '\r' then ' ' else c

theorem toSpace_spaces : SpacesOnly toSpace := by
  intro c
  unfold toSpace
  by_cases h : c = '\t' ∨ c = '\n' ∨ c = '\r'
  · rw [if_pos h]; exact .inr ⟨h, rfl⟩
  · rw [if_neg h]; exact .inl rfl

theorem id_spaces : SpacesOnly id := fun _ => .inl rfl

end RewriteEx

open RewriteEx in
/-- The hypotheses are met, and the condition on characters makes a difference: the example is rewritten exactly by a parser that leaves line
breaks alone and not by one that does not. -/
theorem C79_nonvacuous (σ : HashOrder) : ∀ norm ∈ [Xml.Config.keep, ⟨toSpace, true⟩], ∃ (os : List StringOSMObj) (q : List (Option XmlEvent)),
    Drain XMLReader.next (XMLReader.new norm (Utf8.encode lines)) os none q ∧ os.length = 1 ∧
    (∀ o ∈ os, version (α := Family.string.Obj) o ≠ none) ∧ (∀ o ∈ os, TimeUnquoted (objData o)) ∧
    (∀ o ∈ os, objectType (α := Family.string.Obj) o = .node → (objData o).pos ≠ none) ∧
    ((∃ (rs : List StringOSMObj) (q : List (Option XmlEvent)),
      Drain XMLReader.next (XMLReader.new norm (xmlCopy (f := .string) σ ⟨[], []⟩ os).2.writer.out) rs none q ∧ rs.map objData = os.map objData) ↔
      norm '\n' = '\n') := by
  intro norm hmem
  have hn : SpacesOnly norm := by
    simp only [List.mem_cons, List.not_mem_nil, or_false] at hmem
    rcases hmem with rfl | rfl
    · exact id_spaces
    · exact toSpace_spaces
  have h : ∀ norm ∈ [Xml.Config.keep, ⟨toSpace, true⟩], (readN XMLReader.next 5 (XMLReader.new norm (Utf8.encode lines))).map
      (fun x => (x.1.map objData, x.2)) =
      some ([⟨⟨7, some 1, false, none, some (.iso (str% "2020")), none, none, [(str% "a", str% "x\ny")], .way⟩, none, [5], []⟩], none) := by
    decide +kernel
  obtain ⟨⟨os, e⟩, h1, h2⟩ := Option.map_eq_some_iff.1 (h norm hmem)
  simp only [Prod.mk.injEq] at h2
  obtain ⟨h2, rfl⟩ := h2
  obtain ⟨q, hd⟩ := readN_drain h1
  have key : ∀ o ∈ os, objData o =
      ⟨⟨7, some 1, false, none, some (.iso (str% "2020")), none, none, [(str% "a", str% "x\ny")], .way⟩, none, [5], []⟩ := by
    intro o ho
    have : objData o ∈ os.map objData := List.mem_map.2 ⟨o, ho, rfl⟩
    rw [h2] at this
    exact List.mem_singleton.1 this
  have hv : ∀ o ∈ os, version (α := Family.string.Obj) o ≠ none := by
    intro o ho
    show (objData o).view.version ≠ none
    rw [key o ho]; simp
  have ht : ∀ o ∈ os, TimeUnquoted (objData o) := by
    intro o ho
    rw [key o ho]
    intro s hs
    rw [List.mem_singleton.1 hs]
    decide
  have hp : ∀ o ∈ os, objectType (α := Family.string.Obj) o = .node → (objData o).pos ≠ none := by
    intro o ho hk
    have hk : (objData o).view.kind = .node := hk
    rw [key o ho] at hk
    cases hk
  refine ⟨os, q, hd, by simpa using congrArg List.length h2, hv, ht, hp, ?_⟩
  refine Iff.trans (C79_xml_partial norm hn σ ⟨[], []⟩ (fun _ h => by cases h) rfl (.inl rfl) hd hv ht).2.2 ?_
  rw [and_iff_right hp]
  constructor
  · intro h
    cases os with
    | nil => cases h2
    | cons o os =>
      refine h o List.mem_cons_self (str% "x\ny") ?_ '\n' (by decide)
      rw [key o List.mem_cons_self]
      decide
  · intro h o ho
    rw [key o ho]
    intro t htx c hc
    have hall : ∀ t ∈ textsOf ⟨⟨7, some 1, false, none, some (.iso (str% "2020")), none, none, [(str% "a", str% "x\ny")], .way⟩, none, [5], []⟩,
        ∀ c ∈ t, c = '\n' ∨ (c ≠ '\t' ∧ c ≠ '\n' ∧ c ≠ '\r') := by decide
    rcases hall t htx c hc with rfl | ⟨a, b, c'⟩
    · exact h
    · exact spaces_norm hn c a b c'

open RewriteEx in
/-- **C79 fails** for an object without a version: it is read, and the writer panics on it. -/
theorem C79_unversioned_fails (σ : HashOrder) (k : Sink) (hk : k.Reliable) : ∃ (o : StringOSMObj) (q : List (Option XmlEvent)),
    Drain XMLReader.next (XMLReader.new .keep (Utf8.encode unversioned)) [o] none q ∧
    (XMLWriter.writeObj (α := Family.string.Obj) σ o (XMLWriter.new k)).1 = .panic .unwrap ∧
    (OSCWriter.writeObj (α := Family.string.Obj) o (OSCWriter.new k)).1 = .panic .unwrap := by
  have h : (readN XMLReader.next 5 (XMLReader.new .keep (Utf8.encode unversioned))).map
      (fun x => (x.1.map objData, x.2)) =
      some ([⟨⟨7, none, false, none, none, none, none, [], .way⟩, none, [], []⟩], none) := by decide +kernel
  obtain ⟨⟨os, e⟩, h1, h2⟩ := Option.map_eq_some_iff.1 h
  simp only [Prod.mk.injEq] at h2
  obtain ⟨h2, rfl⟩ := h2
  obtain ⟨q, hd⟩ := readN_drain h1
  obtain ⟨o, rfl, e1⟩ := List.map_eq_singleton_iff.1 h2
  · have hv : version (α := Family.string.Obj) o = none := by
      show (objData o).view.version = none
      rw [e1]
    exact ⟨o, q, hd, C26_unversioned_fails (f := .string) σ o hv _ hk rfl, C26_osc_unversioned_fails (f := .string) o hv _ hk rfl⟩

open RewriteEx in
/-- **C79 fails** for a node whose position cannot be read: two objects are read and written without an error, and reading the new file does not
give two objects. -/
theorem C79_misplaced_fails (σ : HashOrder) : ∃ (os : List StringOSMObj) (q : List (Option XmlEvent)),
    Drain XMLReader.next (XMLReader.new .keep (Utf8.encode misplaced)) os none q ∧ os.length = 2 ∧
    (∀ x ∈ (run (xmlCall (α := Family.string.Obj) σ) (XMLWriter.new ⟨[], []⟩) (copyCalls os)).1, x.2 = .ok ()) ∧
    ¬ ∃ (rs : List StringOSMObj) (q : List (Option XmlEvent)),
      Drain XMLReader.next (XMLReader.new .keep (xmlCopy (f := .string) σ ⟨[], []⟩ os).2.writer.out) rs none q ∧ rs.length = os.length := by
  have h : (readN XMLReader.next 5 (XMLReader.new .keep (Utf8.encode misplaced))).map
      (fun x => (x.1.map objData, x.2)) =
      some ([⟨⟨1, some 1, false, none, none, none, none, [], .node⟩, none, [], []⟩,
        ⟨⟨7, some 1, false, none, none, none, none, [], .way⟩, none, [], []⟩], none) := by decide +kernel
  obtain ⟨⟨os, e⟩, h1, h2⟩ := Option.map_eq_some_iff.1 h
  simp only [Prod.mk.injEq] at h2
  obtain ⟨h2, rfl⟩ := h2
  obtain ⟨q, hd⟩ := readN_drain h1
  obtain ⟨o1, os, rfl, e1, h2⟩ := List.map_eq_cons_iff.1 h2
  obtain ⟨o2, rfl, e2⟩ := List.map_eq_singleton_iff.1 h2
  · have hall : ∀ o ∈ [o1, o2], (objData o).view.version ≠ none ∧ (objData o).view.timestamp = none := by
      intro o ho
      simp only [List.mem_cons, List.not_mem_nil, or_false] at ho
      rcases ho with rfl | rfl
      · rw [e1]; exact ⟨by simp, rfl⟩
      · rw [e2]; exact ⟨by simp, rfl⟩
    have key := C79_xml_partial .keep id_spaces σ ⟨[], []⟩ (fun _ h => by cases h) rfl (.inl rfl) hd (fun o ho => (hall o ho).1)
      (fun o ho s hs => by rw [(hall o ho).2] at hs; cases hs)
    refine ⟨_, q, hd, rfl, key.1.1, ?_⟩
    rw [key.2.1]
    intro hp
    refine hp o1 List.mem_cons_self ?_ ?_
    · show (objData o1).view.kind = .node
      rw [e1]
    · rw [e1]

open RewriteEx in
/-- **C79 fails** for a quote in a timestamp: the object read has no user, and its copy has one. -/
theorem C79_quoted_fails (σ : HashOrder) : ∃ (o : StringOSMObj) (q : List (Option XmlEvent)),
    Drain XMLReader.next (XMLReader.new .keep (Utf8.encode quoted)) [o] none q ∧ user (α := Family.string.Obj) o = none ∧
    ∃ (r : StringOSMObj) (q' : List (Option XmlEvent)),
      Drain XMLReader.next (XMLReader.new .keep (xmlCopy (f := .string) σ ⟨[], []⟩ [o]).2.writer.out) [r] none q' ∧
      user (α := Family.string.Obj) r = some (str% "root") := by
  have h : (readN XMLReader.next 5 (XMLReader.new .keep (Utf8.encode quoted))).map
      (fun x => (x.1.map objData, x.2)) =
      some ([⟨⟨7, some 1, false, none, some (.iso (str% "2020\" user=\"root")), none, none, [], .way⟩, none, [], []⟩], none) := by decide +kernel
  obtain ⟨⟨os, e⟩, h1, h2⟩ := Option.map_eq_some_iff.1 h
  simp only [Prod.mk.injEq] at h2
  obtain ⟨h2, rfl⟩ := h2
  obtain ⟨q, hd⟩ := readN_drain h1
  obtain ⟨o, rfl, e1⟩ := List.map_eq_singleton_iff.1 h2
  · have hv : ∀ o' ∈ [o], version (α := Family.string.Obj) o' ≠ none := by
      intro o' ho'
      show (objData o').view.version ≠ none
      rw [List.mem_singleton.1 ho', e1]; simp
    refine ⟨o, q, hd, ?_, ?_⟩
    · show (objData o).view.user = none
      rw [e1]
    · have hout : (xmlCopy (f := .string) σ ⟨[], []⟩ [o]).2.writer.out = Utf8.encode (xmlHead (σ.order []) ++
          (textOf (α := Family.string.Obj) o ++ []) ++ xmlTail) := xmlCopy_out (f := .string) σ ⟨[], []⟩ (fun _ h => by cases h) rfl hv
      have hσ : σ.order [] = [] := (σ.perm []).eq_nil
      have htext : textOf (α := Family.string.Obj) o =
          objText ⟨⟨7, some 1, false, none, some (.iso (str% "2020\" user=\"root")), none, none, [], .way⟩, none, [], []⟩ 1 := by
        have : version (α := Family.string.Obj) o = some 1 := by
          show (objData o).view.version = some 1
          rw [e1]
        unfold textOf
        rw [this, ← e1]
        rfl
      rw [hout, hσ, htext]
      have h3 : (readN XMLReader.next 5 (XMLReader.new .keep (Utf8.encode (xmlHead [] ++ (objText ⟨⟨7, some 1, false, none, some (.iso (str% "2020\" user=\"root")), none, none, [], .way⟩, none, [], []⟩ 1 ++ []) ++ xmlTail)))).map
          (fun x => (x.1.map fun o => (objData o).view.user, x.2)) = some ([some (str% "root")], none) := by decide +kernel
      obtain ⟨⟨rs, e⟩, h4, h5⟩ := Option.map_eq_some_iff.1 h3
      simp only [Prod.mk.injEq] at h5
      obtain ⟨h5, rfl⟩ := h5
      obtain ⟨q', hd'⟩ := readN_drain h4
      obtain ⟨r, rfl, e5⟩ := List.map_eq_singleton_iff.1 h5
      exact ⟨r, q', hd', e5⟩

end Osmio
