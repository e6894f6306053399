import Verif.Proofs.XmlGrammarInv
import Verif.Props.XmlNested
/-!
# XML and OSC readers on every file: C62, C64, and C30–C33 with name spaces

`Spec/XmlGrammar.lean` says what a well formed document is. The readers get through exactly those; what they make of them is what
`Props/XmlText.lean` and `Props/XmlNested.lean` say for a smaller grammar.
-/

namespace Osmio
open Spec Xml OSMObjBase Spec.Gram

variable {norm : Xml.Config}

/-! ## Which files are read without a panic -/

/-- The events of a file: an error is the last one. -/
theorem new_cases (norm : Xml.Config) (bs : List UInt8) :
    (∃ evs : List XmlEvent, XMLReader.new norm bs = evs.map some) ∨ ∃ evs : List XmlEvent, XMLReader.new norm bs = evs.map some ++ [none] := by
  unfold XMLReader.new eventsOfBytes events
  simp only
  split
  · exact .inl ⟨_ ++ [.other], by rw [List.map_append]; rfl⟩
  · exact .inr ⟨_, rfl⟩

theorem isDocument_iff (norm : Xml.Config) (bs : List UInt8) :
    IsDocument norm.char norm.manyRoots bs ↔ none ∉ XMLReader.new norm bs := by
  constructor
  · rintro ⟨t, f, rfl, h⟩
    unfold XMLReader.new
    rcases wellFormed_events h with e | e
    · rw [e]; simp
    · rw [e]; simp
  · exact wellFormed_of_events

theorem malformed_events {bs : List UInt8} (h : ¬ IsDocument norm.char norm.manyRoots bs) :
    ∃ evs : List XmlEvent, XMLReader.new norm bs = evs.map some ++ [none] := by
  rcases new_cases norm bs with ⟨evs, e⟩ | h'
  · exact absurd ((isDocument_iff norm bs).2 (by rw [e]; simp)) h
  · exact h'

/-- A call takes something from what is left. -/
theorem next_error_cases (evs : List XmlEvent) :
    XMLReader.next (evs.map some ++ [none]) = (.error .unwrap, []) ∨
    ∃ (o : Option StringOSMObj) (rest : List XmlEvent), XMLReader.next (evs.map some ++ [none]) = (.ok o, rest.map some ++ [none]) ∧
      rest.length < evs.length := by
  have key : ∀ b acc, XMLReader.collect b acc (evs.map some ++ [none]) = (.error .unwrap, []) ∨
      ∃ l rest : List XmlEvent, XMLReader.collect b acc (evs.map some ++ [none]) = (.ok l, rest.map some ++ [none]) ∧
        rest.length < evs.length := by
    induction evs with
    | nil => exact fun b acc => .inl rfl
    | cons e evs ih =>
      intro b acc
      simp only [List.map_cons, List.cons_append, XMLReader.collect]
      cases breakNow e with
      | true => exact .inr ⟨_, evs, rfl, by simp⟩
      | false =>
        rcases ih (b || pushNow e) (if (b || pushNow e) = true then acc ++ [e] else acc) with h | ⟨l, rest, h, hl⟩
        · exact .inl h
        · exact .inr ⟨l, rest, h, by simp only [List.length_cons]; omega⟩
  unfold XMLReader.next
  rcases key false [] with h | ⟨l, rest, h, hl⟩
  · rw [h]; exact .inl rfl
  · rw [h]; exact .inr ⟨_, rest, rfl, hl⟩

theorem calls_error (m : Nat) (evs : List XmlEvent) (hm : evs.length ≤ m) :
    ∃ rs : List (Option StringOSMObj), calls XMLReader.next (rs.length + 1) (evs.map some ++ [none]) = (rs.map .ok ++ [.error .unwrap], []) := by
  induction m generalizing evs with
  | zero =>
    obtain rfl : evs = [] := List.length_eq_zero_iff.1 (Nat.le_zero.1 hm)
    exact ⟨[], rfl⟩
  | succ m ih =>
    rcases next_error_cases evs with h | ⟨o, rest, h, hl⟩
    · exact ⟨[], by simp [calls, h]⟩
    · obtain ⟨rs, hr⟩ := ih rest (by omega)
      refine ⟨o :: rs, ?_⟩
      rw [List.length_cons, calls, h]
      simp only [hr, List.map_cons, List.cons_append]

/-- **C62.** If a file is not the UTF-8 of a well formed document (but malformed, cut short, or with invalid bytes), then some call of
`next` panics. Only one does: with it the file is consumed, and the calls after it return `None`. -/
theorem C62_malformed {bs : List UInt8} (h : ¬ IsDocument norm.char norm.manyRoots bs) :
    (∃ rs : List (Option StringOSMObj),
      calls XMLReader.next (rs.length + 1) (XMLReader.new norm bs) = (rs.map .ok ++ [.error .unwrap], [])) ∧
    XMLReader.next [] = (.ok none, []) := by
  obtain ⟨evs, e⟩ := malformed_events h
  rw [e]
  exact ⟨calls_error _ evs (Nat.le_refl _), rfl⟩

/-- **C62**, a loop over a file that is not a well formed document: it ends with the panic, or before the error was reached. -/
theorem C62_loop {bs : List UInt8} (h : ¬ IsDocument norm.char norm.manyRoots bs) (os : List StringOSMObj) (e : Option Panic)
    (q : List (Option XmlEvent)) (hd : Drain XMLReader.next (XMLReader.new norm bs) os e q) :
    (e = none → none ∈ q) ∧ (q = [] → e = some .unwrap) := by
  obtain ⟨evs, he⟩ := malformed_events h
  exact C62_no_silent_end norm bs evs he os e q hd

/-- **C64.** No call panics on a well formed document, whatever it contains and however often `next` is called. -/
theorem C64_wellFormed {bs : List UInt8} (h : IsDocument norm.char norm.manyRoots bs) (n : Nat) :
    ∀ r ∈ (calls XMLReader.next n (XMLReader.new norm bs)).1, ∃ o, r = .ok o := by
  obtain ⟨t, f, rfl, h⟩ := h
  exact calls_ok (wellFormed_events h) n

/-- **C62, C64.** The files on which no call panics are the well formed documents. -/
theorem C62_iff (norm : Xml.Config) (bs : List UInt8) :
    (∀ n, ∀ r ∈ (calls XMLReader.next n (XMLReader.new norm bs)).1, ∃ o, r = .ok o) ↔ IsDocument norm.char norm.manyRoots bs := by
  refine ⟨fun h => ?_, C64_wellFormed⟩
  by_contra hc
  obtain ⟨⟨rs, hr⟩, _⟩ := C62_malformed hc
  obtain ⟨o, ho⟩ := h (rs.length + 1) (.error .unwrap) (by rw [hr]; simp)
  cases ho

/-- **C62, C64** for the OSC reader. -/
theorem C62_iff_osc (norm : Xml.Config) (bs : List UInt8) :
    (∀ n, ∀ r ∈ (calls OSCReader.next n (OSCReader.new norm bs)).1, ∃ o, r = .ok o) ↔ IsDocument norm.char norm.manyRoots bs := by
  rw [osc_next_eq]
  exact C62_iff norm bs

/-! ## Files cut short -/

/-- The document is over, or the parser has failed. -/
structure Over (ev : List XmlEvent) (z : PState) : Prop where
  opened : z.opened = []
  rooted : z.rooted = true
  events : ∃ k, z.events = ev ++ List.replicate k .other

theorem over_goto {ev : List XmlEvent} {z : PState} (h : Over ev z) (m : Mode) : Over ev (z.goto m) := ⟨h.opened, h.rooted, h.events⟩
theorem over_err {ev : List XmlEvent} {z : PState} (h : Over ev z) : Over ev z.err := ⟨h.opened, h.rooted, h.events⟩
theorem over_flush {ev : List XmlEvent} {z : PState} (h : Over ev z) (b : Bool) : Over ev (flush z b) := by
  obtain ⟨k, hk⟩ := h.events
  cases b with
  | false => exact h
  | true => exact ⟨h.opened, h.rooted, k + 1, by simp [flush, hk, List.replicate_succ']⟩
theorem over_tag {ev : List XmlEvent} {z : PState} (h : Over ev z) (hm : norm.manyRoots = false) (n : Str) (as : List (Str × Str)) (b : Bool) :
    Over ev (finishTag norm z n as b) := by
  unfold finishTag
  simp only
  split
  · rw [if_pos (.inl ⟨h.opened, h.rooted, hm⟩)]
    exact over_err h
  · exact over_err h
theorem over_end {ev : List XmlEvent} {z : PState} (h : Over ev z) (n : Str) : Over ev (finishEnd z n) := by
  unfold finishEnd
  rw [h.opened]
  exact over_err h

theorem over_step {ev : List XmlEvent} {z : PState} (h : Over ev z) (hm : norm.manyRoots = false) (c : Char) : Over ev (Xml.step norm z c) := by
  have g := over_goto h
  have e := over_err h
  have f := fun b => over_flush h b
  have t := over_tag h hm
  have s := over_end h
  unfold Xml.step
  split
  · unfold stepText; repeat' split
    all_goals first | exact g _ | exact over_goto (f _) _
  · unfold stepTextEnt; repeat' split
    all_goals first | exact g _
  · unfold stepLt; repeat' split
    all_goals first | exact g _
  · unfold stepBang; simp only; repeat' split
    all_goals first | exact g _
  · unfold stepComment; repeat' split
    all_goals first | exact g _ | exact over_goto (f _) _
  · unfold stepCdata; repeat' split
    all_goals first | exact g _ | exact over_goto (f _) _
  · unfold stepPi; repeat' split
    all_goals first | exact g _ | exact over_goto (f _) _
  · unfold stepTagName; repeat' split
    all_goals first | exact g _ | exact t _ _ _
  · unfold stepInTag; repeat' split
    all_goals first | exact g _ | exact t _ _ _
  · unfold stepAttrName; repeat' split
    all_goals first | exact g _
  · unfold stepAttrEq; repeat' split
    all_goals first | exact g _
  · unfold stepAttrPre; repeat' split
    all_goals first | exact g _
  · unfold stepAttrVal; repeat' split
    all_goals first | exact g _
  · unfold stepAttrEnt; repeat' split
    all_goals first | exact g _
  · unfold stepAttrDone; repeat' split
    all_goals first | exact g _ | exact t _ _ _
  · repeat' split
    all_goals first | exact e | exact t _ _ _
  · unfold stepEndName; repeat' split
    all_goals first | exact g _ | exact s _
  · repeat' split
    all_goals first | exact h | exact e | exact s _
  · exact h

theorem over_run {ev : List XmlEvent} {z : PState} (h : Over ev z) (hm : norm.manyRoots = false) (t : Str) : Over ev (Xml.run norm z t) := by
  induction t generalizing z with
  | nil => exact h
  | cons c t ih => exact ih (over_step h hm c)

theorem calls_others (q : List (Option XmlEvent)) (n k : Nat) :
    (calls XMLReader.next n (q ++ List.replicate k (some .other))).1 = (calls XMLReader.next n q).1 := by
  induction k with
  | zero => simp
  | succ k ih => rw [List.replicate_succ', ← List.append_assoc, calls_trailing, ih]

theorem calls_run {t : Str} {z : PState} (h : Xml.run norm initial t = z) (hz : complete z = true) (n : Nat) :
    (calls XMLReader.next n (XMLReader.new norm (Utf8.encode t))).1 = (calls XMLReader.next n (z.events.map some)).1 := by
  have h' : t.foldl (Xml.step norm) initial = z := h
  simp only [XMLReader.new, eventsOfBytes, Utf8.decodePrefix_encode, events, h', hz, Bool.and_self, if_true]
  exact calls_trailing _ n

/-- **C62**, files cut short: cut anywhere, at any byte, what is left of a well formed document either makes a call panic, or gives the
same as the whole document, call by call. (If the parser takes several root elements, whole elements could be lost.) -/
theorem C62_cut {bs : List UInt8} (h : IsDocument norm.char norm.manyRoots bs) (hm : norm.manyRoots = false) (k : Nat) :
    (∃ n, .error .unwrap ∈ (calls XMLReader.next n (XMLReader.new norm (bs.take k))).1) ∨
    ∀ n, (calls XMLReader.next n (XMLReader.new norm (bs.take k))).1 = (calls XMLReader.next n (XMLReader.new norm bs)).1 := by
  by_cases hc : IsDocument norm.char norm.manyRoots (bs.take k)
  · right
    obtain ⟨t, f, rfl, hw⟩ := h
    obtain ⟨a, g, ha, hg⟩ := hc
    obtain ⟨b, rfl⟩ : a <+: t := Utf8.prefix_of_encode (by rw [← ha]; exact List.take_prefix _ _)
    intro n
    obtain ⟨p, ev, r1, -⟩ := run_wellFormed hg
    obtain ⟨p', ev', r2, -⟩ := run_wellFormed hw
    have ho : Over ev (Xml.run norm ⟨.text p, [], true, ev⟩ b) := over_run ⟨rfl, rfl, 0, by simp⟩ hm b
    have e : Xml.run norm initial (a ++ b) = Xml.run norm ⟨.text p, [], true, ev⟩ b := by
      rw [← r1]; exact List.foldl_append ..
    rw [← e, r2] at ho
    obtain ⟨j, hj⟩ := ho.events
    rw [ha, calls_run r1 rfl, calls_run r2 rfl]
    simp only at hj
    rw [hj, List.map_append, List.map_replicate, calls_others]
  · left
    obtain ⟨⟨rs, hr⟩, _⟩ := C62_malformed hc
    exact ⟨_, by rw [hr]; simp⟩

/-! ## What is read from a well formed document -/

/-- Does an element end here, or the document? -/
def AtEnd (l : List XmlEvent) : Prop := l = [] ∨ ∃ n r, l = .stop n :: r

theorem events_inj (f : Forest) : ∀ (g : Forest) (r r' : List XmlEvent), AtEnd r → AtEnd r' → f.events ++ r = g.events ++ r' → f = g ∧ r = r' := by
  have nil : ∀ (g : Forest) (r r' : List XmlEvent), AtEnd r → r = g.events ++ r' → .nil = g ∧ r = r' := by
    intro g r r' hr e
    cases g with
    | nil => exact ⟨rfl, e⟩
    | text g => rcases hr with rfl | ⟨_, _, rfl⟩ <;> simp [Forest.events] at e
    | elem n as k g => rcases hr with rfl | ⟨_, _, rfl⟩ <;> simp [Forest.events] at e
  induction f with
  | nil => intro g r r' hr _ e; exact nil g r r' hr e
  | text f ih =>
    intro g r r' hr hr' e
    cases g with
    | nil => obtain ⟨h, -⟩ := nil (.text f) r' r hr' e.symm; cases h
    | text g =>
      simp only [Forest.events, List.cons_append, List.cons.injEq, true_and] at e
      obtain ⟨rfl, rfl⟩ := ih g r r' hr hr' e
      exact ⟨rfl, rfl⟩
    | elem n as k g => simp [Forest.events] at e
  | elem n as k f ihk ihf =>
    intro g r r' hr hr' e
    cases g with
    | nil => obtain ⟨h, -⟩ := nil (.elem n as k f) r' r hr' e.symm; cases h
    | text g => simp [Forest.events] at e
    | elem n' as' k' g =>
      simp only [Forest.events, List.cons_append, List.append_assoc, List.cons.injEq, XmlEvent.start.injEq] at e
      obtain ⟨⟨rfl, rfl⟩, e⟩ := e
      obtain ⟨rfl, e'⟩ := ihk k' _ _ (.inr ⟨_, _, rfl⟩) (.inr ⟨_, _, rfl⟩) e
      obtain ⟨rfl, rfl⟩ := ihf g r r' hr hr' (List.cons.inj e').2
      exact ⟨rfl, rfl⟩

/-- **C30.** A text is well formed in one way at most: it has one tree. -/
theorem C30_one_tree {report : Char → Char} {many : Bool} {t : Str} {f g : Forest} (hf : WellFormed report many t f)
    (hg : WellFormed report many t g) : f = g := by
  obtain ⟨p, ev, e1, e2⟩ := run_wellFormed (norm := ⟨report, many⟩) hf
  obtain ⟨p', ev', e1', e2'⟩ := run_wellFormed (norm := ⟨report, many⟩) hg
  rw [e1] at e1'
  cases e1'
  exact (events_inj f g [] [] (.inl rfl) (.inl rfl) (by rw [List.append_nil, List.append_nil, ← e2, ← e2'])).1

/-- **C30.** Reading any well formed document without document type yields, in document order, one object for each node, way and relation
element, and it is the object the element stands for. Missing: objects inside objects (`C30_nested_fails`), elements that cannot be read (C33),
attributes of one element that differ only in their prefix, if their local name is one that means something to the reader (`C31_prefix_fails`). -/
theorem C30_wellFormed_partial {t : Str} {doc : Forest} (h : WellFormed norm.char norm.manyRoots t doc) (hd : doc.Distinct)
    (hf : doc.Flat) (hr : ∀ e ∈ doc.objects, readElem e ≠ none) :
    ∃ os : List StringOSMObj, Drain XMLReader.next (XMLReader.new norm (Utf8.encode t)) os none [] ∧
      os.map (fun o => some (objData o)) = doc.objects.map readElem := by
  obtain ⟨rs, h1, h2, h3⟩ := calls_reported (wellFormed_events h) hd hf
  exact drain_all h1 h2 h3 hr

/-- **C30** for the OSC reader. -/
theorem C30_wellFormed_osc_partial {t : Str} {doc : Forest} (h : WellFormed norm.char norm.manyRoots t doc) (hd : doc.Distinct)
    (hf : doc.Flat) (hr : ∀ e ∈ doc.objects, readElem e ≠ none) :
    ∃ os : List StringOSMObj, Drain OSCReader.next (OSCReader.new norm (Utf8.encode t)) os none [] ∧
      os.map (fun o => some (objData o)) = doc.objects.map readElem := by
  rw [osc_next_eq]
  exact C30_wellFormed_partial h hd hf hr

/-- **C30, C32, C33** with objects inside objects: there is one answer for every object element, in the order in which they end; the answers are
those of the pieces; and after them the file is at its end. -/
theorem C30_wellFormed_any {t : Str} {doc : Forest} (h : WellFormed norm.char norm.manyRoots t doc) (hd : doc.Distinct) :
    (pieces doc.events).length = doc.objectCount ∧ ∃ rs : List (Option StringOSMObj),
      (calls XMLReader.next doc.objectCount (XMLReader.new norm (Utf8.encode t))).1 = rs.map .ok ∧
      rs.map (Option.map objData) = (pieces doc.events).map pieceObject ∧
      XMLReader.next (calls XMLReader.next doc.objectCount (XMLReader.new norm (Utf8.encode t))).2 = (.ok none, []) :=
  ⟨pieces_count doc, calls_any_reported (wellFormed_events h) hd⟩

/-- **C30.** A loop over a document yields as many objects as it has object elements, counting those inside others, if and only if no
object is inside another one and every element stands for an object. -/
theorem C30_wellFormed_iff {t : Str} {doc : Forest} (h : WellFormed norm.char norm.manyRoots t doc) (hd : doc.Distinct) :
    (∃ (os : List StringOSMObj) (q : List (Option XmlEvent)), Drain XMLReader.next (XMLReader.new norm (Utf8.encode t)) os none q ∧
      os.length = doc.objectCount) ↔ doc.Flat ∧ ∀ e ∈ doc.objects, readElem e ≠ none :=
  loop_any_reported_iff (wellFormed_events h) hd

/-- **C31.** Two documents that are the same up to the order of attributes give the same results, call by call. Missing: attributes of one
element that differ only in their prefix, if their local name means something to the reader (`C31_prefix_fails`). -/
theorem C31_wellFormed_partial {t t' : Str} {doc doc' : Forest} (h : WellFormed norm.char norm.manyRoots t doc)
    (h' : WellFormed norm.char norm.manyRoots t' doc') (hs : SameUpToAttrOrder doc doc') (hd : doc.Distinct) (n : Nat) :
    (calls XMLReader.next n (XMLReader.new norm (Utf8.encode t))).1 =
      (calls XMLReader.next n (XMLReader.new norm (Utf8.encode t'))).1 := by
  rw [calls_of_reported (wellFormed_events h), calls_of_reported (wellFormed_events h')]
  exact (hs.stream hd).calls n

/-- **C32.** The object read for the `i`-th object element has the tags, nodes and members of the well formed elements in it, in document order.
Missing: objects inside objects (see `C30_wellFormed_any`), attributes of one element that differ only in their prefix, if their local name means something to the reader. -/
theorem C32_wellFormed_partial {t : Str} {doc : Forest} (h : WellFormed norm.char norm.manyRoots t doc) (hd : doc.Distinct)
    (hf : doc.Flat) (i : Nat) (kind : OSMObjectType) (as : List Attr) (kids : Forest)
    (hi : doc.objects[i]? = some (kind, as, kids)) (o : StringOSMObj)
    (ho : (calls XMLReader.next doc.objects.length (XMLReader.new norm (Utf8.encode t))).1[i]? = some (.ok (some o))) :
    objectType o = kind ∧ tags o = kids.elems.filterMap Spec.tagOf ∧
    (kind = .way → ∃ w, OSMObjT.asWay o = some w ∧ WayT.nodes w = kids.elems.filterMap Spec.ndOf) ∧
    (kind = .relation → ∃ r, OSMObjT.asRelation o = some r ∧ RelationT.members r = kids.elems.filterMap Spec.memberOf) :=
  object_reported (wellFormed_events h) hd hf i kind as kids hi o ho

/-- **C33.** A loop yields what the pieces stand for up to the first that stands for nothing. -/
theorem C33_wellFormed_any {t : Str} {doc : Forest} (h : WellFormed norm.char norm.manyRoots t doc) (hd : doc.Distinct) :
    ∃ (os : List StringOSMObj) (q : List (Option XmlEvent)), Drain XMLReader.next (XMLReader.new norm (Utf8.encode t)) os none q ∧
      os.map (fun o => some (objData o)) = ((pieces doc.events).map pieceObject).takeWhile Option.isSome :=
  loop_any_reported (wellFormed_events h) hd

/-! ## An example: prefixes for the root element, an object and an attribute, the prefix `xml`, a tab in a value, and an XML declaration -/

def prefixedText : Str :=
  str% "<?xml version='1.1' encoding=\"UTF-8\" ?>\n<o:osm xmlns:o='urn:o' xml:lang='en'><o:node id='1' lat='0' lon='0' o:note='a\tb'/></o:osm>"

def prefixedTree : Forest :=
  .text (.text (.elem ⟨some ['o'], str% "osm"⟩ [⟨⟨some (str% "xml"), str% "lang"⟩, str% "en"⟩]
    (.elem ⟨some ['o'], str% "node"⟩ [⟨⟨none, str% "id"⟩, ['1']⟩, ⟨⟨none, str% "lat"⟩, ['0']⟩, ⟨⟨none, str% "lon"⟩, ['0']⟩,
      ⟨⟨some ['o'], str% "note"⟩, str% "a\tb"⟩] .nil .nil) .nil))

/-- For examples. -/
theorem nameText_of {c : Char} {r : Str} (h : isNameStart c = true ∧ ∀ d ∈ r, isNameChar d = true) : NameText (c :: r) :=
  ⟨c, r, rfl, (isNameStart_iff c).1 h.1, fun d hd => (isNameChar_iff d).1 (h.2 d hd)⟩

/-- For examples. -/
theorem quoted_of {q : Char} {s : Str} (h : ∀ c ∈ s, isXmlChar c = true ∧ c ≠ '<' ∧ c ≠ '&' ∧ c ≠ q) : Gram.Quoted id q s s := by
  induction s with
  | nil => exact .nil
  | cons c s ih =>
    obtain ⟨h1, h2, h3, h4⟩ := h c (by simp)
    exact .plain (report := id) ((isXmlChar_iff c).1 h1) h2 h3 h4 (ih fun x hx => h x (by simp [hx]))

/-- For examples. -/
theorem attr_of {c : Char} {key v t : Str} {as : List (Str × Str)} (h1 : isNameStart c = true ∧ ∀ d ∈ key, isNameChar d = true)
    (h2 : ∀ c ∈ v, isXmlChar c = true ∧ c ≠ '<' ∧ c ≠ '&' ∧ c ≠ '\'') (h : Gram.Attrs id t as) :
    Gram.Attrs id ([' '] ++ ((c :: key) ++ ([] ++ '=' :: ([] ++ '\'' :: (v ++ '\'' :: t))))) ((c :: key, v) :: as) :=
  .cons (by decide) (by decide) (nameText_of h1) (by decide) (by decide) (.inr rfl) (quoted_of h2) h

def rootAttrs : List (Str × Str) := [(str% "xmlns:o", str% "urn:o"), (str% "xml:lang", str% "en")]
def nodeAttrs : List (Str × Str) := [(str% "id", ['1']), (str% "lat", ['0']), (str% "lon", ['0']), (str% "o:note", str% "a\tb")]

theorem prefixed_declaration : Declaration (str% "<?xml version='1.1' encoding=\"UTF-8\" ?>") :=
  ⟨str% "1.1", str% " version='1.1'", str% " encoding=\"UTF-8\"", [], [' '], .inr rfl,
    ⟨[' '], [], [], '\'', by decide, by decide, by decide, by decide, .inr rfl, rfl⟩,
    .inr ⟨str% "UTF-8", by decide, [' '], [], [], '"', by decide, by decide, by decide, by decide, .inl rfl, rfl⟩, .inl rfl, by decide, rfl⟩

theorem prefixed_toks : Gram.Toks id true true prefixedText
    [.space, .space, .start (str% "o:osm") rootAttrs, .empty (str% "o:node") nodeAttrs, .stop (str% "o:osm")] :=
  .declaration (t := str% "\n<o:osm xmlns:o='urn:o' xml:lang='en'><o:node id='1' lat='0' lon='0' o:note='a\tb'/></o:osm>") prefixed_declaration
  (.space (s := ['\n']) (by decide) (by decide)
  (.start (n := str% "o:osm") (x := str% " xmlns:o='urn:o' xml:lang='en'") (w := []) (nameText_of (by decide +kernel))
    (attr_of (key := str% "mlns:o") (v := str% "urn:o") (by decide +kernel) (by decide +kernel)
    (attr_of (key := str% "ml:lang") (v := str% "en") (by decide +kernel) (by decide +kernel) .nil)) (by decide)
  (.empty (n := str% "o:node") (x := str% " id='1' lat='0' lon='0' o:note='a\tb'") (w := []) (nameText_of (by decide +kernel))
    (attr_of (key := ['d']) (v := ['1']) (by decide +kernel) (by decide +kernel)
    (attr_of (key := str% "at") (v := ['0']) (by decide +kernel) (by decide +kernel)
    (attr_of (key := str% "on") (v := ['0']) (by decide +kernel) (by decide +kernel)
    (attr_of (key := str% ":note") (v := str% "a\tb") (by decide +kernel) (by decide +kernel) .nil)))) (by decide)
  (.stop (n := str% "o:osm") (w := []) (nameText_of (by decide +kernel)) (by decide) .nil))))

theorem plain_declares {c : Char} {r : Str} (h : c ≠ 'x') : ¬ Declares (c :: r) := by
  rintro (h' | ⟨p, h'⟩)
  · exact h (List.cons.inj h').1
  · exact h (List.cons.inj h').1

theorem prefixed_root : TagSays rootAttrs (str% "o:osm") rootAttrs ⟨some ['o'], str% "osm"⟩ [⟨⟨some (str% "xml"), str% "lang"⟩, str% "en"⟩] where
  once := by decide
  name := ⟨by decide, by decide, .inr ⟨['o'], rfl, by decide, by decide, rfl⟩⟩
  bound := by
    rintro p ⟨⟩
    exact ⟨.inr ⟨str% "urn:o", by decide⟩, by decide, by decide⟩
  attrs := .declares (.inr ⟨['o'], rfl, by decide, by decide, by decide, by decide, by decide⟩)
    (.attr (by rintro (h | ⟨p, h⟩) <;> revert h <;> simp) ⟨by decide, by decide, .inr ⟨str% "xml", rfl, by decide, by decide, rfl⟩⟩
      (by rintro p ⟨⟩; exact .inl rfl) .nil)

theorem prefixed_node : TagSays (nodeAttrs ++ rootAttrs) (str% "o:node") nodeAttrs ⟨some ['o'], str% "node"⟩
    [⟨⟨none, str% "id"⟩, ['1']⟩, ⟨⟨none, str% "lat"⟩, ['0']⟩, ⟨⟨none, str% "lon"⟩, ['0']⟩, ⟨⟨some ['o'], str% "note"⟩, str% "a\tb"⟩] where
  once := by decide
  name := ⟨by decide, by decide, .inr ⟨['o'], rfl, by decide, by decide, rfl⟩⟩
  bound := by
    rintro p ⟨⟩
    exact ⟨.inr ⟨str% "urn:o", by decide⟩, by decide, by decide⟩
  attrs := .attr (plain_declares (by decide)) ⟨by decide, by decide, .inl ⟨rfl, rfl⟩⟩ (by rintro p ⟨⟩)
    (.attr (plain_declares (by decide)) ⟨by decide, by decide, .inl ⟨rfl, rfl⟩⟩ (by rintro p ⟨⟩)
    (.attr (plain_declares (by decide)) ⟨by decide, by decide, .inl ⟨rfl, rfl⟩⟩ (by rintro p ⟨⟩)
    (.attr (plain_declares (by decide)) ⟨by decide, by decide, .inr ⟨['o'], rfl, by decide, by decide, rfl⟩⟩
      (by rintro p ⟨⟩; exact .inr ⟨str% "urn:o", by decide⟩) .nil)))

theorem prefixed_wellFormed : WellFormed Config.keep.char Config.keep.manyRoots prefixedText prefixedTree :=
  ⟨_, 1, prefixed_toks, .space (.space (.elem (ks := [_]) prefixed_root (.empty prefixed_node .nil) .nil)), .inl rfl⟩

theorem prefixed_distinct : prefixedTree.Distinct := by
  refine ⟨by decide, ⟨by decide, trivial, trivial⟩, trivial⟩

theorem prefixed_flat : prefixedTree.Flat := by simp [prefixedTree, Forest.Flat, Forest.objects, kindOf]

example (n : Nat) : ∀ r ∈ (calls XMLReader.next n (XMLReader.new .keep (Utf8.encode prefixedText))).1, ∃ o, r = .ok o :=
  C64_wellFormed ⟨_, _, rfl, prefixed_wellFormed⟩ n

/-- The prefix of the element is ignored: it is read as a node. -/
example : ∃ os : List StringOSMObj, Drain XMLReader.next (XMLReader.new .keep (Utf8.encode prefixedText)) os none [] ∧
    os.map (fun o => some (objData o)) = prefixedTree.objects.map readElem := by
  refine C30_wellFormed_partial prefixed_wellFormed prefixed_distinct prefixed_flat ?_
  have h : prefixedTree.objects.all (fun e => (readElem e).isSome) = true := by decide +kernel
  intro e he hn
  have := List.all_eq_true.1 h e he
  rw [hn] at this
  cases this

example : prefixedTree.objects.map (fun e => (readElem e).map fun d => (d.view.id, d.view.kind)) = [some (1, .node)] := by decide +kernel

/-- A prefix that is not declared, an attribute given twice, a second root element, and a file that ends in the root element. -/
example : ¬ IsDocument id false (Utf8.encode (str% "<a:b/>")) ∧ ¬ IsDocument id false (Utf8.encode (str% "<a b='1' b='2'/>")) ∧
    ¬ IsDocument id false (Utf8.encode (str% "<a/><b/>")) ∧ ¬ IsDocument id false (Utf8.encode (str% "<a><b/>")) ∧
    ¬ IsDocument id false (Utf8.encode (str% "<a/>") ++ [255]) := by
  have h : ∀ bs, IsDocument id false bs ↔ none ∉ XMLReader.new .keep bs := isDocument_iff .keep
  simp only [h]
  decide +kernel

example : (∃ n, .error .unwrap ∈ (calls XMLReader.next n (XMLReader.new .keep ((Utf8.encode prefixedText).take 120))).1) ∨
    ∀ n, (calls XMLReader.next n (XMLReader.new .keep ((Utf8.encode prefixedText).take 120))).1 =
      (calls XMLReader.next n (XMLReader.new .keep (Utf8.encode prefixedText))).1 :=
  C62_cut ⟨_, _, rfl, prefixed_wellFormed⟩ rfl 120

end Osmio
