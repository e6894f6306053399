import Verif.Proofs.XmlLex
import Verif.Props.XmlRead
/-!
# Reading XML and OSC texts: C30–C34 for documents given by the grammar of XML

The properties of `Props/XmlRead.lean` speak of a document as what the parser reports. Here a document is a text of the
grammar in `Spec/XmlLex.lean`.
-/

namespace Osmio
open Spec Spec.Lex Xml OSMObjBase

theorem toks_distinct {b : Bool} {t : Str} {ts : List Tok} (h : Toks b t ts) :
    ∀ n as, .start n as ∈ ts ∨ .empty n as ∈ ts → (as.map SrcAttr.key).Nodup := by
  induction h with
  | nil => simp
  | space _ _ _ ih => simpa using ih
  | text _ _ _ _ ih => simpa using ih
  | comment _ _ _ _ ih => simpa using ih
  | cdata _ _ _ ih => simpa using ih
  | pi _ _ _ _ _ _ ih => simpa using ih
  | @start b m a as' w t ts _ _ hd _ _ ih =>
    intro n as h
    simp only [List.mem_cons, Tok.start.injEq, reduceCtorEq, false_or] at h
    rcases h with (⟨_, rfl⟩ | h) | h
    · exact hd
    · exact ih n as (.inl h)
    · exact ih n as (.inr h)
  | @empty b m a as' w t ts _ _ hd _ _ ih =>
    intro n as h
    simp only [List.mem_cons, Tok.empty.injEq, reduceCtorEq, false_or] at h
    rcases h with h | ⟨_, rfl⟩ | h
    · exact ih n as (.inl h)
    · exact hd
    · exact ih n as (.inr h)
  | stop _ _ _ ih => simpa using ih

theorem tree_distinct {ts : List Tok} {f : Forest} (h : Tree ts f) :
    (∀ n as, .start n as ∈ ts ∨ .empty n as ∈ ts → (as.map SrcAttr.key).Nodup) → f.Distinct := by
  induction h with
  | nil => intro _; trivial
  | text _ ih => intro hd; exact ih fun n as h => hd n as (by simpa using h)
  | space _ ih => intro hd; exact ih fun n as h => hd n as (by simpa using h)
  | @empty n as ts f _ ih =>
    intro hd
    refine ⟨?_, trivial, ih fun n as h => hd n as (h.imp (List.mem_cons_of_mem _) (List.mem_cons_of_mem _))⟩
    exact DistinctAttrs.of_nodup (by simpa [List.map_map, Function.comp_def, SrcAttr.attr] using hd n as (.inr (by simp)))
  | @elem n as ks k ts f _ _ ihk ih =>
    intro hd
    refine ⟨?_, ihk fun n as h => hd n as ?_, ih fun n as h => hd n as ?_⟩
    · exact DistinctAttrs.of_nodup (by simpa [List.map_map, Function.comp_def, SrcAttr.attr] using hd n as (.inl (by simp)))
    · rcases h with h | h
      · exact .inl (by simp [h])
      · exact .inr (by simp [h])
    · rcases h with h | h
      · exact .inl (by simp [h])
      · exact .inr (by simp [h])

/-- In a document no attribute is repeated. -/
theorem document_distinct {t : Str} {ts : List Tok} {f : Forest} (h : Document t ts f) : f.Distinct := by
  have key : ∀ {t ts f}, Body t ts f → f.Distinct := by
    intro t ts f h
    have ht := tree_body h
    cases h with
    | mk h _ _ _ _ _ => exact tree_distinct ht (toks_distinct h)
  cases h with
  | plain h => exact key h
  | declared _ h => exact (key h :)

/-- The parser reports a text as this tree. The events at the end are those of the text after the root element and of the end of the document. -/
def ReportedAs (norm : Xml.Config) (t : Str) (doc : Forest) : Prop :=
  eventsOfBytes norm (Utf8.encode t) = doc.events.map some ++ [some .other] ∨ eventsOfBytes norm (Utf8.encode t) = doc.events.map some

/-- Reading a text, call by call. -/
theorem calls_reported {norm : Xml.Config} {t : Str} {doc : Forest} (h : ReportedAs norm t doc) (hd : doc.Distinct)
    (hf : doc.Flat) :
    ∃ rs : List (Option StringOSMObj),
      (calls XMLReader.next doc.objects.length (XMLReader.new norm (Utf8.encode t))).1 = rs.map .ok ∧
      rs.map (Option.map objData) = doc.objects.map readElem ∧
      XMLReader.next (calls XMLReader.next doc.objects.length (XMLReader.new norm (Utf8.encode t))).2 = (.ok none, []) := by
  rcases h with e | e
  · exact calls_document norm _ doc e hf hd
  · rw [XMLReader.new, e]
    obtain ⟨rs, h1, h2, h3⟩ := calls_forest doc hf hd []
    rw [List.append_nil] at h1 h3
    exact ⟨rs, h1, h2, h3⟩

/-- Reading a document, call by call. -/
theorem calls_text {norm : Xml.Config} (hn : IsNorm norm) {t : Str} {ts : List Tok} {doc : Forest} (h : Document t ts doc)
    (hf : doc.Flat) :
    ∃ rs : List (Option StringOSMObj),
      (calls XMLReader.next doc.objects.length (XMLReader.new norm (Utf8.encode t))).1 = rs.map .ok ∧
      rs.map (Option.map objData) = doc.objects.map readElem ∧
      XMLReader.next (calls XMLReader.next doc.objects.length (XMLReader.new norm (Utf8.encode t))).2 = (.ok none, []) :=
  calls_reported (document_events hn h) (document_distinct h) hf

/-- What a loop over the calls of a reader sees, if each call gives an object. -/
theorem drain_all {next : List (Option XmlEvent) → Res (Option StringOSMObj) × List (Option XmlEvent)}
    {q : List (Option XmlEvent)} {es : List (OSMObjectType × List Attr × Forest)} {rs : List (Option StringOSMObj)}
    (h1 : (calls next es.length q).1 = rs.map .ok) (h2 : rs.map (Option.map objData) = es.map readElem)
    (h3 : next (calls next es.length q).2 = (.ok none, [])) (hr : ∀ e ∈ es, readElem e ≠ none) :
    ∃ os : List StringOSMObj, Drain next q os none [] ∧ os.map (fun o => some (objData o)) = es.map readElem := by
  induction es generalizing q rs with
  | nil =>
    cases rs with
    | nil => exact ⟨[], .done h3, rfl⟩
    | cons _ _ => simp at h2
  | cons e es ih =>
    cases rs with
    | nil => simp at h2
    | cons r rs =>
      simp only [List.map_cons, List.cons.injEq] at h2
      cases r with
      | none => exact absurd h2.1.symm (hr e (by simp))
      | some o =>
        simp only [List.length_cons, calls, List.map_cons, List.cons.injEq] at h1 h3
        obtain ⟨os, ho, he⟩ := ih h1.2 h2.2 h3 fun x hx => hr x (by simp [hx])
        refine ⟨o :: os, .more (Prod.ext h1.1 rfl) ho, ?_⟩
        · simp only [List.map_cons, he, ← h2.1]; rfl

/-! ## A document -/

/-- An example in an unusual layout. -/
def sampleText : Str :=
  str% "<?xml version=\"1.0\"?> <!-- a > b --><osm\n version = '0.6' ><node lon='0' lat=\"1\" id='&#49;&#x30;'>a &lt; b<![CDATA[<way/>]]><tag v='&quot;x&quot;' k=\"k\"/></node ><?p?></osm>"

def sampleToks : List Tok :=
  [.space, .space, .space, .start (str% "osm") [⟨str% "version", str% "0.6", str% "0.6"⟩],
    .start (str% "node") [⟨str% "lon", str% "0", str% "0"⟩, ⟨str% "lat", str% "1", str% "1"⟩, ⟨str% "id", str% "&#49;&#x30;", str% "10"⟩],
    .text, .text, .empty (str% "tag") [⟨str% "v", str% "&quot;x&quot;", str% "\"x\""⟩, ⟨str% "k", str% "k", str% "k"⟩],
    .stop (str% "node"), .space, .stop (str% "osm")]

def sampleTree : Forest :=
  .text (.text (.text (.elem ⟨none, str% "osm"⟩ [⟨⟨none, str% "version"⟩, str% "0.6"⟩]
    (.elem ⟨none, str% "node"⟩ [⟨⟨none, str% "lon"⟩, str% "0"⟩, ⟨⟨none, str% "lat"⟩, str% "1"⟩, ⟨⟨none, str% "id"⟩, str% "10"⟩]
      (.text (.text (.elem ⟨none, str% "tag"⟩ [⟨⟨none, str% "v"⟩, str% "\"x\""⟩, ⟨⟨none, str% "k"⟩, str% "k"⟩] .nil .nil)))
      (.text .nil)) .nil)))

instance (s : Str) : Decidable (Ws s) := by unfold Ws; infer_instance
instance (s : Str) : Decidable (XmlChars s) := decidable_of_iff _ xmlChars_iff.symm
instance (b : Nat) (c : Char) (d : Nat) : Decidable (Spec.Value.Digit b c d) := by unfold Spec.Value.Digit; infer_instance
instance (c : Char) : Decidable (Spec.XmlChar c) := decidable_of_iff _ (isXmlChar_iff c)
/-- For examples. -/
theorem isName_of {c : Char} {r : Str} (h : isNameStart c = true ∧ c ≠ ':' ∧ ∀ d ∈ r, isNameChar d = true ∧ d ≠ ':') :
    IsName (c :: r) := isName_iff.2 ⟨c, r, rfl, h.1, h.2.1, h.2.2⟩
/-- For examples. -/
theorem plain_value {q : Char} {s : Str} (h : ∀ c ∈ s, isXmlChar c = true ∧ c ≠ '<' ∧ c ≠ '&' ∧ c ≠ q ∧ c ≠ '\t' ∧ c ≠ '\n' ∧ c ≠ '\r') :
    Quoted q s s := by
  induction s with
  | nil => exact .nil
  | cons c s ih =>
    obtain ⟨h1, h2, h3, h4, h5, h6, h7⟩ := h c (by simp)
    exact .plain ((isXmlChar_iff c).1 h1) h2 h3 h4 h5 h6 h7 (ih fun x hx => h x (by simp [hx]))
/-- For examples. -/
theorem plain_text {s t : Str} (h : ∀ c ∈ s, isXmlChar c = true ∧ c ≠ '<' ∧ c ≠ '&') (ht : Text t) : Text (s ++ t) := by
  induction s with
  | nil => exact ht
  | cons c s ih =>
    obtain ⟨h1, h2, h3⟩ := h c (by simp)
    exact .plain ((isXmlChar_iff c).1 h1) h2 h3 (ih fun x hx => h x (by simp [hx]))

theorem sample_attr {w key w1 w2 src value t : Str} {q : Char} {as : List SrcAttr} (h1 : w ≠ []) (h2 : Ws w) (h3 : IsName key)
    (h4 : key ≠ str% "xmlns") (h5 : Ws w1 ∧ Ws w2 ∧ (q = '"' ∨ q = '\'')) (h6 : Quoted q src value) (h : Attrs t as) :
    Attrs (w ++ (key ++ (w1 ++ '=' :: (w2 ++ q :: (src ++ q :: t))))) (⟨key, src, value⟩ :: as) :=
  .cons h1 h2 h3 h4 h5.1 h5.2.1 h5.2.2 h6 h

theorem sample_osm : Attrs (str% "\n version = '0.6'") [⟨str% "version", str% "0.6", str% "0.6"⟩] :=
  sample_attr (w := str% "\n ") (key := str% "version") (w1 := [' ']) (w2 := [' ']) (q := '\'') (by decide) (by decide)
    (isName_of (by decide +kernel)) (by decide) (by decide) (plain_value (s := str% "0.6") (by decide +kernel)) .nil

theorem sample_id : Quoted '\'' (str% "&#49;&#x30;") (str% "10") :=
  .ref (r := str% "&#49;") (.dec (s := str% "49") (c := '1') (.more (s := ['4']) (n := 4) (d := 9) (.digit (by decide)) (by decide)) (by decide))
    (.ref (r := str% "&#x30;") (.hex (s := str% "30") (c := '0') (.more (s := ['3']) (n := 3) (d := 0) (.digit (by decide)) (by decide)) (by decide)) .nil)

theorem sample_node : Attrs (str% " lon='0' lat=\"1\" id='&#49;&#x30;'")
    [⟨str% "lon", str% "0", str% "0"⟩, ⟨str% "lat", str% "1", str% "1"⟩, ⟨str% "id", str% "&#49;&#x30;", str% "10"⟩] :=
  sample_attr (w := [' ']) (key := str% "lon") (w1 := []) (w2 := []) (q := '\'') (by decide) (by decide)
    (isName_of (by decide +kernel)) (by decide) (by decide) (plain_value (s := str% "0") (by decide +kernel))
  (sample_attr (w := [' ']) (key := str% "lat") (w1 := []) (w2 := []) (q := '"') (by decide) (by decide)
    (isName_of (by decide +kernel)) (by decide) (by decide) (plain_value (s := str% "1") (by decide +kernel))
  (sample_attr (w := [' ']) (key := str% "id") (w1 := []) (w2 := []) (q := '\'') (by decide) (by decide)
    (isName_of (by decide +kernel)) (by decide) (by decide) sample_id .nil))

theorem sample_v : Quoted '\'' (str% "&quot;x&quot;") (str% "\"x\"") :=
  .ref (r := str% "&quot;") (.entity (name := str% "quot") (by decide))
    (.plain (by decide) (by decide) (by decide) (by decide) (by decide) (by decide) (by decide)
      (.ref (r := str% "&quot;") (.entity (name := str% "quot") (by decide)) .nil))

theorem sample_tag : Attrs (str% " v='&quot;x&quot;' k=\"k\"")
    [⟨str% "v", str% "&quot;x&quot;", str% "\"x\""⟩, ⟨str% "k", str% "k", str% "k"⟩] :=
  sample_attr (w := [' ']) (key := str% "v") (w1 := []) (w2 := []) (q := '\'') (by decide) (by decide)
    (isName_of (by decide +kernel)) (by decide) (by decide) sample_v
  (sample_attr (w := [' ']) (key := str% "k") (w1 := []) (w2 := []) (q := '"') (by decide) (by decide)
    (isName_of (by decide +kernel)) (by decide) (by decide) (plain_value (s := str% "k") (by decide +kernel)) .nil)

theorem sample_toks : Toks true (sampleText.drop 21) sampleToks.tail :=
  .space (s := [' ']) (by decide) (by decide)
  (.comment (s := str% " a > b ") (by decide +kernel) (by decide) (by decide)
  (.start (n := str% "osm") (a := str% "\n version = '0.6'") (w := [' ']) (isName_of (by decide +kernel)) sample_osm (by decide) (by decide)
  (.start (n := str% "node") (a := str% " lon='0' lat=\"1\" id='&#49;&#x30;'") (w := []) (isName_of (by decide +kernel)) sample_node
    (by decide) (by decide)
  (.text (s := str% "a &lt; b") (by decide)
    (plain_text (s := str% "a ") (by decide +kernel) (.ref (r := str% "&lt;") (.entity (name := str% "lt") (c := '<') (by decide))
      (plain_text (s := str% " b") (by decide +kernel) .nil))) (by decide)
  (.cdata (s := str% "<way/>") (by decide +kernel) (by decide)
  (.empty (n := str% "tag") (a := str% " v='&quot;x&quot;' k=\"k\"") (w := []) (isName_of (by decide +kernel)) sample_tag (by decide) (by decide)
  (.stop (n := str% "node") (w := [' ']) (isName_of (by decide +kernel)) (by decide)
  (.pi (n := str% "p") (s := []) (isName_of (by decide +kernel)) (by decide) (by decide) (by decide) (by decide)
  (.stop (n := str% "osm") (w := []) (isName_of (by decide +kernel)) (by decide) .nil)))))))))

theorem sample_kids : Tree [.start (str% "node") [⟨str% "lon", str% "0", str% "0"⟩, ⟨str% "lat", str% "1", str% "1"⟩, ⟨str% "id", str% "&#49;&#x30;", str% "10"⟩],
    .text, .text, .empty (str% "tag") [⟨str% "v", str% "&quot;x&quot;", str% "\"x\""⟩, ⟨str% "k", str% "k", str% "k"⟩],
    .stop (str% "node"), .space]
    (.elem ⟨none, str% "node"⟩ [⟨⟨none, str% "lon"⟩, str% "0"⟩, ⟨⟨none, str% "lat"⟩, str% "1"⟩, ⟨⟨none, str% "id"⟩, str% "10"⟩]
      (.text (.text (.elem ⟨none, str% "tag"⟩ [⟨⟨none, str% "v"⟩, str% "\"x\""⟩, ⟨⟨none, str% "k"⟩, str% "k"⟩] .nil .nil)))
      (.text .nil)) :=
  .elem (ks := [_, _, _]) (.text (.text (.empty .nil))) (.space .nil)

theorem sample_document : Document sampleText sampleToks sampleTree :=
  .declared (decl := str% "<?xml version=\"1.0\"?>") (t := sampleText.drop 21) (by decide)
    (.mk (before := [.space, .space]) (root := sampleToks.drop 3) (after := []) (n := str% "osm")
      (ks := (sampleToks.drop 4).dropLast) sample_toks (by simp) (by simp) (.inr rfl) sample_kids
      (.space (.space (.elem (ks := (sampleToks.drop 4).dropLast) sample_kids .nil))))

theorem sample_flat : sampleTree.Flat := by
  simp [sampleTree, Forest.Flat, Forest.objects, kindOf]

theorem sample_readable : ∀ e ∈ sampleTree.objects, readElem e ≠ none := by
  have h : sampleTree.objects.all (fun e => (readElem e).isSome) = true := by decide +kernel
  intro e he hn
  have := List.all_eq_true.1 h e he
  rw [hn] at this
  cases this

/-! ## C30 -/

/-- **C30** for texts. Reading any document, however it is laid out, whatever text, comments, CDATA sections, processing
instructions and other elements it contains, and however the characters of attribute values are spelled, yields, in
document order, one object for each node, way and relation element, and it is the object the element stands for. Missing:
objects inside objects (`C30_nested_fails`), elements that cannot be read (C33), name spaces. -/
theorem C30_text_partial {norm : Xml.Config} (hn : IsNorm norm) {t : Str} {ts : List Tok} {doc : Forest}
    (h : Document t ts doc) (hf : doc.Flat) (hr : ∀ e ∈ doc.objects, readElem e ≠ none) :
    ∃ os : List StringOSMObj, Drain XMLReader.next (XMLReader.new norm (Utf8.encode t)) os none [] ∧
      os.map (fun o => some (objData o)) = doc.objects.map readElem := by
  obtain ⟨rs, h1, h2, h3⟩ := calls_text hn h hf
  exact drain_all h1 h2 h3 hr

example : ∃ os : List StringOSMObj, Drain XMLReader.next (XMLReader.new .keep (Utf8.encode sampleText)) os none [] ∧
    os.map (fun o => some (objData o)) = sampleTree.objects.map readElem :=
  C30_text_partial (fun _ _ _ _ => rfl) sample_document sample_flat sample_readable

example : sampleTree.objects.map (fun e => (readElem e).map fun d => (d.view.id, d.view.tags)) =
    [some (10, [(str% "k", str% "\"x\"")])] := by decide +kernel

/-- **C30** for texts and the OSC reader. -/
theorem C30_text_osc_partial {norm : Xml.Config} (hn : IsNorm norm) {t : Str} {ts : List Tok} {doc : Forest}
    (h : Document t ts doc) (hf : doc.Flat) (hr : ∀ e ∈ doc.objects, readElem e ≠ none) :
    ∃ os : List StringOSMObj, Drain OSCReader.next (OSCReader.new norm (Utf8.encode t)) os none [] ∧
      os.map (fun o => some (objData o)) = doc.objects.map readElem := by
  rw [osc_next_eq]
  exact C30_text_partial hn h hf hr

/-- **C30, counterexample** with an object inside an object: the way is yielded at the end of the node, without what follows;
the node is lost; and the end of the way is reported as the end of the file, although an object follows. -/
theorem C30_nested_fails :
    let doc := str% "<osm><way id=\"1\"><node id=\"2\" lat=\"0\" lon=\"0\"/><nd ref=\"3\"/></way><way id=\"4\"/></osm>"
    ((calls XMLReader.next 3 (XMLReader.new .keep (Utf8.encode doc))).1.map fun r =>
      r.toOption.join.map fun o => (StringOSMObj.id o, (OSMObjT.asWay o).map WayT.nodes)) =
    [some (1, some []), none, some (4, some [])] := by
  decide +kernel

/-! ## C31 -/

/-- Two events that differ at most in the order of attributes. -/
inductive EvSame : XmlEvent → XmlEvent → Prop
  | start {n : Name} {as bs : List Attr} : as.Perm bs → DistinctAttrs as → EvSame (.start n as) (.start n bs)
  | stop (n : Name) : EvSame (.stop n) (.stop n)
  | other : EvSame .other .other

theorem EvSame.filterMap {β : Type} (g : XmlEvent → Option β) (hg : ∀ e e', EvSame e e' → g e = g e') {l l' : List XmlEvent}
    (h : List.Forall₂ EvSame l l') : l.filterMap g = l'.filterMap g := by
  induction h with
  | nil => rfl
  | cons h _ ih => simp only [List.filterMap_cons, hg _ _ h, ih]

theorem EvSame.object {l l' : List XmlEvent} (h : List.Forall₂ EvSame l l') : xmlElementsToOsmObj l = xmlElementsToOsmObj l' := by
  have t1 : getTags l = getTags l' := EvSame.filterMap _ (fun e e' h => by
    cases h with
    | @start n as bs hp hd =>
      have hd' : DistinctAttrs bs := hd.perm hp
      rw [model_tagOf hd, model_tagOf hd']; simp (disch := decide) only [Spec.tagOf, attr_perm hp hd]
    | _ => rfl) h
  have t2 : getNodes l = getNodes l' := EvSame.filterMap _ (fun e e' h => by
    cases h with
    | @start n as bs hp hd =>
      have hd' : DistinctAttrs bs := hd.perm hp
      rw [model_ndOf hd, model_ndOf hd']; simp (disch := decide) only [Spec.ndOf, attr_perm hp hd]
    | _ => rfl) h
  have t3 : getMembers l = getMembers l' := EvSame.filterMap _ (fun e e' h => by
    cases h with
    | @start n as bs hp hd =>
      have hd' : DistinctAttrs bs := hd.perm hp
      rw [model_memberOf hd, model_memberOf hd']; simp (disch := decide) only [Spec.memberOf, attr_perm hp hd]
    | _ => rfl) h
  cases h with
  | nil => rfl
  | cons h _ =>
    cases h with
    | stop => rfl
    | other => rfl
    | @start n as bs hp hd =>
      have hd' : DistinctAttrs bs := hd.perm hp
      have key : ∀ {ks : List Str}, (ks.Nodup ∧ ∀ k ∈ ks, k ∈ Forest.attrNames) → takeAttrs as ks = takeAttrs bs ks := by
        intro ks hk
        rw [lookups hk hd, lookups hk hd']
        exact List.map_congr_left fun k hm => attr_perm hp hd k (hk.2 k hm)
      have k1 := key (ks := [str% "id", str% "version", str% "changeset", str% "timestamp", str% "uid", str% "user",
        str% "lat", str% "lon", str% "visible"]) (by decide)
      have k2 := key (ks := [str% "id", str% "version", str% "changeset", str% "timestamp", str% "uid", str% "user",
        str% "visible"]) (by decide)
      simp only [takeAttrs, List.cons.injEq, and_true] at k1 k2
      obtain ⟨l1, l2, l3, l4, l5, l6, l7, l8, l9⟩ := k1
      obtain ⟨_, _, _, _, _, _, m9⟩ := k2
      simp only [xmlElementsToOsmObj, nodeXmlElementsToOsmObj, wayXmlElementsToOsmObj, relationXmlElementsToOsmObj,
        l1, l2, l3, l4, l5, l6, l7, l8, l9, m9, t1, t2, t3]

/-- The same for streams, in which errors are in the same places. -/
def StreamSame (q q' : List (Option XmlEvent)) : Prop := List.Forall₂ (Option.Rel EvSame) q q'

theorem StreamSame.collect {q q' : List (Option XmlEvent)} (h : StreamSame q q') (b : Bool) {acc acc' : List XmlEvent}
    (ha : List.Forall₂ EvSame acc acc') :
    (∃ l l', (XMLReader.collect b acc q).1 = .ok l ∧ (XMLReader.collect b acc' q').1 = .ok l' ∧ List.Forall₂ EvSame l l' ∧
      StreamSame (XMLReader.collect b acc q).2 (XMLReader.collect b acc' q').2) ∨
    ∃ p, (XMLReader.collect b acc q).1 = .error p ∧ (XMLReader.collect b acc' q').1 = .error p ∧
      StreamSame (XMLReader.collect b acc q).2 (XMLReader.collect b acc' q').2 := by
  induction h generalizing b acc acc' with
  | nil => exact .inl ⟨acc, acc', rfl, rfl, ha, .nil⟩
  | cons h hq ih =>
    cases h with
    | none => exact .inr ⟨_, rfl, rfl, hq⟩
    | @some e e' h =>
      have hp : pushNow e' = pushNow e := by cases h <;> rfl
      have hb : breakNow e' = breakNow e := by cases h <;> rfl
      have ha' : List.Forall₂ EvSame (if (b || pushNow e) = true then acc ++ [e] else acc)
          (if (b || pushNow e) = true then acc' ++ [e'] else acc') := by
        split
        · exact List.rel_append ha (.cons h .nil)
        · exact ha
      simp only [XMLReader.collect, hp, hb]
      cases breakNow e with
      | true => exact .inl ⟨_, _, rfl, rfl, ha', hq⟩
      | false => simpa using ih (b || pushNow e) ha'

theorem StreamSame.next {q q' : List (Option XmlEvent)} (h : StreamSame q q') :
    (XMLReader.next q).1 = (XMLReader.next q').1 ∧ StreamSame (XMLReader.next q).2 (XMLReader.next q').2 := by
  have hc := h.collect false (.nil : List.Forall₂ EvSame [] [])
  unfold XMLReader.next
  generalize XMLReader.collect false [] q = x at *
  generalize XMLReader.collect false [] q' = y at *
  obtain ⟨x1, x2⟩ := x
  obtain ⟨y1, y2⟩ := y
  rcases hc with ⟨l, l', h1, h2, h3, h4⟩ | ⟨p, h1, h2, h3⟩
  · cases h1; cases h2
    exact ⟨by simp only [EvSame.object h3], h4⟩
  · cases h1; cases h2
    exact ⟨rfl, h3⟩

theorem StreamSame.calls {q q' : List (Option XmlEvent)} (h : StreamSame q q') (n : Nat) :
    (calls XMLReader.next n q).1 = (calls XMLReader.next n q').1 := by
  induction n generalizing q q' with
  | zero => rfl
  | succ n ih =>
    obtain ⟨h1, h2⟩ := h.next
    simp only [Spec.calls, h1, ih h2]

theorem SameUpToAttrOrder.stream {a b : Forest} (h : SameUpToAttrOrder a b) (hd : a.Distinct) :
    StreamSame (a.events.map some) (b.events.map some) := by
  have key : List.Forall₂ EvSame a.events b.events := by
    induction h with
    | nil => exact .nil
    | text _ ih => exact .cons .other (ih hd)
    | @elem n as as' k k' r r' hp h1 h2 ihk ihr =>
      obtain ⟨d1, d2, d3⟩ := hd
      exact .cons (.start hp d1) (List.rel_append (ihk d2) (.cons (.stop n) (ihr d3)))
  unfold StreamSame
  rw [List.forall₂_map_left_iff, List.forall₂_map_right_iff]
  exact key.imp fun _ _ h => .some h

theorem object_trailing (l : List XmlEvent) : xmlElementsToOsmObj (l ++ [.other]) = xmlElementsToOsmObj l := by
  have h : ∀ {β : Type} (g : XmlEvent → Option β), g .other = none → (l ++ [XmlEvent.other]).filterMap g = l.filterMap g := by
    intro β g hg; simp [hg]
  have t1 : getTags (l ++ [.other]) = getTags l := h Osmio.tagOf rfl
  have t2 : getNodes (l ++ [.other]) = getNodes l := h Osmio.ndOf rfl
  have t3 : getMembers (l ++ [.other]) = getMembers l := h Osmio.memberOf rfl
  cases l with
  | nil => rfl
  | cons e l =>
    cases e with
    | stop => rfl
    | other => rfl
    | start n as =>
      rw [List.cons_append] at t1 t2 t3 ⊢
      simp only [xmlElementsToOsmObj, nodeXmlElementsToOsmObj, wayXmlElementsToOsmObj, relationXmlElementsToOsmObj, t1, t2, t3]

theorem collect_trailing (q : List (Option XmlEvent)) (b : Bool) (acc : List XmlEvent) :
    XMLReader.collect b acc (q ++ [some .other]) = ((XMLReader.collect b acc q).1, (XMLReader.collect b acc q).2 ++ [some .other]) ∨
    ∃ l, XMLReader.collect b acc q = (.ok l, []) ∧ ∃ l', XMLReader.collect b acc (q ++ [some .other]) = (.ok l', []) ∧
      (l' = l ∨ l' = l ++ [.other]) := by
  induction q generalizing b acc with
  | nil =>
    right
    refine ⟨acc, rfl, if b then acc ++ [.other] else acc, ?_, ?_⟩
    · cases b <;> rfl
    · cases b
      · exact .inl rfl
      · exact .inr rfl
  | cons e q ih =>
    cases e with
    | none => exact .inl rfl
    | some e =>
      simp only [List.cons_append, XMLReader.collect]
      cases breakNow e with
      | true => exact .inl rfl
      | false => exact ih _ _

theorem calls_trailing (q : List (Option XmlEvent)) (n : Nat) :
    (calls XMLReader.next n (q ++ [some .other])).1 = (calls XMLReader.next n q).1 := by
  induction n generalizing q with
  | zero => rfl
  | succ n ih =>
    rcases collect_trailing q false [] with h | ⟨l, h1, l', h2, h3⟩
    · have : XMLReader.next (q ++ [some .other]) = ((XMLReader.next q).1, (XMLReader.next q).2 ++ [some .other]) := by
        unfold XMLReader.next
        rw [h]
        cases XMLReader.collect false [] q with
        | mk a b => cases a <;> rfl
      simp only [calls, this, ih]
    · have : XMLReader.next (q ++ [some .other]) = XMLReader.next q := by
        unfold XMLReader.next
        rw [h1, h2]
        rcases h3 with rfl | rfl
        · rfl
        · simp only [object_trailing]
      simp only [calls, this]

/-- Reading a text is reading the events of its tree. -/
theorem calls_of_reported {norm : Xml.Config} {t : Str} {doc : Forest} (h : ReportedAs norm t doc)
    (n : Nat) : (calls XMLReader.next n (XMLReader.new norm (Utf8.encode t))).1 = (calls XMLReader.next n (doc.events.map some)).1 := by
  unfold XMLReader.new
  rcases h with e | e
  · rw [e, calls_trailing]
  · rw [e]

theorem calls_of_text {norm : Xml.Config} (hn : IsNorm norm) {t : Str} {ts : List Tok} {doc : Forest} (h : Document t ts doc)
    (n : Nat) : (calls XMLReader.next n (XMLReader.new norm (Utf8.encode t))).1 = (calls XMLReader.next n (doc.events.map some)).1 :=
  calls_of_reported (document_events hn h) n

/-- **C31** for texts: two documents that are the same up to the order of attributes (whatever the layout, and even with
objects inside objects) give the same results, call by call. Missing: name spaces (`C31_prefix_fails`). -/
theorem C31_text_partial {norm : Xml.Config} (hn : IsNorm norm) {t t' : Str} {ts ts' : List Tok} {doc doc' : Forest}
    (h : Document t ts doc) (h' : Document t' ts' doc') (hs : SameUpToAttrOrder doc doc') (n : Nat) :
    (calls XMLReader.next n (XMLReader.new norm (Utf8.encode t))).1 =
      (calls XMLReader.next n (XMLReader.new norm (Utf8.encode t'))).1 := by
  rw [calls_of_text hn h, calls_of_text hn h']
  exact (hs.stream (document_distinct h)).calls n

/-- **C31** for bytes, whatever the parser reports them to be: `C31_attribute_order_partial` without the condition on
objects inside objects, for any number of calls. Missing: attributes that mean something and differ only in
their prefix. -/
theorem C31_streams_partial (norm : Xml.Config) (bs bs' : List UInt8) (doc doc' : Forest)
    (h : XMLReader.new norm bs = doc.events.map some ++ [some .other])
    (h' : XMLReader.new norm bs' = doc'.events.map some ++ [some .other])
    (hs : SameUpToAttrOrder doc doc') (hd : doc.Distinct) (n : Nat) :
    (calls XMLReader.next n (XMLReader.new norm bs)).1 = (calls XMLReader.next n (XMLReader.new norm bs')).1 := by
  rw [h, h', calls_trailing, calls_trailing]
  exact (hs.stream hd).calls n

/-- A way with its attributes in one order or the other. -/
theorem swapped_document (swap : Bool) :
    Document (if swap then str% "<way uid='2' id='1'/>" else str% "<way id='1' uid='2'/>")
      [.empty (str% "way") (if swap then [⟨str% "uid", ['2'], ['2']⟩, ⟨str% "id", ['1'], ['1']⟩]
        else [⟨str% "id", ['1'], ['1']⟩, ⟨str% "uid", ['2'], ['2']⟩])]
      (.elem ⟨none, str% "way"⟩ ((if swap then [⟨str% "uid", ['2'], ['2']⟩, ⟨str% "id", ['1'], ['1']⟩]
        else [⟨str% "id", ['1'], ['1']⟩, ⟨str% "uid", ['2'], ['2']⟩]).map SrcAttr.attr) .nil .nil) := by
  have a1 : ∀ {t as}, Attrs t as → Attrs (str% " id='1'" ++ t) (⟨str% "id", ['1'], ['1']⟩ :: as) := fun h =>
    sample_attr (w := [' ']) (key := str% "id") (w1 := []) (w2 := []) (q := '\'') (by decide) (by decide)
      (isName_of (by decide +kernel)) (by decide) (by decide) (plain_value (s := ['1']) (by decide +kernel)) h
  have a2 : ∀ {t as}, Attrs t as → Attrs (str% " uid='2'" ++ t) (⟨str% "uid", ['2'], ['2']⟩ :: as) := fun h =>
    sample_attr (w := [' ']) (key := str% "uid") (w1 := []) (w2 := []) (q := '\'') (by decide) (by decide)
      (isName_of (by decide +kernel)) (by decide) (by decide) (plain_value (s := ['2']) (by decide +kernel)) h
  cases swap
  · exact .plain (.mk (before := []) (root := [_]) (after := [])
      (.empty (n := str% "way") (w := []) (isName_of (by decide +kernel)) (a1 (a2 .nil)) (by decide) (by decide) .nil)
      (by simp) (by simp) (.inl rfl) .nil (.empty .nil))
  · exact .plain (.mk (before := []) (root := [_]) (after := [])
      (.empty (n := str% "way") (w := []) (isName_of (by decide +kernel)) (a2 (a1 .nil)) (by decide) (by decide) .nil)
      (by simp) (by simp) (.inl rfl) .nil (.empty .nil))

example : (calls XMLReader.next 5 (XMLReader.new .keep (Utf8.encode (str% "<way id='1' uid='2'/>")))).1 =
    (calls XMLReader.next 5 (XMLReader.new .keep (Utf8.encode (str% "<way uid='2' id='1'/>")))).1 :=
  C31_text_partial (fun _ _ _ _ => rfl) (swapped_document false) (swapped_document true)
    (.elem (List.Perm.swap _ _ _) .nil .nil) 5

/-! ## C32, C33 -/

theorem object_reported {norm : Xml.Config} {t : Str} {doc : Forest} (h : ReportedAs norm t doc) (hd : doc.Distinct)
    (hf : doc.Flat) (i : Nat) (kind : OSMObjectType) (as : List Attr) (kids : Forest)
    (hi : doc.objects[i]? = some (kind, as, kids)) (o : StringOSMObj)
    (ho : (calls XMLReader.next doc.objects.length (XMLReader.new norm (Utf8.encode t))).1[i]? = some (.ok (some o))) :
    objectType o = kind ∧ tags o = kids.elems.filterMap Spec.tagOf ∧
    (kind = .way → ∃ w, OSMObjT.asWay o = some w ∧ WayT.nodes w = kids.elems.filterMap Spec.ndOf) ∧
    (kind = .relation → ∃ r, OSMObjT.asRelation o = some r ∧ RelationT.members r = kids.elems.filterMap Spec.memberOf) := by
  obtain ⟨rs, a1, a2, _⟩ := calls_reported h hd hf
  rw [a1, List.getElem?_map, Option.map_eq_some_iff] at ho
  obtain ⟨r, hr, he⟩ := ho
  cases he
  have hx := congrArg (fun l => l[i]?) a2
  simp only [List.getElem?_map, hr, hi, Option.map_some, Option.some.injEq] at hx
  unfold readElem at hx
  obtain ⟨id, _, hid⟩ := Option.map_eq_some_iff.1 hx.symm
  have k1 : objectType o = kind := (congrArg (fun d => d.view.kind) hid).symm
  have k2 : tags o = kids.elems.filterMap Spec.tagOf := (congrArg (fun d => d.view.tags) hid).symm
  have k3 : (if kind = .way then kids.elems.filterMap Spec.ndOf else []) = (objData o).nodes := congrArg (fun d => d.nodes) hid
  have k4 : (if kind = .relation then kids.elems.filterMap Spec.memberOf else []) = (objData o).members :=
    congrArg (fun d => d.members) hid
  refine ⟨k1, k2, ?_, ?_⟩
  · rintro rfl
    cases o with
    | node _ => cases k1
    | relation _ => cases k1
    | way w => exact ⟨w, rfl, k3.symm⟩
  · rintro rfl
    cases o with
    | node _ => cases k1
    | way _ => cases k1
    | relation w => exact ⟨w, rfl, k4.symm⟩

/-- **C32** for texts: the object read for the `i`-th object element has the tags, nodes and members of the well formed
elements in it, in document order. Missing: objects inside objects, name spaces. -/
theorem C32_text_partial {norm : Xml.Config} (hn : IsNorm norm) {t : Str} {ts : List Tok} {doc : Forest} (h : Document t ts doc)
    (hf : doc.Flat) (i : Nat) (kind : OSMObjectType) (as : List Attr) (kids : Forest)
    (hi : doc.objects[i]? = some (kind, as, kids)) (o : StringOSMObj)
    (ho : (calls XMLReader.next doc.objects.length (XMLReader.new norm (Utf8.encode t))).1[i]? = some (.ok (some o))) :
    objectType o = kind ∧ tags o = kids.elems.filterMap Spec.tagOf ∧
    (kind = .way → ∃ w, OSMObjT.asWay o = some w ∧ WayT.nodes w = kids.elems.filterMap Spec.ndOf) ∧
    (kind = .relation → ∃ r, OSMObjT.asRelation o = some r ∧ RelationT.members r = kids.elems.filterMap Spec.memberOf) :=
  object_reported (document_events hn h) (document_distinct h) hf i kind as kids hi o ho

example : ∃ o, (calls XMLReader.next 1 (XMLReader.new .keep (Utf8.encode sampleText))).1[0]? = some (.ok (some o)) ∧
    tags o = [(str% "k", str% "\"x\"")] := by
  obtain ⟨rs, h1, h2, _⟩ := calls_text (norm := .keep) (fun _ _ _ _ => rfl) sample_document sample_flat
  have hl : sampleTree.objects.length = 1 := by decide
  have e : (sampleTree.objects.map readElem).map (Option.map fun d => d.view.tags) = [some [(str% "k", str% "\"x\"")]] := by
    decide +kernel
  have e2 : (rs.map (Option.map objData)).map (Option.map fun d => d.view.tags) = [some [(str% "k", str% "\"x\"")]] := by rw [h2, e]
  rw [hl] at h1
  rw [h1]
  rcases rs with _ | ⟨_ | o, _ | ⟨r, rs⟩⟩
  · cases e2
  · cases e2
  · cases e2
  · exact ⟨o, rfl, Option.some.inj (List.cons.inj e2).1⟩
  · exact absurd (congrArg List.length e2) (by simp)

/-- **C33** for texts, what holds: one call per object element, in document order; an element that cannot be read makes its
call return `None`, and the calls after it go on with the next element. -/
theorem C33_text_resume_partial {norm : Xml.Config} (hn : IsNorm norm) {t : Str} {ts : List Tok} {doc : Forest}
    (h : Document t ts doc) (hf : doc.Flat) :
    ∃ rs : List (Option StringOSMObj),
      (calls XMLReader.next doc.objects.length (XMLReader.new norm (Utf8.encode t))).1 = rs.map .ok ∧
      rs.map (Option.map objData) = doc.objects.map readElem ∧
      XMLReader.next (calls XMLReader.next doc.objects.length (XMLReader.new norm (Utf8.encode t))).2 = (.ok none, []) :=
  calls_text hn h hf

/-! ## No panic -/

theorem next_some (q : List XmlEvent) : ∃ (o : Option StringOSMObj) (q' : List XmlEvent), XMLReader.next (q.map some) = (.ok o, q'.map some) := by
  have key : ∀ b acc, ∃ (l q' : List XmlEvent), XMLReader.collect b acc (q.map some) = (.ok l, q'.map some) := by
    induction q with
    | nil => exact fun b acc => ⟨acc, [], rfl⟩
    | cons e q ih =>
      intro b acc
      simp only [List.map_cons, XMLReader.collect]
      cases breakNow e with
      | true => exact ⟨_, q, rfl⟩
      | false => exact ih _ _
  obtain ⟨l, q', h⟩ := key false []
  exact ⟨xmlElementsToOsmObj l, q', by simp only [XMLReader.next, h]⟩

/-- The parser's classes of characters are those of XML 1.0 (productions [2], [4] and [4a]). -/
theorem C64_characters (c : Char) : (isXmlChar c = true ↔ Spec.XmlChar c) ∧ (isNameStart c = true ↔ Spec.NameStart c) ∧
    (isNameChar c = true ↔ Spec.NameChar c) := ⟨isXmlChar_iff c, isNameStart_iff c, isNameChar_iff c⟩

example : Spec.NameChar '-' ∧ ¬ Spec.NameStart '-' := by
  rw [← (C64_characters _).2.1, ← (C64_characters _).2.2]
  exact ⟨by decide +kernel, by decide +kernel⟩

/-- No call of the reader panics if the parser reports no error. -/
theorem calls_ok {norm : Xml.Config} {t : Str} {doc : Forest} (h : ReportedAs norm t doc)
    (n : Nat) : ∀ r ∈ (calls XMLReader.next n (XMLReader.new norm (Utf8.encode t))).1, ∃ o, r = .ok o := by
  rw [calls_of_reported h]
  generalize doc.events = q
  induction n generalizing q with
  | zero => intro r hr; cases hr
  | succ n ih =>
    obtain ⟨o, q', e⟩ := next_some q
    intro r hr
    simp only [calls, e, List.mem_cons] at hr
    rcases hr with rfl | hr
    · exact ⟨o, rfl⟩
    · exact ih q' r hr

/-- **C64.** No call of the reader panics on a document, whatever it contains and however often it is called. -/
theorem C64_documents {norm : Xml.Config} (hn : IsNorm norm) {t : Str} {ts : List Tok} {doc : Forest} (h : Document t ts doc)
    (n : Nat) : ∀ r ∈ (calls XMLReader.next n (XMLReader.new norm (Utf8.encode t))).1, ∃ o, r = .ok o :=
  calls_ok (document_events hn h) n

example (n : Nat) : ∀ r ∈ (calls XMLReader.next n (XMLReader.new .keep (Utf8.encode sampleText))).1, ∃ o, r = .ok o :=
  C64_documents (norm := .keep) (t := sampleText) (fun _ _ _ _ => rfl) sample_document n

/-- **C64** for the OSC reader. -/
theorem C64_documents_osc {norm : Xml.Config} (hn : IsNorm norm) {t : Str} {ts : List Tok} {doc : Forest} (h : Document t ts doc)
    (n : Nat) : ∀ r ∈ (calls OSCReader.next n (OSCReader.new norm (Utf8.encode t))).1, ∃ o, r = .ok o := by
  rw [osc_next_eq]
  exact C64_documents hn h n

end Osmio
