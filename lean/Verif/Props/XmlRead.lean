import Verif.Proofs.XmlRoundtrip
import Verif.Proofs.XmlForest
import Verif.Props.Writer
/-!
# XML and OSC readers: C27–C34, C62

`norm` is what the parser does to white space in attribute values.
-/

namespace Osmio
open Spec Xml OSMObjBase

variable {f : Family}

/-! ## C30 -/

/-- **C30**, part 1: every stream of bytes is a document (a tree of elements) or has an error (malformed XML, invalid
UTF-8, or cut short), on which the reader panics. -/
theorem C30_streams (norm : Xml.Config) (bs : List UInt8) :
    (∃ doc : Forest, XMLReader.new norm bs = doc.events.map some ++ [some .other]) ∨
    ∃ evs : List XmlEvent, XMLReader.new norm bs = evs.map some ++ [none] :=
  events_forest norm bs

theorem next_end : XMLReader.next [some .other] = (.ok none, []) := rfl

theorem reduce_map {α β : Type} (g : α → β) (rs : List (Option α)) :
    (rs.map (Option.map g)).reduceOption = rs.reduceOption.map g := by
  induction rs with
  | nil => rfl
  | cons r rs ih => cases r <;> simp [List.reduceOption, ih] at * <;> exact ih

/-- Reading a document, call by call. -/
theorem calls_document (norm : Xml.Config) (bs : List UInt8) (doc : Forest)
    (h : XMLReader.new norm bs = doc.events.map some ++ [some .other]) (hf : doc.Flat) (hd : doc.Distinct) :
    ∃ rs : List (Option StringOSMObj), (calls XMLReader.next doc.objects.length (XMLReader.new norm bs)).1 = rs.map .ok ∧
      rs.map (Option.map objData) = doc.objects.map readElem ∧
      XMLReader.next (calls XMLReader.next doc.objects.length (XMLReader.new norm bs)).2 = (.ok none, []) := by
  rw [h]
  obtain ⟨rs, h1, h2, h3⟩ := calls_forest doc hf hd [some .other]
  exact ⟨rs, h1, h2, h3.trans next_end⟩

/-- **C30**, part 2. Reading a document to its end yields, in document order, one object for each node, way and
relation element, and it is the object the element stands for. Missing: objects inside objects and attributes that
differ only in their prefix and whose local name means something to the reader (neither occur in OSM files), and elements that cannot be read, see C33. -/
theorem C30_every_object_partial (norm : Xml.Config) (bs : List UInt8) (doc : Forest)
    (h : XMLReader.new norm bs = doc.events.map some ++ [some .other]) (hf : doc.Flat) (hd : doc.Distinct)
    (hr : ∀ e ∈ doc.objects, readElem e ≠ none) :
    ∃ os : List StringOSMObj, Drain XMLReader.next (XMLReader.new norm bs) os none [] ∧
      os.map (fun o => some (objData o)) = doc.objects.map readElem := by
  obtain ⟨rs, h1, h2, h3⟩ := calls_document norm bs doc h hf hd
  have hlen : doc.objects.length = rs.length := by
    have := congrArg List.length h2; simpa using this.symm
  rw [hlen] at h1 h3
  have hall : rs.all Option.isSome = true := by
    rw [List.all_eq_true]
    intro r hx
    cases r with
    | some o => rfl
    | none =>
      have : (none : Option ObjData) ∈ doc.objects.map readElem := by
        rw [← h2]; exact List.mem_map.2 ⟨none, hx, rfl⟩
      obtain ⟨e, he, he2⟩ := List.mem_map.1 this
      exact absurd he2 (hr e he)
  have hdr := (drain_of_calls rs _ h1 (.done h3)).1 hall
  refine ⟨_, hdr, ?_⟩
  rw [← h2]
  clear h1 h2 h3 hlen hdr
  induction rs with
  | nil => rfl
  | cons r rs ih =>
    cases r with
    | none => simp at hall
    | some o =>
      have := ih (by simpa using hall)
      simpa [List.reduceOption] using this

/-! ## C33 -/

/-- **C33**, what holds: one call of `next` per object element, in document order; an element that cannot be read makes its
call return `None`, and the calls after it go on with the next element. Missing: `None` is returned before the end of the file,
so that a loop over the reader stops there (`C33_early_end_fails`). -/
theorem C33_resume_partial (norm : Xml.Config) (bs : List UInt8) (doc : Forest)
    (h : XMLReader.new norm bs = doc.events.map some ++ [some .other]) (hf : doc.Flat) (hd : doc.Distinct) :
    ∃ rs : List (Option StringOSMObj),
      (calls XMLReader.next doc.objects.length (XMLReader.new norm bs)).1 = rs.map .ok ∧
      rs.map (Option.map objData) = doc.objects.map readElem ∧
      XMLReader.next (calls XMLReader.next doc.objects.length (XMLReader.new norm bs)).2 = (.ok none, []) :=
  calls_document norm bs doc h hf hd

/-- A deleted node without a position, as the API deletes nodes. -/
def deletedObj : StringOSMObj := .node { StringNode.default 5 with version_ := some 2, deleted_ := true }

/-- The document that the XML writer produces for a deleted node without a position followed by another object. -/
def deletedDoc : List UInt8 :=
  (XMLWriter.drop sampleOrder (run (xmlCall (α := Family.string.Obj) sampleOrder) (XMLWriter.new ⟨[], []⟩)
    [.writeObj deletedObj, .writeObj sampleObj]).2).2.writer.out

/-- **C33, counterexample.** Reading that document to its end gives no objects at all; one call of `next` later the
second object appears. -/
theorem C33_early_end_fails :
    ∃ q o, Drain XMLReader.next (XMLReader.new .keep deletedDoc) [] none q ∧
      XMLReader.next q = (.ok (some o), [some .other, some (.stop ⟨none, str% "osm"⟩), some .other]) ∧
      StringOSMObj.id o = StringOSMObj.id sampleObj := by
  have h1 : (XMLReader.next (XMLReader.new .keep deletedDoc)).1.toOption = some none := by decide +kernel
  have h2 : (XMLReader.next (XMLReader.next (XMLReader.new .keep deletedDoc)).2).1.toOption.join.map StringOSMObj.id =
    some (StringOSMObj.id sampleObj) := by decide +kernel
  have h3 : (XMLReader.next (XMLReader.next (XMLReader.new .keep deletedDoc)).2).2 =
    [some .other, some (.stop ⟨none, str% "osm"⟩), some .other] := by decide +kernel
  generalize hs : XMLReader.next (XMLReader.new .keep deletedDoc) = s at *
  obtain ⟨r, q⟩ := s
  generalize ht : XMLReader.next q = t at *
  obtain ⟨r2, q2⟩ := t
  cases r with
  | error _ => cases h1
  | ok r =>
    cases h1
    cases r2 with
    | error _ => cases h2
    | ok r2 =>
      cases r2 with
      | none => cases h2
      | some o =>
        cases h3
        simp only [ht] at h2
        exact ⟨q, o, .done hs, ht, by simpa [Except.toOption] using h2⟩

/-! ## C34 -/

theorem osc_collect_eq (b : Bool) (acc : List XmlEvent) (evs : List (Option XmlEvent)) :
    OSCReader.collect b acc evs = XMLReader.collect b acc evs := by
  have hp : ∀ e, oscPushNow e = pushNow e := by intro e; cases e <;> rfl
  have hb : ∀ e, oscBreakNow e = breakNow e := by intro e; cases e <;> rfl
  induction evs generalizing b acc with
  | nil => rfl
  | cons e r ih =>
    cases e with
    | none => rfl
    | some e => simp only [OSCReader.collect, XMLReader.collect, hp, hb, ih]

theorem osc_next_eq : OSCReader.next = XMLReader.next := by
  funext evs
  simp only [OSCReader.next, XMLReader.next, osc_collect_eq]

/-- **C34.** On every stream of bytes both readers yield the same objects and end the same way. -/
theorem C34_readers_agree (norm : Xml.Config) (bs : List UInt8) (os : List StringOSMObj) (e : Option Panic)
    (q : List (Option XmlEvent)) :
    Drain OSCReader.next (OSCReader.new norm bs) os e q ↔ Drain XMLReader.next (XMLReader.new norm bs) os e q := by
  rw [osc_next_eq]; rfl

/-- **C34**, call by call. -/
theorem C34_calls_agree (norm : Xml.Config) (bs : List UInt8) (n : Nat) :
    calls OSCReader.next n (OSCReader.new norm bs) = calls XMLReader.next n (XMLReader.new norm bs) := by
  rw [osc_next_eq]; rfl

/-! ## C31 -/

/-- The same document with the attributes of its elements in another order. -/
inductive SameUpToAttrOrder : Forest → Forest → Prop
  | nil : SameUpToAttrOrder .nil .nil
  | text {r r' : Forest} : SameUpToAttrOrder r r' → SameUpToAttrOrder (.text r) (.text r')
  | elem {n : Name} {as as' : List Attr} {k k' r r' : Forest} : as.Perm as' → SameUpToAttrOrder k k' →
      SameUpToAttrOrder r r' → SameUpToAttrOrder (.elem n as k r) (.elem n as' k' r')

theorem SameUpToAttrOrder.objects_nil {a b : Forest} (h : SameUpToAttrOrder a b) : a.objects = [] → b.objects = [] := by
  induction h with
  | nil => exact id
  | text _ ih => exact ih
  | @elem n as as' k k' r r' hp _ _ ihk ihr =>
    intro h
    simp only [Forest.objects] at h ⊢
    cases hk : kindOf n with
    | some kind => rw [hk] at h; cases h
    | none =>
      rw [hk] at h
      simp only [List.append_eq_nil_iff] at h ⊢
      exact ⟨ihk h.1, ihr h.2⟩

theorem SameUpToAttrOrder.flat {a b : Forest} (h : SameUpToAttrOrder a b) : a.Flat → b.Flat := by
  induction h with
  | nil => exact id
  | text _ ih => exact ih
  | elem hp h1 h2 ihk ihr => exact fun ⟨f1, f2, f3⟩ => ⟨ihk f1, fun hk => h1.objects_nil (f2 hk), ihr f3⟩

theorem SameUpToAttrOrder.distinct {a b : Forest} (h : SameUpToAttrOrder a b) : a.Distinct → b.Distinct := by
  induction h with
  | nil => exact id
  | text _ ih => exact ih
  | elem hp h1 h2 ihk ihr => exact fun ⟨f1, f2, f3⟩ => ⟨((hp.map _).filter _).nodup_iff.1 f1, ihk f2, ihr f3⟩

theorem SameUpToAttrOrder.elems {a b : Forest} (h : SameUpToAttrOrder a b) (hd : a.Distinct) :
    List.Forall₂ (fun x y : Str × List Attr => x.1 = y.1 ∧ x.2.Perm y.2 ∧ DistinctAttrs x.2) a.elems b.elems := by
  induction h with
  | nil => exact .nil
  | text _ ih => exact ih hd
  | elem hp h1 h2 ihk ihr =>
    obtain ⟨d1, d2, d3⟩ := hd
    exact .cons ⟨rfl, hp, d1⟩ (List.rel_append (ihk d2) (ihr d3))

theorem filterMap_order {β : Type} (g : Str × List Attr → Option β)
    (hg : ∀ n as bs, as.Perm bs → DistinctAttrs as → g (n, as) = g (n, bs)) {l l' : List (Str × List Attr)}
    (h : List.Forall₂ (fun x y : Str × List Attr => x.1 = y.1 ∧ x.2.Perm y.2 ∧ DistinctAttrs x.2) l l') :
    l.filterMap g = l'.filterMap g := by
  induction h with
  | nil => rfl
  | @cons a b l l' hab _ ih =>
    obtain ⟨n, as⟩ := a
    obtain ⟨m, bs⟩ := b
    obtain ⟨h1, h2, h3⟩ := hab
    simp only at h1 h2 h3
    subst h1
    simp only [List.filterMap_cons, hg n as bs h2 h3, ih]

theorem readElem_order {kind : OSMObjectType} {as bs : List Attr} {k k' : Forest} (hp : as.Perm bs)
    (ha : DistinctAttrs as) (hk : SameUpToAttrOrder k k') (hd : k.Distinct) :
    readElem (kind, as, k) = readElem (kind, bs, k') := by
  have h := hk.elems hd
  have t1 : k.elems.filterMap Spec.tagOf = k'.elems.filterMap Spec.tagOf :=
    filterMap_order _ (fun n as bs hp hd => by simp (disch := decide) only [Spec.tagOf, attr_perm hp hd]) h
  have t2 : k.elems.filterMap Spec.ndOf = k'.elems.filterMap Spec.ndOf :=
    filterMap_order _ (fun n as bs hp hd => by simp (disch := decide) only [Spec.ndOf, attr_perm hp hd]) h
  have t3 : k.elems.filterMap Spec.memberOf = k'.elems.filterMap Spec.memberOf :=
    filterMap_order _ (fun n as bs hp hd => by simp (disch := decide) only [Spec.memberOf, attr_perm hp hd]) h
  simp (disch := decide) only [readElem, readableId, objectOf, posOf, attr_perm hp ha, t1, t2, t3]
  congr 1
  funext id
  simp (disch := decide) only [objectOf, posOf, attr_perm hp ha, t1, t2, t3]

theorem SameUpToAttrOrder.read {a b : Forest} (h : SameUpToAttrOrder a b) (hd : a.Distinct) :
    a.objects.map readElem = b.objects.map readElem := by
  induction h with
  | nil => rfl
  | text _ ih => exact ih hd
  | @elem n as as' k k' r r' hp h1 h2 ihk ihr =>
    obtain ⟨d1, d2, d3⟩ := hd
    simp only [Forest.objects]
    cases kindOf n with
    | some kind => simp only [List.map_cons, ihr d3, readElem_order hp d1 h1 d2]
    | none => simp only [List.map_append, ihk d2, ihr d3]

/-- **C31**, for documents without attributes that mean something and differ only in their prefix (and without objects inside objects):
two streams that are the same document up to the order of attributes read the same, call by call. -/
theorem C31_attribute_order_partial (norm : Xml.Config) (bs bs' : List UInt8) (doc doc' : Forest)
    (h : XMLReader.new norm bs = doc.events.map some ++ [some .other])
    (h' : XMLReader.new norm bs' = doc'.events.map some ++ [some .other])
    (hs : SameUpToAttrOrder doc doc') (hf : doc.Flat) (hd : doc.Distinct) :
    ∃ rs rs' : List (Option StringOSMObj),
      (calls XMLReader.next (doc.objects.length + 1) (XMLReader.new norm bs)).1 = (rs ++ [none]).map .ok ∧
      (calls XMLReader.next (doc.objects.length + 1) (XMLReader.new norm bs')).1 = (rs' ++ [none]).map .ok ∧
      rs.map (Option.map objData) = rs'.map (Option.map objData) := by
  obtain ⟨rs, a1, a2, a3⟩ := calls_document norm bs doc h hf hd
  obtain ⟨rs', b1, b2, b3⟩ := calls_document norm bs' doc' h' (hs.flat hf) (hs.distinct hd)
  have hr := hs.read hd
  have hl : doc.objects.length = doc'.objects.length := by
    have := congrArg List.length hr; simpa using this
  refine ⟨rs, rs', ?_, ?_, by rw [a2, b2, hr]⟩
  · rw [calls_add, a1]; simp [calls, a3]
  · rw [hl, calls_add, b1]; simp [calls, b3]

/-- A way with two identifiers, one with a prefix, in both orders. -/
def prefixedDoc (swap : Bool) : List UInt8 :=
  Utf8.encode (if swap then str% "<osm xmlns:x=\"u\"><way x:id=\"2\" id=\"1\"/></osm>"
    else str% "<osm xmlns:x=\"u\"><way id=\"1\" x:id=\"2\"/></osm>")

/-- **C31, counterexample** outside the range of `C31_attribute_order_partial`: the first attribute whose local name fits is
taken, whatever its prefix. -/
theorem C31_prefix_fails :
    (XMLReader.next (XMLReader.new .keep (prefixedDoc false))).1.toOption.join.map StringOSMObj.id = some 1 ∧
    (XMLReader.next (XMLReader.new .keep (prefixedDoc true))).1.toOption.join.map StringOSMObj.id = some 2 := by
  decide +kernel

/-! ## C32 -/

/-- **C32.** Tags, way nodes and members are those of the well formed child elements, in document order: the object
read for the `i`-th object element of any document has exactly these. -/
theorem C32_children_in_order_partial (norm : Xml.Config) (bs : List UInt8) (doc : Forest)
    (h : XMLReader.new norm bs = doc.events.map some ++ [some .other]) (hf : doc.Flat) (hd : doc.Distinct)
    (i : Nat) (kind : OSMObjectType) (as : List Attr) (kids : Forest) (hi : doc.objects[i]? = some (kind, as, kids))
    (o : StringOSMObj) (ho : (calls XMLReader.next doc.objects.length (XMLReader.new norm bs)).1[i]? = some (.ok (some o))) :
    objectType o = kind ∧ tags o = kids.elems.filterMap Spec.tagOf ∧
    (kind = .way → ∃ w, OSMObjT.asWay o = some w ∧ WayT.nodes w = kids.elems.filterMap Spec.ndOf) ∧
    (kind = .relation → ∃ r, OSMObjT.asRelation o = some r ∧ RelationT.members r = kids.elems.filterMap Spec.memberOf) := by
  obtain ⟨rs, a1, a2, _⟩ := calls_document norm bs doc h hf hd
  rw [a1, List.getElem?_map, Option.map_eq_some_iff] at ho
  obtain ⟨r, hr, he⟩ := ho
  cases he
  have hx := congrArg (fun l => l[i]?) a2
  simp only [List.getElem?_map, hr, hi, Option.map_some, Option.some.injEq] at hx
  unfold readElem at hx
  obtain ⟨id, _, hid⟩ := Option.map_eq_some_iff.1 hx.symm
  have k1 : objectType o = kind := (congrArg (fun d => d.view.kind) hid).symm
  have k2 : tags o = kids.elems.filterMap Spec.tagOf := (congrArg (fun d => d.view.tags) hid).symm
  have k3 : (if kind = .way then kids.elems.filterMap Spec.ndOf else []) = (objData o).nodes := congrArg (fun d => d.nodes) hid
  have k4 : (if kind = .relation then kids.elems.filterMap Spec.memberOf else []) = (objData o).members :=
    congrArg (fun d => d.members) hid
  refine ⟨k1, k2, ?_, ?_⟩
  · rintro rfl
    cases o with
    | node _ => cases k1
    | relation _ => cases k1
    | way w => exact ⟨w, rfl, k3.symm⟩
  · rintro rfl
    cases o with
    | node _ => cases k1
    | way _ => cases k1
    | relation w => exact ⟨w, rfl, k4.symm⟩

/-- **C32**, malformed children: a child that is not a well formed tag, node reference or member can be removed from any
place without a change to the object. -/
theorem C32_malformed_child_skipped (kind : OSMObjectType) (as : List Attr) (pre post : List (Name × List Attr))
    (bad : Name × List Attr) (ht : Spec.tagOf (bad.1.loc, bad.2) = none) (hn : Spec.ndOf (bad.1.loc, bad.2) = none)
    (hm : Spec.memberOf (bad.1.loc, bad.2) = none)
    (hq : ∀ c ∈ pre ++ bad :: post, kindOf c.1 = none ∧ DistinctAttrs c.2) (ha : DistinctAttrs as) (n : Name)
    (hk : kindOf n = some kind) (r : List (Option XmlEvent)) :
    let evs := fun l : List (Name × List Attr) => l.flatMap fun c => [some (XmlEvent.start c.1 c.2), some (.stop c.1)]
    let read := fun l => (XMLReader.next (some (.start n as) :: (evs l ++ some (.stop n) :: r))).1.map (Option.map objData)
    read (pre ++ bad :: post) = read (pre ++ post) := by
  let kids : List (Name × List Attr) → Forest := fun l => l.foldr (fun c r => .elem c.1 c.2 .nil r) .nil
  have ke : ∀ l, (kids l).events.map some = l.flatMap fun c => [some (XmlEvent.start c.1 c.2), some (.stop c.1)] := by
    intro l
    induction l with
    | nil => rfl
    | cons c l ih => show some _ :: some _ :: (kids l).events.map some = _; rw [ih]; rfl
  have kd : ∀ l : List (Name × List Attr), (∀ c ∈ l, kindOf c.1 = none ∧ DistinctAttrs c.2) →
      (kids l).Distinct ∧ (kids l).objects = [] := by
    intro l hl
    induction l with
    | nil => exact ⟨trivial, rfl⟩
    | cons c l ih =>
      obtain ⟨i1, i2⟩ := ih fun x hx => hl x (by simp [hx])
      refine ⟨⟨(hl c (by simp)).2, trivial, i1⟩, ?_⟩
      show (match kindOf c.1 with | some kind => _ | none => [] ++ (kids l).objects) = []
      rw [(hl c (by simp)).1]; exact i2
  have kel : ∀ l : List (Name × List Attr), (kids l).elems = l.map fun c => (c.1.loc, c.2) := by
    intro l
    induction l with
    | nil => rfl
    | cons c l ih => show (c.1.loc, c.2) :: ([] ++ (kids l).elems) = _; rw [ih]; rfl
  have hn' : isObjName n = true := by rw [← kindOf_isSome, hk]; rfl
  intro evs read
  have hread : ∀ l, (∀ c ∈ l, kindOf c.1 = none ∧ DistinctAttrs c.2) →
      read l = .ok (readElem (kind, as, kids l)) := by
    intro l hl
    obtain ⟨h1, h2⟩ := kd l hl
    show (XMLReader.next (some (.start n as) :: (evs l ++ some (.stop n) :: r))).1.map (Option.map objData) = _
    rw [show evs l = (kids l).events.map some from (ke l).symm, next_elem n as _ hn' (quiet_of_objects h2)]
    exact congrArg Except.ok (elemToObj hk ha h1)
  have hq2 : ∀ c ∈ pre ++ post, kindOf c.1 = none ∧ DistinctAttrs c.2 := by
    intro c hc
    apply hq
    simp only [List.mem_append, List.mem_cons] at hc ⊢
    tauto
  rw [hread _ hq, hread _ hq2]
  have : ∀ {β : Type} (g : Str × List Attr → Option β), g (bad.1.loc, bad.2) = none →
      (kids (pre ++ bad :: post)).elems.filterMap g = (kids (pre ++ post)).elems.filterMap g := by
    intro β g hg
    rw [kel, kel]
    simp [hg]
  have t1 := this Spec.tagOf ht
  have t2 := this Spec.ndOf hn
  have t3 := this Spec.memberOf hm
  simp only [readElem]
  congr 2
  funext id
  simp only [objectOf, t1, t2, t3]

/-! ## C27 and C28 -/

theorem objData_shape (o : f.Obj) : ((objData o).view.kind ≠ .node → (objData o).pos = none) ∧
    ((objData o).view.kind ≠ .way → (objData o).nodes = []) ∧
    ((objData o).view.kind ≠ .relation → (objData o).members = []) := by
  cases f <;> cases o <;> refine ⟨fun h => ?_, fun h => ?_, fun h => ?_⟩ <;> first | rfl | exact absurd rfl h

theorem objData_ok {o : f.Obj} (h : XmlTexts (objData o)) : DataOk (objData o) := ⟨h, objData_shape o⟩

/-- An object that can be written and read back. -/
def Writable (o : f.Obj) : Prop :=
  version o ≠ none ∧ Representable (objData o) ∧ (objectType o = .node → (objData o).pos ≠ none)

/-- An object that can be written so that a parser gets through it: it may have tabs and line breaks in its texts. -/
def Parsable (o : f.Obj) : Prop :=
  version o ≠ none ∧ XmlTexts (objData o) ∧ (objectType o = .node → (objData o).pos ≠ none)

theorem valueChar_xml {c : Char} (h : valueChar c = true) : isXmlChar c = true := by
  simp only [valueChar, Bool.and_eq_true] at h
  exact h.1.1.1

theorem Writable.parsable {o : f.Obj} (h : Writable o) : Parsable o := by
  obtain ⟨h1, h2, h3⟩ := h
  refine ⟨h1, ⟨fun u hu c hc => valueChar_xml (h2.user u hu c hc), fun s hs c hc => plain_raw (h2.time _ hs c hc), fun kv hkv => ?_,
    fun m hm c hc => valueChar_xml (h2.roles m hm c hc)⟩, h3⟩
  exact ⟨fun c hc => valueChar_xml ((h2.tags kv hkv).1 c hc), fun c hc => valueChar_xml ((h2.tags kv hkv).2 c hc)⟩

theorem value_map {norm : Xml.Config} (hn : IsNorm norm) {t : Str} (ht : ∀ c ∈ t, valueChar c = true) : t.map norm = t := by
  refine (List.map_congr_left fun c hc => ?_).trans (List.map_id t)
  have := ht c hc
  simp only [valueChar, Bool.and_eq_true, bne_iff_ne, ne_eq] at this
  exact hn c this.1.1.2 this.1.2 this.2

/-- Representable texts come back unchanged. -/
theorem mapTexts_representable {norm : Xml.Config} (hn : IsNorm norm) {d : ObjData} (h : Representable d) : mapTexts norm d = d := by
  obtain ⟨⟨id, version, deleted, changeset, timestamp, uid, user, tags, kind⟩, pos, nodes, members⟩ := d
  obtain ⟨h1, h2, h3, h4⟩ := h
  simp only at h1 h2 h3 h4
  unfold mapTexts
  simp only [ObjData.mk.injEq, View.mk.injEq, true_and, and_true]
  refine ⟨⟨?_, ?_, ?_⟩, ?_⟩
  · cases timestamp with
    | none => rfl
    | some t =>
      cases t with
      | epoch e => rfl
      | iso s => exact congrArg (fun x => some (TimestampFormat.iso x)) (plain_map hn (h2 _ rfl))
  · cases user with
    | none => rfl
    | some u => exact congrArg some (value_map hn (h1 u rfl))
  · refine (List.map_congr_left fun kv hkv => ?_).trans (List.map_id tags)
    exact Prod.ext (value_map hn (h3 kv hkv).1) (value_map hn (h3 kv hkv).2)
  · refine (List.map_congr_left fun m hm => ?_).trans (List.map_id members)
    exact Prod.ext rfl (Prod.ext rfl (value_map hn (h4 m hm)))

/-- Objects with their versions. -/
def withVersions (os : List f.Obj) : List (ObjData × UInt32) := os.map fun o => (objData o, (version o).getD 0)

theorem flatMap_text (os : List f.Obj) (h : ∀ o ∈ os, version o ≠ none) :
    os.flatMap textOf = (withVersions os).flatMap fun x => objText x.1 x.2 := by
  induction os with
  | nil => rfl
  | cons o os ih =>
    have hv := h o (by simp)
    rw [List.flatMap_cons, ih fun x hx => h x (by simp [hx])]
    show _ = objText _ _ ++ _
    congr 1
    unfold textOf
    cases hver : version o with
    | none => exact absurd hver hv
    | some v =>
      have hg : (version o).getD 0 = v := by rw [hver]; rfl
      exact congrArg (objText (objData o)) hg.symm

theorem withVersions_ok {os : List f.Obj} (h : ∀ o ∈ os, Parsable o) : ∀ x ∈ withVersions os, DataOk x.1 := by
  intro x hx
  obtain ⟨o, ho, rfl⟩ := List.mem_map.1 hx
  exact objData_ok (h o ho).2.1

theorem readElem_written (norm : Char → Char) {os : List f.Obj} (h : ∀ o ∈ os, Parsable o) :
    (normed norm (withVersions os)).map (fun o => readElem (o.1.view.kind, (objAttrs o.1 o.2).map attrOf, objKids o.1)) =
      os.map fun o => some (readBack (mapTexts norm (objData o))) := by
  unfold normed withVersions
  rw [List.map_map, List.map_map]
  apply List.map_congr_left
  intro o ho
  obtain ⟨h1, h2, h3⟩ := h o ho
  simp only [Function.comp_apply]
  rw [readElem_obj (mapTexts_shape (objData_shape o) norm) h3]
  cases hv : version o with
  | none => exact absurd hv h1
  | some v =>
    have hg : some ((some v).getD 0) = (mapTexts norm (objData o)).view.version := hv.symm
    rw [hg]

/-- Reading a tree of written objects. -/
theorem drain_written (doc : Forest) (hf : doc.Flat) (hd : doc.Distinct) {ds : List ObjData}
    (ho : doc.objects.map readElem = ds.map some)
    (t : List (Option XmlEvent)) (e : Option Panic) (ht : Drain XMLReader.next t [] e []) :
    ∃ rs : List StringOSMObj, Drain XMLReader.next (doc.events.map some ++ t) rs e [] ∧ rs.map objData = ds := by
  obtain ⟨rs, h1, h2, h3⟩ := calls_forest doc hf hd t
  have hlen : doc.objects.length = rs.length := by
    have := congrArg List.length h2; simpa using this.symm
  rw [hlen] at h1 h3
  rw [ho] at h2
  have hall : rs.all Option.isSome = true := by
    rw [List.all_eq_true]
    intro r hx
    cases r with
    | some o => rfl
    | none =>
      have : (none : Option ObjData) ∈ ds.map some := by
        rw [← h2]; exact List.mem_map.2 ⟨none, hx, rfl⟩
      obtain ⟨o, _, he⟩ := List.mem_map.1 this
      cases he
  have hdr := (drain_of_calls rs _ h1 (Drain.congr h3 ht)).1 hall
  rw [List.append_nil] at hdr
  refine ⟨_, hdr, ?_⟩
  have := congrArg List.reduceOption h2
  rw [reduce_map] at this
  rw [this]
  clear * -
  induction ds with
  | nil => rfl
  | cons o os ih => simpa [List.reduceOption] using ih

theorem xmlForest_reads (norm : Xml.Config) (hs : List (Str × Str)) (hh : HeadersOk hs) {os : List f.Obj} (hw : ∀ o ∈ os, Parsable o) :
    (xmlForest hs (normed norm (withVersions os))).Flat ∧ (xmlForest hs (normed norm (withVersions os))).Distinct ∧
    (xmlForest hs (normed norm (withVersions os))).objects.map readElem =
      (os.map fun o => readBack (mapTexts norm (objData o))).map some := by
  refine ⟨⟨objsForest_flat _ _ trivial, ⟨(fun h => by cases h), trivial⟩⟩,
    ⟨?_, objsForest_distinct _ _ trivial, trivial⟩, ?_⟩
  · rw [List.map_map]; exact List.Nodup.filter _ (rootAttrs_nodup hh)
  · show ((objsForest (normed norm (withVersions os)) (.text .nil)).objects ++ []).map readElem = _
    rw [objsForest_objects, List.map_map]
    refine Eq.trans ?_ (readElem_written norm hw)
    simp [Forest.objects]

theorem headersOk_perm {a b : List (Str × Str)} (h : a.Perm b) (ha : HeadersOk a) : HeadersOk b :=
  ⟨fun x hx => ha.1 x (h.mem_iff.2 hx), (h.map _).nodup_iff.1 ha.2⟩

theorem run_fail (norm : Xml.Config) (t : Str) (op : List (Str × List Str)) (r : Bool) (evs : List XmlEvent) :
    Xml.run norm ⟨.fail, op, r, evs⟩ t = ⟨.fail, op, r, evs⟩ := by
  induction t with
  | nil => rfl
  | cons c t ih => exact ih

/-- A document followed by superfluous end tags. -/
theorem events_tails {norm : Xml.Config} {t : Str} {evs : List XmlEvent}
    (h : eventsOfBytes norm (Utf8.encode t) = evs.map some ++ [some .other]) (n : Nat) :
    eventsOfBytes norm (Utf8.encode (t ++ (List.replicate (n + 1) xmlTail).flatten)) =
      evs.map some ++ [some .other, none] := by
  simp only [eventsOfBytes, Utf8.decodePrefix_encode, events] at h ⊢
  generalize hs : t.foldl (step norm) initial = s at h
  have h2 := List.append_inj' h rfl
  have hc : complete s = true := by
    by_contra hc
    rw [Bool.not_eq_true] at hc
    rw [hc] at h2
    simp at h2
  have he : s.events = evs := by
    have := h2.1
    exact (List.map_inj_right (fun _ _ h => Option.some.inj h)).1 this
  obtain ⟨m, op, r, evs'⟩ := s
  simp only at he
  subst he
  cases m with
  | text p =>
    simp only [complete, Bool.and_eq_true, List.isEmpty_iff] at hc
    obtain ⟨rfl, rfl⟩ := hc
    rw [List.foldl_append, hs, List.replicate_succ, List.flatten_cons, List.foldl_append]
    have : xmlTail.foldl (step norm) ⟨.text p, [], true, evs'⟩ = ⟨.fail, [], true, evs' ++ [.other]⟩ := rfl
    rw [this]
    have := run_fail norm (List.replicate n xmlTail).flatten [] true (evs' ++ [.other])
    unfold Xml.run at this
    rw [this]
    simp [complete]
  | _ => cases hc

/-- **C27**, how texts come back: each character as the parser reports it, that is tabs and line breaks either unchanged or as spaces. The
objects may have any texts that XML has at all. -/
theorem C27_texts (norm : Xml.Config) (hn : IsNorm norm) (σ : HashOrder) (k : Sink) (hk : k.Reliable)
    (hk0 : k.out = []) (cs : List (Call f.Obj)) (hv : AllVersioned cs) (hh : HeadersOk (headersOf cs))
    (hw : ∀ o ∈ written cs, Parsable o) :
    let doc := (XMLWriter.drop σ (run (xmlCall σ) (XMLWriter.new k) cs).2).2.writer.out
    ∃ os : List StringOSMObj,
      Drain XMLReader.next (XMLReader.new norm doc) os (if cs.any Call.isClose then some .unwrap else none) [] ∧
      os.map objData = (written cs).map fun o => readBack (mapTexts norm (objData o)) := by
  intro doc
  have hdoc : doc = Utf8.encode (xmlHead (σ.order (headersOf cs)) ++ (written cs).flatMap textOf ++
      (List.replicate (cs.countP Call.isClose + 1) xmlTail).flatten) := by
    have := (C23_output_partial σ k hk cs hv).2
    rw [hk0, List.nil_append] at this
    exact this
  have hh2 : HeadersOk (σ.order (headersOf cs)) := headersOk_perm (σ.perm _).symm hh
  have hev := xml_events hn hh2 (withVersions (written cs)) (withVersions_ok hw)
  rw [← flatMap_text _ fun o ho => (hw o ho).1] at hev
  obtain ⟨r1, r2, r3⟩ := xmlForest_reads norm (σ.order (headersOf cs)) hh2 hw
  unfold XMLReader.new
  rw [hdoc]
  cases hc : cs.countP Call.isClose with
  | zero =>
    have hany : cs.any Call.isClose = false := by
      rw [List.any_eq_false]; exact List.countP_eq_zero.1 hc
    rw [hany]
    simp only [Nat.zero_add, List.replicate_one, List.flatten_cons, List.flatten_nil, List.append_nil]
    rw [hev]
    exact drain_written _ r1 r2 r3 _ _ (.done next_end)
  | succ n =>
    have hany : cs.any Call.isClose = true := by
      rw [List.any_eq_true]
      exact List.countP_pos_iff.1 (by rw [hc]; exact Nat.succ_pos n)
    rw [hany, List.replicate_succ, List.flatten_cons, ← List.append_assoc, events_tails hev n]
    exact drain_written _ r1 r2 r3 _ _ (.panic rfl)

/-- **C27**, what holds. The sink's content after any history of calls on an XML writer (with versioned, representable
objects; nodes with a position; representable headers; no faults) reads back as exactly the objects written before the first `close`,
in order, with equal contents, timestamps as text. Missing: if `close` was called before the drop, the reader panics after the last object
instead of reporting the end; objects that are not `Writable`; see the counterexamples below. -/
theorem C27_xml_roundtrip_partial (norm : Xml.Config) (hn : IsNorm norm) (σ : HashOrder) (k : Sink) (hk : k.Reliable)
    (hk0 : k.out = []) (cs : List (Call f.Obj)) (hv : AllVersioned cs) (hh : HeadersOk (headersOf cs))
    (hw : ∀ o ∈ written cs, Writable o) :
    let doc := (XMLWriter.drop σ (run (xmlCall σ) (XMLWriter.new k) cs).2).2.writer.out
    ∃ os : List StringOSMObj,
      Drain XMLReader.next (XMLReader.new norm doc) os (if cs.any Call.isClose then some .unwrap else none) [] ∧
      os.map objData = (written cs).map fun o => readBack (objData o) := by
  obtain ⟨os, h1, h2⟩ := C27_texts norm hn σ k hk hk0 cs hv hh fun o ho => (hw o ho).parsable
  exact ⟨os, h1, h2.trans (List.map_congr_left fun o ho => by rw [mapTexts_representable hn (hw o ho).2.1])⟩

theorem oscForest_reads (norm : Xml.Config) {os : List f.Obj} (hw : ∀ o ∈ os, Parsable o) :
    (oscForest (normed norm (withVersions os))).Flat ∧ (oscForest (normed norm (withVersions os))).Distinct ∧
    (oscForest (normed norm (withVersions os))).objects.map readElem =
      (os.map fun o => readBack (mapTexts norm (objData o))).map some := by
  refine ⟨⟨⟨objsForest_flat _ _ trivial, ⟨(fun h => by cases h), trivial⟩⟩, ⟨(fun h => by cases h), trivial⟩⟩,
    ⟨?_, ⟨List.nodup_nil, objsForest_distinct _ _ trivial, trivial⟩, trivial⟩, ?_⟩
  · decide +kernel
  · show (((objsForest (normed norm (withVersions os)) (.text .nil)).objects ++ []) ++ []).map readElem = _
    rw [objsForest_objects, List.map_map]
    refine Eq.trans ?_ (readElem_written norm hw)
    simp [Forest.objects]

theorem map_representable {norm : Xml.Config} (hn : IsNorm norm) {os : List f.Obj} (hw : ∀ o ∈ os, Writable o) :
    os.map (fun o => readBack (mapTexts norm (objData o))) = os.map fun o => readBack (objData o) :=
  List.map_congr_left fun o ho => by rw [mapTexts_representable hn (hw o ho).2.1]

/-- **C28**, how texts come back. -/
theorem C28_texts (norm : Xml.Config) (hn : IsNorm norm) (k : Sink) (hk : k.Reliable)
    (hk0 : k.out = []) (cs : List (Call f.Obj)) (hv : AllVersioned cs) (hw : ∀ o ∈ written cs, Parsable o) :
    let doc := (OSCWriter.drop (run oscCall (OSCWriter.new k) cs).2).2.writer.out
    ∃ os : List StringOSMObj, Drain OSCReader.next (OSCReader.new norm doc) os none [] ∧
      Drain XMLReader.next (XMLReader.new norm doc) os none [] ∧
      os.map objData = (written cs).map fun o => readBack (mapTexts norm (objData o)) := by
  intro doc
  have hdoc : doc = Utf8.encode (oscHead ++ (written cs).flatMap textOf ++ oscTail) := by
    have := (C24_one_document_partial k hk cs hv).2
    rw [hk0, List.nil_append] at this
    exact this
  have hev := osc_events hn (withVersions (written cs)) (withVersions_ok hw)
  rw [← flatMap_text _ fun o ho => (hw o ho).1] at hev
  obtain ⟨r1, r2, r3⟩ := oscForest_reads norm hw
  obtain ⟨rs, d1, d2⟩ := drain_written _ r1 r2 r3 _ _ (.done next_end)
  rw [← hev, ← hdoc] at d1
  exact ⟨rs, (C34_readers_agree norm doc rs none []).2 d1, d1, d2⟩

/-- **C28**, what holds: whatever the history of calls, the sink's content reads back, with either reader, as exactly the objects written
before the first `close`, in order, with equal contents, timestamps as text, and then the end of the file. Missing: objects that are not
`Writable`. -/
theorem C28_osc_roundtrip_partial (norm : Xml.Config) (hn : IsNorm norm) (k : Sink) (hk : k.Reliable)
    (hk0 : k.out = []) (cs : List (Call f.Obj)) (hv : AllVersioned cs) (hw : ∀ o ∈ written cs, Writable o) :
    let doc := (OSCWriter.drop (run oscCall (OSCWriter.new k) cs).2).2.writer.out
    ∃ os : List StringOSMObj, Drain OSCReader.next (OSCReader.new norm doc) os none [] ∧
      Drain XMLReader.next (XMLReader.new norm doc) os none [] ∧
      os.map objData = (written cs).map fun o => readBack (objData o) := by
  obtain ⟨os, h0, h1, h2⟩ := C28_texts norm hn k hk hk0 cs hv fun o ho => (hw o ho).parsable
  exact ⟨os, h0, h1, h2.trans (map_representable hn hw)⟩

/-- **C27/C28**, timestamps: the text that comes back equals the timestamp written (as `==` compares timestamps)
exactly for text timestamps and for epoch numbers in the `u32` range. -/
theorem C27_timestamp_iff (t : TimestampFormat) :
    TimestampFormat.eq t (.iso t.toIsoString) = true ↔
      match t with
      | .iso _ => True
      | .epoch e => 0 ≤ e.toInt ∧ e.toInt < 2 ^ 32 := by
  cases t with
  | iso s => simp [TimestampFormat.eq, TimestampFormat.toIsoString]
  | epoch e =>
    refine Iff.trans ?_ (C06_roundtrip_iff e)
    simp only [TimestampFormat.eq, beq_iff_eq]
    exact eq_comm

/-! ### Objects that do not survive -/

/-- What reading a written object gives: the identifiers read, then how reading ended. -/
def rereadIds (norm : Xml.Config) (o : StringOSMObj) : List (Except Panic (Option ObjId)) :=
  let doc := (XMLWriter.drop sampleOrder (run (xmlCall (α := Family.string.Obj) sampleOrder) (XMLWriter.new ⟨[], []⟩)
    [.writeObj o]).2).2.writer.out
  (calls XMLReader.next 2 (XMLReader.new norm doc)).1.map (Except.map (Option.map StringOSMObj.id))

/-- A node, everything fine. -/
def plainNode : StringNode := { StringNode.default 5 with version_ := some 2, latLon_ := some (⟨0⟩, ⟨0⟩) }

example : rereadIds .keep (.node plainNode) = [.ok (some 5), .ok none] := by decide +kernel

/-- **C27, counterexamples.** A text timestamp is written without escapes: with a quote or ampersand in it (the reader accepts such timestamps)
the document is malformed. A control character, which XML cannot represent, is written as it is. -/
theorem C27_malformed_fails :
    rereadIds .keep (.node { plainNode with timestamp_ := some (.iso (str% "a\"b")) }) = [.error .unwrap, .ok none] ∧
    rereadIds .keep (.node { plainNode with timestamp_ := some (.iso (str% "a&b")) }) = [.error .unwrap, .ok none] ∧
    rereadIds .keep (.node { plainNode with user_ := some [Char.ofNat 1] }) = [.error .unwrap, .ok none] := by
  decide +kernel

/-- **C27, counterexample.** Newlines in tag values are not escaped, so a parser that normalises attribute values as
the XML specification asks turns them into spaces. -/
theorem C27_newline_fails :
    let norm : Xml.Config := ⟨fun c : Char => if c = '\n' then ' ' else c, false⟩
    let doc := (XMLWriter.drop sampleOrder (run (xmlCall (α := Family.string.Obj) sampleOrder) (XMLWriter.new ⟨[], []⟩)
      [.writeObj (.node { plainNode with tags_ := [(str% "note", str% "a\nb")] })]).2).2.writer.out
    IsNorm norm ∧
    (XMLReader.next (XMLReader.new norm doc)).1.toOption.join.map StringOSMObj.tags = some [(str% "note", str% "a b")] := by
  refine ⟨?_, by decide +kernel⟩
  intro c _ h _
  simp [h]

/-- The hypotheses of `C27_xml_roundtrip_partial` and `C28_osc_roundtrip_partial` are met by a real object. -/
theorem C27_nonvacuous : HeadersOk (headersOf sampleHistory) ∧ AllVersioned (f := .string) sampleHistory ∧
    (∀ o ∈ written sampleHistory, Writable (f := .string) o) ∧ IsNorm .keep := by
  have hr : Writable (f := .string) sampleObj := by
    refine ⟨by decide +kernel, ⟨?_, ?_, ?_, ?_⟩, fun _ => ?_⟩
    · intro u hu
      have : (objData (α := Family.string.Obj) sampleObj).view.user = StringOSMObj.user sampleObj := rfl
      rw [this] at hu
      have h2 : ∀ u, StringOSMObj.user sampleObj = some u → u.all valueChar = true := by
        intro u hu
        have : (StringOSMObj.user sampleObj).all (fun u => u.all valueChar) = true := by decide +kernel
        rw [hu] at this; exact this
      exact List.all_eq_true.1 (h2 u hu)
    · intro t ht
      have : StringOSMObj.timestamp sampleObj = some t := ht
      cases t with
      | epoch _ => trivial
      | iso s =>
        have h2 : (match StringOSMObj.timestamp sampleObj with | some (.iso s) => s.all plainChar | _ => true) = true := by
          decide +kernel
        rw [this] at h2
        exact List.all_eq_true.1 h2
    · intro kv hkv
      have h2 : (StringOSMObj.tags sampleObj).all (fun kv => kv.1.all valueChar && kv.2.all valueChar) = true := by
        decide +kernel
      have := List.all_eq_true.1 h2 kv hkv
      rw [Bool.and_eq_true] at this
      exact ⟨List.all_eq_true.1 this.1, List.all_eq_true.1 this.2⟩
    · intro m hm; cases hm
    · have : ((OSMObjT.asNode (α := StringOSMObj) sampleObj).bind NodeT.latLon).isSome = true := by decide +kernel
      intro h
      have h' : (OSMObjT.asNode (α := StringOSMObj) sampleObj).bind NodeT.latLon = none := h
      rw [h'] at this; cases this
  refine ⟨?_, C23_nonvacuous.1, ?_, fun _ _ _ _ => rfl⟩
  · rw [C23_nonvacuous.2.2]
    refine ⟨?_, by decide⟩
    intro h hh
    simp only [List.mem_cons, List.not_mem_nil, or_false] at hh
    rcases hh with rfl | rfl
    · exact ⟨isKey_of rfl (by decide +kernel), by decide +kernel, by decide, by decide⟩
    · exact ⟨isKey_of rfl (by decide +kernel), by decide +kernel, by decide, by decide⟩
  · intro o ho
    have : written sampleHistory = [sampleObj, sampleObj] := rfl
    rw [this] at ho
    have ho : o = sampleObj := by
      rcases List.mem_cons.1 ho with h | h
      · exact h
      · exact List.mem_singleton.1 h
    rw [ho]; exact hr

/-! ## C29 -/

/-- The last value set for a key. -/
def lastValue (k : Str) (sets : List (Str × Str)) : Option Str := (sets.reverse.find? fun s => s.1 = k).map Prod.snd

theorem put_keys {k v : Str} {l : List (Str × Str)} :
    (put k v l).map Prod.fst = if k ∈ l.map Prod.fst then l.map Prod.fst else l.map Prod.fst ++ [k] := by
  induction l with
  | nil => simp [put]
  | cons a l ih =>
    obtain ⟨k', v'⟩ := a
    unfold put
    by_cases h : k' = k
    · simp [h]
    · simp only [h, if_false, List.map_cons, ih, List.mem_cons, Ne.symm h, false_or]
      split <;> simp

theorem put_mem {k v : Str} {l : List (Str × Str)} (hd : (l.map Prod.fst).Nodup) (x : Str × Str) :
    x ∈ put k v l ↔ x = (k, v) ∨ (x ∈ l ∧ x.1 ≠ k) := by
  induction l with
  | nil => simp [put]
  | cons a l ih =>
    obtain ⟨k', v'⟩ := a
    rw [List.map_cons, List.nodup_cons] at hd
    unfold put
    by_cases h : k' = k
    · subst h
      simp only [if_true, List.mem_cons]
      constructor
      · rintro (rfl | hx)
        · exact .inl rfl
        · refine .inr ⟨.inr hx, ?_⟩
          rintro rfl
          exact hd.1 (List.mem_map.2 ⟨x, hx, rfl⟩)
      · rintro (rfl | ⟨rfl | hx, hn⟩)
        · exact .inl rfl
        · exact absurd rfl hn
        · exact .inr hx
    · simp only [h, if_false, List.mem_cons, ih hd.2]
      constructor
      · rintro (rfl | rfl | ⟨hx, hn⟩)
        · exact .inr ⟨.inl rfl, h⟩
        · exact .inl rfl
        · exact .inr ⟨.inr hx, hn⟩
      · rintro (rfl | ⟨rfl | hx, hn⟩)
        · exact .inr (.inl rfl)
        · exact .inl rfl
        · exact .inr (.inr ⟨hx, hn⟩)

/-- Setting headers one after the other. -/
theorem puts_spec (sets : List (Str × Str)) :
    let h := sets.foldl (fun h kv => put kv.1 kv.2 h) []
    (h.map Prod.fst).Nodup ∧ ∀ k v, (k, v) ∈ h ↔ lastValue k sets = some v := by
  induction sets using List.reverseRecOn with
  | nil => simp [lastValue]
  | append_singleton sets x ih =>
    obtain ⟨ih1, ih2⟩ := ih
    simp only [List.foldl_append, List.foldl_cons, List.foldl_nil]
    refine ⟨?_, fun k v => ?_⟩
    · rw [put_keys]
      split
      · exact ih1
      · rename_i h
        rw [List.nodup_append]
        refine ⟨ih1, by simp, ?_⟩
        intro a ha b hb he
        rw [List.mem_singleton] at hb
        exact h (by rw [← hb, ← he]; exact ha)
    · rw [put_mem ih1, ih2]
      unfold lastValue
      rw [List.reverse_append, List.reverse_singleton, List.singleton_append, List.find?_cons]
      by_cases h : x.1 = k
      · subst h
        obtain ⟨a, b⟩ := x
        simp
        exact eq_comm
      · obtain ⟨a, b⟩ := x
        have h' : ¬ k = a := fun e => h e.symm
        simp only [h, h', Prod.mk.injEq, false_and, false_or, ne_eq, not_false_eq_true, and_true, decide_false]

theorem step_events (norm : Xml.Config) (s : PState) (c : Char) : s.events <+: (step norm s c).events := by
  have hg : ∀ (s : PState) (m : Mode), s.events <+: (s.goto m).events := fun _ _ => List.prefix_rfl
  have he : ∀ (s : PState), s.events <+: s.err.events := fun _ => List.prefix_rfl
  have hf : ∀ (s : PState) (p : Bool) (m : Mode), s.events <+: ((flush s p).goto m).events := by
    intro s p m
    unfold flush
    split
    · exact List.prefix_append _ _
    · exact List.prefix_rfl
  have ht : ∀ (s : PState) (n : Str) (as : List (Str × Str)) (e : Bool), s.events <+: (finishTag norm s n as e).events := by
    intro s n as e
    simp only [finishTag]
    split
    · split
      · exact List.prefix_rfl
      · exact List.prefix_append _ _
    · exact List.prefix_rfl
  have hz : ∀ (s : PState) (n : Str), s.events <+: (finishEnd s n).events := by
    intro s n
    unfold finishEnd
    split
    · exact List.prefix_rfl
    · split
      · split
        · exact List.prefix_append _ _
        · exact List.prefix_rfl
      · exact List.prefix_rfl
  unfold Xml.step
  split
  · unfold stepText
    split_ifs <;> first | exact hf _ _ _ | exact List.prefix_rfl
  · unfold stepTextEnt
    split_ifs <;> exact List.prefix_rfl
  · unfold stepLt
    split_ifs <;> exact List.prefix_rfl
  · simp only [stepBang]
    split_ifs <;> exact List.prefix_rfl
  · unfold stepComment
    split_ifs <;> first | exact hf _ _ _ | exact List.prefix_rfl
  · unfold stepCdata
    split_ifs <;> first | exact hf _ _ _ | exact List.prefix_rfl
  · unfold stepPi
    split_ifs <;> first | exact hf _ _ _ | exact List.prefix_rfl
  · unfold stepTagName
    split_ifs <;> first | exact ht _ _ _ _ | exact List.prefix_rfl
  · unfold stepInTag
    split_ifs <;> first | exact ht _ _ _ _ | exact List.prefix_rfl
  · unfold stepAttrName
    split_ifs <;> exact List.prefix_rfl
  · unfold stepAttrEq
    split_ifs <;> exact List.prefix_rfl
  · unfold stepAttrPre
    split_ifs <;> exact List.prefix_rfl
  · unfold stepAttrVal
    split_ifs <;> exact List.prefix_rfl
  · unfold stepAttrEnt
    split_ifs
    · split <;> exact List.prefix_rfl
    · exact List.prefix_rfl
    · exact List.prefix_rfl
  · unfold stepAttrDone
    split_ifs <;> first | exact ht _ _ _ _ | exact List.prefix_rfl
  · split_ifs <;> first | exact ht _ _ _ _ | exact List.prefix_rfl
  · unfold stepEndName
    split_ifs <;> first | exact hz _ _ | exact List.prefix_rfl
  · split_ifs <;> first | exact hz _ _ | exact List.prefix_rfl
  · exact List.prefix_rfl

theorem run_events (norm : Xml.Config) (t : Str) (s : PState) : s.events <+: (Xml.run norm s t).events := by
  induction t generalizing s with
  | nil => exact List.prefix_rfl
  | cons c t ih => exact (step_events norm s c).trans (ih _)

theorem events_prefix (norm : Xml.Config) (a b : Str) :
    ∃ rest, eventsOfBytes norm (Utf8.encode (a ++ b)) = (Xml.run norm initial a).events.map some ++ rest := by
  obtain ⟨l, hl⟩ := run_events norm b (Xml.run norm initial a)
  rw [← run_append] at hl
  simp only [eventsOfBytes, Utf8.decodePrefix_encode, events]
  refine ⟨l.map some ++ [if complete ((a ++ b).foldl (step norm) initial) && true then some .other else none], ?_⟩
  rw [← List.append_assoc, ← List.map_append, hl]
  rfl

/-- **C29**, for headers whose keys are XML names other than `version`, `generator` and `xmlns`, without a colon, and whose
values are representable. In the document left by any history of calls (with versioned objects, no faults), in whatever order the map
iterates, the root element has each header set before anything else exactly once, with its last value, and no other attributes than these
and the writer's own two. Missing: other keys, which make the document malformed (`C29_key_fails`). -/
theorem C29_headers_partial (norm : Xml.Config) (hn : IsNorm norm) (σ : HashOrder) (k : Sink) (hk : k.Reliable)
    (hk0 : k.out = []) (cs : List (Call f.Obj)) (hv : AllVersioned cs)
    (hh : ∀ s ∈ (cs.takeWhile Call.isHeader).filterMap Call.header?,
      IsKey s.1 ∧ (∀ c ∈ s.2, valueChar c = true) ∧ s.1 ≠ str% "version" ∧ s.1 ≠ str% "generator") :
    let doc := (XMLWriter.drop σ (run (xmlCall σ) (XMLWriter.new k) cs).2).2.writer.out
    let sets := (cs.takeWhile Call.isHeader).filterMap Call.header?
    ∃ attrs rest, XMLReader.new norm doc =
        some .other :: some .other :: some (.start ⟨none, str% "osm"⟩ attrs) :: rest ∧
      (attrs.map Attr.name).Nodup ∧
      ∀ key value, ⟨⟨none, key⟩, value⟩ ∈ attrs ↔
        (key, value) = (str% "version", str% "0.6") ∨ (key, value) = (str% "generator", str% "osmio/0.16.1") ∨
          lastValue key sets = some value := by
  intro doc sets
  have hdoc : doc = Utf8.encode (xmlHead (σ.order (headersOf cs)) ++ (written cs).flatMap textOf ++
      (List.replicate (cs.countP Call.isClose + 1) xmlTail).flatten) := by
    have := (C23_output_partial σ k hk cs hv).2
    rw [hk0, List.nil_append] at this
    exact this
  obtain ⟨p1, p2⟩ := puts_spec sets
  have hp : HeadersOk (headersOf cs) := by
    refine ⟨?_, p1⟩
    intro h hh'
    have h1 : lastValue h.1 sets = some h.2 := (p2 h.1 h.2).1 hh'
    unfold lastValue at h1
    obtain ⟨s, hs, hs2⟩ := Option.map_eq_some_iff.1 h1
    have hm : s ∈ sets := List.mem_reverse.1 (List.mem_of_find?_eq_some hs)
    have hk : s.1 = h.1 := by simpa using List.find?_some hs
    have := hh s hm
    rw [hk, hs2] at this
    exact this
  have hp2 : HeadersOk (σ.order (headersOf cs)) := headersOk_perm (σ.perm _).symm hp
  obtain ⟨rest, hr⟩ := events_prefix norm (xmlHead (σ.order (headersOf cs)))
    ((written cs).flatMap textOf ++ (List.replicate (cs.countP Call.isClose + 1) xmlTail).flatten)
  rw [run_xmlHead hn hp2, ← List.append_assoc, ← hdoc] at hr
  refine ⟨(rootAttrs (σ.order (headersOf cs))).map attrOf, rest, hr, ?_, ?_⟩
  · have := rootAttrs_nodup hp2
    rw [List.map_map]
    have h2 : (Attr.name ∘ attrOf) = (fun k : Str => Name.mk none k) ∘ Prod.fst := rfl
    rw [h2, ← List.map_map]
    exact this.map fun a b h => by cases h; rfl
  · intro key value
    have h1 : (⟨⟨none, key⟩, value⟩ : Attr) ∈ (rootAttrs (σ.order (headersOf cs))).map attrOf ↔
        (key, value) ∈ rootAttrs (σ.order (headersOf cs)) := by
      rw [List.mem_map]
      constructor
      · rintro ⟨⟨a, b⟩, h, he⟩; cases he; exact h
      · intro h; exact ⟨_, h, rfl⟩
    rw [h1]
    unfold rootAttrs
    rw [List.mem_append, (σ.perm _).mem_iff]
    have h2 := p2 key value
    have h3 : (key, value) ∈ headersOf cs ↔ lastValue key sets = some value := h2
    rw [h3]
    simp only [List.mem_cons, List.not_mem_nil, or_false, or_assoc]

/-- **C29, counterexamples**: a header named like one of the writer's own attributes, or a key that is not an XML name, makes
the document malformed. -/
theorem C29_key_fails :
    let read := fun key : Str =>
      let doc := (XMLWriter.drop sampleOrder (run (xmlCall (α := Family.string.Obj) sampleOrder) (XMLWriter.new ⟨[], []⟩)
        [.setHeader key (str% "x")]).2).2.writer.out
      XMLReader.new .keep doc
    none ∈ read (str% "generator") ∧ none ∈ read (str% "two words") ∧ none ∈ read (str% "a:b") := by
  decide +kernel

/-! ## C62 -/

theorem collect_error (b : Bool) (acc evs : List XmlEvent) (r : List XmlEvent) (q : List (Option XmlEvent))
    (h : XMLReader.collect b acc (evs.map some ++ [none]) = (.ok r, q)) :
    ∃ rest : List XmlEvent, q = rest.map some ++ [none] := by
  induction evs generalizing b acc with
  | nil => cases h
  | cons e evs ih =>
    simp only [List.map_cons, List.cons_append, XMLReader.collect] at h
    split at h
    · cases h; exact ⟨evs, rfl⟩
    · exact ih _ _ h

theorem next_error (evs : List XmlEvent) (r : Option StringOSMObj) (q : List (Option XmlEvent))
    (h : XMLReader.next (evs.map some ++ [none]) = (.ok r, q)) : ∃ rest : List XmlEvent, q = rest.map some ++ [none] := by
  unfold XMLReader.next at h
  generalize hc : XMLReader.collect false [] (evs.map some ++ [none]) = c at h
  obtain ⟨c1, c2⟩ := c
  cases c1 with
  | error p => cases h
  | ok els => cases h; exact collect_error _ _ _ _ _ hc

/-- **C62.** An error in the document (malformed XML, invalid UTF-8, or a file cut short) is never passed over in silence:
however many times `next` returned without a panic, the error is still ahead. -/
theorem C62_errors_surface (norm : Xml.Config) (bs : List UInt8) (evs : List XmlEvent)
    (h : XMLReader.new norm bs = evs.map some ++ [none]) (n : Nat)
    (hn : ∀ r ∈ (calls XMLReader.next n (XMLReader.new norm bs)).1, ∃ o, r = .ok o) :
    ∃ rest : List XmlEvent, (calls XMLReader.next n (XMLReader.new norm bs)).2 = rest.map some ++ [none] := by
  rw [h] at hn ⊢
  clear h
  induction n generalizing evs with
  | zero => exact ⟨evs, rfl⟩
  | succ n ih =>
    simp only [calls, List.mem_cons, forall_eq_or_imp] at hn ⊢
    obtain ⟨⟨o, ho⟩, h2⟩ := hn
    obtain ⟨rest, hr⟩ := next_error evs o (XMLReader.next (evs.map some ++ [none])).2 (by rw [← ho])
    rw [hr] at h2 ⊢
    exact ih rest h2

/-- **C62**, for reading to the end: if the reader reports the end, it has not reached the error; if it has consumed the
whole stream, it panicked. -/
theorem C62_no_silent_end (norm : Xml.Config) (bs : List UInt8) (evs : List XmlEvent)
    (h : XMLReader.new norm bs = evs.map some ++ [none]) (os : List StringOSMObj) (e : Option Panic)
    (q : List (Option XmlEvent)) (hd : Drain XMLReader.next (XMLReader.new norm bs) os e q) :
    (e = none → none ∈ q) ∧ (q = [] → e = some .unwrap) := by
  rw [h] at hd
  clear h
  generalize hs : evs.map some ++ [none] = s at hd
  induction hd generalizing evs with
  | done hx =>
    subst hs
    obtain ⟨rest, rfl⟩ := next_error evs _ _ hx
    simp
  | @panic s s' p hx =>
    refine ⟨(fun h => by cases h), fun _ => ?_⟩
    unfold XMLReader.next at hx
    have : ∀ (b : Bool) (acc : List XmlEvent) (l : List (Option XmlEvent)) p q,
        XMLReader.collect b acc l = (.error p, q) → p = .unwrap := by
      intro b acc l
      induction l generalizing b acc with
      | nil => intro p q h; cases h
      | cons x l ih =>
        intro p q h
        cases x with
        | none => cases h; rfl
        | some x =>
          simp only [XMLReader.collect] at h
          split at h
          · cases h
          · exact ih _ _ _ _ h
    generalize hc : XMLReader.collect false [] s = c at hx
    obtain ⟨c1, c2⟩ := c
    cases c1 with
    | ok _ => cases hx
    | error p' => cases hx; rw [this _ _ _ _ _ hc]
  | more hx _ ih =>
    subst hs
    obtain ⟨rest, hr⟩ := next_error evs _ _ hx
    exact ih rest hr.symm

/-- A document cut short. -/
example : none ∈ XMLReader.new .keep (deletedDoc.take 120) := by decide +kernel

end Osmio
