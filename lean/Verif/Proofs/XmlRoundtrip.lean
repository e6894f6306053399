import Verif.Proofs.XmlObj
import Verif.Proofs.XmlRead
import Verif.Spec.Writer
/-! # Lemmas: written documents as trees -/

namespace Osmio.Xml
open Spec

/-- Children without content. -/
def kidsForest (cs : List (Str × List (Str × Str))) (tail : Forest) : Forest :=
  cs.foldr (fun c r => .text (.elem ⟨none, c.1⟩ (c.2.map attrOf) .nil r)) tail

/-- The children of an object. -/
def children (d : ObjData) : List (Str × List (Str × Str)) :=
  d.nodes.map (fun n => (str% "nd", [(str% "ref", i64Str n)])) ++
  d.members.map (fun m => (str% "member",
    [(str% "type", m.1.nameLong), (str% "ref", i64Str m.2.1), (str% "role", m.2.2)])) ++
  d.view.tags.map (fun t => (str% "tag", [(str% "k", t.1), (str% "v", t.2)]))

/-- The content of an object element. -/
def objKids (d : ObjData) : Forest :=
  if d.view.kind = .node ∧ d.view.tags = [] then .nil else kidsForest (children d) (.text .nil)

theorem kidsForest_events (cs : List (Str × List (Str × Str))) (tail : Forest) :
    (kidsForest cs tail).events = cs.flatMap (fun c => childEvents c.1 c.2) ++ tail.events := by
  induction cs with
  | nil => rfl
  | cons c cs ih =>
    show XmlEvent.other :: .start _ _ :: ([] ++ .stop _ :: (kidsForest cs tail).events) = _
    rw [ih]; simp [childEvents]

theorem objEvents_eq (d : ObjData) (v : UInt32) :
    objEvents d v = elemEvents ⟨none, d.view.kind.nameLong⟩ ((objAttrs d v).map attrOf) (objKids d) := by
  unfold objEvents objKids elemEvents
  split
  · rfl
  · rw [kidsForest_events]
    simp [kidsEvents, children, Forest.events, List.flatMap_map]

/-- Objects followed by more content. -/
def objsForest (l : List (ObjData × UInt32)) (tail : Forest) : Forest :=
  l.foldr (fun o r => .text (.elem ⟨none, o.1.view.kind.nameLong⟩ ((objAttrs o.1 o.2).map attrOf) (objKids o.1) r)) tail

theorem objsForest_events (l : List (ObjData × UInt32)) (tail : Forest) :
    (objsForest l tail).events = l.flatMap (fun o => .other :: objEvents o.1 o.2) ++ tail.events := by
  induction l with
  | nil => rfl
  | cons c cs ih =>
    show XmlEvent.other :: .start _ _ :: (_ ++ .stop _ :: (objsForest cs tail).events) = _
    rw [ih, List.flatMap_cons, objEvents_eq]; simp [elemEvents]

theorem kindOf_kind (k : OSMObjectType) : kindOf ⟨none, k.nameLong⟩ = some k := by cases k <;> rfl

theorem kidsForest_quiet (cs : List (Str × List (Str × Str))) (tail : Forest)
    (h : ∀ c ∈ cs, kindOf ⟨none, c.1⟩ = none) : (kidsForest cs tail).objects = tail.objects := by
  induction cs with
  | nil => rfl
  | cons c cs ih =>
    show (match kindOf ⟨none, c.1⟩ with | some kind => _ | none => [] ++ (kidsForest cs tail).objects) = _
    rw [h c (by simp)]
    exact ih fun x hx => h x (by simp [hx])

theorem children_quiet (d : ObjData) : ∀ c ∈ children d, kindOf ⟨none, c.1⟩ = none := by
  intro c hc
  simp only [children, List.mem_append, List.mem_map] at hc
  rcases hc with (⟨n, _, rfl⟩ | ⟨n, _, rfl⟩) | ⟨n, _, rfl⟩ <;> rfl

theorem objKids_quiet (d : ObjData) : (objKids d).objects = [] := by
  unfold objKids
  split
  · rfl
  · rw [kidsForest_quiet _ _ (children_quiet d)]; rfl

theorem kidsForest_flat (cs : List (Str × List (Str × Str))) (tail : Forest) (ht : tail.Flat) :
    (kidsForest cs tail).Flat := by
  induction cs with
  | nil => exact ht
  | cons c cs ih => exact ⟨trivial, fun _ => rfl, ih⟩

theorem kidsForest_distinct (cs : List (Str × List (Str × Str))) (tail : Forest) (ht : tail.Distinct)
    (h : ∀ c ∈ cs, (c.2.map Prod.fst).Nodup) : (kidsForest cs tail).Distinct := by
  induction cs with
  | nil => exact ht
  | cons c cs ih =>
    refine ⟨?_, trivial, ih fun x hx => h x (by simp [hx])⟩
    have := h c (by simp)
    rw [List.map_map]
    exact List.Nodup.filter _ this

theorem objKids_flat (d : ObjData) : (objKids d).Flat := by
  unfold objKids
  split
  · trivial
  · exact kidsForest_flat _ _ trivial

theorem objKids_distinct (d : ObjData) : (objKids d).Distinct := by
  unfold objKids
  split
  · trivial
  · refine kidsForest_distinct _ _ trivial ?_
    intro c hc
    simp only [children, List.mem_append, List.mem_map] at hc
    rcases hc with (⟨n, _, rfl⟩ | ⟨n, _, rfl⟩) | ⟨n, _, rfl⟩
    · simp
    · simp only [List.map_cons, List.map_nil]; decide
    · simp only [List.map_cons, List.map_nil]; decide

theorem objsForest_flat (l : List (ObjData × UInt32)) (tail : Forest) (ht : tail.Flat) : (objsForest l tail).Flat := by
  induction l with
  | nil => exact ht
  | cons c cs ih => exact ⟨objKids_flat _, fun _ => objKids_quiet _, ih⟩

theorem objAttrs_distinct (d : ObjData) (v : UInt32) : DistinctAttrs ((objAttrs d v).map attrOf) := by
  unfold DistinctAttrs
  rw [List.map_map]
  exact List.Nodup.filter _ (objAttrs_nodup d v)

theorem objsForest_distinct (l : List (ObjData × UInt32)) (tail : Forest) (ht : tail.Distinct) :
    (objsForest l tail).Distinct := by
  induction l with
  | nil => exact ht
  | cons c cs ih => exact ⟨objAttrs_distinct _ _, objKids_distinct _, ih⟩

theorem objsForest_objects (l : List (ObjData × UInt32)) (tail : Forest) :
    (objsForest l tail).objects =
      l.map (fun o => (o.1.view.kind, (objAttrs o.1 o.2).map attrOf, objKids o.1)) ++ tail.objects := by
  induction l with
  | nil => rfl
  | cons c cs ih =>
    show (match kindOf ⟨none, c.1.view.kind.nameLong⟩ with | some kind => (kind, _, _) :: (objsForest cs tail).objects | none => _) = _
    rw [kindOf_kind, ih]; rfl

/-! ## What is read back -/

theorem kidsForest_elems (cs : List (Str × List (Str × Str))) (tail : Forest) :
    (kidsForest cs tail).elems = cs.map (fun c => (c.1, c.2.map attrOf)) ++ tail.elems := by
  induction cs with
  | nil => rfl
  | cons c cs ih =>
    show (c.1, c.2.map attrOf) :: ([] ++ (kidsForest cs tail).elems) = _
    rw [ih]; rfl

theorem filterMap_some {α β γ : Type} (l : List α) (f : α → β) (g : β → Option γ) (h : α → γ)
    (hg : ∀ a ∈ l, g (f a) = some (h a)) : (l.map f).filterMap g = l.map h := by
  induction l with
  | nil => rfl
  | cons a l ih =>
    rw [List.map_cons, List.filterMap_cons_some (hg a (by simp)), ih fun x hx => hg x (by simp [hx]), List.map_cons]

theorem filterMap_none {α β γ : Type} (l : List α) (f : α → β) (g : β → Option γ)
    (hg : ∀ a ∈ l, g (f a) = none) : (l.map f).filterMap g = [] := by
  rw [List.filterMap_eq_nil_iff]
  intro b hb
  obtain ⟨a, ha, rfl⟩ := List.mem_map.1 hb
  exact hg a ha

theorem objKids_elems {d : ObjData} (hd : DataShape d) :
    (objKids d).elems = (children d).map (fun c => (c.1, c.2.map attrOf)) := by
  unfold objKids
  split
  · rename_i h
    have h1 := hd.2.1 (by rw [h.1]; decide)
    have h2 := hd.2.2 (by rw [h.1]; decide)
    simp [children, h.2, h1, h2, Forest.elems]
  · rw [kidsForest_elems]; simp [Forest.elems]

theorem fromStr_nameLong (k : OSMObjectType) : OSMObjectType.fromStr k.nameLong = some k := by cases k <;> rfl

theorem kids_read {d : ObjData} (hd : DataShape d) :
    (objKids d).elems.filterMap Spec.tagOf = d.view.tags ∧ (objKids d).elems.filterMap Spec.ndOf = d.nodes ∧
      (objKids d).elems.filterMap Spec.memberOf = d.members := by
  rw [objKids_elems hd]
  simp only [children, List.map_append, List.map_map, List.filterMap_append]
  refine ⟨?_, ?_, ?_⟩
  · rw [filterMap_none d.nodes _ _ (fun _ _ => rfl), filterMap_none d.members _ _ (fun _ _ => rfl),
      filterMap_some d.view.tags _ Spec.tagOf id]
    · simp
    · intro _ _; rfl
  · rw [filterMap_none d.members _ _ (fun _ _ => rfl), filterMap_none d.view.tags _ _ (fun _ _ => rfl),
      filterMap_some d.nodes _ Spec.ndOf id]
    · simp
    · intro n _; exact parseI64_i64Str n
  · rw [filterMap_none d.nodes _ _ (fun _ _ => rfl), filterMap_none d.view.tags _ _ (fun _ _ => rfl),
      filterMap_some d.members _ Spec.memberOf id]
    · simp
    · intro m _
      show (match (some (i64Str m.2.1)).bind parseI64, (some m.1.nameLong).bind OSMObjectType.fromStr with
        | some r, some t => some (t, r, (some m.2.2).getD []) | _, _ => none) = _
      simp [parseI64_i64Str, fromStr_nameLong]

theorem attr_append (k : Str) (a b : List Attr) : attr k (a ++ b) = (attr k a).or (attr k b) := by
  unfold attr
  rw [List.find?_append]
  cases List.find? (fun a => decide (a.name.loc = k)) a <;> simp

theorem attr_attr? (k k' : Str) (o : Option (Str × Str)) :
    attr k ((attr? k' o).map fun x => attrOf (x.1, x.2.2)) = if k' = k then o.map Prod.snd else none := by
  cases o with
  | none => simp [attr?, attr]
  | some tv =>
    by_cases h : k' = k <;> simp [attr?, attr, attrOf, h]

theorem attr_objAttrs (d : ObjData) (v : UInt32) :
    let as := (objAttrs d v).map attrOf
    attr (str% "id") as = some (i64Str d.view.id) ∧
    attr (str% "visible") as = some (if d.view.deleted then str% "false" else str% "true") ∧
    attr (str% "version") as = some (u32Str v) ∧
    attr (str% "user") as = d.view.user ∧
    attr (str% "uid") as = d.view.uid.map u32Str ∧
    attr (str% "changeset") as = d.view.changesetId.map u32Str ∧
    attr (str% "timestamp") as = d.view.timestamp.map TimestampFormat.display ∧
    attr (str% "lat") as = d.pos.map (fun p => p.1.display) ∧
    attr (str% "lon") as = d.pos.map (fun p => p.2.display) := by
  have h : (objAttrs d v).map attrOf = [attrOf (str% "id", i64Str d.view.id),
      attrOf (str% "visible", if d.view.deleted then str% "false" else str% "true"), attrOf (str% "version", u32Str v)] ++
      ((attr? (str% "user") (d.view.user.map fun u => (escaped u, u))).map fun x => attrOf (x.1, x.2.2)) ++
      ((attr? (str% "uid") (d.view.uid.map fun u => (u32Str u, u32Str u))).map fun x => attrOf (x.1, x.2.2)) ++
      ((attr? (str% "changeset") (d.view.changesetId.map fun u => (u32Str u, u32Str u))).map fun x => attrOf (x.1, x.2.2)) ++
      ((attr? (str% "timestamp") (d.view.timestamp.map fun t => (t.display, t.display))).map fun x => attrOf (x.1, x.2.2)) ++
      ((attr? (str% "lat") (d.pos.map fun p => (p.1.display, p.1.display))).map fun x => attrOf (x.1, x.2.2)) ++
      ((attr? (str% "lon") (d.pos.map fun p => (p.2.display, p.2.display))).map fun x => attrOf (x.1, x.2.2)) := by
    simp [objAttrs, moreAttrs, List.map_map, Function.comp_def]
  intro as
  have has : as = (objAttrs d v).map attrOf := rfl
  rw [h] at has
  rw [has]
  simp only [attr_append, attr_attr?, Option.map_map]
  refine ⟨?_, ?_, ?_, ?_, ?_, ?_, ?_, ?_, ?_⟩
  · rfl
  · rfl
  · rfl
  all_goals simp [attr, attrOf, Function.comp_def]

theorem bind_u32 (o : Option UInt32) : (o.map u32Str).bind parseU32 = o := by
  cases o with
  | none => rfl
  | some n => exact parseU32_u32Str n

/-- What a written object is read as. -/
theorem readElem_obj {d : ObjData} (hd : DataShape d) (hp : d.view.kind = .node → d.pos ≠ none) (v : UInt32) :
    readElem (d.view.kind, (objAttrs d v).map attrOf, objKids d) =
      some (readBack { d with view := { d.view with version := some v } }) := by
  obtain ⟨a1, a2, a3, a4, a5, a6, a7, a8, a9⟩ := attr_objAttrs d v
  obtain ⟨k1, k2, k3⟩ := kids_read hd
  have hid : readableId d.view.kind ((objAttrs d v).map attrOf) = some d.view.id := by
    unfold readableId
    rw [if_neg, a1]
    · exact parseI64_i64Str _
    · rintro ⟨hk, h⟩
      have := hp hk
      rw [a8, a9] at h
      cases hpos : d.pos with
      | none => exact this hpos
      | some p => rw [hpos] at h; simp at h
  unfold readElem
  simp only [hid, Option.map_some, objectOf, a2, a3, a4, a5, a6, a7, k1, k2, k3, bind_u32, Option.bind_some,
    parseU32_u32Str, readBack, Option.some.injEq]
  obtain ⟨view, pos, nodes, members⟩ := d
  obtain ⟨s1, s2, s3⟩ := hd
  simp only at s1 s2 s3 a8 a9 hp ⊢
  simp only [ObjData.mk.injEq, View.mk.injEq, true_and, and_true, Option.map_map]
  refine ⟨⟨?_, rfl⟩, ?_, ?_, ?_⟩
  · cases view.deleted <;> decide
  · split
    · rename_i hk
      cases hpos : pos with
      | none => exact absurd hpos (hp hk)
      | some p =>
        subst hpos
        unfold posOf
        rw [a8, a9]
        simp [C02_lat_text_roundtrip, C02_lon_text_roundtrip]
    · rename_i hk; exact (s1 hk).symm
  · split
    · rfl
    · rename_i hk; exact (s2 hk).symm
  · split
    · rfl
    · rename_i hk; exact (s3 hk).symm

/-! ## Documents -/

/-- Objects as the parser reports them. -/
def normed (norm : Char → Char) (l : List (ObjData × UInt32)) : List (ObjData × UInt32) := l.map fun x => (mapTexts norm x.1, x.2)

theorem run_objs {norm : Xml.Config} (hn : IsNorm norm) (l : List (ObjData × UInt32)) (hl : ∀ o ∈ l, DataOk o.1)
    (o : Str × List Str) (op : List (Str × List Str)) (evs : List XmlEvent) :
    run norm ⟨.text false, o :: op, true, evs⟩ (l.flatMap fun x => objText x.1 x.2) =
      ⟨.text false, o :: op, true, evs ++ (normed norm l).flatMap fun x => .other :: objEvents x.1 x.2⟩ := by
  have := run_flatMap l _ _ _ (fun x hx p evs => run_obj hn (hl x hx) x.2 p o op evs) evs
  rw [this, normed, List.flatMap_map]

/-- The attributes of the root of an XML document. -/
def rootAttrs (hs : List (Str × Str)) : List (Str × Str) :=
  [(str% "version", str% "0.6"), (str% "generator", str% "osmio/0.16.1")] ++ hs

theorem rootAttrs_keys {hs : List (Str × Str)} (h : HeadersOk hs) : ∀ x ∈ rootAttrs hs, IsKey x.1 := by
  intro x hx
  simp only [rootAttrs, List.mem_append, List.mem_cons, List.not_mem_nil, or_false] at hx
  rcases hx with (rfl | rfl) | hx
  · exact isKey_of rfl (by decide +kernel)
  · exact isKey_of rfl (by decide +kernel)
  · exact (h.1 x hx).1

theorem rootAttrs_nodup {hs : List (Str × Str)} (h : HeadersOk hs) : ((rootAttrs hs).map Prod.fst).Nodup := by
  unfold rootAttrs
  rw [List.map_append, List.nodup_append]
  refine ⟨by decide +kernel, h.2, ?_⟩
  intro a ha b hb he
  obtain ⟨x, hx, rfl⟩ := List.mem_map.1 hb
  have := h.1 x hx
  simp only [List.map_cons, List.map_nil, List.mem_cons, List.not_mem_nil, or_false] at ha
  rcases ha with rfl | rfl
  · exact this.2.2.1 he.symm
  · exact this.2.2.2 he.symm

theorem run_xmlHead {norm : Xml.Config} (hn : IsNorm norm) {hs : List (Str × Str)} (h : HeadersOk hs) :
    run norm initial (xmlHead hs) =
      ⟨.text false, [(str% "osm", [])], true, [.other, .other, .start ⟨none, str% "osm"⟩ ((rootAttrs hs).map attrOf)]⟩ := by
  unfold xmlHead
  have e : hs.flatMap (fun h => rawAttr h.1 (escaped h.2)) =
      (hs.map fun h => (h.1, escaped h.2, h.2)).flatMap fun x => rawAttr x.1 x.2.1 := by simp [List.flatMap_map]
  have hr : ∀ x ∈ hs.map (fun h => (h.1, escaped h.2, h.2)), IsKey x.1 ∧ ReadsAs norm x.2.1 x.2.2 := by
    intro x hx
    obtain ⟨y, hy, rfl⟩ := List.mem_map.1 hx
    exact ⟨(h.1 y hy).1, ReadsAs.escaped hn (h.1 y hy).2.1⟩
  have q1 : ReadsAs norm (str% "0.6") (str% "0.6") := .plain hn (by decide)
  have q2 : ReadsAs norm (str% "osmio/0.16.1") (str% "osmio/0.16.1") := .plain hn (by decide)
  have e1 : (str% "<?xml version=\"1.0\" encoding=\"utf-8\"?>\n<osm version=\"0.6\" generator=\"osmio/0.16.1\"") =
      (str% "<?xml version=\"1.0\" encoding=\"utf-8\"?>\n<osm") ++ rawAttr (str% "version") (str% "0.6") ++
        rawAttr (str% "generator") (str% "osmio/0.16.1") := rfl
  have e2 : run norm initial (str% "<?xml version=\"1.0\" encoding=\"utf-8\"?>\n<osm") =
      ⟨.tagName (str% "osm"), [], false, [.other, .other]⟩ := rfl
  rw [e1, e, run_append, run_append, run_append, run_append, e2,
    run_attr_first _ _ _ _ (isKey_of rfl (by decide +kernel)) q1,
    run_attr_done _ _ _ _ _ (isKey_of rfl (by decide +kernel)) q2, run_attrs _ _ _ _ _ _ hr]
  have e3 : ([(str% "version", str% "0.6")] ++ [(str% "generator", str% "osmio/0.16.1")] ++
      (hs.map fun h => (h.1, escaped h.2, h.2)).map fun x => (x.1, x.2.2)) = rootAttrs hs := by
    simp [rootAttrs, Function.comp_def]
  rw [e3, run_close_open _ _ _ (isKey_of rfl (by decide +kernel)) (rootAttrs_keys h) (rootAttrs_nodup h) (.inr rfl)]
  rfl

/-- The tree of an XML document. -/
def xmlForest (hs : List (Str × Str)) (l : List (ObjData × UInt32)) : Forest :=
  .text (.text (.elem ⟨none, str% "osm"⟩ ((rootAttrs hs).map attrOf) (objsForest l (.text .nil)) .nil))

theorem events_of_run {norm : Xml.Config} {t : Str} {r : Bool} {evs : List XmlEvent}
    (h : run norm initial t = ⟨.text false, [], r, evs⟩) (hr : r = true) :
    eventsOfBytes norm (Utf8.encode t) = evs.map some ++ [some .other] := by
  unfold run at h
  simp only [eventsOfBytes, Utf8.decodePrefix_encode, events, h, complete, hr]
  rfl

theorem xml_run {norm : Xml.Config} (hn : IsNorm norm) {hs : List (Str × Str)} (h : HeadersOk hs)
    (l : List (ObjData × UInt32)) (hl : ∀ o ∈ l, DataOk o.1) :
    run norm initial (xmlHead hs ++ (l.flatMap fun x => objText x.1 x.2) ++ xmlTail) =
      ⟨.text false, [], true, (xmlForest hs (normed norm l)).events⟩ := by
  rw [run_append, run_append, run_xmlHead hn h, run_objs hn l hl]
  have e : ∀ evs, run norm ⟨.text false, [(str% "osm", [])], true, evs⟩ xmlTail =
      ⟨.text false, [], true, evs ++ [.other] ++ [.stop ⟨none, str% "osm"⟩]⟩ := fun evs => rfl
  rw [e]
  simp [xmlForest, Forest.events, objsForest_events]

theorem xml_events {norm : Xml.Config} (hn : IsNorm norm) {hs : List (Str × Str)} (h : HeadersOk hs)
    (l : List (ObjData × UInt32)) (hl : ∀ o ∈ l, DataOk o.1) :
    eventsOfBytes norm (Utf8.encode (xmlHead hs ++ (l.flatMap fun x => objText x.1 x.2) ++ xmlTail)) =
      (xmlForest hs (normed norm l)).events.map some ++ [some .other] := events_of_run (xml_run hn h l hl) rfl

/-- The tree of a change document. -/
def oscForest (l : List (ObjData × UInt32)) : Forest :=
  .text (.text (.elem ⟨none, str% "osmChange"⟩ ((rootAttrs []).map attrOf)
    (.text (.elem ⟨none, str% "modify"⟩ [] (objsForest l (.text .nil)) (.text .nil))) .nil))

theorem run_oscHead {norm : Xml.Config} (hn : IsNorm norm) : run norm initial oscHead =
    ⟨.text false, [(str% "modify", []), (str% "osmChange", [])], true,
      [.other, .other, .start ⟨none, str% "osmChange"⟩ ((rootAttrs []).map attrOf), .other, .start ⟨none, str% "modify"⟩ []]⟩ := by
  have q1 : ReadsAs norm (str% "0.6") (str% "0.6") := .plain hn (by decide)
  have q2 : ReadsAs norm (str% "osmio/0.16.1") (str% "osmio/0.16.1") := .plain hn (by decide)
  have e1 : oscHead =
      (str% "<?xml version=\"1.0\" encoding=\"utf-8\"?>\n<osmChange") ++ rawAttr (str% "version") (str% "0.6") ++
        rawAttr (str% "generator") (str% "osmio/0.16.1") ++ str% ">" ++ str% "\n<modify>" := rfl
  have e2 : run norm initial (str% "<?xml version=\"1.0\" encoding=\"utf-8\"?>\n<osmChange") =
      ⟨.tagName (str% "osmChange"), [], false, [.other, .other]⟩ := rfl
  have h0 : HeadersOk [] := ⟨by simp, by simp⟩
  have e3 : ∀ evs o, run norm ⟨.text false, [o], true, evs⟩ (str% "\n<modify>") =
      ⟨.text false, [(str% "modify", []), o], true, evs ++ [.other] ++ [.start ⟨none, str% "modify"⟩ []]⟩ := fun _ _ => rfl
  rw [e1, run_append, run_append, run_append, run_append, e2,
    run_attr_first _ _ _ _ (isKey_of rfl (by decide +kernel)) q1,
    run_attr_done _ _ _ _ _ (isKey_of rfl (by decide +kernel)) q2]
  have e4 : ([(str% "version", str% "0.6")] ++ [(str% "generator", str% "osmio/0.16.1")]) = rootAttrs [] := rfl
  rw [e4, run_close_open _ _ _ (isKey_of rfl (by decide +kernel)) (rootAttrs_keys h0) (rootAttrs_nodup h0) (.inr rfl), e3]
  rfl

theorem run_oscTail (norm : Xml.Config) (evs : List XmlEvent) :
    run norm ⟨.text false, [(str% "modify", []), (str% "osmChange", [])], true, evs⟩ oscTail =
      ⟨.text false, [], true, evs ++ [.other, .stop ⟨none, str% "modify"⟩, .other] ++ [.stop ⟨none, str% "osmChange"⟩]⟩ := by
  have e : run norm ⟨.text false, [(str% "modify", []), (str% "osmChange", [])], true, evs⟩ oscTail =
      ⟨.text false, [], true, evs ++ [.other] ++ [.stop ⟨none, str% "modify"⟩] ++ [.other] ++ [.stop ⟨none, str% "osmChange"⟩]⟩ := rfl
  rw [e]
  simp

theorem osc_run {norm : Xml.Config} (hn : IsNorm norm) (l : List (ObjData × UInt32)) (hl : ∀ o ∈ l, DataOk o.1) :
    run norm initial (oscHead ++ (l.flatMap fun x => objText x.1 x.2) ++ oscTail) =
      ⟨.text false, [], true, (oscForest (normed norm l)).events⟩ := by
  rw [run_append, run_append, run_oscHead hn, run_objs hn l hl, run_oscTail]
  simp [oscForest, Forest.events, objsForest_events]

theorem osc_events {norm : Xml.Config} (hn : IsNorm norm) (l : List (ObjData × UInt32)) (hl : ∀ o ∈ l, DataOk o.1) :
    eventsOfBytes norm (Utf8.encode (oscHead ++ (l.flatMap fun x => objText x.1 x.2) ++ oscTail)) =
      (oscForest (normed norm l)).events.map some ++ [some .other] := events_of_run (osc_run hn l hl) rfl

end Osmio.Xml
