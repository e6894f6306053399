import Verif.Proofs.XmlIllegal
/-!
# XML and OSC round trips: exactly which objects survive (C27, C28)

`norm` is what the parser does to white space in attribute values.
-/

namespace Osmio
open Spec Xml OSMObjBase

variable {f : Family}

/-- The object's text timestamp, if it has one, has none of the characters `"`, `<` and `&`, which would have to be escaped. -/
def TimeUnquoted (d : ObjData) : Prop := ∀ s ∈ isoText d.view.timestamp, '"' ∉ s ∧ '<' ∉ s ∧ '&' ∉ s

theorem xmlTexts_iff {d : ObjData} (ht : TimeUnquoted d) :
    XmlTexts d ↔ ∀ t ∈ textsOf d, ∀ c ∈ t, isXmlChar c = true := by
  constructor
  · intro h t hmem c hc
    simp only [textsOf, List.mem_append, List.mem_map, Option.mem_toList] at hmem
    rcases hmem with (((hm | hm) | ⟨kv, hm, rfl⟩) | ⟨kv, hm, rfl⟩) | ⟨m, hm, rfl⟩
    · exact h.user t hm c hc
    · have hts : d.view.timestamp = some (.iso t) := by
        unfold isoText at hm
        split at hm
        · rename_i s hs
          rw [List.mem_singleton] at hm
          rw [hs, hm]
        · cases hm
      have := h.time t hts c hc
      simp only [rawChar, Bool.and_eq_true] at this
      exact this.2
    · exact (h.tags kv hm).1 c hc
    · exact (h.tags kv hm).2 c hc
    · exact h.roles m hm c hc
  · intro h
    refine ⟨fun u hu => h u ?_, fun s hs c hc => ?_, fun kv hkv => ⟨h _ ?_, h _ ?_⟩, fun m hm => h _ ?_⟩
    · simp [textsOf, hu]
    · have hmem : s ∈ isoText d.view.timestamp := by rw [hs]; simp [isoText]
      have hx := h s (by simp [textsOf, hmem]) c hc
      obtain ⟨q1, q2, q3⟩ := ht s hmem
      simp only [rawChar, Bool.and_eq_true, bne_iff_ne]
      exact ⟨⟨⟨fun e => q1 (e ▸ hc), fun e => q2 (e ▸ hc)⟩, fun e => q3 (e ▸ hc)⟩, hx⟩
    · simp only [textsOf, List.mem_append, List.mem_map]; exact .inl (.inl (.inr ⟨kv, hkv, rfl⟩))
    · simp only [textsOf, List.mem_append, List.mem_map]; exact .inl (.inr ⟨kv, hkv, rfl⟩)
    · simp only [textsOf, List.mem_append, List.mem_map]; exact .inr ⟨m, hm, rfl⟩

theorem map_fixed_iff {g : Char → Char} {t : Str} : t.map g = t ↔ ∀ c ∈ t, g c = c := by
  induction t with
  | nil => simp
  | cons c t ih => simp [ih]

/-- Which objects come back unchanged. -/
theorem readBack_mapTexts_iff {g : Char → Char} {d : ObjData} :
    readBack (mapTexts g d) = readBack d ↔ ∀ t ∈ textsOf d, ∀ c ∈ t, g c = c := by
  obtain ⟨⟨id, ver, del, cs, ts, uid, user, tags, kind⟩, pos, nodes, members⟩ := d
  simp only [readBack, mapTexts, ObjData.mk.injEq, View.mk.injEq, true_and, and_true]
  have h1 : (ts.map (mapTime g)).map (fun t => TimestampFormat.iso t.toIsoString) =
      (ts.map fun t => TimestampFormat.iso t.toIsoString) ↔ ∀ t ∈ isoText ts, ∀ c ∈ t, g c = c := by
    cases ts with
    | none => simp [isoText]
    | some t =>
      cases t with
      | iso s => simpa [isoText, mapTime, TimestampFormat.toIsoString] using map_fixed_iff
      | epoch e => simp [isoText, mapTime]
  have h2 : user.map (·.map g) = user ↔ ∀ t ∈ user.toList, ∀ c ∈ t, g c = c := by
    cases user with
    | none => simp
    | some u => simpa using map_fixed_iff
  have h3 : (tags.map fun kv => (kv.1.map g, kv.2.map g)) = tags ↔
      (∀ t ∈ tags.map Prod.fst, ∀ c ∈ t, g c = c) ∧ ∀ t ∈ tags.map Prod.snd, ∀ c ∈ t, g c = c := by
    induction tags with
    | nil => simp
    | cons kv l ih =>
      simp only [List.map_cons, List.cons.injEq, ih, List.forall_mem_cons, Prod.ext_iff, map_fixed_iff]
      tauto
  have h4 : (members.map fun m => (m.1, m.2.1, m.2.2.map g)) = members ↔
      ∀ t ∈ members.map (fun m => m.2.2), ∀ c ∈ t, g c = c := by
    induction members with
    | nil => simp
    | cons m l ih =>
      simp only [List.map_cons, List.cons.injEq, ih, List.forall_mem_cons, Prod.ext_iff, map_fixed_iff, true_and]
  rw [h1, h2, h3, h4]
  simp only [textsOf, List.forall_mem_append]
  tauto

/-- A form of document: what stands before and after the objects, and the tree of its events. -/
structure DocForm (norm : Xml.Config) (head tail : Str) (F : List (ObjData × UInt32) → Forest) : Prop where
  headOk : ∀ c ∈ head, isXmlChar c = true
  tailOk : ∀ c ∈ tail, isXmlChar c = true
  events : ∀ l : List (ObjData × UInt32), (∀ o ∈ l, DataOk o.1) →
    Xml.run norm initial (head ++ (l.flatMap fun x => objText x.1 x.2) ++ tail) = ⟨.text false, [], true, (F (normed norm l)).events⟩
  flat : ∀ l, (F l).Flat
  distinct : ∀ l, (F l).Distinct
  objects : ∀ l, (F l).objects = l.map fun o => (o.1.view.kind, (objAttrs o.1 o.2).map attrOf, objKids o.1)

theorem reduce_length_lt {α : Type} {rs : List (Option α)} (h : rs.all Option.isSome = false) :
    ((rs.takeWhile Option.isSome).reduceOption).length < rs.length := by
  induction rs with
  | nil => cases h
  | cons r rs ih =>
    cases r with
    | none => simp [List.reduceOption]
    | some a =>
      have := ih (by simpa using h)
      simpa [List.takeWhile_cons, List.reduceOption] using this

/-- Reading a document whose objects may lack positions. -/
theorem drain_short (doc : Forest) (hf : doc.Flat) (hd : doc.Distinct) (hno : none ∈ doc.objects.map readElem)
    (t : List (Option XmlEvent)) (e : Option Panic) {os : List StringOSMObj} {q0 : List (Option XmlEvent)}
    (ht : Drain XMLReader.next t os e q0) :
    ∃ (rs : List StringOSMObj) (q : List (Option XmlEvent)),
      Drain XMLReader.next (doc.events.map some ++ t) rs none q ∧ rs.length < doc.objects.length := by
  obtain ⟨rs, h1, h2, h3⟩ := calls_forest doc hf hd t
  have hlen : doc.objects.length = rs.length := by
    have := congrArg List.length h2; simpa using this.symm
  rw [hlen] at h1 h3
  have hall : rs.all Option.isSome = false := by
    rw [← h2, List.mem_map] at hno
    obtain ⟨r, hr, hr2⟩ := hno
    rw [Option.map_eq_none_iff] at hr2
    subst hr2
    rw [List.all_eq_false]
    exact ⟨none, hr, by simp⟩
  obtain ⟨q, hq⟩ := (drain_of_calls rs _ h1 (Drain.congr h3 ht)).2 hall
  exact ⟨_, q, hq, by rw [hlen]; exact reduce_length_lt hall⟩

theorem readElem_unplaced {d : ObjData} (hk : d.view.kind = .node) (hp : d.pos = none) (v : UInt32) :
    readElem (d.view.kind, (objAttrs d v).map attrOf, objKids d) = none := by
  obtain ⟨_, _, _, _, _, _, _, a8, _⟩ := attr_objAttrs d v
  unfold readElem readableId
  rw [if_pos ⟨hk, .inl (by simp only [a8, hp, Option.map_none])⟩]
  rfl

theorem scrub_dataOk {d : ObjData} (hs : DataShape d) (ht : TimeUnquoted d) : DataOk (mapTexts scrub d) := by
  have hu : TimeUnquoted (mapTexts scrub d) := by
    intro s hs
    have hne : ∀ (c : Char) (x : Char), c ≠ 'x' → scrub x = c → x = c := by
      intro c x hc hx
      unfold scrub at hx
      split at hx
      · exact hx
      · exact absurd hx.symm hc
    have : ∃ t, d.view.timestamp = some (.iso t) ∧ s = t.map scrub := by
      have hs' : s ∈ isoText (d.view.timestamp.map (mapTime scrub)) := hs
      cases hts : d.view.timestamp with
      | none => rw [hts] at hs'; simp [isoText] at hs'
      | some t =>
        rw [hts] at hs'
        cases t with
        | iso t => exact ⟨t, rfl, by simpa [isoText, mapTime] using hs'⟩
        | epoch e => simp [isoText, mapTime] at hs'
    obtain ⟨t, h1, rfl⟩ := this
    obtain ⟨q1, q2, q3⟩ := ht t (by rw [h1]; simp [isoText])
    simp only [List.mem_map, not_exists, not_and]
    exact ⟨fun x hx he => q1 (hne _ x (by decide) he ▸ hx), fun x hx he => q2 (hne _ x (by decide) he ▸ hx),
      fun x hx he => q3 (hne _ x (by decide) he ▸ hx)⟩
  refine ⟨(xmlTexts_iff hu).2 ?_, mapTexts_shape hs _⟩
  intro t hmem c hc
  have : ∃ t' : Str, t = t'.map scrub := by
    simp only [textsOf, List.mem_append, List.mem_map, Option.mem_toList, mapTexts, Option.map_eq_some_iff] at hmem
    rcases hmem with (((⟨u, _, rfl⟩ | hm) | ⟨kv, ⟨x, _, rfl⟩, rfl⟩) | ⟨kv, ⟨x, _, rfl⟩, rfl⟩) | ⟨m, ⟨x, _, rfl⟩, rfl⟩
    · exact ⟨_, rfl⟩
    · cases hts : d.view.timestamp with
      | none => rw [hts] at hm; simp [isoText] at hm
      | some t0 =>
        rw [hts] at hm
        cases t0 with
        | iso t0 => exact ⟨t0, by simpa [isoText, mapTime] using hm⟩
        | epoch e => simp [isoText, mapTime] at hm
    · exact ⟨_, rfl⟩
    · exact ⟨_, rfl⟩
    · exact ⟨_, rfl⟩
  obtain ⟨t', rfl⟩ := this
  obtain ⟨x, _, rfl⟩ := List.mem_map.1 hc
  exact scrub_xml x

theorem mem_escaped {t : Str} {c : Char} (hc : c ∈ t) (hill : isXmlChar c = false) : c ∈ escaped t := by
  have hne : ∀ d : Char, isXmlChar d = true → c ≠ d := fun d hd he => by rw [he, hd] at hill; cases hill
  have : entity c = none := by
    unfold entity
    split <;> first | rfl | (exact absurd rfl (hne _ (by decide)))
  exact List.mem_flatMap.2 ⟨c, hc, by simp [escaped1, this]⟩

theorem mem_rawAttr {k v : Str} {c : Char} (h : c ∈ v) : c ∈ rawAttr k v := by simp [rawAttr, h]

/-- A character that XML does not have is written as it is. -/
theorem mem_objText {d : ObjData} (hs : DataShape d) (v : UInt32) {t : Str} (hmem : t ∈ textsOf d) {c : Char} (hc : c ∈ t)
    (hill : isXmlChar c = false) : c ∈ objText d v := by
  have hattrs : c ∈ attrsText d v → c ∈ objText d v := fun h => by unfold objText; simp [h]
  simp only [textsOf, List.mem_append, List.mem_map, Option.mem_toList] at hmem
  rcases hmem with (((hm | hm) | ⟨kv, hm, rfl⟩) | ⟨kv, hm, rfl⟩) | ⟨m, hm, rfl⟩
  · refine hattrs ?_
    have : c ∈ rawAttr? (str% "user") (d.view.user.map escaped) := by
      rw [hm]; exact mem_rawAttr (mem_escaped hc hill)
    unfold attrsText
    simp [this]
  · refine hattrs ?_
    have hts : d.view.timestamp = some (.iso t) := by
      unfold isoText at hm
      split at hm
      · rename_i s hs
        rw [List.mem_singleton] at hm
        rw [hs, hm]
      · cases hm
    have : c ∈ rawAttr? (str% "timestamp") (d.view.timestamp.map TimestampFormat.display) := by
      rw [hts]; exact mem_rawAttr hc
    unfold attrsText
    simp [this]
  all_goals
    unfold objText
    rw [List.mem_append]
    right
  · rw [if_neg (fun h => by rw [h.2] at hm; cases hm)]
    have : c ∈ d.view.tags.flatMap tagText := List.mem_flatMap.2 ⟨kv, hm, by
      have := mem_rawAttr (k := str% "k") (mem_escaped hc hill)
      unfold tagText
      simp only [List.mem_append]
      exact .inl (.inl (.inr this))⟩
    simp only [List.mem_append]
    exact .inl (.inl (.inl (.inr this)))
  · rw [if_neg (fun h => by rw [h.2] at hm; cases hm)]
    have : c ∈ d.view.tags.flatMap tagText := List.mem_flatMap.2 ⟨kv, hm, by
      have := mem_rawAttr (k := str% "v") (mem_escaped hc hill)
      unfold tagText
      simp only [List.mem_append]
      exact .inl (.inr this)⟩
    simp only [List.mem_append]
    exact .inl (.inl (.inl (.inr this)))
  · have hk : d.view.kind ≠ .node := fun hk => by
      rw [hs.2.2 (by rw [hk]; decide)] at hm; cases hm
    rw [if_neg (fun h => hk h.1)]
    have : c ∈ d.members.flatMap memberText := List.mem_flatMap.2 ⟨m, hm, by
      have := mem_rawAttr (k := str% "role") (mem_escaped hc hill)
      unfold memberText
      simp only [List.mem_append]
      exact .inl (.inr this)⟩
    simp only [List.mem_append]
    exact .inl (.inl (.inl (.inl (.inr this))))

theorem all_some {α : Type} {l : List (Option α)} (h : none ∉ l) : ∃ ds : List α, l = ds.map some := by
  induction l with
  | nil => exact ⟨[], rfl⟩
  | cons x l ih =>
    obtain ⟨ds, rfl⟩ := ih fun hx => h (by simp [hx])
    cases x with
    | none => simp at h
    | some a => exact ⟨a :: ds, rfl⟩

theorem events_of_fail {norm : Xml.Config} {t : Str} (h : (Xml.run norm initial t).mode = .fail) :
    eventsOfBytes norm (Utf8.encode t) = (Xml.run norm initial t).events.map some ++ [none] := by
  simp only [eventsOfBytes, Utf8.decodePrefix_encode, events]
  unfold Xml.run at h ⊢
  simp [complete, h]

theorem docForm_reads {norm : Xml.Config} {head tail : Str} {F : List (ObjData × UInt32) → Forest}
    (hF : DocForm norm head tail F) (g : Char → Char) {os : List f.Obj} (hw : ∀ o ∈ os, Parsable o) :
    (F (normed g (withVersions os))).objects.map readElem = (os.map fun o => readBack (mapTexts g (objData o))).map some := by
  rw [hF.objects, List.map_map, List.map_map]
  exact readElem_written g hw

theorem written_versioned {cs : List (Call f.Obj)} (hv : AllVersioned cs) : ∀ o ∈ written cs, version o ≠ none := by
  intro o ho
  obtain ⟨c, hc, hco⟩ := List.mem_filterMap.1 ho
  exact hv c ((List.takeWhile_prefix _).subset hc) o hco

/-- Which documents are read to the end with as many objects as were written. -/
theorem docForm_parsable {norm : Xml.Config} {head tail : Str} {F : List (ObjData × UInt32) → Forest}
    (hF : DocForm norm head tail F) (os : List f.Obj) (hv : ∀ o ∈ os, version o ≠ none)
    (ht : ∀ o ∈ os, TimeUnquoted (objData o)) {rs : List StringOSMObj} {q : List (Option XmlEvent)}
    (hd : Drain XMLReader.next (eventsOfBytes norm (Utf8.encode (head ++ os.flatMap textOf ++ tail))) rs none q)
    (hrs : rs.length = os.length) : ∀ o ∈ os, Parsable o := by
  have hlen : ∀ (g : Char → Char) (l : List (ObjData × UInt32)), (F (normed g l)).objects.length = l.length := by
    intro g l; rw [hF.objects]; simp [normed]
  have hwl : (withVersions os).length = os.length := by simp [withVersions]
  have hx : ∀ o ∈ os, XmlTexts (objData o) := by
    intro o ho
    rw [xmlTexts_iff (ht o ho)]
    intro t hmem c hc
    by_contra hill
    rw [Bool.not_eq_true] at hill
    have hin : ∃ c ∈ head ++ os.flatMap textOf ++ tail, isXmlChar c = false := by
      refine ⟨c, ?_, hill⟩
      rw [flatMap_text _ hv, List.mem_append, List.mem_append, List.mem_flatMap]
      exact .inl (.inr ⟨_, List.mem_map.2 ⟨o, ho, rfl⟩, mem_objText (objData_shape o) _ hmem hc hill⟩)
    obtain ⟨r1, r2⟩ := run_scrub norm _ initial rfl hin
    have hsc : (head ++ os.flatMap textOf ++ tail).map scrub =
        head ++ ((normed scrub (withVersions os)).flatMap fun x => objText x.1 x.2) ++ tail := by
      rw [flatMap_text _ hv, List.map_append, List.map_append, scrub_legal hF.headOk, scrub_legal hF.tailOk, List.map_flatMap, normed,
        List.flatMap_map]
      simp only [objText_scrub]
    have hok : ∀ x ∈ normed scrub (withVersions os), DataOk x.1 := by
      intro x hx
      obtain ⟨y, hy, rfl⟩ := List.mem_map.1 hx
      obtain ⟨o', ho', rfl⟩ := List.mem_map.1 hy
      exact scrub_dataOk (objData_shape o') (ht o' ho')
    rw [hsc, hF.events _ hok] at r2
    obtain ⟨more, hmore⟩ := r2
    have hev := events_of_fail r1
    rw [hev] at hd
    obtain ⟨rest, hsw⟩ := drain_swap _ hd
    have hd2 := hsw (more.map some ++ [some .other])
    rw [← List.append_assoc, ← List.map_append, hmore] at hd2
    by_cases hno : none ∈ (F (normed norm (normed scrub (withVersions os)))).objects.map readElem
    · obtain ⟨rs', q', hd3, hlt⟩ := drain_short _ (hF.flat _) (hF.distinct _) hno [some .other] none (.done next_end)
      obtain ⟨rfl, _, _⟩ := Drain.unique hd2 hd3
      rw [hlen] at hlt
      simp only [normed, List.length_map, hwl] at hlt
      omega
    · obtain ⟨ds, hds⟩ := all_some hno
      obtain ⟨rs', hd3, _⟩ := drain_written _ (hF.flat _) (hF.distinct _) hds [some .other] none (.done next_end)
      obtain ⟨_, _, hq⟩ := Drain.unique hd2 hd3
      simp at hq
  have hok : ∀ x ∈ withVersions os, DataOk x.1 := by
    intro x hx'
    obtain ⟨o, ho, rfl⟩ := List.mem_map.1 hx'
    exact objData_ok (hx o ho)
  have hev := events_of_run (hF.events _ hok) rfl
  rw [← flatMap_text _ hv] at hev
  rw [hev] at hd
  have hpos : ∀ o ∈ os, objectType o = .node → (objData o).pos ≠ none := by
    intro o ho hk hp
    have hno : none ∈ (F (normed norm (withVersions os))).objects.map readElem := by
      rw [hF.objects, List.mem_map]
      refine ⟨_, List.mem_map.2 ⟨(mapTexts norm (objData o), (version o).getD 0),
        List.mem_map.2 ⟨_, List.mem_map.2 ⟨o, ho, rfl⟩, rfl⟩, rfl⟩, ?_⟩
      exact readElem_unplaced (d := mapTexts norm (objData o)) hk hp _
    obtain ⟨rs', q', hd3, hlt⟩ := drain_short _ (hF.flat _) (hF.distinct _) hno [some .other] none (.done next_end)
    obtain ⟨rfl, _, _⟩ := Drain.unique hd hd3
    rw [hlen, hwl] at hlt
    omega
  exact fun o ho => ⟨hv o ho, hx o ho, hpos o ho⟩

/-- What is read then. -/
theorem docForm_drain {norm : Xml.Config} {head tail : Str} {F : List (ObjData × UInt32) → Forest}
    (hF : DocForm norm head tail F) (os : List f.Obj) (hpar : ∀ o ∈ os, Parsable o) :
    ∃ rs : List StringOSMObj,
      Drain XMLReader.next (eventsOfBytes norm (Utf8.encode (head ++ os.flatMap textOf ++ tail))) rs none [] ∧
      rs.map objData = os.map fun o => readBack (mapTexts norm (objData o)) := by
  have hev := events_of_run (hF.events _ (withVersions_ok hpar)) rfl
  rw [← flatMap_text _ fun o ho => (hpar o ho).1] at hev
  obtain ⟨rs, hd, hrs⟩ := drain_written _ (hF.flat _) (hF.distinct _) (docForm_reads hF norm hpar) [some .other] none (.done next_end)
  rw [← hev] at hd
  exact ⟨rs, hd, hrs⟩

theorem parsable_iff {o : f.Obj} (hv : version o ≠ none) (ht : TimeUnquoted (objData o)) :
    Parsable o ↔ (objectType o = .node → (objData o).pos ≠ none) ∧ ∀ t ∈ textsOf (objData o), ∀ c ∈ t, XmlChar c := by
  constructor
  · exact fun h => ⟨h.2.2, fun t hmem c hc => (isXmlChar_iff c).1 ((xmlTexts_iff ht).1 h.2.1 t hmem c hc)⟩
  · exact fun h => ⟨hv, (xmlTexts_iff ht).2 fun t hmem c hc => (isXmlChar_iff c).2 (h.2 t hmem c hc), h.1⟩

/-- Exactly which documents are read to the end with as many objects as were written. -/
theorem docForm_complete {norm : Xml.Config} {head tail : Str} {F : List (ObjData × UInt32) → Forest}
    (hF : DocForm norm head tail F) (os : List f.Obj) (hv : ∀ o ∈ os, version o ≠ none)
    (ht : ∀ o ∈ os, TimeUnquoted (objData o)) :
    (∃ (rs : List StringOSMObj) (q : List (Option XmlEvent)),
      Drain XMLReader.next (eventsOfBytes norm (Utf8.encode (head ++ os.flatMap textOf ++ tail))) rs none q ∧
      rs.length = os.length) ↔
    ∀ o ∈ os, (objectType o = .node → (objData o).pos ≠ none) ∧ ∀ t ∈ textsOf (objData o), ∀ c ∈ t, XmlChar c := by
  constructor
  · rintro ⟨rs, q, hd, hrs⟩ o ho
    exact (parsable_iff (hv o ho) (ht o ho)).1 (docForm_parsable hF os hv ht hd hrs o ho)
  · intro h
    obtain ⟨rs, hd, hrs⟩ := docForm_drain hF os fun o ho => (parsable_iff (hv o ho) (ht o ho)).2 (h o ho)
    exact ⟨rs, [], hd, by simpa using congrArg List.length hrs⟩

/-- Exactly which documents are read back. -/
theorem docForm_exact {norm : Xml.Config} {head tail : Str} {F : List (ObjData × UInt32) → Forest}
    (hF : DocForm norm head tail F) (os : List f.Obj) (hv : ∀ o ∈ os, version o ≠ none)
    (ht : ∀ o ∈ os, TimeUnquoted (objData o)) :
    (∃ (rs : List StringOSMObj) (q : List (Option XmlEvent)),
      Drain XMLReader.next (eventsOfBytes norm (Utf8.encode (head ++ os.flatMap textOf ++ tail))) rs none q ∧
      rs.map objData = os.map fun o => readBack (objData o)) ↔
    ∀ o ∈ os, (objectType o = .node → (objData o).pos ≠ none) ∧
      ∀ t ∈ textsOf (objData o), ∀ c ∈ t, XmlChar c ∧ norm c = c := by
  constructor
  · rintro ⟨rs, q, hd, he⟩
    have hpar := docForm_parsable hF os hv ht hd (by simpa using congrArg List.length he)
    obtain ⟨rs', hd3, hrs'⟩ := docForm_drain hF os hpar
    obtain ⟨rfl, _, _⟩ := Drain.unique hd hd3
    rw [he] at hrs'
    intro o ho
    have h := (parsable_iff (hv o ho) (ht o ho)).1 (hpar o ho)
    exact ⟨h.1, fun t hmem c hc => ⟨h.2 t hmem c hc, readBack_mapTexts_iff.1 (List.map_inj_left.1 hrs' o ho).symm t hmem c hc⟩⟩
  · intro h
    obtain ⟨rs, hd, hrs⟩ := docForm_drain hF os fun o ho => (parsable_iff (hv o ho) (ht o ho)).2
      ⟨(h o ho).1, fun t hmem c hc => ((h o ho).2 t hmem c hc).1⟩
    refine ⟨rs, [], hd, hrs.trans (List.map_congr_left fun o ho => ?_)⟩
    exact readBack_mapTexts_iff.2 fun t hmem c hc => ((h o ho).2 t hmem c hc).2

/-! ## C27 and C28 -/

theorem objsForest_text_objects (l : List (ObjData × UInt32)) : (objsForest l (.text .nil)).objects =
    l.map fun o => (o.1.view.kind, (objAttrs o.1 o.2).map attrOf, objKids o.1) := by
  rw [objsForest_objects]; simp [Forest.objects]

theorem xml_form {norm : Xml.Config} (hn : IsNorm norm) {hs : List (Str × Str)} (h : HeadersOk hs) :
    DocForm norm (xmlHead hs) xmlTail (xmlForest hs) := by
  refine ⟨?_, by decide +kernel, fun l hl => xml_run hn h l hl, ?_, ?_, ?_⟩
  · refine legal_of_run (norm := norm) (s := initial) rfl ?_
    rw [run_xmlHead hn h]
    simp
  · exact fun l => ⟨objsForest_flat _ _ trivial, ⟨(fun h => by cases h), trivial⟩⟩
  · refine fun l => ⟨?_, objsForest_distinct _ _ trivial, trivial⟩
    rw [List.map_map]; exact List.Nodup.filter _ (rootAttrs_nodup h)
  · intro l
    show (objsForest l (.text .nil)).objects ++ [] = _
    rw [List.append_nil, objsForest_text_objects]

theorem osc_form {norm : Xml.Config} (hn : IsNorm norm) : DocForm norm oscHead oscTail oscForest := by
  refine ⟨by decide +kernel, by decide +kernel, fun l hl => osc_run hn l hl, ?_, ?_, ?_⟩
  · exact fun l => ⟨⟨objsForest_flat _ _ trivial, ⟨(fun h => by cases h), trivial⟩⟩, ⟨(fun h => by cases h), trivial⟩⟩
  · refine fun l => ⟨?_, ⟨List.nodup_nil, objsForest_distinct _ _ trivial, trivial⟩, trivial⟩
    decide +kernel
  · intro l
    show ((objsForest l (.text .nil)).objects ++ []) ++ [] = _
    rw [List.append_nil, List.append_nil, objsForest_text_objects]

/-- The document of a history without `close`. -/
theorem xml_doc_eq (σ : HashOrder) (k : Sink) (hk : k.Reliable) (hk0 : k.out = []) (cs : List (Call f.Obj)) (hv : AllVersioned cs)
    (hc : ∀ c ∈ cs, c.isClose = false) : (XMLWriter.drop σ (run (xmlCall σ) (XMLWriter.new k) cs).2).2.writer.out =
      Utf8.encode (xmlHead (σ.order (headersOf cs)) ++ (written cs).flatMap textOf ++ xmlTail) := by
  have := (C23_output_partial σ k hk cs hv).2
  have h0 : cs.countP Call.isClose = 0 := List.countP_eq_zero.2 fun c hm => by rw [hc c hm]; simp
  rw [hk0, List.nil_append, h0] at this
  simpa using this

/-- **C27**, exactly: after any history of calls without `close` on an XML writer (objects with versions; text timestamps that need
no escapes; representable headers; no faults) the document is read back as the objects written, equal in everything (timestamps as text), and then
the end, if and only if every node has a position and every character of every text is one that XML has and that the parser does not
turn into a space. -/
theorem C27_exact (norm : Xml.Config) (hn : IsNorm norm) (σ : HashOrder) (k : Sink) (hk : k.Reliable)
    (hk0 : k.out = []) (cs : List (Call f.Obj)) (hv : AllVersioned cs) (hh : HeadersOk (headersOf cs))
    (hc : ∀ c ∈ cs, c.isClose = false) (ht : ∀ o ∈ written cs, TimeUnquoted (objData o)) :
    let doc := (XMLWriter.drop σ (run (xmlCall σ) (XMLWriter.new k) cs).2).2.writer.out
    (∃ (os : List StringOSMObj) (q : List (Option XmlEvent)), Drain XMLReader.next (XMLReader.new norm doc) os none q ∧
      os.map objData = (written cs).map fun o => readBack (objData o)) ↔
    ∀ o ∈ written cs, (objectType o = .node → (objData o).pos ≠ none) ∧
      ∀ t ∈ textsOf (objData o), ∀ c ∈ t, XmlChar c ∧ norm c = c := by
  intro doc
  rw [show doc = _ from xml_doc_eq σ k hk hk0 cs hv hc]
  exact docForm_exact (xml_form hn (headersOk_perm (σ.perm _).symm hh)) _ (written_versioned hv) ht

/-- **C27**, no object is lost: the document is read to the end with as many objects as were written if and only if every node has a position
and every character of every text is one that XML has. -/
theorem C27_count (norm : Xml.Config) (hn : IsNorm norm) (σ : HashOrder) (k : Sink) (hk : k.Reliable)
    (hk0 : k.out = []) (cs : List (Call f.Obj)) (hv : AllVersioned cs) (hh : HeadersOk (headersOf cs))
    (hc : ∀ c ∈ cs, c.isClose = false) (ht : ∀ o ∈ written cs, TimeUnquoted (objData o)) :
    let doc := (XMLWriter.drop σ (run (xmlCall σ) (XMLWriter.new k) cs).2).2.writer.out
    (∃ (os : List StringOSMObj) (q : List (Option XmlEvent)), Drain XMLReader.next (XMLReader.new norm doc) os none q ∧
      os.length = (written cs).length) ↔
    ∀ o ∈ written cs, (objectType o = .node → (objData o).pos ≠ none) ∧
      ∀ t ∈ textsOf (objData o), ∀ c ∈ t, XmlChar c := by
  intro doc
  rw [show doc = _ from xml_doc_eq σ k hk hk0 cs hv hc]
  exact docForm_complete (xml_form hn (headersOk_perm (σ.perm _).symm hh)) _ (written_versioned hv) ht

/-- **C28**, exactly: the same for change files, and with `close` called any number of times. -/
theorem C28_exact (norm : Xml.Config) (hn : IsNorm norm) (k : Sink) (hk : k.Reliable)
    (hk0 : k.out = []) (cs : List (Call f.Obj)) (hv : AllVersioned cs) (ht : ∀ o ∈ written cs, TimeUnquoted (objData o)) :
    let doc := (OSCWriter.drop (run oscCall (OSCWriter.new k) cs).2).2.writer.out
    (∃ (os : List StringOSMObj) (q : List (Option XmlEvent)), Drain OSCReader.next (OSCReader.new norm doc) os none q ∧
      os.map objData = (written cs).map fun o => readBack (objData o)) ↔
    ∀ o ∈ written cs, (objectType o = .node → (objData o).pos ≠ none) ∧
      ∀ t ∈ textsOf (objData o), ∀ c ∈ t, XmlChar c ∧ norm c = c := by
  intro doc
  have hdoc : doc = Utf8.encode (oscHead ++ (written cs).flatMap textOf ++ oscTail) := by
    have := (C24_one_document_partial k hk cs hv).2
    rw [hk0, List.nil_append] at this
    exact this
  rw [osc_next_eq, hdoc]
  exact docForm_exact (osc_form hn) _ (written_versioned hv) ht

/-- **C28**, no object is lost. -/
theorem C28_count (norm : Xml.Config) (hn : IsNorm norm) (k : Sink) (hk : k.Reliable)
    (hk0 : k.out = []) (cs : List (Call f.Obj)) (hv : AllVersioned cs) (ht : ∀ o ∈ written cs, TimeUnquoted (objData o)) :
    let doc := (OSCWriter.drop (run oscCall (OSCWriter.new k) cs).2).2.writer.out
    (∃ (os : List StringOSMObj) (q : List (Option XmlEvent)), Drain OSCReader.next (OSCReader.new norm doc) os none q ∧
      os.length = (written cs).length) ↔
    ∀ o ∈ written cs, (objectType o = .node → (objData o).pos ≠ none) ∧
      ∀ t ∈ textsOf (objData o), ∀ c ∈ t, XmlChar c := by
  intro doc
  have hdoc : doc = Utf8.encode (oscHead ++ (written cs).flatMap textOf ++ oscTail) := by
    have := (C24_one_document_partial k hk cs hv).2
    rw [hk0, List.nil_append] at this
    exact this
  rw [osc_next_eq, hdoc]
  exact docForm_complete (osc_form hn) _ (written_versioned hv) ht

/-! ### The hypotheses are met, and both sides of the equivalence occur -/

/-- A history with one node. -/
def oneNode (n : StringNode) : List (Call Family.string.Obj) := [.writeObj (.node n)]

theorem C27_exact_nonvacuous (v : Str) :
    let cs := oneNode { plainNode with tags_ := [(str% "note", v)] }
    AllVersioned (f := .string) cs ∧ HeadersOk (headersOf cs) ∧ (∀ c ∈ cs, c.isClose = false) ∧
      (∀ o ∈ written cs, TimeUnquoted (objData (α := Family.string.Obj) o)) ∧
      ((∀ o ∈ written cs, (objectType (α := Family.string.Obj) o = .node → (objData (α := Family.string.Obj) o).pos ≠ none) ∧
        ∀ t ∈ textsOf (objData (α := Family.string.Obj) o), ∀ c ∈ t, XmlChar c ∧ id c = c) ↔ ∀ c ∈ v, XmlChar c) := by
  intro cs
  have hw : written cs = [StringOSMObj.node { plainNode with tags_ := [(str% "note", v)] }] := rfl
  refine ⟨?_, ⟨?_, ?_⟩, ?_, ?_, ?_⟩
  · intro c hc o ho
    simp only [cs, oneNode, List.mem_singleton] at hc
    subst hc
    cases ho
    intro h; cases h
  · intro h hh; cases hh
  · exact List.nodup_nil
  · intro c hc
    simp only [cs, oneNode, List.mem_singleton] at hc
    subst hc; rfl
  · rw [hw]
    intro o ho
    have ho := List.mem_singleton.1 ho
    subst ho
    intro s hs
    cases hs
  · rw [hw]
    have ht : textsOf (objData (α := Family.string.Obj) (StringOSMObj.node { plainNode with tags_ := [(str% "note", v)] })) =
        [str% "note", v] := rfl
    constructor
    · intro h c hc
      exact ((h _ (List.mem_singleton.2 rfl)).2 v (by rw [ht]; simp) c hc).1
    · intro h o ho
      have ho := List.mem_singleton.1 ho
      subst ho
      refine ⟨fun _ hp => (by cases hp), ?_⟩
      rw [ht]
      intro t hmem c hc
      simp only [List.mem_cons, List.not_mem_nil, or_false] at hmem
      rcases hmem with rfl | rfl
      · refine ⟨?_, rfl⟩
        have h2 : ∀ c ∈ (str% "note"), isXmlChar c = true := by decide
        exact (isXmlChar_iff c).1 (h2 c hc)
      · exact ⟨h c hc, rfl⟩

example : (∀ c ∈ (str% "a<b\n"), XmlChar c) ∧ ¬ ∀ c ∈ [Char.ofNat 1], XmlChar c := by
  constructor
  · have : ∀ c ∈ (str% "a<b\n"), isXmlChar c = true := by decide
    exact fun c hc => (isXmlChar_iff c).1 (this c hc)
  · intro h
    have := (isXmlChar_iff _).2 (h (Char.ofNat 1) (by simp))
    revert this; decide

end Osmio
