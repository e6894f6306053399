import Verif.Proofs.XmlHeader
/-!
# C29 for any headers
-/

namespace Osmio.Xml
open Spec

theorem splitName_parts {k : Str} {n : Name} (h : splitName k = some n) :
    (n.pre = none → ':' ∉ k) ∧ (n.pre ≠ none → n.loc ≠ [] ∧ ':' ∉ n.loc) := by
  have hs := List.span_eq_takeWhile_dropWhile (p := (· != ':')) (l := k)
  unfold splitName at h
  rw [hs] at h
  cases ha : List.takeWhile (· != ':') k with
  | nil => simp [ha] at h
  | cons x a =>
    cases hb : List.dropWhile (· != ':') k with
    | nil =>
      simp only [ha, hb, Option.some.injEq] at h
      subst h
      refine ⟨fun _ => ?_, fun h => absurd rfl h⟩
      rw [List.dropWhile_eq_nil_iff] at hb
      intro hm
      have := hb ':' hm
      simp at this
    | cons y b =>
      simp only [ha, hb] at h
      split at h
      · cases h
      · rename_i hc
        simp only [Option.some.injEq] at h
        subst h
        rw [not_or] at hc
        exact ⟨fun h => (by cases h), fun _ => hc⟩

theorem splitName_xml {l : Str} (h1 : l ≠ []) (h2 : ':' ∉ l) : splitName (str% "xml:" ++ l) = some ⟨some (str% "xml"), l⟩ := by
  have : splitName (str% "xml:" ++ l) = if l = [] ∨ ':' ∈ l then none else some ⟨some (str% "xml"), l⟩ := rfl
  rw [this, if_neg (by simp [h1, h2])]

theorem xml_not_xmlns (l : Str) : isXmlns (str% "xml:" ++ l) = false := by
  unfold isXmlns
  rw [Bool.or_eq_false_iff]
  exact ⟨rfl, rfl⟩

/-- A key that can be a header's. -/
theorem headerKey_iff {k : Str} : HeaderKey k ↔ NameLike k ∧ isXmlns k = false ∧
    ∃ n, splitName k = some n ∧ (n.pre = none ∨ n.pre = some (str% "xml")) := by
  constructor
  · rintro (h | ⟨l, rfl, h1, h2⟩)
    · exact ⟨h.nameLike, isXmlns_key h, _, splitName_key h, .inl rfl⟩
    · refine ⟨⟨'x', str% "ml:" ++ l, rfl, by decide, fun c hc => ?_⟩, xml_not_xmlns l, _, splitName_xml h1 fun h => (h2 _ h).2 rfl, .inr rfl⟩
      rcases List.mem_append.1 hc with hc | hc
      · have : ∀ c ∈ str% "ml:", isNameChar c = true := by decide +kernel
        exact this c hc
      · exact (isNameChar_iff c).2 (h2 c hc).1
  · rintro ⟨⟨c, r, rfl, h1, h2⟩, h3, n, h4, h5⟩
    have h6 := splitName_text h4
    have h7 := splitName_parts h4
    rcases h5 with h5 | h5
    · left
      refine ⟨c, r, rfl, (isNameStart_iff c).1 h1, fun x hx => (isNameChar_iff x).1 (h2 x hx), h7.1 h5, ?_⟩
      rintro h
      rw [h] at h3
      cases h3
    · right
      obtain ⟨p, l⟩ := n
      simp only at h5 h7
      subst h5
      have h8 := h7.2 (by simp)
      refine ⟨l, h6.symm, h8.1, fun d hd => ⟨(isNameChar_iff d).1 ?_, ?_⟩⟩
      · have : d ∈ c :: r := by rw [← h6]; simp [nameText, hd]
        rcases List.mem_cons.1 this with rfl | h
        · simp [isNameChar, h1]
        · exact h2 d h
      · rintro rfl; exact h8.2 hd

theorem mkAttrs_map {sc : List (Str × List Str)} {ds : List Str} {l : List (Str × Str)} {as : List Attr}
    (h : mkAttrs sc ds l = some as) : (as.map fun a => (nameText a.name, a.value)) = l.filter fun x => !isXmlns x.1 := by
  induction l generalizing as with
  | nil => cases h; rfl
  | cons x l ih =>
    rw [mkAttrs] at h
    by_cases hx : isXmlns x.1 = true
    · rw [if_pos hx] at h
      rw [ih h, List.filter_cons_of_neg (by simp [hx])]
    · rw [if_neg hx] at h
      cases h1 : mkAttr sc ds x with
      | none => simp [h1] at h
      | some y =>
        cases h2 : mkAttrs sc ds l with
        | none => simp [h1, h2] at h
        | some ys =>
          simp only [h1, h2, Option.some.injEq] at h
          subst h
          rw [List.map_cons, ih h2, List.filter_cons_of_pos (by simp [hx])]
          unfold mkAttr at h1
          split at h1
          · rename_i n hn
            split at h1
            · cases h1
              simp only [splitName_text hn]
            · cases h1
          · cases h1

theorem mkAttrs_of {sc : List (Str × List Str)} {ds : List Str} {l : List (Str × Str)}
    (h : ∀ x ∈ l, isXmlns x.1 = false → ∃ n, splitName x.1 = some n ∧ nameOk sc ds n = true) : ∃ as, mkAttrs sc ds l = some as := by
  induction l with
  | nil => exact ⟨[], rfl⟩
  | cons x l ih =>
    obtain ⟨as, ha⟩ := ih fun y hy => h y (by simp [hy])
    by_cases hx : isXmlns x.1 = true
    · exact ⟨as, by rw [mkAttrs, if_pos hx, ha]⟩
    · obtain ⟨n, h1, h2⟩ := h x (by simp) (by simpa using hx)
      exact ⟨⟨n, x.2⟩ :: as, by rw [mkAttrs, if_neg hx]; simp [mkAttr, h1, h2, ha]⟩

theorem nodup_seen {norm : Config} {hs : List (Str × Str)} (hd : (hs.map Prod.fst).Nodup) :
    ((seenAttrs norm hs).map Prod.fst).Nodup ↔ ∀ x ∈ hs, x.1 ≠ str% "version" ∧ x.1 ≠ str% "generator" := by
  have e : (seenAttrs norm hs).map Prod.fst = str% "version" :: str% "generator" :: hs.map Prod.fst := by
    simp [seenAttrs, Function.comp_def]
  rw [e, List.nodup_cons, List.nodup_cons]
  constructor
  · rintro ⟨h1, h2, _⟩ x hx
    refine ⟨fun h => h1 ?_, fun h => h2 ?_⟩
    · rw [← h]; exact List.mem_cons_of_mem _ (List.mem_map.2 ⟨x, hx, rfl⟩)
    · rw [← h]; exact List.mem_map.2 ⟨x, hx, rfl⟩
  · intro h
    refine ⟨?_, ?_, hd⟩
    · intro hm
      rcases List.mem_cons.1 hm with hm | hm
      · revert hm; decide
      · obtain ⟨x, hx, e⟩ := List.mem_map.1 hm
        exact (h x hx).1 e
    · intro hm
      obtain ⟨x, hx, e⟩ := List.mem_map.1 hm
      exact (h x hx).2 e

theorem head_key {k : Str} (h : k = str% "version" ∨ k = str% "generator") : HeaderKey k := by
  rcases h with rfl | rfl
  · exact .inl (isKey_of rfl (by decide +kernel))
  · exact .inl (isKey_of rfl (by decide +kernel))

/-- What the parser makes of a head whose keys are made of the characters of names and do not declare name spaces. -/
theorem head_cases {norm : Config} (hn : IsNorm norm) {hs : List (Str × Str)} (hd : (hs.map Prod.fst).Nodup)
    (hl : ∀ x ∈ hs, NameLike x.1 ∧ isXmlns x.1 = false) :
    ((∀ x ∈ hs, HeaderKey x.1 ∧ x.1 ≠ str% "version" ∧ x.1 ≠ str% "generator" ∧ ∀ c ∈ x.2, isXmlChar c = true) ∧
      ∃ as, run norm initial (xmlHead hs) = ⟨.text false, [(str% "osm", [])], true, [.other, .other, .start ⟨none, str% "osm"⟩ as]⟩ ∧
        (as.map fun a => (nameText a.name, a.value)) = seenAttrs norm hs) ∨
    (¬ (∀ x ∈ hs, HeaderKey x.1 ∧ x.1 ≠ str% "version" ∧ x.1 ≠ str% "generator" ∧ ∀ c ∈ x.2, isXmlChar c = true) ∧
      run norm initial (xmlHead hs) = ⟨.fail, [], false, [.other, .other]⟩) := by
  have h := run_head hn hs fun x hx => (hl x hx).1
  have hx : ∀ x ∈ seenAttrs norm hs, isXmlns x.1 = false := by
    intro x hx
    rcases List.mem_cons.1 hx with rfl | hx
    · rfl
    rcases List.mem_cons.1 hx with rfl | hx
    · rfl
    obtain ⟨y, hy, rfl⟩ := List.mem_map.1 hx
    exact (hl y hy).2
  have hdec : declared (seenAttrs norm hs) = [] := by
    unfold declared
    rw [List.map_eq_nil_iff, List.filter_eq_nil_iff]
    intro x hm
    have := hx x hm
    unfold isXmlns at this
    rw [Bool.or_eq_false_iff] at this
    simp [this.2]
  have hdecl : (seenAttrs norm hs).all declareOk = true := by
    rw [List.all_eq_true]
    intro x hm
    have := hx x hm
    unfold isXmlns at this
    rw [Bool.or_eq_false_iff, beq_eq_false_iff_ne] at this
    rw [declareOk, if_neg this.1, if_neg (by simp [this.2])]
  have hkeys : (∀ x ∈ seenAttrs norm hs, HeaderKey x.1) ↔ ∀ x ∈ hs, HeaderKey x.1 := by
    simp only [seenAttrs, List.mem_cons, forall_eq_or_imp, List.mem_map, forall_exists_index, and_imp]
    constructor
    · rintro ⟨_, _, h⟩ x hx; exact h (x.1, x.2.map norm) x hx rfl
    · intro h
      refine ⟨head_key (.inl rfl), head_key (.inr rfl), ?_⟩
      rintro y x hx rfl
      exact h x hx
  have hk : (∃ as, mkAttrs [] [] (seenAttrs norm hs) = some as) ↔ ∀ x ∈ seenAttrs norm hs, HeaderKey x.1 := by
    constructor
    · rintro ⟨as, ha⟩ x hm
      have : (x.1, x.2) ∈ as.map fun a => (nameText a.name, a.value) := by
        rw [mkAttrs_map ha, List.mem_filter]
        exact ⟨hm, by simp [hx x hm]⟩
      obtain ⟨a, ha', e⟩ := List.mem_map.1 this
      obtain ⟨y, hy, g1, g2, g3, g4⟩ := (mkAttrs_mem ha a).1 ha'
      have e1 : nameText a.name = y.1 := splitName_text g2
      rw [Prod.mk.injEq] at e
      have e2 : y.1 = x.1 := e1.symm.trans e.1
      rw [headerKey_iff, ← e2]
      refine ⟨?_, g1, a.name, g2, ?_⟩
      · rcases List.mem_cons.1 hy with rfl | hy
        · exact (headerKey_iff.1 (head_key (.inl rfl))).1
        rcases List.mem_cons.1 hy with rfl | hy
        · exact (headerKey_iff.1 (head_key (.inr rfl))).1
        obtain ⟨z, hz, rfl⟩ := List.mem_map.1 hy
        exact (hl z hz).1
      · unfold nameOk at g3
        split at g3
        · left; assumption
        · rename_i p hp
          right
          simp only [List.contains_nil, List.any_nil, Bool.or_false, beq_iff_eq] at g3
          rw [hp, g3]
    · intro h
      refine mkAttrs_of fun x hm _ => ?_
      obtain ⟨_, _, n, h1, h2⟩ := headerKey_iff.1 (h x hm)
      refine ⟨n, h1, ?_⟩
      unfold nameOk
      rcases h2 with h2 | h2 <;> rw [h2]
      simp
  have hname : mkName [] [] (str% "osm") = some ⟨none, str% "osm"⟩ := rfl
  by_cases hc : ∀ x ∈ hs, ∀ c ∈ x.2, isXmlChar c = true
  · rw [if_pos hc] at h
    simp only [finishTag, hdec, hname] at h
    by_cases ha : ∀ x ∈ hs, HeaderKey x.1
    · obtain ⟨as, has⟩ := hk.2 (hkeys.2 ha)
      simp only [has] at h
      by_cases hnd : ∀ x ∈ hs, x.1 ≠ str% "version" ∧ x.1 ≠ str% "generator"
      · left
        refine ⟨fun x hx => ⟨ha x hx, (hnd x hx).1, (hnd x hx).2, hc x hx⟩, as, ?_, ?_⟩
        · rw [h, if_neg]
          · rfl
          · rintro (h | h | h | h | h)
            · cases h.2.1
            · exact h ((nodup_seen hd).2 hnd)
            · cases h
            · cases h
            · rw [hdecl] at h; cases h
        · rw [mkAttrs_map has, List.filter_eq_self]
          intro x hm
          simp [hx x hm]
      · right
        refine ⟨fun hf => hnd fun x hx => ⟨(hf x hx).2.1, (hf x hx).2.2.1⟩, ?_⟩
        rw [h, if_pos (.inr (.inl fun hh => hnd ((nodup_seen hd).1 hh)))]
        rfl
    · right
      refine ⟨fun hf => ha fun x hx => (hf x hx).1, ?_⟩
      have : mkAttrs [] [] (seenAttrs norm hs) = none := by
        cases hm : mkAttrs [] [] (seenAttrs norm hs) with
        | none => rfl
        | some as => exact absurd (hkeys.1 (hk.1 ⟨as, hm⟩)) ha
      rw [h, this]
      rfl
  · right
    refine ⟨fun hf => hc fun x hx => (hf x hx).2.2.2, ?_⟩
    rw [if_neg hc] at h
    exact h

theorem events_fail {norm : Config} {a : Str} (b : Str) {evs : List XmlEvent} (h : run norm initial a = ⟨.fail, [], false, evs⟩) :
    eventsOfBytes norm (Utf8.encode (a ++ b)) = evs.map some ++ [none] := by
  have e : (a ++ b).foldl (step norm) initial = ⟨.fail, [], false, evs⟩ := by
    show run norm initial (a ++ b) = _
    rw [run_append, h, run_fail _ _ rfl]
  simp only [eventsOfBytes, Utf8.decodePrefix_encode, events, e]
  rfl

end Osmio.Xml

namespace Osmio
open Spec Xml OSMObjBase
variable {f : Family}

/-- The document left by a history of calls. -/
theorem header_document (σ : HashOrder) (k : Sink) (hk : k.Reliable) (hk0 : k.out = []) (cs : List (Call f.Obj)) (hv : AllVersioned cs) :
    ∃ hs rest, (XMLWriter.drop σ (run (xmlCall σ) (XMLWriter.new k) cs).2).2.writer.out = Utf8.encode (xmlHead hs ++ rest) ∧
      (hs.map Prod.fst).Nodup ∧
      ∀ key value, (key, value) ∈ hs ↔ lastValue key ((cs.takeWhile Call.isHeader).filterMap Call.header?) = some value := by
  obtain ⟨p1, p2⟩ := puts_spec ((cs.takeWhile Call.isHeader).filterMap Call.header?)
  have := (C23_output_partial σ k hk cs hv).2
  rw [hk0, List.nil_append] at this
  refine ⟨σ.order (headersOf cs), (written cs).flatMap textOf ++ (List.replicate (cs.countP Call.isClose + 1) xmlTail).flatten,
    this.trans (by rw [List.append_assoc]), ((σ.perm _).map _).nodup_iff.2 p1, fun key value => ?_⟩
  rw [(σ.perm _).mem_iff]
  exact p2 key value

/-- **C29** for every key and value that can stand in the root element (`Spec/XmlHeader.lean`), other than the keys of the writer's own two
attributes: in whatever order the map iterates, the root element has each header set before anything else exactly once, with its last value, and
no other attributes than these and the writer's own two. -/
theorem C29_headers_any_partial (norm : Xml.Config) (hn : IsNorm norm) (σ : HashOrder) (k : Sink) (hk : k.Reliable)
    (hk0 : k.out = []) (cs : List (Call f.Obj)) (hv : AllVersioned cs)
    (hh : ∀ key value, lastValue key ((cs.takeWhile Call.isHeader).filterMap Call.header?) = some value →
      HeaderKey key ∧ key ≠ str% "version" ∧ key ≠ str% "generator" ∧ HeaderValue norm value) :
    let doc := (XMLWriter.drop σ (run (xmlCall σ) (XMLWriter.new k) cs).2).2.writer.out
    let sets := (cs.takeWhile Call.isHeader).filterMap Call.header?
    ∃ attrs rest, XMLReader.new norm doc = some .other :: some .other :: some (.start ⟨none, str% "osm"⟩ attrs) :: rest ∧
      (attrs.map fun a => nameText a.name).Nodup ∧
      ∀ key value, (∃ a ∈ attrs, nameText a.name = key ∧ a.value = value) ↔
        (key, value) = (str% "version", str% "0.6") ∨ (key, value) = (str% "generator", str% "osmio/0.16.1") ∨
          lastValue key sets = some value := by
  intro doc sets
  obtain ⟨hs, rest, h1, h2, h3⟩ := header_document σ k hk hk0 cs hv
  have hf : ∀ x ∈ hs, HeaderKey x.1 ∧ x.1 ≠ str% "version" ∧ x.1 ≠ str% "generator" ∧ HeaderValue norm x.2 :=
    fun x hx => hh x.1 x.2 ((h3 x.1 x.2).1 hx)
  have hnorm : (hs.map fun x => (x.1, x.2.map norm)) = hs := by
    refine (List.map_congr_left fun x hx => ?_).trans (List.map_id hs)
    have : x.2.map norm = x.2 := (List.map_congr_left fun c hc => ((hf x hx).2.2.2 c hc).2).trans (List.map_id _)
    rw [this]; rfl
  have hr : ∀ x ∈ hs, NameLike x.1 ∧ isXmlns x.1 = false := fun x hx =>
    ⟨(headerKey_iff.1 (hf x hx).1).1, (headerKey_iff.1 (hf x hx).1).2.1⟩
  rcases head_cases hn h2 hr with ⟨_, as, ha, hm⟩ | ⟨hno, _⟩
  · obtain ⟨r, hr⟩ := events_prefix norm (xmlHead hs) rest
    rw [ha] at hr
    refine ⟨as, r, ?_, ?_, ?_⟩
    · show eventsOfBytes norm doc = _
      rw [show doc = _ from h1, hr]; rfl
    · have e : (as.map fun a => nameText a.name) = (seenAttrs norm hs).map Prod.fst := by
        rw [← hm, List.map_map]; rfl
      rw [e, nodup_seen h2]
      exact fun x hx => ⟨(hf x hx).2.1, (hf x hx).2.2.1⟩
    · intro key value
      have e : (∃ a ∈ as, nameText a.name = key ∧ a.value = value) ↔ (key, value) ∈ as.map fun a => (nameText a.name, a.value) := by
        rw [List.mem_map]
        simp only [Prod.mk.injEq]
      rw [e, hm, seenAttrs, hnorm, List.mem_cons, List.mem_cons, h3]
  · exact absurd (fun x hx => ⟨(hf x hx).1, (hf x hx).2.1, (hf x hx).2.2.1, fun c hc =>
      (isXmlChar_iff c).2 ((hf x hx).2.2.2 c hc).1⟩) hno

/-- **C29**, exactly: the root element gives back every header with its last value if and only if each key is one that can stand there, is not
`version` or `generator`, and each value is made of characters that XML has and the parser reports as they are. -/
theorem C29_iff (norm : Xml.Config) (hn : IsNorm norm) (σ : HashOrder) (k : Sink) (hk : k.Reliable)
    (hk0 : k.out = []) (cs : List (Call f.Obj)) (hv : AllVersioned cs) :
    let doc := (XMLWriter.drop σ (run (xmlCall σ) (XMLWriter.new k) cs).2).2.writer.out
    let sets := (cs.takeWhile Call.isHeader).filterMap Call.header?
    (∃ name attrs rest, XMLReader.new norm doc = some .other :: some .other :: some (.start name attrs) :: rest ∧
      ∀ key value, lastValue key sets = some value → ∃ a ∈ attrs, nameText a.name = key ∧ a.value = value) ↔
    ∀ key value, lastValue key sets = some value →
      HeaderKey key ∧ key ≠ str% "version" ∧ key ≠ str% "generator" ∧ HeaderValue norm value := by
  intro doc sets
  constructor
  · rintro ⟨name, attrs, r, he, hall⟩
    obtain ⟨hs, rest, h1, h2, h3⟩ := header_document σ k hk hk0 cs hv
    have hrep : ∀ x ∈ hs, NameLike x.1 ∧ isXmlns x.1 = false := by
      intro x hx
      obtain ⟨a, ha, e, _⟩ := hall x.1 x.2 ((h3 _ _).1 hx)
      have := reported_names norm doc (n := name) (as := attrs)
        (by show _ ∈ XMLReader.new norm doc; rw [he]; simp) a ha
      unfold Reportable at this
      rw [e] at this
      exact this
    rcases head_cases hn h2 hrep with ⟨hok, as, ha, hm⟩ | ⟨_, hfail⟩
    · obtain ⟨r', hr⟩ := events_prefix norm (xmlHead hs) rest
      rw [ha] at hr
      have e1 : XMLReader.new norm doc = some .other :: some .other :: some (.start ⟨none, str% "osm"⟩ as) :: r' := by
        show eventsOfBytes norm doc = _
        rw [show doc = _ from h1, hr]; rfl
      rw [e1] at he
      simp only [List.cons.injEq, Option.some.injEq, XmlEvent.start.injEq, true_and] at he
      obtain ⟨⟨_, rfl⟩, _⟩ := he
      intro key value hkv
      have hx := (h3 key value).2 hkv
      obtain ⟨o1, o2, o3, o4⟩ := hok _ hx
      refine ⟨o1, o2, o3, fun c hc => ⟨(isXmlChar_iff c).1 (o4 c hc), ?_⟩⟩
      obtain ⟨a, ha', e2, e3⟩ := hall key value hkv
      have hmem : (key, value) ∈ seenAttrs norm hs := by
        rw [← hm, List.mem_map]
        exact ⟨a, ha', by rw [e2, e3]⟩
      have hmem2 : (key, value.map norm) ∈ seenAttrs norm hs :=
        List.mem_cons_of_mem _ (List.mem_cons_of_mem _ (List.mem_map.2 ⟨_, hx, rfl⟩))
      have hnd : ((seenAttrs norm hs).map Prod.fst).Nodup := (nodup_seen h2).2 fun x hx => ⟨(hok x hx).2.1, (hok x hx).2.2.1⟩
      have : value = value.map norm := by
        have := List.inj_on_of_nodup_map hnd hmem hmem2 rfl
        exact (Prod.mk.inj this).2
      have h5 : value.map norm = value.map id := by rw [List.map_id]; exact this.symm
      exact List.map_inj_left.1 h5 c hc
    · have e1 : XMLReader.new norm doc = [some .other, some .other, none] := by
        show eventsOfBytes norm doc = _
        rw [show doc = _ from h1, events_fail rest hfail]; rfl
      rw [e1] at he
      simp at he
  · intro hh
    obtain ⟨attrs, rest, h1, _, h3⟩ := C29_headers_any_partial norm hn σ k hk hk0 cs hv hh
    exact ⟨_, attrs, rest, h1, fun key value h => (h3 key value).2 (.inr (.inr h))⟩

/-- Keys that can be given back: plain names and those in the name space `xml`. -/
example : HeaderKey (str% "copyright") ∧ HeaderKey (str% "xml:lang") ∧ HeaderValue .keep (str% "<\n\"é") := by
  refine ⟨.inl (isKey_of rfl (by decide +kernel)), .inr ⟨str% "lang", rfl, by decide, ?_⟩, ?_⟩
  · have : ∀ c ∈ str% "lang", isNameChar c = true ∧ c ≠ ':' := by decide +kernel
    exact fun c hc => ⟨(isNameChar_iff c).1 (this c hc).1, (this c hc).2⟩
  · have : ∀ c ∈ str% "<\n\"é", isXmlChar c = true := by decide +kernel
    exact fun c hc => ⟨(isXmlChar_iff c).1 (this c hc), rfl⟩

/-- Keys that cannot: with a prefix that is not declared, with two colons, an empty part, or a declaration of a name space. -/
example : ¬ HeaderKey (str% "a:b") ∧ ¬ HeaderKey (str% "xml:a:b") ∧ ¬ HeaderKey (str% "xml:") ∧ ¬ HeaderKey (str% "xmlns:a") ∧
    ¬ HeaderKey (str% "a b") ∧ ¬ HeaderKey [] := by
  refine ⟨?_, ?_, ?_, ?_, ?_, ?_⟩ <;> rw [headerKey_iff] <;> rintro ⟨h1, h2, n, h3, h4⟩
  · cases h3; revert h4; decide
  · cases h3
  · cases h3
  · cases h2
  · obtain ⟨c, r, h, _, hc⟩ := h1
    cases h
    have := hc ' ' (by decide)
    revert this; decide +kernel
  · obtain ⟨c, r, h, _⟩ := h1
    cases h

end Osmio
