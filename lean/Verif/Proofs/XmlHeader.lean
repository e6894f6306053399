import Verif.Spec.XmlHeader
import Verif.Proofs.XmlIllegal
/-! # Lemmas: headers with any keys and values -/

namespace Osmio.Xml
open Spec

/-- Made of the characters of a name. -/
def NameLike (k : Str) : Prop := ∃ c r, k = c :: r ∧ isNameStart c = true ∧ ∀ x ∈ r, isNameChar x = true

theorem IsKey.nameLike {k : Str} (h : IsKey k) : NameLike k := by
  obtain ⟨c, r, rfl, h1, h2, _⟩ := h
  exact ⟨c, r, rfl, (isNameStart_iff c).2 h1, fun x hx => (isNameChar_iff x).2 (h2 x hx)⟩

theorem NameLike.snoc {k : Str} (h : NameLike k) {c : Char} (hc : isNameChar c = true) : NameLike (k ++ [c]) := by
  obtain ⟨d, r, rfl, h1, h2⟩ := h
  refine ⟨d, r ++ [c], rfl, h1, fun x hx => ?_⟩
  rcases List.mem_append.1 hx with hx | hx
  · exact h2 x hx
  · rw [List.mem_singleton.1 hx]; exact hc

/-! ## What can be reported -/

/-- A name that can be reported for an attribute. -/
def Reportable (n : Name) : Prop := NameLike (nameText n) ∧ isXmlns (nameText n) = false

theorem splitName_text {k : Str} {n : Name} (h : splitName k = some n) : nameText n = k := by
  have hs := List.span_eq_takeWhile_dropWhile (p := (· != ':')) (l := k)
  have hj := List.takeWhile_append_dropWhile (p := (· != ':')) (l := k)
  have hd : ∀ c r, List.dropWhile (· != ':') k = c :: r → c = ':' := by
    intro c r e
    have := List.head?_dropWhile_not (· != ':') k
    rw [e] at this
    simpa using this
  unfold splitName at h
  rw [hs] at h
  generalize List.takeWhile (· != ':') k = a at *
  generalize List.dropWhile (· != ':') k = b at *
  cases a with
  | nil => cases h
  | cons x a =>
    cases b with
    | nil =>
      simp only [Option.some.injEq] at h
      subst h
      simpa [nameText] using hj
    | cons y b =>
      simp only at h
      split at h
      · cases h
      · simp only [Option.some.injEq] at h
        subst h
        rw [hd y b rfl] at hj
        exact hj

theorem mkAttrs_mem {sc : List (Str × List Str)} {ds : List Str} {l : List (Str × Str)} {as : List Attr}
    (h : mkAttrs sc ds l = some as) (a : Attr) :
    a ∈ as ↔ ∃ x ∈ l, isXmlns x.1 = false ∧ splitName x.1 = some a.name ∧ nameOk sc ds a.name = true ∧ a.value = x.2 := by
  induction l generalizing as with
  | nil => cases h; simp
  | cons x l ih =>
    rw [mkAttrs] at h
    by_cases hx : isXmlns x.1 = true
    · rw [if_pos hx] at h
      rw [ih h]
      simp [hx]
    · rw [if_neg hx] at h
      rw [Bool.not_eq_true] at hx
      cases h1 : mkAttr sc ds x with
      | none => simp [h1] at h
      | some y =>
        cases h2 : mkAttrs sc ds l with
        | none => simp [h1, h2] at h
        | some ys =>
          simp only [h1, h2, Option.some.injEq] at h
          subst h
          rw [List.mem_cons, ih h2]
          have hy : splitName x.1 = some y.name ∧ nameOk sc ds y.name = true ∧ y.value = x.2 := by
            unfold mkAttr at h1
            split at h1
            · split at h1
              · cases h1; exact ⟨by assumption, by assumption, rfl⟩
              · cases h1
            · cases h1
          constructor
          · rintro (rfl | ⟨z, hz, h⟩)
            · exact ⟨x, by simp, hx, hy⟩
            · exact ⟨z, by simp [hz], h⟩
          · rintro ⟨z, hz, h⟩
            rcases List.mem_cons.1 hz with rfl | hz
            · left
              obtain ⟨_, h3, _, h4⟩ := h
              rw [hy.1] at h3
              have e : y.name = a.name := Option.some.inj h3
              cases a; cases y
              simp only at e h4 hy
              rw [e, h4, hy.2.2]
            · exact .inr ⟨z, hz, h⟩

/-- The names collected so far are made of the characters of names. -/
def namesOk : Mode → Prop
  | .inTag _ as | .attrDone _ as | .slash _ as => ∀ x ∈ as, NameLike x.1
  | .attrName _ as k | .attrEq _ as k | .attrPre _ as k | .attrVal _ as k _ _ | .attrEnt _ as k _ _ _ => (∀ x ∈ as, NameLike x.1) ∧ NameLike k
  | _ => True

/-- The reported names can be reported. -/
def eventOk : XmlEvent → Prop
  | .start _ as => ∀ a ∈ as, Reportable a.name
  | _ => True

/-- Both. -/
def StateOk (s : PState) : Prop := namesOk s.mode ∧ ∀ e ∈ s.events, eventOk e

theorem stateOk_goto {s : PState} (h : ∀ e ∈ s.events, eventOk e) {m : Mode} (hm : namesOk m) : StateOk (s.goto m) := ⟨hm, h⟩
theorem stateOk_err {s : PState} (h : ∀ e ∈ s.events, eventOk e) : StateOk s.err := ⟨trivial, h⟩

theorem events_flush {s : PState} (h : ∀ e ∈ s.events, eventOk e) (p : Bool) : ∀ e ∈ (flush s p).events, eventOk e := by
  unfold flush
  split
  · intro e he
    rcases List.mem_append.1 he with he | he
    · exact h e he
    · rw [List.mem_singleton.1 he]; trivial
  · exact h

theorem stateOk_finishTag (norm : Config) {s : PState} (h : ∀ e ∈ s.events, eventOk e) (n : Str) {as : List (Str × Str)}
    (ha : ∀ x ∈ as, NameLike x.1) (b : Bool) : StateOk (finishTag norm s n as b) := by
  simp only [finishTag]
  split
  · rename_i nm l h1 h2
    split
    · exact stateOk_err h
    · refine ⟨trivial, fun e he => ?_⟩
      rcases List.mem_append.1 he with he | he
      · exact h e he
      · have hs : eventOk (.start nm l) := by
          intro a ha'
          obtain ⟨x, hx, g1, g2, _⟩ := (mkAttrs_mem h2 a).1 ha'
          have e := splitName_text g2
          exact ⟨by rw [e]; exact ha x hx, by rw [e]; exact g1⟩
        cases b
        · rw [List.mem_singleton.1 he]; exact hs
        · rcases List.mem_cons.1 he with rfl | he
          · exact hs
          · rw [List.mem_singleton.1 he]; trivial
  · exact stateOk_err h

theorem stateOk_finishEnd {s : PState} (h : ∀ e ∈ s.events, eventOk e) (n : Str) : StateOk (finishEnd s n) := by
  unfold finishEnd
  split
  · exact stateOk_err h
  · split
    · split
      · refine ⟨trivial, fun e he => ?_⟩
        rcases List.mem_append.1 he with he | he
        · exact h e he
        · rw [List.mem_singleton.1 he]; trivial
      · exact stateOk_err h
    · exact stateOk_err h

theorem nameLike_start {c : Char} (h : isNameStart c = true) : NameLike [c] := ⟨c, [], rfl, h, by simp⟩

theorem nameLike_put {as : List (Str × Str)} {k v : Str} (h : (∀ x ∈ as, NameLike x.1) ∧ NameLike k) : ∀ x ∈ as ++ [(k, v)], NameLike x.1 := by
  intro x hx
  rcases List.mem_append.1 hx with hx | hx
  · exact h.1 x hx
  · rw [List.mem_singleton.1 hx]; exact h.2

theorem stateOk_step (norm : Config) {s : PState} (h : StateOk s) (c : Char) : StateOk (step norm s c) := by
  obtain ⟨hm, he⟩ := h
  unfold Xml.step
  split
  · unfold stepText
    split_ifs <;> first | exact stateOk_goto (events_flush he _) trivial | exact stateOk_goto he trivial
  · unfold stepTextEnt
    split_ifs <;> exact stateOk_goto he trivial
  · unfold stepLt
    split_ifs <;> exact stateOk_goto he trivial
  · simp only [stepBang]
    split_ifs <;> exact stateOk_goto he trivial
  · unfold stepComment
    split_ifs <;> first | exact stateOk_goto (events_flush he _) trivial | exact stateOk_goto he trivial
  · unfold stepCdata
    split_ifs <;> first | exact stateOk_goto (events_flush he _) trivial | exact stateOk_goto he trivial
  · unfold stepPi
    split_ifs <;> first | exact stateOk_goto (events_flush he _) trivial | exact stateOk_goto he trivial
  · unfold stepTagName
    have h0 : ∀ x ∈ ([] : List (Str × Str)), NameLike x.1 := by simp
    split_ifs <;> first | exact stateOk_goto he trivial | exact stateOk_goto he h0 | exact stateOk_finishTag norm he _ h0 _
  · rename_i heq; rw [heq] at hm
    unfold stepInTag
    split_ifs with h1 h2
    · exact stateOk_goto he hm
    · exact stateOk_goto he ⟨hm, nameLike_start h2⟩
    · exact stateOk_finishTag norm he _ hm _
    · exact stateOk_goto he hm
    · exact stateOk_err he
  · rename_i heq; rw [heq] at hm
    unfold stepAttrName
    split_ifs with h1
    · exact stateOk_goto he ⟨hm.1, hm.2.snoc h1⟩
    · exact stateOk_goto he hm
    · exact stateOk_goto he hm
    · exact stateOk_err he
  · rename_i heq; rw [heq] at hm
    unfold stepAttrEq
    split_ifs <;> first | exact stateOk_goto he hm | exact stateOk_err he
  · rename_i heq; rw [heq] at hm
    unfold stepAttrPre
    split_ifs <;> first | exact stateOk_goto he hm | exact stateOk_err he
  · rename_i heq; rw [heq] at hm
    unfold stepAttrVal
    split_ifs <;> first | exact stateOk_goto he (nameLike_put hm) | exact stateOk_err he | exact stateOk_goto he hm
  · rename_i heq; rw [heq] at hm
    unfold stepAttrEnt
    split_ifs
    · split <;> first | exact stateOk_goto he hm | exact stateOk_err he
    · exact stateOk_goto he hm
    · exact stateOk_err he
  · rename_i heq; rw [heq] at hm
    unfold stepAttrDone
    split_ifs <;> first | exact stateOk_goto he hm | exact stateOk_finishTag norm he _ hm _ | exact stateOk_err he
  · rename_i heq; rw [heq] at hm
    split_ifs <;> first | exact stateOk_finishTag norm he _ hm _ | exact stateOk_err he
  · unfold stepEndName
    split_ifs <;> first | exact stateOk_goto he trivial | exact stateOk_finishEnd he _
  · rename_i heq
    split_ifs <;> first | exact ⟨hm, he⟩ | exact stateOk_finishEnd he _ | exact stateOk_err he
  · exact ⟨hm, he⟩

theorem stateOk_run (norm : Config) (t : Str) {s : PState} (h : StateOk s) : StateOk (run norm s t) := by
  induction t generalizing s with
  | nil => exact h
  | cons c t ih => exact ih (stateOk_step norm h c)

/-- Whatever the text: the names of reported attributes are made of the characters of names and do not declare name spaces. -/
theorem reported_names (norm : Config) (bs : List UInt8) {n : Name} {as : List Attr}
    (h : some (.start n as) ∈ eventsOfBytes norm bs) : ∀ a ∈ as, Reportable a.name := by
  simp only [eventsOfBytes, events, List.mem_append, List.mem_map, List.mem_singleton] at h
  have ho := stateOk_run norm (Utf8.decodePrefix bs).1 (s := initial) ⟨trivial, by simp [initial]⟩
  rcases h with ⟨e, he, h⟩ | h
  · cases h
    exact ho.2 _ he
  · split at h <;> cases h

/-! ## Reading a header -/

theorem run_attr_like {norm : Config} (op : List (Str × List Str)) (r : Bool) (evs : List XmlEvent) (n : Str)
    (as : List (Str × Str)) {k : Str} (hk : NameLike k) :
    run norm ⟨.attrDone n as, op, r, evs⟩ (' ' :: (k ++ ['=', '"'])) = ⟨.attrVal n as k '"' [], op, r, evs⟩ := by
  obtain ⟨c, s, rfl, hc, hs⟩ := hk
  rw [run_cons]
  have h0 : step norm ⟨.attrDone n as, op, r, evs⟩ ' ' = ⟨.inTag n as, op, r, evs⟩ := rfl
  have h1 : step norm ⟨.inTag n as, op, r, evs⟩ c = ⟨.attrName n as [c], op, r, evs⟩ := by
    show stepInTag norm _ n as c = _
    simp [stepInTag, nameStart_not_ws hc, hc, PState.goto]
  have hq : isNameChar '=' = false := by decide +kernel
  have h2 : step norm ⟨.attrName n as ([c] ++ s), op, r, evs⟩ '=' = ⟨.attrPre n as (c :: s), op, r, evs⟩ := by
    show stepAttrName _ n as _ '=' = _
    simp [stepAttrName, hq, PState.goto]
  rw [h0, List.cons_append, run_cons, h1, run_append, run_attrName _ _ _ _ _ _ _ hs, run_cons, h2]
  rfl

theorem run_fail (norm : Config) (t : Str) {s : PState} (h : s.mode = .fail) : run norm s t = s := by
  induction t with
  | nil => rfl
  | cons c t ih =>
    rw [run_cons]
    have : step norm s c = s := by unfold step; rw [h]
    rw [this, ih]

theorem escaped1_illegal {c : Char} (h : isXmlChar c = false) : escaped1 c = [c] := by
  unfold escaped1 entity
  split
  · rename_i heq
    split at heq <;> cases heq <;> exact absurd h (by decide)
  · rfl

/-- Attributes with such names: the values are read, or one has a character that XML does not have. -/
theorem run_headers {norm : Config} (hn : IsNorm norm) (op : List (Str × List Str)) (r : Bool) (evs : List XmlEvent) (n : Str)
    (hs : List (Str × Str)) (hl : ∀ x ∈ hs, NameLike x.1) (as : List (Str × Str)) :
    if ∀ x ∈ hs, ∀ c ∈ x.2, isXmlChar c = true then
      run norm ⟨.attrDone n as, op, r, evs⟩ (hs.flatMap fun h => rawAttr h.1 (escaped h.2)) =
        ⟨.attrDone n (as ++ hs.map fun x => (x.1, x.2.map norm)), op, r, evs⟩
    else run norm ⟨.attrDone n as, op, r, evs⟩ (hs.flatMap fun h => rawAttr h.1 (escaped h.2)) = ⟨.fail, op, r, evs⟩ := by
  induction hs generalizing as with
  | nil => simp [run]
  | cons x hs ih =>
    have hx := hl x (by simp)
    have e : rawAttr x.1 (escaped x.2) = (' ' :: (x.1 ++ ['=', '"'])) ++ (escaped x.2 ++ ['"']) := by simp [rawAttr]
    rw [List.flatMap_cons, e, run_append, run_append, run_attr_like _ _ _ _ _ hx]
    by_cases hc : ∀ c ∈ x.2, isXmlChar c = true
    · have e2 : run norm ⟨.attrVal n as x.1 '"' [], op, r, evs⟩ (escaped x.2 ++ ['"']) =
          ⟨.attrDone n (as ++ [(x.1, x.2.map norm)]), op, r, evs⟩ := by
        rw [run_append, ReadsAs.escapedMap hn hc]; rfl
      rw [e2]
      have ih := ih (fun y hy => hl y (by simp [hy])) (as ++ [(x.1, x.2.map norm)])
      have e3 : (∀ y ∈ x :: hs, ∀ c ∈ y.2, isXmlChar c = true) ↔ ∀ y ∈ hs, ∀ c ∈ y.2, isXmlChar c = true := by
        simp only [List.mem_cons, forall_eq_or_imp]
        exact ⟨fun h => h.2, fun h => ⟨hc, h⟩⟩
      simp only [e3]
      split
      · rename_i h
        rw [if_pos h] at ih
        rw [ih]; simp
      · rename_i h
        rw [if_neg h] at ih
        exact ih
    · rw [if_neg fun h => hc (h x (by simp))]
      obtain ⟨v1, c, v2, ev, h1, h2⟩ : ∃ v1 c v2, x.2 = v1 ++ c :: v2 ∧ (∀ d ∈ v1, isXmlChar d = true) ∧ isXmlChar c = false := by
        clear e ih
        generalize x.2 = v at hc
        induction v with
        | nil => exact absurd (by simp) hc
        | cons d v ihv =>
          by_cases hd : isXmlChar d = true
          · obtain ⟨v1, c, v2, e, g1, g2⟩ := ihv fun h => hc (by simpa [hd] using h)
            refine ⟨d :: v1, c, v2, by rw [e]; rfl, ?_, g2⟩
            intro y hy
            rcases List.mem_cons.1 hy with rfl | hy
            · exact hd
            · exact g1 y hy
          · exact ⟨[], d, v, rfl, by simp, by simpa using hd⟩
      have e2 : run norm ⟨.attrVal n as x.1 '"' [], op, r, evs⟩ (escaped x.2 ++ ['"']) = ⟨.fail, op, r, evs⟩ := by
        have e4 : escaped x.2 ++ ['"'] = escaped v1 ++ (c :: (escaped v2 ++ ['"'])) := by
          rw [ev]
          simp [escaped, List.flatMap_append, List.flatMap_cons, escaped1_illegal h2]
        rw [e4, run_append, ReadsAs.escapedMap hn h1, run_cons, step_illegal norm _ (by show isXmlChar '"' = true; decide) h2]
        exact run_fail _ _ rfl
      rw [e2]
      exact run_fail _ _ rfl

/-- The attributes of the root element, as the parser collects them. -/
def seenAttrs (norm : Config) (hs : List (Str × Str)) : List (Str × Str) :=
  (str% "version", str% "0.6") :: (str% "generator", str% "osmio/0.16.1") :: hs.map fun x => (x.1, x.2.map norm)

theorem run_head {norm : Config} (hn : IsNorm norm) (hs : List (Str × Str)) (hl : ∀ x ∈ hs, NameLike x.1) :
    if ∀ x ∈ hs, ∀ c ∈ x.2, isXmlChar c = true then
      run norm initial (xmlHead hs) = finishTag norm ⟨.attrDone (str% "osm") (seenAttrs norm hs), [], false, [.other, .other]⟩
        (str% "osm") (seenAttrs norm hs) false
    else run norm initial (xmlHead hs) = ⟨.fail, [], false, [.other, .other]⟩ := by
  have q1 : ReadsAs norm (str% "0.6") (str% "0.6") := .plain hn (by decide)
  have q2 : ReadsAs norm (str% "osmio/0.16.1") (str% "osmio/0.16.1") := .plain hn (by decide)
  have e1 : (str% "<?xml version=\"1.0\" encoding=\"utf-8\"?>\n<osm version=\"0.6\" generator=\"osmio/0.16.1\"") =
      (str% "<?xml version=\"1.0\" encoding=\"utf-8\"?>\n<osm") ++ rawAttr (str% "version") (str% "0.6") ++
        rawAttr (str% "generator") (str% "osmio/0.16.1") := rfl
  have e2 : run norm initial (str% "<?xml version=\"1.0\" encoding=\"utf-8\"?>\n<osm") =
      ⟨.tagName (str% "osm"), [], false, [.other, .other]⟩ := rfl
  have e3 : run norm initial (xmlHead hs) = run norm (run norm
      ⟨.attrDone (str% "osm") [(str% "version", str% "0.6"), (str% "generator", str% "osmio/0.16.1")], [], false, [.other, .other]⟩
      (hs.flatMap fun h => rawAttr h.1 (escaped h.2))) (str% ">") := by
    unfold xmlHead
    rw [e1, run_append, run_append, run_append, run_append, e2, run_attr_first _ _ _ _ (isKey_of rfl (by decide +kernel)) q1,
      run_attr_done _ _ _ _ _ (isKey_of rfl (by decide +kernel)) q2]
    rfl
  have h := run_headers hn [] false [.other, .other] (str% "osm") hs hl
    [(str% "version", str% "0.6"), (str% "generator", str% "osmio/0.16.1")]
  split
  · rename_i hc
    rw [if_pos hc] at h
    rw [e3, h]; rfl
  · rename_i hc
    rw [if_neg hc] at h
    rw [e3, h]; rfl

end Osmio.Xml
