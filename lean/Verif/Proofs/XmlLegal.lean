import Verif.Model.XmlRead
import Verif.Spec.Representable
import Verif.Spec.Drain
import Mathlib.Tactic.SplitIfs
/-! # Lemmas: the characters of the values an XML parser reports, and of the objects read from them -/

namespace Osmio.Xml
open Spec

variable {P : Char → Prop}

/-- All characters of the values. -/
def PairsIn (P : Char → Prop) (as : List (Str × Str)) : Prop := ∀ a ∈ as, ∀ c ∈ a.2, P c

/-- All characters of the values of an event's attributes. -/
def EventIn (P : Char → Prop) : XmlEvent → Prop
  | .start _ as => ∀ a ∈ as, ∀ c ∈ a.value, P c
  | _ => True

/-- All characters of the values that a mode holds. -/
def ModeIn (P : Char → Prop) : Mode → Prop
  | .inTag _ a => PairsIn P a
  | .attrName _ a _ => PairsIn P a
  | .attrEq _ a _ => PairsIn P a
  | .attrPre _ a _ => PairsIn P a
  | .attrDone _ a => PairsIn P a
  | .slash _ a => PairsIn P a
  | .attrVal _ a _ _ v => PairsIn P a ∧ ∀ c ∈ v, P c
  | .attrEnt _ a _ _ v _ => PairsIn P a ∧ ∀ c ∈ v, P c
  | _ => True

def StateIn (P : Char → Prop) (s : PState) : Prop := ModeIn P s.mode ∧ ∀ e ∈ s.events, EventIn P e

theorem pairsIn_nil : PairsIn P [] := by intro a ha; cases ha

theorem mkAttrs_in {sc : List (Str × List Str)} {d : List Str} : ∀ {l : List (Str × Str)} {as : List Attr},
    mkAttrs sc d l = some as → PairsIn P l → ∀ a ∈ as, ∀ c ∈ a.value, P c := by
  intro l
  induction l with
  | nil => intro as h _; cases h; intro a ha; cases ha
  | cons x l ih =>
    intro as h hl
    unfold mkAttrs at h
    have hl' : PairsIn P l := fun a ha => hl a (List.mem_cons_of_mem _ ha)
    split_ifs at h with hx
    · exact ih h hl'
    · rcases h1 : mkAttr sc d x with _ | a1
      · rw [h1] at h; cases h
      · rcases h2 : mkAttrs sc d l with _ | a2
        · rw [h1, h2] at h; cases h
        · rw [h1, h2] at h
          cases h
          intro a ha
          rcases List.mem_cons.1 ha with rfl | ha
          · unfold mkAttr at h1
            rcases h3 : splitName x.1 with _ | n
            · rw [h3] at h1; cases h1
            · rw [h3] at h1
              simp only at h1
              split_ifs at h1
              cases h1
              exact hl x List.mem_cons_self
          · exact ih h2 hl' a ha

theorem finishTag_in {norm : Xml.Config} {s : PState} {n : Str} {as : List (Str × Str)} {e : Bool} (hs : ∀ e ∈ s.events, EventIn P e) (ha : PairsIn P as) :
    StateIn P (finishTag norm s n as e) := by
  simp only [finishTag]
  split
  · rename_i nm at' h1 h2
    split
    · exact ⟨trivial, hs⟩
    · refine ⟨trivial, ?_⟩
      intro ev hev
      rcases List.mem_append.1 hev with hev | hev
      · exact hs ev hev
      · have hst : EventIn P (.start nm at') := mkAttrs_in h2 ha
        cases e
        · simp only [Bool.false_eq_true, if_false, List.mem_singleton] at hev
          rw [hev]; exact hst
        · simp only [if_true, List.mem_cons, List.not_mem_nil, or_false] at hev
          rcases hev with rfl | rfl
          · exact hst
          · trivial
  · exact ⟨trivial, hs⟩

theorem finishEnd_in {s : PState} {n : Str} (hs : ∀ e ∈ s.events, EventIn P e) : StateIn P (finishEnd s n) := by
  unfold finishEnd
  split
  · exact ⟨trivial, hs⟩
  · split
    · split
      · refine ⟨trivial, ?_⟩
        intro ev hev
        rcases List.mem_append.1 hev with hev | hev
        · exact hs ev hev
        · rw [List.mem_singleton.1 hev]; trivial
      · exact ⟨trivial, hs⟩
    · exact ⟨trivial, hs⟩

theorem flush_in {s : PState} {b : Bool} (hs : ∀ e ∈ s.events, EventIn P e) : ∀ e ∈ (flush s b).events, EventIn P e := by
  unfold flush
  split
  · intro ev hev
    rcases List.mem_append.1 hev with hev | hev
    · exact hs ev hev
    · rw [List.mem_singleton.1 hev]; trivial
  · exact hs

theorem step_in {norm : Xml.Config} (hn : ∀ c, isXmlChar c = true → P (norm c)) (hr : ∀ e x, resolve e = some x → P x)
    {s : PState} (c : Char) (h : StateIn P s) : StateIn P (step norm s c) := by
  obtain ⟨hm, hs⟩ := h
  unfold Xml.step
  split <;> rename_i hmode <;> rw [hmode] at hm
  · unfold stepText
    split_ifs
    · exact ⟨trivial, flush_in hs⟩
    all_goals exact ⟨trivial, hs⟩
  · unfold stepTextEnt
    split_ifs <;> exact ⟨trivial, hs⟩
  · unfold stepLt
    split_ifs <;> exact ⟨trivial, hs⟩
  · simp only [stepBang]
    split_ifs <;> exact ⟨trivial, hs⟩
  · unfold stepComment
    split_ifs <;> first | exact ⟨trivial, hs⟩ | exact ⟨trivial, flush_in hs⟩
  · unfold stepCdata
    split_ifs <;> first | exact ⟨trivial, hs⟩ | exact ⟨trivial, flush_in hs⟩
  · unfold stepPi
    split_ifs <;> first | exact ⟨trivial, hs⟩ | exact ⟨trivial, flush_in hs⟩
  · unfold stepTagName
    split_ifs <;> first | exact ⟨trivial, hs⟩ | exact ⟨pairsIn_nil, hs⟩ | exact finishTag_in hs pairsIn_nil
  · unfold stepInTag
    split_ifs <;> first | exact ⟨hm, hs⟩ | exact finishTag_in hs hm | exact ⟨trivial, hs⟩
  · unfold stepAttrName
    split_ifs <;> first | exact ⟨hm, hs⟩ | exact ⟨trivial, hs⟩
  · unfold stepAttrEq
    split_ifs <;> first | exact ⟨hm, hs⟩ | exact ⟨trivial, hs⟩
  · unfold stepAttrPre
    split_ifs
    · exact ⟨hm, hs⟩
    · exact ⟨⟨hm, fun c hc => by cases hc⟩, hs⟩
    · exact ⟨trivial, hs⟩
  · unfold stepAttrVal
    split_ifs with h1 h2 h3 h4
    · refine ⟨?_, hs⟩
      intro a ha
      rcases List.mem_append.1 ha with ha | ha
      · exact hm.1 a ha
      · rw [List.mem_singleton.1 ha]; exact hm.2
    · exact ⟨trivial, hs⟩
    · exact ⟨hm, hs⟩
    · refine ⟨⟨hm.1, ?_⟩, hs⟩
      intro x hx
      rcases List.mem_append.1 hx with hx | hx
      · exact hm.2 x hx
      · rw [List.mem_singleton.1 hx]; exact hn c h4
    · exact ⟨trivial, hs⟩
  · unfold stepAttrEnt
    split_ifs
    · split
      · rename_i x hx
        refine ⟨⟨hm.1, ?_⟩, hs⟩
        intro y hy
        rcases List.mem_append.1 hy with hy | hy
        · exact hm.2 y hy
        · rw [List.mem_singleton.1 hy]; exact hr _ x hx
      · exact ⟨trivial, hs⟩
    · exact ⟨hm, hs⟩
    · exact ⟨trivial, hs⟩
  · unfold stepAttrDone
    split_ifs <;> first | exact ⟨hm, hs⟩ | exact finishTag_in hs hm | exact ⟨trivial, hs⟩
  · split_ifs
    · exact finishTag_in hs hm
    · exact ⟨trivial, hs⟩
  · unfold stepEndName
    split_ifs <;> first | exact ⟨trivial, hs⟩ | exact finishEnd_in hs
  · split_ifs
    · exact ⟨by rw [hmode]; trivial, hs⟩
    · exact finishEnd_in hs
    · exact ⟨trivial, hs⟩
  · exact ⟨by rw [hmode]; trivial, hs⟩

/-- Every value that is reported. -/
theorem events_in {norm : Xml.Config} (hn : ∀ c, isXmlChar c = true → P (norm c)) (hr : ∀ e x, resolve e = some x → P x)
    (doc : List UInt8) : ∀ e, some e ∈ eventsOfBytes norm doc → EventIn P e := by
  have key : ∀ (t : Str) (s : PState), StateIn P s → StateIn P (t.foldl (step norm) s) := by
    intro t
    induction t with
    | nil => exact fun s h => h
    | cons c t ih => exact fun s h => ih _ (step_in hn hr c h)
  intro e he
  have h := (key (Utf8.decodePrefix doc).1 initial ⟨trivial, fun e he => by cases he⟩).2
  simp only [eventsOfBytes, events, List.mem_append, List.mem_map, Option.some.injEq, exists_eq_right, List.mem_singleton] at he
  rcases he with he | he
  · exact h e he
  · split at he
    · cases he; trivial
    · cases he

/-- What a reference stands for is a character of XML. -/
theorem resolve_xml {e : Str} {x : Char} (h : resolve e = some x) : isXmlChar x = true := by
  have hc : ∀ {n : Option Nat} {x : Char}, charRef n = some x → isXmlChar x = true := by
    intro n x h
    unfold charRef at h
    cases n with
    | none => cases h
    | some n =>
      simp only at h
      split_ifs at h with h1
      cases h
      exact h1.2
  unfold resolve at h
  split_ifs at h
  · cases h; decide
  · cases h; decide
  · cases h; decide
  · cases h; decide
  · cases h; decide
  · split at h
    · exact hc h
    · exact hc h
    · cases h

/-! ## From events to objects -/

theorem swapRemove_mem {α : Type} {l : List α} {i : Nat} {x : α} (h : x ∈ swapRemove l i) : x ∈ l := by
  unfold swapRemove at h
  split at h
  · rename_i y hy
    have h := (List.dropLast_sublist _).mem h
    rcases List.mem_or_eq_of_mem_set h with h | h
    · exact h
    · rw [h]; exact List.mem_of_getLast? hy
  · exact h

/-- The attributes have the property. -/
def AttrsIn (P : Char → Prop) (as : List Attr) : Prop := ∀ a ∈ as, ∀ c ∈ a.value, P c

theorem get_in {as : List Attr} (h : AttrsIn P as) (k : Str) :
    (∀ v, (getXmlAttribute as k).1 = some v → ∀ c ∈ v, P c) ∧ AttrsIn P (getXmlAttribute as k).2 := by
  unfold getXmlAttribute
  split
  · rename_i i _
    constructor
    · intro v hv
      obtain ⟨a, ha, rfl⟩ := Option.map_eq_some_iff.1 hv
      exact h a (List.mem_of_getElem? ha)
    · exact fun a ha => h a (swapRemove_mem ha)
  · exact ⟨fun v hv => (by cases hv), h⟩

/-- The texts of an object have the property. -/
def TextsIn (P : Char → Prop) (d : ObjData) : Prop := ∀ t ∈ textsOf d, ∀ c ∈ t, P c

theorem tagOf_in {e : XmlEvent} (h : EventIn P e) {kv : Str × Str} (ht : tagOf e = some kv) : (∀ c ∈ kv.1, P c) ∧ ∀ c ∈ kv.2, P c := by
  cases e with
  | start n as =>
    simp only [tagOf] at ht
    split_ifs at ht
    obtain ⟨h1, h2⟩ := get_in (P := P) h (str% "k")
    rcases h3 : getXmlAttribute as (str% "k") with ⟨_ | k, as'⟩
    · rw [h3] at ht; cases ht
    · rw [h3] at ht h1 h2
      obtain ⟨h4, _⟩ := get_in h2 (str% "v")
      rcases h5 : getXmlAttribute as' (str% "v") with ⟨_ | v, as''⟩
      · simp only [h5] at ht; cases ht
      · simp only [h5] at ht h4
        cases ht
        exact ⟨h1 k rfl, h4 v rfl⟩
  | stop n => cases ht
  | other => cases ht

theorem memberOf_in {e : XmlEvent} (h : EventIn P e) {m : OSMObjectType × ObjId × Str} (ht : memberOf e = some m) : ∀ c ∈ m.2.2, P c := by
  cases e with
  | start n as =>
    simp only [memberOf] at ht
    split_ifs at ht
    have h2 := (get_in (P := P) h (str% "ref")).2
    have h4 := (get_in h2 (str% "type")).2
    have h6 := (get_in h4 (str% "role")).1
    split at ht
    · cases ht
      intro c hc
      simp only at hc
      rcases h7 : (getXmlAttribute (getXmlAttribute (getXmlAttribute as (str% "ref")).2 (str% "type")).2 (str% "role")).1 with _ | r
      · rw [h7] at hc; cases hc
      · rw [h7] at hc; exact h6 r h7 c hc
    · cases ht
  | stop n => cases ht
  | other => cases ht

/-- A timestamp read from XML is text. -/
def TextTime (d : ObjData) : Prop := ∀ t, d.view.timestamp ≠ some (.epoch t)

theorem texts_of_parts {d : ObjData} (hu : ∀ u, d.view.user = some u → ∀ c ∈ u, P c)
    (ht : ∀ s, d.view.timestamp = some (.iso s) → ∀ c ∈ s, P c) (hg : ∀ kv ∈ d.view.tags, (∀ c ∈ kv.1, P c) ∧ ∀ c ∈ kv.2, P c)
    (hm : ∀ m ∈ d.members, ∀ c ∈ m.2.2, P c) : TextsIn P d := by
  intro t hmem c hc
  simp only [textsOf, List.mem_append, List.mem_map, Option.mem_toList] at hmem
  rcases hmem with (((h | h) | ⟨kv, h, rfl⟩) | ⟨kv, h, rfl⟩) | ⟨m, h, rfl⟩
  · exact hu t h c hc
  · cases hts : d.view.timestamp with
    | none => rw [hts] at h; cases h
    | some x =>
      rw [hts] at h
      cases x with
      | iso s => rw [List.mem_singleton.1 h] at hc; exact ht s hts c hc
      | epoch e => cases h
  · exact (hg kv h).1 c hc
  · exact (hg kv h).2 c hc
  · exact hm m h c hc

theorem getTags_in {els : List XmlEvent} (h : ∀ e ∈ els, EventIn P e) : ∀ kv ∈ getTags els, (∀ c ∈ kv.1, P c) ∧ ∀ c ∈ kv.2, P c := by
  intro kv hkv
  obtain ⟨e, he, hk⟩ := List.mem_filterMap.1 hkv
  exact tagOf_in (h e he) hk

theorem getMembers_in {els : List XmlEvent} (h : ∀ e ∈ els, EventIn P e) : ∀ m ∈ getMembers els, ∀ c ∈ m.2.2, P c := by
  intro m hm
  obtain ⟨e, he, hk⟩ := List.mem_filterMap.1 hm
  exact memberOf_in (h e he) hk

theorem iso_in {v : Option Str} (h : ∀ x, v = some x → ∀ c ∈ x, P c) {s : Str} (hs : v.map TimestampFormat.iso = some (.iso s)) :
    ∀ c ∈ s, P c := by
  obtain ⟨x, hx, hs⟩ := Option.map_eq_some_iff.1 hs
  injection hs with hs
  exact hs ▸ h x hx

theorem iso_text {v : Option Str} (t : Int64) : v.map TimestampFormat.iso ≠ some (.epoch t) := by
  cases v <;> intro h <;> cases h

/-- Every object made from such events. -/
theorem obj_in {els : List XmlEvent} (h : ∀ e ∈ els, EventIn P e) {o : StringOSMObj} (ho : xmlElementsToOsmObj els = some o) :
    TextsIn P (objData o) ∧ TextTime (objData o) := by
  unfold xmlElementsToOsmObj at ho
  split at ho
  · rename_i name as r
    have h0 : AttrsIn P as := h _ List.mem_cons_self
    have h1 := (get_in h0 (str% "id")).2
    have h2 := (get_in h1 (str% "version")).2
    have h3 := (get_in h2 (str% "changeset")).2
    have h4 := get_in h3 (str% "timestamp")
    have h5 := (get_in h4.2 (str% "uid")).2
    have h6 := get_in h5 (str% "user")
    split_ifs at ho
    · simp only [nodeXmlElementsToOsmObj] at ho
      split at ho
      · cases ho
      · split at ho
        · cases ho
        · split at ho
          · cases ho
          · cases ho
            refine ⟨texts_of_parts ?_ ?_ ?_ ?_, fun t => iso_text t⟩
            · exact fun u hu => h6.1 u hu
            · exact fun s hs => iso_in h4.1 hs
            · exact getTags_in h
            · intro m hm; cases hm
    · simp only [wayXmlElementsToOsmObj] at ho
      split at ho
      · cases ho
      · cases ho
        refine ⟨texts_of_parts ?_ ?_ ?_ ?_, fun t => iso_text t⟩
        · exact fun u hu => h6.1 u hu
        · exact fun s hs => iso_in h4.1 hs
        · exact getTags_in h
        · intro m hm; cases hm
    · simp only [relationXmlElementsToOsmObj] at ho
      split at ho
      · cases ho
      · cases ho
        refine ⟨texts_of_parts ?_ ?_ ?_ ?_, fun t => iso_text t⟩
        · exact fun u hu => h6.1 u hu
        · exact fun s hs => iso_in h4.1 hs
        · exact getTags_in h
        · intro m hm
          obtain ⟨m', hm', rfl⟩ := List.mem_map.1 hm
          exact getMembers_in h m' hm'
  · cases ho

theorem collect_in (evs : List (Option XmlEvent)) : ∀ (b : Bool) (els : List XmlEvent), (∀ e ∈ els, EventIn P e) →
    (∀ e, some e ∈ evs → EventIn P e) →
    (∀ r, (XMLReader.collect b els evs).1 = .ok r → ∀ e ∈ r, EventIn P e) ∧ ∀ e, some e ∈ (XMLReader.collect b els evs).2 → EventIn P e := by
  induction evs with
  | nil =>
    intro b els he _
    exact ⟨fun r hr => (by cases hr; exact he), fun e h => by cases h⟩
  | cons x evs ih =>
    intro b els he h
    have h' : ∀ e, some e ∈ evs → EventIn P e := fun e hm => h e (List.mem_cons_of_mem _ hm)
    cases x with
    | none => exact ⟨fun r hr => (by cases hr), h'⟩
    | some el =>
      have hel : EventIn P el := h el List.mem_cons_self
      have hels : ∀ e ∈ (if (b || pushNow el) = true then els ++ [el] else els), EventIn P e := by
        intro e hm
        split at hm
        · rcases List.mem_append.1 hm with hm | hm
          · exact he e hm
          · rw [List.mem_singleton.1 hm]; exact hel
        · exact he e hm
      simp only [XMLReader.collect]
      split
      · exact ⟨fun r hr => (by cases hr; exact hels), h'⟩
      · exact ih _ _ hels h'

theorem drain_in {evs : List (Option XmlEvent)} {os : List StringOSMObj} {e : Option Panic} {q : List (Option XmlEvent)}
    (hd : Drain XMLReader.next evs os e q) (h : ∀ e, some e ∈ evs → EventIn P e) :
    ∀ o ∈ os, TextsIn P (objData o) ∧ TextTime (objData o) := by
  have hnext : ∀ (evs : List (Option XmlEvent)), (∀ e, some e ∈ evs → EventIn P e) →
      (∀ o, (XMLReader.next evs).1 = .ok (some o) → TextsIn P (objData o) ∧ TextTime (objData o)) ∧
        ∀ e, some e ∈ (XMLReader.next evs).2 → EventIn P e := by
    intro evs h
    obtain ⟨h1, h2⟩ := collect_in evs false [] (fun e he => by cases he) h
    unfold XMLReader.next
    rcases hc : XMLReader.collect false [] evs with ⟨p | els, r⟩
    · rw [hc] at h2
      exact ⟨fun o ho => (by cases ho), h2⟩
    · rw [hc] at h1 h2
      refine ⟨fun o ho => obj_in (h1 els rfl) ?_, h2⟩
      exact Except.ok.inj ho
  induction hd with
  | done h1 => intro o ho; cases ho
  | panic h1 => intro o ho; cases ho
  | more h1 _ ih =>
    rename_i s s' o' os' e' q' hd'
    obtain ⟨h2, h3⟩ := hnext s h
    rw [h1] at h2 h3
    intro o ho
    rcases List.mem_cons.1 ho with rfl | ho
    · exact h2 _ rfl
    · exact ih h3 o ho

end Osmio.Xml
