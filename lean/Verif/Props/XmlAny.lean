import Verif.Proofs.XmlAny
import Verif.Props.XmlGrammar
import Verif.Proofs.XmlCut
/-!
# Objects of any XML bytes (C102)

`Props/XmlGrammar.lean` says what is read from documents, and that the readers panic on other files. Here nothing is known of the bytes, and
what is said is what every call returns, the calls before the panic too.
-/

namespace Osmio
open Spec Xml OSMObjBase Spec.Gram

variable {norm : Xml.Config}

/-! ## Pieces of the tags -/

theorem pieces_tags (l : List XmlEvent) : Spec.pieces (onlyTags l) = (Spec.pieces l).map onlyTags := by
  induction l with
  | nil => rfl
  | cons e l ih =>
    have key : ∀ e, e ≠ XmlEvent.other → Spec.pieces (onlyTags (e :: l)) = (Spec.pieces (e :: l)).map onlyTags := by
      intro e he
      have e1 : ∀ m, onlyTags (e :: m) = e :: onlyTags m := fun m => by simp [onlyTags, he]
      rw [e1, Spec.pieces, Spec.pieces, ih]
      split
      · rw [List.map_cons, e1]; rfl
      · cases Spec.pieces l with
        | nil => rfl
        | cons p ps => rw [List.map_cons, List.map_cons, e1]
    cases e with
    | start n as => exact key _ (by simp)
    | stop n => exact key _ (by simp)
    | other =>
      have e1 : ∀ m, onlyTags (.other :: m) = onlyTags m := fun m => by simp [onlyTags]
      rw [e1, ih, Spec.pieces, show objectEnd .other = false from rfl]
      cases Spec.pieces l with
      | nil => rfl
      | cons p ps => simp [e1]

theorem begun_tags (l : List XmlEvent) : begun (onlyTags l) = begun l := by
  induction l with
  | nil => rfl
  | cons e l ih =>
    cases e with
    | start n as => rw [show onlyTags (.start n as :: l) = .start n as :: onlyTags l from by simp [onlyTags], begun, begun, ih]
    | stop n => rw [show onlyTags (.stop n :: l) = .stop n :: onlyTags l from by simp [onlyTags]]; exact ih
    | other => rw [show onlyTags (.other :: l) = onlyTags l from by simp [onlyTags]]; exact ih

theorem pieceObject_tags (p : List XmlEvent) : pieceObject (onlyTags p) = pieceObject p := by
  unfold pieceObject
  congr 1
  induction p with
  | nil => rfl
  | cons e l ih =>
    cases e with
    | start n as => rw [show onlyTags (.start n as :: l) = .start n as :: onlyTags l from by simp [onlyTags], firstObject, firstObject, ih, begun_tags]
    | stop n => rw [show onlyTags (.stop n :: l) = .stop n :: onlyTags l from by simp [onlyTags]]; exact ih
    | other => rw [show onlyTags (.other :: l) = onlyTags l from by simp [onlyTags]]; exact ih

/-! ## Several attributes with the same local name -/

/-- The attributes that are found, one after the other. -/
theorem taken {ks : List Str} (hk : ks.Nodup) (hn : ∀ k ∈ ks, k ∈ Forest.attrNames) (as : List Attr) :
    ∃ as' : List Attr, (∀ a ∈ as', a ∈ as) ∧ (∀ a ∈ as, a.name.loc ∈ ks → ∃ a' ∈ as', a'.name.loc = a.name.loc) ∧
      (as'.map fun a => a.name.loc).Nodup ∧ (∀ a ∈ as', a.name.loc ∈ ks) ∧ takeAttrs as ks = ks.map fun k => attr k as' := by
  induction ks generalizing as with
  | nil => exact ⟨[], by simp, by simp, by simp, by simp, rfl⟩
  | cons k ks ih =>
    rw [List.nodup_cons] at hk
    rw [List.forall_mem_cons] at hn
    have ih := ih hk.2 hn.2
    cases h : as.findIdx? (fun a => a.name.loc == k) with
    | none =>
      have hg : getXmlAttribute as k = (none, as) := by unfold getXmlAttribute; rw [h]
      rw [List.findIdx?_eq_none_iff] at h
      have h : ∀ a ∈ as, a.name.loc ≠ k := fun a ha => by simpa using h a ha
      obtain ⟨as', h1, h2, h3, h4, h5⟩ := ih as
      refine ⟨as', h1, fun a ha hm => h2 a ha ((List.mem_cons.1 hm).resolve_left (h a ha)), h3, fun a ha => List.mem_cons_of_mem _ (h4 a ha), ?_⟩
      rw [takeAttrs, hg, h5, List.map_cons]
      congr 1
      unfold attr
      rw [List.find?_eq_none.2 fun a ha => by simpa using h a (h1 a ha)]
      rfl
    | some i =>
      have h' := h
      rw [List.findIdx?_eq_some_iff_getElem] at h'
      obtain ⟨hi, hl, -⟩ := h'
      have hl : as[i].name.loc = k := by simpa using hl
      have hp := swapRemove_perm as i hi
      have hg : getXmlAttribute as k = (some as[i].value, swapRemove as i) := by
        unfold getXmlAttribute; rw [h]; simp only [List.getElem?_eq_getElem hi, Option.map_some]
      obtain ⟨as', h1, h2, h3, h4, h5⟩ := ih (swapRemove as i)
      refine ⟨as[i] :: as', ?_, ?_, ?_, ?_, ?_⟩
      · intro a ha
        rcases List.mem_cons.1 ha with rfl | ha
        · exact List.getElem_mem hi
        · exact hp.mem_iff.1 (List.mem_cons_of_mem _ (h1 a ha))
      · intro a ha hm
        by_cases he : a.name.loc = k
        · exact ⟨_, List.mem_cons_self, by rw [hl, he]⟩
        · have ha' : a ∈ swapRemove as i := by
            rcases List.mem_cons.1 (hp.mem_iff.2 ha) with rfl | ha'
            · exact absurd hl he
            · exact ha'
          obtain ⟨a', g1, g2⟩ := h2 a ha' ((List.mem_cons.1 hm).resolve_left he)
          exact ⟨a', List.mem_cons_of_mem _ g1, g2⟩
      · rw [List.map_cons, List.nodup_cons]
        refine ⟨fun hm => ?_, h3⟩
        obtain ⟨a, ha, he⟩ := List.mem_map.1 hm
        exact hk.1 (by rw [← hl, ← he]; exact h4 a ha)
      · intro a ha
        rcases List.mem_cons.1 ha with rfl | ha
        · rw [hl]; exact List.mem_cons_self
        · exact List.mem_cons_of_mem _ (h4 a ha)
      · rw [takeAttrs, hg, h5, List.map_cons, attr_cons, if_pos hl]
        congr 1
        refine List.map_congr_left fun k' hk' => ?_
        rw [attr_cons, if_neg]
        rw [hl]
        rintro rfl
        exact hk.1 hk'

theorem takeAttrs_append (as : List Attr) (ks r : List Str) : ∃ l, takeAttrs as (ks ++ r) = takeAttrs as ks ++ l := by
  induction ks generalizing as with
  | nil => exact ⟨_, rfl⟩
  | cons k ks ih =>
    obtain ⟨l, h⟩ := ih (getXmlAttribute as k).2
    exact ⟨l, by rw [List.cons_append, takeAttrs, h]; rfl⟩

theorem takeAttrs_length (as : List Attr) (ks : List Str) : (takeAttrs as ks).length = ks.length := by
  induction ks generalizing as with
  | nil => rfl
  | cons k ks ih => rw [takeAttrs, List.length_cons, List.length_cons, ih]

/-- For any order in which attributes are looked up, some choice among the attributes is what is found. -/
theorem chosen_exists {ks : List Str} (hk : ks.Nodup ∧ ∀ k ∈ ks, k ∈ Forest.attrNames) (as : List Attr) :
    ∃ as', Chosen as as' ∧ takeAttrs as ks = takeAttrs as' ks := by
  have hall : ∀ k, k ∈ ks ++ Forest.attrNames.filter (· ∉ ks) ↔ k ∈ Forest.attrNames := by
    intro k
    rw [List.mem_append, List.mem_filter]
    constructor
    · rintro (h | h)
      · exact hk.2 k h
      · exact h.1
    · intro h
      by_cases h' : k ∈ ks
      · exact .inl h'
      · exact .inr ⟨h, by simpa using h'⟩
  have hnd : (ks ++ Forest.attrNames.filter (· ∉ ks)).Nodup := by
    refine List.nodup_append.2 ⟨hk.1, List.Nodup.filter _ (by decide), ?_⟩
    rintro a ha b hb rfl
    exact (of_decide_eq_true (List.mem_filter.1 hb).2) ha
  obtain ⟨as', h1, h2, h3, -, h5⟩ := taken hnd (fun k h => (hall k).1 h) as
  have hd : DistinctAttrs as' := .of_nodup h3
  refine ⟨as', ⟨h1, fun a ha hm => h2 a ha ((hall _).2 hm), hd⟩, ?_⟩
  obtain ⟨l, hl⟩ := takeAttrs_append as ks (Forest.attrNames.filter (· ∉ ks))
  rw [lookups hk hd]
  rw [hl, List.map_append] at h5
  exact (List.append_inj h5 (by rw [takeAttrs_length, List.length_map])).1

/-- The attributes that are looked up in an element, in this order. -/
def keysOf (loc : Str) : List Str :=
  if loc = str% "tag" then [str% "k", str% "v"]
  else if loc = str% "nd" then [str% "ref"]
  else if loc = str% "member" then [str% "ref", str% "type", str% "role"]
  else if loc = str% "node" then
    [str% "id", str% "version", str% "changeset", str% "timestamp", str% "uid", str% "user", str% "lat", str% "lon", str% "visible"]
  else [str% "id", str% "version", str% "changeset", str% "timestamp", str% "uid", str% "user", str% "visible"]

theorem keysOf_ok (loc : Str) : (keysOf loc).Nodup ∧ ∀ k ∈ keysOf loc, k ∈ Forest.attrNames := by
  unfold keysOf
  split
  · decide
  split
  · decide
  split
  · decide
  split <;> decide

/-- Tags in which the same is found. -/
inductive Found : XmlEvent → XmlEvent → Prop where
  | start {n as as'} : takeAttrs as (keysOf n.loc) = takeAttrs as' (keysOf n.loc) → Found (.start n as) (.start n as')
  | stop {n} : Found (.stop n) (.stop n)
  | other : Found .other .other

theorem found_filterMap {β : Type} {g : XmlEvent → Option β} (hg : ∀ x y, Found x y → g x = g y) {p p' : List XmlEvent}
    (h : List.Forall₂ Found p p') : p.filterMap g = p'.filterMap g := by
  induction h with
  | nil => rfl
  | cons h _ ih => rw [List.filterMap_cons, List.filterMap_cons, hg _ _ h, ih]

theorem found_tag (x y : XmlEvent) (h : Found x y) : Osmio.tagOf x = Osmio.tagOf y := by
  cases h with
  | @start n as as' h =>
    unfold Osmio.tagOf
    by_cases hn : n.loc = str% "tag"
    · rw [hn] at h
      have h : takeAttrs as [str% "k", str% "v"] = takeAttrs as' [str% "k", str% "v"] := h
      simp only [takeAttrs, List.cons.injEq, and_true] at h
      simp only [h.1, h.2]
    · simp only [if_neg hn]
  | stop => rfl
  | other => rfl

theorem found_nd (x y : XmlEvent) (h : Found x y) : Osmio.ndOf x = Osmio.ndOf y := by
  cases h with
  | @start n as as' h =>
    unfold Osmio.ndOf
    by_cases hn : n.loc = str% "nd"
    · rw [hn] at h
      have h : takeAttrs as [str% "ref"] = takeAttrs as' [str% "ref"] := h
      simp only [takeAttrs, List.cons.injEq, and_true] at h
      simp only [h]
    · simp only [if_neg hn]
  | stop => rfl
  | other => rfl

theorem found_member (x y : XmlEvent) (h : Found x y) : Osmio.memberOf x = Osmio.memberOf y := by
  cases h with
  | @start n as as' h =>
    unfold Osmio.memberOf
    by_cases hn : n.loc = str% "member"
    · rw [hn] at h
      have h : takeAttrs as [str% "ref", str% "type", str% "role"] = takeAttrs as' [str% "ref", str% "type", str% "role"] := h
      simp only [takeAttrs, List.cons.injEq, and_true] at h
      simp only [h.1, h.2.1, h.2.2]
    · simp only [if_neg hn]
  | stop => rfl
  | other => rfl

theorem found_obj {p p' : List XmlEvent} (h : List.Forall₂ Found p p') : xmlElementsToOsmObj p = xmlElementsToOsmObj p' := by
  have e1 : getTags p = getTags p' := found_filterMap found_tag h
  have e2 : getNodes p = getNodes p' := found_filterMap found_nd h
  have e3 : getMembers p = getMembers p' := found_filterMap found_member h
  cases h with
  | nil => rfl
  | @cons x y l l' h _ =>
    cases h with
    | @start n as as' h =>
      unfold xmlElementsToOsmObj
      by_cases h1 : n.loc = str% "node"
      · rw [h1] at h
        have h : takeAttrs as [str% "id", str% "version", str% "changeset", str% "timestamp", str% "uid", str% "user", str% "lat", str% "lon",
          str% "visible"] = takeAttrs as' [str% "id", str% "version", str% "changeset", str% "timestamp", str% "uid", str% "user", str% "lat",
          str% "lon", str% "visible"] := h
        simp only [takeAttrs, List.cons.injEq, and_true] at h
        obtain ⟨l1, l2, l3, l4, l5, l6, l7, l8, l9⟩ := h
        simp only [if_pos h1, nodeXmlElementsToOsmObj, l1, l2, l3, l4, l5, l6, l7, l8, l9, e1]
      · simp only [if_neg h1]
        have hw : n.loc = str% "way" ∨ n.loc = str% "relation" → keysOf n.loc =
            [str% "id", str% "version", str% "changeset", str% "timestamp", str% "uid", str% "user", str% "visible"] := by
          rintro (h | h) <;> rw [h] <;> decide
        by_cases h2 : n.loc = str% "way"
        · rw [hw (.inl h2)] at h
          simp only [takeAttrs, List.cons.injEq, and_true] at h
          obtain ⟨l1, l2, l3, l4, l5, l6, l9⟩ := h
          simp only [if_pos h2, wayXmlElementsToOsmObj, l1, l2, l3, l4, l5, l6, l9, e1, e2]
        · simp only [if_neg h2]
          by_cases h3 : n.loc = str% "relation"
          · rw [hw (.inr h3)] at h
            simp only [takeAttrs, List.cons.injEq, and_true] at h
            obtain ⟨l1, l2, l3, l4, l5, l6, l9⟩ := h
            simp only [if_pos h3, relationXmlElementsToOsmObj, l1, l2, l3, l4, l5, l6, l9, e1, e3]
          · simp only [if_neg h3]
    | stop => rfl
    | other => rfl

theorem found_drop {p p' : List XmlEvent} (h : List.Forall₂ Found p p') :
    List.Forall₂ Found (p.dropWhile fun e => !pushNow e) (p'.dropWhile fun e => !pushNow e) := by
  induction h with
  | nil => exact .nil
  | @cons x y l l' h hl ih =>
    have hp : pushNow x = pushNow y := by cases h <;> rfl
    rw [List.dropWhile_cons, List.dropWhile_cons, hp]
    split
    · exact ih
    · exact .cons h hl

/-- A piece read with some choice of attributes. -/
theorem piece_read (p : List XmlEvent) :
    Answers ((xmlElementsToOsmObj (p.dropWhile fun e => !pushNow e)).map objData) p := by
  have key : ∃ p', List.Forall₂ ReadAs p p' ∧ List.Forall₂ Found p p' := by
    induction p with
    | nil => exact ⟨[], .nil, .nil⟩
    | cons e p ih =>
      obtain ⟨p', h1, h2⟩ := ih
      cases e with
      | start n as =>
        obtain ⟨as', g1, g2⟩ := chosen_exists (keysOf_ok n.loc) as
        exact ⟨_, .cons (.start g1) h1, .cons (.start g2) h2⟩
      | stop n => exact ⟨_, .cons .stop h1, .cons .stop h2⟩
      | other => exact ⟨_, .cons .other h1, .cons .other h2⟩
  obtain ⟨p', h1, h2⟩ := key
  refine ⟨p', h1, ?_⟩
  rw [found_obj (found_drop h2), piece_toObj]
  intro n as hm
  clear h2
  induction h1 with
  | nil => cases hm
  | cons h _ ih =>
    rcases List.mem_cons.1 hm with rfl | hm
    · cases h with
      | start h => exact h.once
    · exact ih hm

/-- If there is nothing to choose, the answer is what the piece stands for. -/
theorem answers_clear {r : Option ObjData} {p : List XmlEvent} (h : Answers r p) (hc : Clear p) : r = pieceObject p := by
  obtain ⟨p', h, rfl⟩ := h
  have key : List.Forall₂ Found p p' ∧ Starts p' := by
    induction h with
    | nil => exact ⟨.nil, fun n as h => by cases h⟩
    | @cons x y p p' h _ ih =>
      obtain ⟨h1, h2⟩ := ih fun n as hm => hc n as (List.mem_cons_of_mem _ hm)
      cases h with
      | @start n as as' h =>
        have hd : DistinctAttrs as := hc n as List.mem_cons_self
        refine ⟨.cons (.start ?_) h1, ?_⟩
        · rw [lookups (keysOf_ok _) hd, lookups (keysOf_ok _) h.once]
          refine List.map_congr_left fun k hk => Option.ext fun v => ?_
          have hk := (keysOf_ok _).2 k hk
          rw [attr_eq_some hd hk, attr_eq_some h.once hk]
          constructor
          · rintro ⟨a, ha, rfl, rfl⟩
            obtain ⟨a', g1, g2⟩ := h.all a ha hk
            refine ⟨a', g1, g2, ?_⟩
            have e1 := (attr_eq_some hd hk).2 ⟨a, ha, rfl, rfl⟩
            have e2 := (attr_eq_some hd hk).2 ⟨a', h.among a' g1, g2, rfl⟩
            exact Option.some_injective _ (e2.symm.trans e1)
          · rintro ⟨a, ha, g⟩
            exact ⟨a, h.among a ha, g⟩
        · intro m bs hm
          rcases List.mem_cons.1 hm with he | hm
          · cases he; exact h.once
          · exact h2 m bs hm
      | stop => exact ⟨.cons .stop h1, fun m bs hm => h2 m bs ((List.mem_cons.1 hm).resolve_left (by simp))⟩
      | other => exact ⟨.cons .other h1, fun m bs hm => h2 m bs ((List.mem_cons.1 hm).resolve_left (by simp))⟩
  rw [← piece_toObj key.2, ← found_obj (found_drop key.1)]
  exact piece_toObj hc

theorem answers_tags {r : Option ObjData} {p : List XmlEvent} (h : Answers r p) : Answers r (onlyTags p) := by
  obtain ⟨p', h, rfl⟩ := h
  refine ⟨onlyTags p', ?_, (pieceObject_tags p').symm⟩
  induction h with
  | nil => exact .nil
  | @cons x y p p' h _ ih =>
    cases h with
    | @start n as as' h =>
      rw [show onlyTags (.start n as :: p) = .start n as :: onlyTags p from by simp [onlyTags],
        show onlyTags (.start n as' :: p') = .start n as' :: onlyTags p' from by simp [onlyTags]]
      exact .cons (.start h) ih
    | @stop n =>
      rw [show onlyTags (.stop n :: p) = .stop n :: onlyTags p from by simp [onlyTags],
        show onlyTags (.stop n :: p') = .stop n :: onlyTags p' from by simp [onlyTags]]
      exact .cons .stop ih
    | other =>
      rw [show onlyTags (.other :: p) = onlyTags p from by simp [onlyTags], show onlyTags (.other :: p') = onlyTags p' from by simp [onlyTags]]
      exact ih

/-! ## Calls -/

/-- `calls_pieces`, for elements of any attributes. -/
theorem calls_pieces_any (m : Nat) (evs : List XmlEvent) (hm : evs.length ≤ m) (t : List (Option XmlEvent)) :
    ∃ rs : List (Option StringOSMObj),
      calls XMLReader.next (Spec.pieces evs).length (evs.map some ++ t) = (rs.map .ok, (leftover evs).map some ++ t) ∧
      List.Forall₂ (fun r p => Answers (r.map objData) (onlyTags p)) rs (Spec.pieces evs) := by
  induction m generalizing evs with
  | zero =>
    obtain rfl : evs = [] := List.length_eq_zero_iff.1 (Nat.le_zero.1 hm)
    exact ⟨[], rfl, .nil⟩
  | succ m ih =>
    rcases piece_cases evs with h | ⟨a, x, r, rfl, h1, h2⟩
    · obtain ⟨e1, e2⟩ := pieces_none h
      exact ⟨[], by rw [e1, e2]; rfl, by rw [e1]; exact .nil⟩
    · obtain ⟨e1, e2⟩ := pieces_break h1 h2 r
      obtain ⟨rs, g1, g2⟩ := ih r (by simp at hm; omega)
      have hnx := next_piece h1 h2 (r.map some ++ t)
      refine ⟨xmlElementsToOsmObj ((a ++ [x]).dropWhile fun e => !pushNow e) :: rs, ?_, ?_⟩
      · rw [e1, e2, List.length_cons, calls]
        have : (a ++ x :: r).map some ++ t = a.map some ++ some x :: (r.map some ++ t) := by simp
        rw [this, hnx]
        simp only [g1, List.map_cons]
      · rw [e1]
        exact .cons (answers_tags (piece_read _)) g2

theorem leftover_unbroken (evs : List XmlEvent) : ∀ e ∈ leftover evs, breakNow e = false := by
  induction evs with
  | nil => simp [leftover]
  | cons e l ih =>
    rw [leftover]
    split
    · exact ih
    · rename_i h
      simp only [Bool.or_eq_true, not_or, Bool.not_eq_true, Bool.not_eq_false', List.isEmpty_iff] at h
      refine List.forall_mem_cons.2 ⟨by rw [← objectEnd_eq]; exact h.1, ?_⟩
      rcases piece_cases l with h' | ⟨a, x, r, rfl, h1, h2⟩
      · exact h'
      · have := (pieces_break h1 h2 r).1
        rw [this] at h
        exact absurd h.2 (by simp)

theorem next_unbroken {l : List XmlEvent} (h : ∀ e ∈ l, breakNow e = false) :
    XMLReader.next (l.map some ++ [none]) = (.error .unwrap, []) := by
  have key : ∀ b acc, XMLReader.collect b acc (l.map some ++ [none]) = (.error .unwrap, []) := by
    induction l with
    | nil => exact fun b acc => rfl
    | cons e l ih =>
      intro b acc
      simp only [List.map_cons, List.cons_append, XMLReader.collect, h e List.mem_cons_self, Bool.false_eq_true, if_false]
      exact ih (fun x hx => h x (List.mem_cons_of_mem _ hx)) _ _
  unfold XMLReader.next
  rw [key]

theorem forall₂_tags {rs : List (Option StringOSMObj)} {ps : List (List XmlEvent)}
    (h : List.Forall₂ (fun r p => Answers (r.map objData) (onlyTags p)) rs ps) :
    List.Forall₂ Answers (rs.map (Option.map objData)) (ps.map onlyTags) :=
  List.forall₂_map_left_iff.2 (List.forall₂_map_right_iff.2 h)

/-! ## The claims -/

/-- **C102.** Any bytes have exactly one longest beginning made of whole parts of a document. -/
theorem C102_beginning (norm : Xml.Config) (bs : List UInt8) :
    ∃ t evs, Longest norm.char norm.manyRoots bs t evs ∧ ∀ t' evs', Longest norm.char norm.manyRoots bs t' evs' → t' = t ∧ evs' = evs := by
  obtain ⟨t, h⟩ := longest_exists norm bs
  exact ⟨t, _, h, fun _ _ h' => longest_unique h' h⟩

/-- **C102.** For any bytes: one call returns for every end of an object in the longest beginning, with what stands before it; the next one
returns `None` if the bytes are a document and panics if not; and then nothing is left. -/
theorem C102_xml {bs : List UInt8} {t : Str} {evs : List XmlEvent} (h : Longest norm.char norm.manyRoots bs t evs) :
    ∃ (rs : List (Option StringOSMObj)) (q : List (Option XmlEvent)),
      calls XMLReader.next (Spec.pieces evs).length (XMLReader.new norm bs) = (rs.map .ok, q) ∧
      List.Forall₂ Answers (rs.map (Option.map objData)) (Spec.pieces evs) ∧
      (IsDocument norm.char norm.manyRoots bs → XMLReader.next q = (.ok none, [])) ∧
      (¬ IsDocument norm.char norm.manyRoots bs → XMLReader.next q = (.error .unwrap, [])) ∧
      XMLReader.next [] = (.ok none, []) := by
  have hev := longest_tags h
  have hnew : ∃ x, XMLReader.new norm bs = (Xml.run norm initial (Utf8.decodePrefix bs).1).events.map some ++ [x] ∧ (x = none ∨ x = some .other) := by
    refine ⟨_, rfl, ?_⟩
    split
    · exact .inr rfl
    · exact .inl rfl
  obtain ⟨x, hx, hx'⟩ := hnew
  generalize (Xml.run norm initial (Utf8.decodePrefix bs).1).events = full at hev hx
  by_cases hd : IsDocument norm.char norm.manyRoots bs
  · have hn := (isDocument_iff norm bs).1 hd
    obtain rfl : x = some .other := hx'.resolve_left fun e => hn (by rw [hx, e]; simp)
    have hE : XMLReader.new norm bs = (full ++ [XmlEvent.other]).map some ++ [] := by rw [hx]; simp
    have ht : evs = onlyTags (full ++ [.other]) := by rw [hev, tags_append]; simp [onlyTags]
    have hq : ∀ e ∈ leftover (full ++ [.other]), isQuiet e = true := by
      obtain ⟨u, f, rfl, hw⟩ := hd
      have key : ∀ E : List XmlEvent, XMLReader.new norm (Utf8.encode u) = E.map some → full ++ [.other] = E := by
        intro E hE'
        rw [hE', List.append_nil] at hE
        exact (List.map_injective_iff.2 (Option.some_injective _) hE).symm
      rcases wellFormed_events hw with e | e
      · rw [key (f.events ++ [.other]) (by rw [XMLReader.new, e]; simp)]
        exact (leftover_quiet f [.other] (by simp [leftover, objectEnd, Spec.pieces, isQuiet, pushNow, breakNow]) (fun _ => rfl)).1
      · rw [key f.events (by rw [XMLReader.new, e])]
        have := (leftover_quiet f [] (by simp [leftover]) (fun _ => rfl)).1
        rwa [List.append_nil] at this
    obtain ⟨rs, h1, h2⟩ := calls_pieces_any _ (full ++ [.other]) (Nat.le_refl _) []
    refine ⟨rs, (leftover (full ++ [.other])).map some ++ [], ?_, ?_, fun _ => ?_, fun hc => absurd hd hc, rfl⟩
    · rw [hE, ht, pieces_tags, List.length_map]; exact h1
    · rw [ht, pieces_tags]; exact forall₂_tags h2
    · rw [next_quiet _ hq]; rfl
  · obtain ⟨evs', he⟩ := malformed_events hd
    obtain rfl : x = none := by
      have := congrArg List.getLast? (hx.symm.trans he)
      simpa using this
    obtain ⟨rs, h1, h2⟩ := calls_pieces_any _ full (Nat.le_refl _) [none]
    refine ⟨rs, (leftover full).map some ++ [none], ?_, ?_, fun hc => absurd hc hd, fun _ => next_unbroken (leftover_unbroken full), rfl⟩
    · rw [hx, hev, pieces_tags, List.length_map]; exact h1
    · rw [hev, pieces_tags]; exact forall₂_tags h2

/-- **C102** for the OSC reader. -/
theorem C102_osc {bs : List UInt8} {t : Str} {evs : List XmlEvent} (h : Longest norm.char norm.manyRoots bs t evs) :
    ∃ (rs : List (Option StringOSMObj)) (q : List (Option XmlEvent)),
      calls OSCReader.next (Spec.pieces evs).length (OSCReader.new norm bs) = (rs.map .ok, q) ∧
      List.Forall₂ Answers (rs.map (Option.map objData)) (Spec.pieces evs) ∧
      (IsDocument norm.char norm.manyRoots bs → OSCReader.next q = (.ok none, [])) ∧
      (¬ IsDocument norm.char norm.manyRoots bs → OSCReader.next q = (.error .unwrap, [])) ∧
      OSCReader.next [] = (.ok none, []) := by
  rw [osc_next_eq]
  exact C102_xml h

/-- **C102**, a source that fails after any bytes: as above, and the call that gets there panics even if the bytes are a document. -/
theorem C102_failing {bs : List UInt8} {t : Str} {evs : List XmlEvent} (h : Longest norm.char norm.manyRoots bs t evs) (after : Source) :
    ∃ (rs : List (Option StringOSMObj)) (q : List (Option XmlEvent)),
      calls XMLReader.next (Spec.pieces evs).length (XMLReader.over norm (bs.map some ++ none :: after)) = (rs.map .ok, q) ∧
      List.Forall₂ Answers (rs.map (Option.map objData)) (Spec.pieces evs) ∧
      XMLReader.next q = (.error .unwrap, []) ∧ XMLReader.next [] = (.ok none, []) := by
  have hev : evs = onlyTags (eventsIn norm bs) := longest_tags h
  obtain ⟨rs, h1, h2⟩ := calls_pieces_any _ (eventsIn norm bs) (Nat.le_refl _) [none]
  refine ⟨rs, (leftover (eventsIn norm bs)).map some ++ [none], ?_, ?_, next_unbroken (leftover_unbroken _), rfl⟩
  · rw [over_failing, hev, pieces_tags, List.length_map]; exact h1
  · rw [hev, pieces_tags]; exact forall₂_tags h2

/-- **C102.** If no element has two attributes of the same local name, the answers are fixed: they are what the pieces stand for. -/
theorem C102_clear {rs : List (Option ObjData)} {ps : List (List XmlEvent)} (h : List.Forall₂ Answers rs ps) (hc : ∀ p ∈ ps, Clear p) :
    rs = ps.map pieceObject := by
  induction h with
  | nil => rfl
  | cons h _ ih => rw [List.map_cons, answers_clear h (hc _ (by simp)), ih fun p hp => hc p (by simp [hp])]

/-- **C102**, a loop over a file of any bytes: the objects up to the first piece that stands for none; if every piece stands for an object, and
only then, the loop gets to the end of the file, where it panics unless the file is a document. -/
theorem C102_loop {bs : List UInt8} {t : Str} {evs : List XmlEvent} (h : Longest norm.char norm.manyRoots bs t evs) :
    ∃ (ds : List (Option ObjData)) (os : List StringOSMObj) (e : Option Panic) (q : List (Option XmlEvent)),
      Drain XMLReader.next (XMLReader.new norm bs) os e q ∧ List.Forall₂ Answers ds (Spec.pieces evs) ∧
      os.map (fun o => some (objData o)) = ds.takeWhile Option.isSome ∧
      (e = some .unwrap ↔ none ∉ ds ∧ ¬ IsDocument norm.char norm.manyRoots bs) ∧ (e = none ∨ e = some .unwrap) := by
  obtain ⟨rs, q, h1, h2, h3, h4, -⟩ := C102_xml h
  have hl : (Spec.pieces evs).length = rs.length := by
    simpa using h2.length_eq.symm
  rw [hl] at h1
  have hmap : ∀ rs : List (Option StringOSMObj), (rs.takeWhile Option.isSome).reduceOption.map (fun o => some (objData o)) =
      (rs.map (Option.map objData)).takeWhile Option.isSome := by
    intro rs
    induction rs with
    | nil => rfl
    | cons r rs ih => cases r <;> simp [List.reduceOption] at * ; exact ih
  have hall : rs.all Option.isSome = true ↔ none ∉ rs.map (Option.map objData) := by
    rw [List.all_eq_true]
    constructor
    · intro h hm
      obtain ⟨o, ho, he⟩ := List.mem_map.1 hm
      rw [Option.map_eq_none_iff.1 he] at ho
      exact absurd (h _ ho) (by simp)
    · intro h o ho
      cases o with
      | none => exact absurd (List.mem_map.2 ⟨none, ho, rfl⟩) h
      | some o => rfl
  have hd : ∃ e, Drain XMLReader.next q [] e [] ∧ (e = some .unwrap ↔ ¬ IsDocument norm.char norm.manyRoots bs) ∧ (e = none ∨ e = some .unwrap) := by
    by_cases hD : IsDocument norm.char norm.manyRoots bs
    · exact ⟨_, .done (h3 hD), by simp [hD], .inl rfl⟩
    · exact ⟨_, .panic (h4 hD), by simp [hD], .inr rfl⟩
  obtain ⟨e, hd, he, he'⟩ := hd
  obtain ⟨ha, hb⟩ := drain_of_calls rs (XMLReader.new norm bs) (by rw [h1]) (by rw [h1]; exact hd)
  cases hr : rs.all Option.isSome with
  | false =>
    obtain ⟨q', hq⟩ := hb hr
    refine ⟨_, _, _, q', hq, h2, hmap rs, ?_, .inl rfl⟩
    have : ¬ none ∉ rs.map (Option.map objData) := fun hp => by rw [hall.2 hp] at hr; cases hr
    exact ⟨fun h => (by cases h), fun h => absurd h.1 this⟩
  | true =>
    refine ⟨_, _, e, _, ha hr, h2, ?_, ?_, he'⟩
    · rw [← hmap rs, List.append_nil, List.takeWhile_eq_self_iff.2 (List.all_eq_true.1 hr)]
    · rw [he, and_iff_right (hall.1 hr)]

/-- **C102.** A document is its own longest beginning, with the tags of its tree. -/
theorem C102_document {t : Str} {f : Forest} (h : WellFormed norm.char norm.manyRoots t f) :
    Longest norm.char norm.manyRoots (Utf8.encode t) t (onlyTags f.events) := by
  have hp : ∀ t', Utf8.encode t' <+: Utf8.encode t → t' <+: t := fun t' h' => by
    have := (Utf8.encode_prefix_iff t' (Utf8.encode t)).1 h'
    rwa [Utf8.decodePrefix_encode] at this
  obtain ⟨p, ev, e1, e2⟩ := run_wellFormed h
  refine ⟨List.prefix_refl _, begun_iff.2 ⟨⟨p, by rw [show Xml.run norm initial t = _ from e1]⟩, ?_⟩, fun t' _ h1 _ => hp t' h1⟩
  rw [show Xml.run norm initial t = _ from e1, ← e2]
  cases p <;> simp [onlyTags, Lex.pend]

/-! ## A file that is no document -/

/-- A document cut short inside of its last tag, with an invalid byte after it. -/
def brokenBytes : List UInt8 := Utf8.encode (prefixedText.take (prefixedText.length - 3)) ++ [0xff]

/-- The tags before the cut. -/
def brokenTags : List XmlEvent :=
  [.start ⟨some ['o'], str% "osm"⟩ [⟨⟨some (str% "xml"), str% "lang"⟩, str% "en"⟩],
   .start ⟨some ['o'], str% "node"⟩ [⟨⟨none, str% "id"⟩, ['1']⟩, ⟨⟨none, str% "lat"⟩, ['0']⟩, ⟨⟨none, str% "lon"⟩, ['0']⟩,
      ⟨⟨some ['o'], str% "note"⟩, str% "a\tb"⟩],
   .stop ⟨some ['o'], str% "node"⟩]

theorem broken_longest : ∃ t, Longest Config.keep.char Config.keep.manyRoots brokenBytes t brokenTags := by
  obtain ⟨t, h⟩ := longest_exists .keep brokenBytes
  have e : onlyTags (Xml.run .keep initial (Utf8.decodePrefix brokenBytes).1).events = brokenTags := by decide +kernel
  rw [e] at h
  exact ⟨t, h⟩

theorem broken_no_document : ¬ IsDocument Config.keep.char Config.keep.manyRoots brokenBytes := by
  rw [isDocument_iff]
  decide +kernel

theorem broken_pieces : Spec.pieces brokenTags = [brokenTags] := by decide +kernel

theorem broken_clear : ∀ p ∈ Spec.pieces brokenTags, Clear p := by
  rw [broken_pieces]
  intro p hp n as hm
  obtain rfl := List.mem_singleton.1 hp
  simp only [brokenTags, List.mem_cons, XmlEvent.start.injEq, reduceCtorEq, List.not_mem_nil, or_false] at hm
  rcases hm with ⟨-, rfl⟩ | ⟨-, rfl⟩ <;> decide +kernel

/-- The node is read, and the next call panics. -/
example : ∃ o : StringOSMObj, calls XMLReader.next 1 (XMLReader.new .keep brokenBytes) =
    ([.ok (some o)], (calls XMLReader.next 1 (XMLReader.new .keep brokenBytes)).2) ∧ some (objData o) = pieceObject brokenTags ∧
    XMLReader.next (calls XMLReader.next 1 (XMLReader.new .keep brokenBytes)).2 = (.error .unwrap, []) := by
  obtain ⟨t, h⟩ := broken_longest
  obtain ⟨rs, q, h1, h2, -, h4, -⟩ := C102_xml h
  have h2 := C102_clear h2 broken_clear
  rw [broken_pieces] at h1 h2
  have hs : (pieceObject brokenTags).isSome = true := by decide +kernel
  obtain ⟨r, rfl⟩ : ∃ r, rs = [r] := List.length_eq_one_iff.1 (by simpa using congrArg List.length h2)
  obtain ⟨d, hd⟩ := Option.isSome_iff_exists.1 hs
  have h2 : r.map objData = some d := by simpa [hd] using h2
  obtain ⟨o, rfl, ho⟩ := Option.map_eq_some_iff.1 h2
  have h1 : calls XMLReader.next 1 (XMLReader.new .keep brokenBytes) = ([.ok (some o)], q) := h1
  exact ⟨o, by rw [h1], by rw [hd, ho], by rw [h1]; exact h4 broken_no_document⟩

/-- A loop: one object, then the panic. -/
example : ∃ (os : List StringOSMObj) (q : List (Option XmlEvent)),
    Drain XMLReader.next (XMLReader.new .keep brokenBytes) os (some .unwrap) q ∧ os.length = 1 := by
  obtain ⟨t, h⟩ := broken_longest
  obtain ⟨ds, os, e, q, h1, h0, h2, h3, -⟩ := C102_loop h
  obtain rfl := C102_clear h0 broken_clear
  rw [broken_pieces] at h2 h3
  have hs : (pieceObject brokenTags).isSome = true := by decide +kernel
  obtain rfl := h3.2 ⟨fun hm => (by
    rw [← List.mem_singleton.1 hm] at hs; cases hs), broken_no_document⟩
  exact ⟨os, q, h1, by simpa [hs] using congrArg List.length h2⟩

/-- Of an element with two attributes of the local name `id` either may be taken. -/
example : Chosen [⟨⟨none, str% "id"⟩, ['1']⟩, ⟨⟨some ['x'], str% "id"⟩, ['2']⟩] [⟨⟨some ['x'], str% "id"⟩, ['2']⟩] :=
  ⟨by simp, by simp, by decide⟩

/-- A document is its own longest beginning. -/
example : Longest Config.keep.char Config.keep.manyRoots (Utf8.encode prefixedText) prefixedText (onlyTags prefixedTree.events) :=
  C102_document prefixed_wellFormed

end Osmio
