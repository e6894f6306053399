import Verif.Model.XmlRead
import Verif.Spec.XmlDoc
import Verif.Spec.Drain
import Verif.Proofs.Family
import Mathlib.Data.List.Nodup
/-! # Lemmas: the XML reader over events -/

namespace Osmio
open Xml Spec

/-! ## Attributes -/

/-- No two of the attributes that are looked at have the same local name. -/
def DistinctAttrs (as : List Attr) : Prop := ((as.map fun a => a.name.loc).filter (· ∈ Forest.attrNames)).Nodup

theorem DistinctAttrs.of_nodup {as : List Attr} (h : (as.map fun a => a.name.loc).Nodup) : DistinctAttrs as := h.filter _

theorem DistinctAttrs.perm {as bs : List Attr} (h : as.Perm bs) (hd : DistinctAttrs as) : DistinctAttrs bs :=
  ((h.map _).filter _).nodup_iff.1 hd

theorem DistinctAttrs.tail {a : Attr} {as : List Attr} (h : DistinctAttrs (a :: as)) : DistinctAttrs as := by
  unfold DistinctAttrs at h ⊢
  rw [List.map_cons, List.filter_cons] at h
  split at h
  · exact (List.nodup_cons.1 h).2
  · exact h

theorem swapRemove_perm {α : Type} (l : List α) (i : Nat) (h : i < l.length) :
    (l[i] :: swapRemove l i).Perm l := by
  unfold swapRemove
  have hl : l ≠ [] := by rintro rfl; simp at h
  rw [List.getLast?_eq_some_getLast hl]
  obtain ⟨a, x, rfl⟩ : ∃ a x, l = a ++ [x] := ⟨l.dropLast, l.getLast hl, (List.dropLast_append_getLast hl).symm⟩
  simp only [List.getLast_append_singleton]
  by_cases hi : i < a.length
  · rw [List.set_append_left _ _ hi, List.dropLast_concat, List.getElem_append_left hi]
    have h1 : (a[i] :: a.set i x).Perm (x :: a) := by
      clear h hl
      induction a generalizing i with
      | nil => simp at hi
      | cons y a ih =>
        cases i with
        | zero => simpa using List.Perm.swap x y a
        | succ i =>
          have := ih i (by simpa using hi)
          simp only [List.getElem_cons_succ, List.set_cons_succ]
          exact (List.Perm.swap _ _ _).trans ((this.cons y).trans (List.Perm.swap _ _ _))
    exact h1.trans (List.perm_append_singleton x a).symm
  · have hi' : i = a.length := by simp at h; omega
    subst hi'
    rw [List.set_append_right _ _ (Nat.le_refl _)]
    simp only [Nat.sub_self, List.set_cons_zero, List.dropLast_concat]
    have : (a ++ [x])[a.length]'h = x := by simp
    rw [this]
    exact (List.perm_append_singleton x a).symm

theorem attr_eq_some {as : List Attr} (hd : DistinctAttrs as) {k v : Str} (hk : k ∈ Forest.attrNames) :
    attr k as = some v ↔ ∃ a ∈ as, a.name.loc = k ∧ a.value = v := by
  unfold attr
  constructor
  · intro h
    obtain ⟨a, ha, rfl⟩ := Option.map_eq_some_iff.1 h
    exact ⟨a, List.mem_of_find?_eq_some ha, by simpa using List.find?_some ha, rfl⟩
  · rintro ⟨a, ha, rfl, rfl⟩
    induction as with
    | nil => cases ha
    | cons b as ih =>
      rw [List.find?_cons]
      rcases List.mem_cons.1 ha with rfl | ha
      · simp
      · have : b.name.loc ≠ a.name.loc := by
          intro he
          unfold DistinctAttrs at hd
          rw [List.map_cons, List.filter_cons, if_pos (by simpa [he] using hk), List.nodup_cons] at hd
          exact hd.1 (List.mem_filter.2 ⟨he ▸ List.mem_map.2 ⟨a, ha, rfl⟩, by simpa [he] using hk⟩)
        simp only [this, decide_false]
        exact ih hd.tail ha

theorem attr_perm {as bs : List Attr} (h : as.Perm bs) (hd : DistinctAttrs as) (k : Str) (hk : k ∈ Forest.attrNames) :
    attr k as = attr k bs := by
  have hd2 : DistinctAttrs bs := hd.perm h
  apply Option.ext
  intro v
  rw [attr_eq_some hd hk, attr_eq_some hd2 hk]
  exact exists_congr fun a => by rw [h.mem_iff]

theorem attr_cons (a : Attr) (as : List Attr) (k : Str) :
    attr k (a :: as) = if a.name.loc = k then some a.value else attr k as := by
  unfold attr
  rw [List.find?_cons]
  by_cases h : a.name.loc = k <;> simp [h]

theorem getXmlAttribute_spec {as : List Attr} (hd : DistinctAttrs as) (k : Str) (hkn : k ∈ Forest.attrNames) :
    (getXmlAttribute as k).1 = attr k as ∧ DistinctAttrs (getXmlAttribute as k).2 ∧
      ∀ k' ∈ Forest.attrNames, k' ≠ k → attr k' (getXmlAttribute as k).2 = attr k' as := by
  unfold getXmlAttribute
  cases h : as.findIdx? (fun a => a.name.loc == k) with
  | none =>
    refine ⟨?_, hd, fun _ _ _ => rfl⟩
    rw [List.findIdx?_eq_none_iff] at h
    unfold attr
    have : as.find? (fun a => a.name.loc = k) = none := by
      rw [List.find?_eq_none]
      intro x hx
      have := h x hx
      simpa using this
    rw [this]; rfl
  | some i =>
    rw [List.findIdx?_eq_some_iff_getElem] at h
    obtain ⟨hi, h1, _⟩ := h
    have hp := swapRemove_perm as i hi
    have hd2 : DistinctAttrs (as[i] :: swapRemove as i) := hd.perm hp.symm
    have hk : as[i].name.loc = k := by simpa using h1
    refine ⟨?_, hd2.tail, fun k' hkn' hk' => ?_⟩
    · simp only [List.getElem?_eq_getElem hi, Option.map_some]
      rw [← attr_perm hp hd2 k hkn, attr_cons, if_pos hk]
    · rw [← attr_perm hp hd2 k' hkn', attr_cons, if_neg]
      rw [hk]; exact fun h => hk' h.symm

/-- What lookups of several keys give, one after the other. -/
def takeAttrs (attrs : List Attr) : List Str → List (Option Str)
  | [] => []
  | k :: ks => (getXmlAttribute attrs k).1 :: takeAttrs (getXmlAttribute attrs k).2 ks

/-- Several lookups, one after the other. -/
theorem lookups {as : List Attr} {ks : List Str} (hk : ks.Nodup ∧ ∀ k ∈ ks, k ∈ Forest.attrNames) (hd : DistinctAttrs as) :
    takeAttrs as ks = ks.map fun k => attr k as := by
  induction ks generalizing as with
  | nil => rfl
  | cons k ks ih =>
    obtain ⟨hk, hn⟩ := hk
    rw [List.forall_mem_cons] at hn
    obtain ⟨h1, h2, h3⟩ := getXmlAttribute_spec hd k hn.1
    rw [List.nodup_cons] at hk
    rw [takeAttrs, ih ⟨hk.2, hn.2⟩ h2, h1, List.map_cons]
    congr 1
    apply List.map_congr_left
    intro k' hk'
    exact h3 k' (hn.2 k' hk') fun he => hk.1 (he ▸ hk')

/-! ## Children -/

theorem kindOf_isSome (n : Name) : (kindOf n).isSome = isObjName n := by
  unfold kindOf isObjName
  by_cases h1 : n.loc = str% "node"
  · simp [h1]
  · by_cases h2 : n.loc = str% "way"
    · simp [h2]
    · by_cases h3 : n.loc = str% "relation"
      · simp [h3]
      · simp [h1, h2, h3]

/-- The start of a child, without its prefix. -/
def startOf : XmlEvent → Option (Str × List Attr)
  | .start n as => some (n.loc, as)
  | _ => none

theorem elems_eq (f : Forest) : f.elems = f.events.filterMap startOf := by
  induction f with
  | nil => rfl
  | text r ih =>
    rw [Forest.elems, Forest.events, List.filterMap_cons_none rfl, ih]
  | elem n as k r ihk ihr =>
    rw [Forest.elems, Forest.events, List.filterMap_cons_some (f := startOf) rfl, List.filterMap_append,
      List.filterMap_cons_none rfl, ihk, ihr]

theorem distinct_elems {f : Forest} (h : f.Distinct) : ∀ e ∈ f.elems, DistinctAttrs e.2 := by
  induction f with
  | nil => intro e he; cases he
  | text r ih => exact ih h
  | elem n as k r ihk ihr =>
    intro e he
    obtain ⟨h1, h2, h3⟩ := h
    simp only [Forest.elems, List.mem_cons, List.mem_append] at he
    rcases he with rfl | he | he
    · exact h1
    · exact ihk h2 e he
    · exact ihr h3 e he

/-- Looking at the start events one by one is looking at the elements one by one. -/
theorem filterMap_events {β : Type} {f : Forest} (h : f.Distinct) (g : XmlEvent → Option β)
    (g' : Str × List Attr → Option β) (h1 : ∀ n as, DistinctAttrs as → g (.start n as) = g' (n.loc, as))
    (h2 : ∀ e, startOf e = none → g e = none) : f.events.filterMap g = f.elems.filterMap g' := by
  rw [elems_eq, List.filterMap_filterMap]
  apply List.filterMap_congr
  intro e he
  cases e with
  | start n as =>
    refine h1 n as (distinct_elems h (n.loc, as) ?_)
    rw [elems_eq]
    exact List.mem_filterMap.2 ⟨_, he, rfl⟩
  | stop n => exact h2 _ rfl
  | other => exact h2 _ rfl

theorem model_tagOf {n : Name} {as : List Attr} (h : DistinctAttrs as) :
    Osmio.tagOf (.start n as) = Spec.tagOf (n.loc, as) := by
  have hl := lookups (ks := [str% "k", str% "v"]) (by decide) h
  simp only [takeAttrs, List.map_cons, List.map_nil, List.cons.injEq, and_true] at hl
  unfold Osmio.tagOf Spec.tagOf
  simp only [hl.1, hl.2]
  rfl

theorem model_ndOf {n : Name} {as : List Attr} (h : DistinctAttrs as) :
    Osmio.ndOf (.start n as) = Spec.ndOf (n.loc, as) := by
  unfold Osmio.ndOf Spec.ndOf
  simp only [(getXmlAttribute_spec h (str% "ref") (by decide)).1]

theorem model_memberOf {n : Name} {as : List Attr} (h : DistinctAttrs as) :
    Osmio.memberOf (.start n as) = Spec.memberOf (n.loc, as) := by
  have hl := lookups (ks := [str% "ref", str% "type", str% "role"]) (by decide) h
  simp only [takeAttrs, List.map_cons, List.map_nil, List.cons.injEq, and_true] at hl
  unfold Osmio.memberOf Spec.memberOf
  simp only [hl.1, hl.2.1, hl.2.2]
  rfl

theorem getTags_eq {f : Forest} (h : f.Distinct) : getTags f.events = f.elems.filterMap Spec.tagOf := by
  refine filterMap_events h _ _ (fun n as hd => model_tagOf hd) ?_
  rintro (_ | _ | _) he
  · cases he
  · rfl
  · rfl

theorem getNodes_eq {f : Forest} (h : f.Distinct) : getNodes f.events = f.elems.filterMap Spec.ndOf := by
  refine filterMap_events h _ _ (fun n as hd => model_ndOf hd) ?_
  rintro (_ | _ | _) he
  · cases he
  · rfl
  · rfl

theorem getMembers_eq {f : Forest} (h : f.Distinct) : getMembers f.events = f.elems.filterMap Spec.memberOf := by
  refine filterMap_events h _ _ (fun n as hd => model_memberOf hd) ?_
  rintro (_ | _ | _) he
  · cases he
  · rfl
  · rfl

theorem deletedOf_eq (o : Option Str) : deletedOf o = decide (o = some (str% "false")) := by
  cases o with
  | none => rfl
  | some v =>
    unfold deletedOf
    by_cases h1 : v = str% "true"
    · subst h1; decide
    · by_cases h2 : v = str% "false"
      · subst h2; decide
      · simp [h1, h2]

theorem latLonOf_eq (a b : Str) (as : List Attr) (h1 : attr (str% "lat") as = some a) (h2 : attr (str% "lon") as = some b) :
    latLonOf (Lat.fromStr a) (Lon.fromStr b) = posOf as := by
  unfold latLonOf posOf
  rw [h1, h2]
  simp only [Option.map_some]
  cases Lat.fromStr a <;> cases Lon.fromStr b <;> rfl

/-- The events of an element. -/
def elemEvents (n : Name) (as : List Attr) (k : Forest) : List XmlEvent := .start n as :: (k.events ++ [.stop n])

theorem filterMap_elem {β : Type} (g : XmlEvent → Option β) (n : Name) (as : List Attr) (k : Forest)
    (h1 : g (.start n as) = none) (h2 : g (.stop n) = none) :
    (elemEvents n as k).filterMap g = k.events.filterMap g := by
  unfold elemEvents
  rw [List.filterMap_cons_none h1, List.filterMap_append, List.filterMap_cons_none h2]
  simp

/-- What the reader makes of the events of an object element. -/
theorem elemToObj {n : Name} {as : List Attr} {k : Forest} {kind : OSMObjectType} (hk : kindOf n = some kind)
    (ha : DistinctAttrs as) (hd : k.Distinct) :
    (xmlElementsToOsmObj (elemEvents n as k)).map objData = readElem (kind, as, k) := by
  have htag : n.loc ≠ str% "tag" := by
    intro h; unfold kindOf at hk; rw [h] at hk; revert hk; decide +revert
  have hnd : n.loc ≠ str% "nd" := by
    intro h; unfold kindOf at hk; rw [h] at hk; revert hk; decide +revert
  have hmem : n.loc ≠ str% "member" := by
    intro h; unfold kindOf at hk; rw [h] at hk; revert hk; decide +revert
  have e1 : getTags (elemEvents n as k) = k.elems.filterMap Spec.tagOf := by
    rw [← getTags_eq hd]
    exact filterMap_elem _ _ _ _ (by simp only [Osmio.tagOf, if_neg htag]) rfl
  have e2 : getNodes (elemEvents n as k) = k.elems.filterMap Spec.ndOf := by
    rw [← getNodes_eq hd]
    exact filterMap_elem _ _ _ _ (by simp only [Osmio.ndOf, if_neg hnd]) rfl
  have e3 : getMembers (elemEvents n as k) = k.elems.filterMap Spec.memberOf := by
    rw [← getMembers_eq hd]
    exact filterMap_elem _ _ _ _ (by simp only [Osmio.memberOf, if_neg hmem]) rfl
  unfold readElem
  have hx : xmlElementsToOsmObj (elemEvents n as k) =
      match kind with
      | .node => nodeXmlElementsToOsmObj as (elemEvents n as k)
      | .way => wayXmlElementsToOsmObj as (elemEvents n as k)
      | .relation => relationXmlElementsToOsmObj as (elemEvents n as k) := by
    unfold kindOf at hk
    show (if n.loc = _ then _ else if n.loc = _ then _ else if n.loc = _ then _ else none) = _
    split at hk
    · rename_i h; cases hk; rw [if_pos h]
    · rename_i h; rw [if_neg h]
      split at hk
      · rename_i h; cases hk; rw [if_pos h]
      · rename_i h; rw [if_neg h]
        split at hk
        · rename_i h; cases hk; rw [if_pos h]
        · cases hk
  rw [hx]
  cases kind with
  | node =>
    have hl := lookups (ks := [str% "id", str% "version", str% "changeset", str% "timestamp", str% "uid", str% "user",
      str% "lat", str% "lon", str% "visible"]) (by decide) ha
    simp only [takeAttrs, List.map_cons, List.map_nil, List.cons.injEq, and_true] at hl
    obtain ⟨l1, l2, l3, l4, l5, l6, l7, l8, l9⟩ := hl
    simp only [nodeXmlElementsToOsmObj, l1, l2, l3, l4, l5, l6, l7, l8, l9, e1, deletedOf_eq]
    unfold readableId
    cases hid : (attr (str% "id") as).bind parseI64 with
    | none => simp
    | some id =>
      cases hlat : attr (str% "lat") as with
      | none => simp
      | some lat =>
        cases hlon : attr (str% "lon") as with
        | none => simp
        | some lon =>
          simp only [latLonOf_eq _ _ _ hlat hlon]
          rfl
  | way =>
    have hl := lookups (ks := [str% "id", str% "version", str% "changeset", str% "timestamp", str% "uid", str% "user",
      str% "visible"]) (by decide) ha
    simp only [takeAttrs, List.map_cons, List.map_nil, List.cons.injEq, and_true] at hl
    obtain ⟨l1, l2, l3, l4, l5, l6, l9⟩ := hl
    simp only [wayXmlElementsToOsmObj, l1, l2, l3, l4, l5, l6, l9, e1, e2, deletedOf_eq]
    unfold readableId
    cases hid : (attr (str% "id") as).bind parseI64 with
    | none => simp
    | some id => rfl
  | relation =>
    have hl := lookups (ks := [str% "id", str% "version", str% "changeset", str% "timestamp", str% "uid", str% "user",
      str% "visible"]) (by decide) ha
    simp only [takeAttrs, List.map_cons, List.map_nil, List.cons.injEq, and_true] at hl
    obtain ⟨l1, l2, l3, l4, l5, l6, l9⟩ := hl
    simp only [relationXmlElementsToOsmObj, l1, l2, l3, l4, l5, l6, l9, e1, e3, deletedOf_eq]
    unfold readableId
    cases hid : (attr (str% "id") as).bind parseI64 with
    | none => simp
    | some id =>
      have hm : ∀ l : List (OSMObjectType × ObjId × Str), l.map (fun (t, i, r) => (t, i, r)) = l := by
        intro l; exact List.map_id' l
      refine congrArg some ?_
      unfold objectOf
      conv_rhs => rw [← hm (k.elems.filterMap Spec.memberOf)]
      rfl

/-! ## The loop -/

/-- An event that is neither the start nor the end of an object. -/
def isQuiet (e : XmlEvent) : Bool := !(pushNow e || breakNow e)

theorem collect_quiet (b : Bool) (l acc : List XmlEvent) (h : ∀ e ∈ l, isQuiet e = true) (r : List (Option XmlEvent)) :
    XMLReader.collect b acc (l.map some ++ r) = XMLReader.collect b (if b then acc ++ l else acc) r := by
  induction l generalizing acc with
  | nil => cases b <;> simp
  | cons e l ih =>
    have he := h e (by simp)
    simp only [isQuiet, Bool.not_eq_true', Bool.or_eq_false_iff] at he
    simp only [List.map_cons, List.cons_append, XMLReader.collect, he.1, he.2, Bool.or_false]
    rw [if_neg (by simp), ih _ fun x hx => h x (by simp [hx])]
    cases b <;> simp

theorem next_quiet (l : List XmlEvent) (h : ∀ e ∈ l, isQuiet e = true) (r : List (Option XmlEvent)) :
    XMLReader.next (l.map some ++ r) = XMLReader.next r := by
  unfold XMLReader.next
  rw [collect_quiet _ _ _ h]; rfl

/-- Reading an object element. -/
theorem next_elem (n : Name) (as : List Attr) (l : List XmlEvent) (hn : isObjName n = true)
    (h : ∀ e ∈ l, isQuiet e = true) (r : List (Option XmlEvent)) :
    XMLReader.next (some (.start n as) :: (l.map some ++ some (.stop n) :: r)) =
      (.ok (xmlElementsToOsmObj (.start n as :: (l ++ [.stop n]))), r) := by
  unfold XMLReader.next
  have h1 : XMLReader.collect false [] (some (.start n as) :: (l.map some ++ some (.stop n) :: r)) =
      XMLReader.collect true [.start n as] (l.map some ++ some (.stop n) :: r) := by
    simp [XMLReader.collect, pushNow, breakNow, hn]
  rw [h1, collect_quiet _ _ _ h]
  simp [XMLReader.collect, pushNow, breakNow, hn]

theorem quiet_of_objects {f : Forest} (h : f.objects = []) : ∀ e ∈ f.events, isQuiet e = true := by
  induction f with
  | nil => intro e he; cases he
  | text r ih =>
    intro e he
    rcases List.mem_cons.1 he with rfl | he
    · rfl
    · exact ih h e he
  | elem n as k r ihk ihr =>
    unfold Forest.objects at h
    cases hk : kindOf n with
    | some kind => rw [hk] at h; cases h
    | none =>
      rw [hk] at h
      simp only [List.append_eq_nil_iff] at h
      have hn : isObjName n = false := by rw [← kindOf_isSome, hk]; rfl
      intro e he
      simp only [Forest.events, List.mem_cons, List.mem_append] at he
      rcases he with rfl | he | rfl | he
      · simp [isQuiet, pushNow, breakNow, hn]
      · exact ihk h.1 e he
      · simp [isQuiet, pushNow, breakNow, hn]
      · exact ihr h.2 e he

/-! ## Calls -/

section
variable {σ Obj : Type} {next : σ → Res (Option Obj) × σ}

theorem calls_add (m n : Nat) (s : σ) :
    calls next (m + n) s =
      ((calls next m s).1 ++ (calls next n (calls next m s).2).1, (calls next n (calls next m s).2).2) := by
  induction m generalizing s with
  | zero => simp [calls]
  | succ m ih => rw [Nat.succ_add]; simp [calls, ih]

theorem calls_congr {s s' : σ} (h : next s = next s') (n : Nat) :
    (calls next n s).1 = (calls next n s').1 ∧ next (calls next n s).2 = next (calls next n s').2 := by
  cases n with
  | zero => exact ⟨rfl, h⟩
  | succ n => simp [calls, h]

theorem Drain.congr {s s' : σ} (h : next s = next s') {os : List Obj} {e : Option Panic} {t : σ}
    (hd : Drain next s' os e t) : Drain next s os e t := by
  cases hd with
  | done h' => exact .done (h.trans h')
  | panic h' => exact .panic (h.trans h')
  | more h' h2 => exact .more (h.trans h') h2

/-- Reading to the end stops at the first `None`. -/
theorem drain_of_calls (rs : List (Option Obj)) (s : σ) (h : (calls next rs.length s).1 = rs.map .ok)
    {os : List Obj} {e : Option Panic} {t : σ} (hd : Drain next (calls next rs.length s).2 os e t) :
    (rs.all Option.isSome = true → Drain next s (rs.reduceOption ++ os) e t) ∧
    (rs.all Option.isSome = false → ∃ q, Drain next s ((rs.takeWhile Option.isSome).reduceOption) none q) := by
  induction rs generalizing s with
  | nil => exact ⟨fun _ => hd, fun h => by cases h⟩
  | cons r rs ih =>
    simp only [List.length_cons, calls, List.map_cons, List.cons.injEq] at h hd
    have hnext : next s = (.ok r, (next s).2) := by rw [← h.1]
    obtain ⟨h1, h2⟩ := ih _ h.2 hd
    cases r with
    | none =>
      refine ⟨fun hx => by simp at hx, fun _ => ⟨_, .done hnext⟩⟩
    | some o =>
      refine ⟨fun hx => ?_, fun hx => ?_⟩
      · exact .more hnext (h1 (by simpa using hx))
      · obtain ⟨q, hq⟩ := h2 (by simpa using hx)
        exact ⟨q, .more hnext hq⟩

end

/-- Reading a document followed by `t`: one call per object, and then reading goes on with `t`. -/
theorem calls_forest (f : Forest) (hf : f.Flat) (hd : f.Distinct) (t : List (Option XmlEvent)) :
    ∃ rs : List (Option StringOSMObj),
      (calls XMLReader.next f.objects.length (f.events.map some ++ t)).1 = rs.map .ok ∧
      rs.map (Option.map objData) = f.objects.map readElem ∧
      XMLReader.next (calls XMLReader.next f.objects.length (f.events.map some ++ t)).2 = XMLReader.next t := by
  induction f generalizing t with
  | nil => exact ⟨[], rfl, rfl, rfl⟩
  | text r ih =>
    obtain ⟨rs, h1, h2, h3⟩ := ih hf hd t
    have hq : XMLReader.next ((Forest.text r).events.map some ++ t) = XMLReader.next (r.events.map some ++ t) :=
      next_quiet [.other] (by simp [isQuiet, pushNow, breakNow]) _
    obtain ⟨c1, c2⟩ := calls_congr hq (Forest.text r).objects.length
    exact ⟨rs, c1.trans h1, h2, c2.trans h3⟩
  | elem n as k r ihk ihr =>
    obtain ⟨f1, f2, f3⟩ := hf
    obtain ⟨d1, d2, d3⟩ := hd
    cases hk : kindOf n with
    | some kind =>
      obtain ⟨rs, h1, h2, h3⟩ := ihr f3 d3 t
      have hn : isObjName n = true := by rw [← kindOf_isSome, hk]; rfl
      have hnx := next_elem n as k.events hn (quiet_of_objects (f2 (by rw [hk]; rfl))) (r.events.map some ++ t)
      have he : (Forest.elem n as k r).events.map some ++ t =
          some (.start n as) :: (k.events.map some ++ some (.stop n) :: (r.events.map some ++ t)) := by
        simp [Forest.events]
      have ho : (Forest.elem n as k r).objects = (kind, as, k) :: r.objects := by simp [Forest.objects, hk]
      rw [he, ho, List.length_cons]
      refine ⟨xmlElementsToOsmObj (elemEvents n as k) :: rs, ?_, ?_, ?_⟩
      · simp only [calls, hnx, h1, List.map_cons]; rfl
      · simp only [List.map_cons, h2, elemToObj hk d1 d2]
      · simp only [calls, hnx]; exact h3
    | none =>
      have hn : isObjName n = false := by rw [← kindOf_isSome, hk]; rfl
      obtain ⟨rs1, h1, h2, h3⟩ := ihk f1 d2 (some (.stop n) :: (r.events.map some ++ t))
      obtain ⟨rs2, g1, g2, g3⟩ := ihr f3 d3 t
      have he : (Forest.elem n as k r).events.map some ++ t =
          some (.start n as) :: (k.events.map some ++ some (.stop n) :: (r.events.map some ++ t)) := by
        simp [Forest.events]
      have ho : (Forest.elem n as k r).objects = k.objects ++ r.objects := by simp [Forest.objects, hk]
      have q1 : XMLReader.next (some (.start n as) :: (k.events.map some ++ some (.stop n) :: (r.events.map some ++ t))) =
          XMLReader.next (k.events.map some ++ some (.stop n) :: (r.events.map some ++ t)) :=
        next_quiet [.start n as] (by simp [isQuiet, pushNow, breakNow, hn]) _
      have q2 : XMLReader.next (some (.stop n) :: (r.events.map some ++ t)) = XMLReader.next (r.events.map some ++ t) :=
        next_quiet [.stop n] (by simp [isQuiet, pushNow, breakNow, hn]) _
      obtain ⟨c1, c2⟩ := calls_congr q1 (k.objects.length + r.objects.length)
      obtain ⟨c3, c4⟩ := calls_congr (h3.trans q2) r.objects.length
      rw [he, ho, List.length_append]
      refine ⟨rs1 ++ rs2, ?_, ?_, ?_⟩
      · rw [c1, calls_add, h1, c3, g1, List.map_append]
      · rw [List.map_append, List.map_append, h2, g2]
      · rw [c2, calls_add]; exact c4.trans g3

end Osmio
