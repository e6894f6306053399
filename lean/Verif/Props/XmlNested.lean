import Verif.Spec.XmlNested
import Verif.Props.ReaderExact
/-!
# What an XML reader makes of any document (C30, C32, C33), with objects inside objects too
-/

namespace Osmio
open Spec Xml OSMObjBase Spec.Lex

/-! ## Pieces -/

theorem objectEnd_eq (e : XmlEvent) : objectEnd e = breakNow e := by
  cases e with
  | stop n => exact kindOf_isSome n
  | start n as => rfl
  | other => rfl

/-- The starts in a part of a document. -/
theorem starts_begun (l : List XmlEvent) : (begun l).events.filterMap startOf = l.filterMap startOf := by
  induction l with
  | nil => rfl
  | cons e l ih =>
    cases e with
    | start n as =>
      show (.start n as :: ([] ++ .stop n :: (begun l).events)).filterMap startOf = _
      rw [List.filterMap_cons_some (f := startOf) rfl, List.nil_append, List.filterMap_cons_none rfl, ih,
        List.filterMap_cons_some (f := startOf) rfl]
    | stop n => rw [begun, ih, List.filterMap_cons_none rfl]; intro n as h; cases h
    | other => rw [begun, ih, List.filterMap_cons_none rfl]; intro n as h; cases h

theorem filterMap_starts {β : Type} (g : XmlEvent → Option β) (h1 : ∀ n n' as, n.loc = n'.loc → g (.start n as) = g (.start n' as))
    (h2 : ∀ e, startOf e = none → g e = none) (l : List XmlEvent) :
    l.filterMap g = (l.filterMap startOf).filterMap fun x => g (.start ⟨none, x.1⟩ x.2) := by
  induction l with
  | nil => rfl
  | cons e l ih =>
    cases e with
    | start n as =>
      rw [List.filterMap_cons_some (f := startOf) rfl, List.filterMap_cons, List.filterMap_cons, ih, h1 n ⟨none, n.loc⟩ as rfl]
    | stop n => rw [List.filterMap_cons_none (h2 _ rfl), List.filterMap_cons_none (f := startOf) rfl, ih]
    | other => rw [List.filterMap_cons_none (h2 _ rfl), List.filterMap_cons_none (f := startOf) rfl, ih]

/-- Only what begins matters. -/
theorem toObj_congr (n : Name) (as : List Attr) {l l' : List XmlEvent} (h : l.filterMap startOf = l'.filterMap startOf) :
    xmlElementsToOsmObj (.start n as :: l) = xmlElementsToOsmObj (.start n as :: l') := by
  have h' : (XmlEvent.start n as :: l).filterMap startOf = (XmlEvent.start n as :: l').filterMap startOf := by
    rw [List.filterMap_cons, List.filterMap_cons, h]
  have e1 : getTags (.start n as :: l) = getTags (.start n as :: l') := by
    have h1 : ∀ n n' as, n.loc = n'.loc → Osmio.tagOf (.start n as) = Osmio.tagOf (.start n' as) := by
      intro n n' as h; simp only [Osmio.tagOf, h]
    have h2 : ∀ e, startOf e = none → Osmio.tagOf e = none := by
      rintro (_ | _ | _) he
      · cases he
      · rfl
      · rfl
    rw [getTags, getTags, filterMap_starts _ h1 h2, h', ← filterMap_starts _ h1 h2]
  have e2 : getNodes (.start n as :: l) = getNodes (.start n as :: l') := by
    have h1 : ∀ n n' as, n.loc = n'.loc → Osmio.ndOf (.start n as) = Osmio.ndOf (.start n' as) := by
      intro n n' as h; simp only [Osmio.ndOf, h]
    have h2 : ∀ e, startOf e = none → Osmio.ndOf e = none := by
      rintro (_ | _ | _) he
      · cases he
      · rfl
      · rfl
    rw [getNodes, getNodes, filterMap_starts _ h1 h2, h', ← filterMap_starts _ h1 h2]
  have e3 : getMembers (.start n as :: l) = getMembers (.start n as :: l') := by
    have h1 : ∀ n n' as, n.loc = n'.loc → Osmio.memberOf (.start n as) = Osmio.memberOf (.start n' as) := by
      intro n n' as h; simp only [Osmio.memberOf, h]
    have h2 : ∀ e, startOf e = none → Osmio.memberOf e = none := by
      rintro (_ | _ | _) he
      · cases he
      · rfl
      · rfl
    rw [getMembers, getMembers, filterMap_starts _ h1 h2, h', ← filterMap_starts _ h1 h2]
  simp only [xmlElementsToOsmObj, nodeXmlElementsToOsmObj, wayXmlElementsToOsmObj, relationXmlElementsToOsmObj, e1, e2, e3]

/-- Every element of a part of a document has different attributes. -/
def Starts (l : List XmlEvent) : Prop := ∀ n as, .start n as ∈ l → DistinctAttrs as

theorem begun_distinct {l : List XmlEvent} (h : Starts l) : (begun l).Distinct := by
  induction l with
  | nil => trivial
  | cons e l ih =>
    have ih := ih fun n as hm => h n as (List.mem_cons_of_mem _ hm)
    cases e with
    | start n as => exact ⟨h n as List.mem_cons_self, trivial, ih⟩
    | stop n => rw [begun] <;> first | exact ih | (intro n as h; cases h)
    | other => rw [begun] <;> first | exact ih | (intro n as h; cases h)

theorem pushNow_start (n : Name) (as : List Attr) : pushNow (.start n as) = (kindOf n).isSome := (kindOf_isSome n).symm

/-- What is collected from a piece stands for what the piece stands for. -/
theorem piece_toObj {p : List XmlEvent} (h : Starts p) :
    (xmlElementsToOsmObj (p.dropWhile fun e => !pushNow e)).map objData = pieceObject p := by
  induction p with
  | nil => rfl
  | cons e p ih =>
    have hs : Starts p := fun n as hm => h n as (List.mem_cons_of_mem _ hm)
    have ih := ih hs
    cases e with
    | start n as =>
      cases hk : kindOf n with
      | none =>
        have e1 : pieceObject (.start n as :: p) = pieceObject p := by
          unfold pieceObject; rw [firstObject, hk]
        rw [List.dropWhile_cons, pushNow_start, hk, e1]
        exact ih
      | some kind =>
        have e1 : pieceObject (.start n as :: p) = readElem (kind, as, begun p) := by
          unfold pieceObject; rw [firstObject, hk]; rfl
        rw [List.dropWhile_cons, pushNow_start, hk, e1, ← elemToObj hk (h n as List.mem_cons_self) (begun_distinct hs)]
        simp only [Option.isSome_some, Bool.not_true, Bool.false_eq_true, if_false, elemEvents]
        rw [toObj_congr n as]
        rw [List.filterMap_append, starts_begun]
        simp [startOf]
    | stop n =>
      have e1 : pieceObject (.stop n :: p) = pieceObject p := by
        unfold pieceObject; rw [firstObject]; intro n as h; cases h
      rw [List.dropWhile_cons, e1]; exact ih
    | other =>
      have e1 : pieceObject (.other :: p) = pieceObject p := by
        unfold pieceObject; rw [firstObject]; intro n as h; cases h
      rw [List.dropWhile_cons, e1]; exact ih

/-- The loop over a piece. -/
theorem collect_piece {l : List XmlEvent} (h : ∀ e ∈ l, breakNow e = false) {x : XmlEvent} (hx : breakNow x = true) (b : Bool)
    (acc : List XmlEvent) (r : List (Option XmlEvent)) :
    XMLReader.collect b acc (l.map some ++ some x :: r) =
      (.ok (acc ++ if b then l ++ [x] else (l ++ [x]).dropWhile fun e => !pushNow e), r) := by
  induction l generalizing b acc with
  | nil =>
    have hp : pushNow x = false := by
      cases x with
      | stop n => rfl
      | start n as => cases hx
      | other => cases hx
    cases b <;> simp [XMLReader.collect, hx, hp]
  | cons e l ih =>
    have he := h e List.mem_cons_self
    have ih := ih fun x hx => h x (List.mem_cons_of_mem _ hx)
    simp only [List.map_cons, List.cons_append, XMLReader.collect, he, Bool.false_eq_true, if_false]
    rw [ih]
    cases b with
    | true => simp
    | false =>
      cases hp : pushNow e with
      | true => simp [hp]
      | false => simp [hp]

theorem next_piece {l : List XmlEvent} (h : ∀ e ∈ l, breakNow e = false) {x : XmlEvent} (hx : breakNow x = true)
    (r : List (Option XmlEvent)) :
    XMLReader.next (l.map some ++ some x :: r) = (.ok (xmlElementsToOsmObj ((l ++ [x]).dropWhile fun e => !pushNow e)), r) := by
  unfold XMLReader.next
  rw [collect_piece h hx]
  rfl

/-- What is left after the last piece. -/
def leftover : List XmlEvent → List XmlEvent
  | [] => []
  | e :: r => if objectEnd e || !(pieces r).isEmpty then leftover r else e :: r

theorem pieces_break {l : List XmlEvent} (h : ∀ e ∈ l, breakNow e = false) {x : XmlEvent} (hx : breakNow x = true) (r : List XmlEvent) :
    pieces (l ++ x :: r) = (l ++ [x]) :: pieces r ∧ leftover (l ++ x :: r) = leftover r := by
  induction l with
  | nil =>
    rw [← objectEnd_eq] at hx
    simp [pieces, leftover, hx]
  | cons e l ih =>
    have he := h e List.mem_cons_self
    rw [← objectEnd_eq] at he
    obtain ⟨h1, h2⟩ := ih fun x hx => h x (List.mem_cons_of_mem _ hx)
    simp [pieces, leftover, he, h1, h2]

theorem pieces_none {l : List XmlEvent} (h : ∀ e ∈ l, breakNow e = false) : pieces l = [] ∧ leftover l = l := by
  induction l with
  | nil => exact ⟨rfl, rfl⟩
  | cons e l ih =>
    have he := h e List.mem_cons_self
    rw [← objectEnd_eq] at he
    obtain ⟨h1, h2⟩ := ih fun x hx => h x (List.mem_cons_of_mem _ hx)
    simp [pieces, leftover, he, h1]

/-- A document either has no end of an object or begins with a piece. -/
theorem piece_cases (l : List XmlEvent) : (∀ e ∈ l, breakNow e = false) ∨
    ∃ a x r, l = a ++ x :: r ∧ (∀ e ∈ a, breakNow e = false) ∧ breakNow x = true := by
  induction l with
  | nil => exact .inl (by simp)
  | cons e l ih =>
    cases he : breakNow e with
    | true => exact .inr ⟨[], e, l, rfl, by simp, he⟩
    | false =>
      rcases ih with h | ⟨a, x, r, rfl, h1, h2⟩
      · exact .inl (List.forall_mem_cons.2 ⟨he, h⟩)
      · exact .inr ⟨e :: a, x, r, rfl, List.forall_mem_cons.2 ⟨he, h1⟩, h2⟩

/-- Reading events, call by call. -/
theorem calls_pieces (m : Nat) (evs : List XmlEvent) (hm : evs.length ≤ m) (hs : Starts evs) (t : List (Option XmlEvent)) :
    ∃ rs : List (Option StringOSMObj),
      calls XMLReader.next (pieces evs).length (evs.map some ++ t) = (rs.map .ok, (leftover evs).map some ++ t) ∧
      rs.map (Option.map objData) = (pieces evs).map pieceObject := by
  induction m generalizing evs with
  | zero =>
    obtain rfl : evs = [] := List.length_eq_zero_iff.1 (Nat.le_zero.1 hm)
    exact ⟨[], rfl, rfl⟩
  | succ m ih =>
    rcases piece_cases evs with h | ⟨a, x, r, rfl, h1, h2⟩
    · obtain ⟨e1, e2⟩ := pieces_none h
      exact ⟨[], by rw [e1, e2]; rfl, by rw [e1]; rfl⟩
    · obtain ⟨e1, e2⟩ := pieces_break h1 h2 r
      obtain ⟨rs, g1, g2⟩ := ih r (by simp at hm; omega) fun n as hm => hs n as (by simp [hm])
      have hnx := next_piece h1 h2 (r.map some ++ t)
      refine ⟨xmlElementsToOsmObj ((a ++ [x]).dropWhile fun e => !pushNow e) :: rs, ?_, ?_⟩
      · rw [e1, e2, List.length_cons, calls]
        have : (a ++ x :: r).map some ++ t = a.map some ++ some x :: (r.map some ++ t) := by simp
        rw [this, hnx]
        simp only [g1, List.map_cons]
      · rw [e1, List.map_cons, List.map_cons, g2, piece_toObj]
        intro n as hm
        refine hs n as ?_
        simp only [List.mem_append, List.mem_cons] at hm ⊢
        tauto

/-! ## Documents -/

theorem forest_starts {f : Forest} (h : f.Distinct) : Starts f.events := by
  intro n as hm
  refine distinct_elems h (n.loc, as) ?_
  rw [elems_eq]
  exact List.mem_filterMap.2 ⟨_, hm, rfl⟩

theorem pieces_append (a b : List XmlEvent) : (pieces (a ++ b)).length = (pieces a).length + (pieces b).length := by
  have key : ∀ l, (pieces l).length = l.countP breakNow := by
    intro l
    induction l with
    | nil => rfl
    | cons e l ih =>
      cases he : breakNow e with
      | true =>
        rw [pieces, objectEnd_eq, he, List.countP_cons_of_pos he, if_pos rfl, List.length_cons, ih]
      | false =>
        rw [pieces, objectEnd_eq, he, List.countP_cons_of_neg (by simp [he]), ← ih]
        cases pieces l <;> simp
  rw [key, key, key, List.countP_append]

/-- One piece for every object element. -/
theorem pieces_count (f : Forest) : (pieces f.events).length = f.objectCount := by
  induction f with
  | nil => rfl
  | text r ih =>
    have := pieces_append [.other] r.events
    rw [Forest.events, ← List.singleton_append, this, ih]
    simp [pieces, objectEnd, Forest.objectCount]
  | elem n as k r ihk ihr =>
    have h : (Forest.elem n as k r).events = [.start n as] ++ (k.events ++ ([.stop n] ++ r.events)) := rfl
    rw [h, pieces_append, pieces_append, pieces_append, ihk, ihr, Forest.objectCount]
    cases hk : (kindOf n).isSome <;> simp [pieces, objectEnd, hk] ; omega

theorem objects_count {f : Forest} (h : f.Flat) : f.objects.length = f.objectCount ∧ (f.objects = [] → f.objectCount = 0) := by
  have key : f.objects.length = f.objectCount := by
    induction f with
    | nil => rfl
    | text r ih => exact ih h
    | elem n as k r ihk ihr =>
      obtain ⟨h1, h2, h3⟩ := h
      rw [Forest.objectCount, ← ihk h1, ← ihr h3, Forest.objects]
      cases hk : kindOf n with
      | none => simp
      | some kind =>
        rw [h2 (by simp [hk])]
        simp [Nat.add_comm]
  exact ⟨key, fun h => by rw [← key, h]; rfl⟩

/-- The events after the last object of a document are quiet. -/
theorem leftover_quiet (f : Forest) (t : List XmlEvent) (ht : ∀ e ∈ leftover t, isQuiet e = true) (hp : pieces t = [] → leftover t = t) :
    (∀ e ∈ leftover (f.events ++ t), isQuiet e = true) ∧
      (pieces (f.events ++ t) = [] → leftover (f.events ++ t) = f.events ++ t) := by
  have single : ∀ (e : XmlEvent) (l : List XmlEvent), (isQuiet e = true ∨ pieces l ≠ [] ∨ breakNow e = true) →
      (∀ x ∈ leftover l, isQuiet x = true) → (pieces l = [] → leftover l = l) →
      (∀ x ∈ leftover (e :: l), isQuiet x = true) ∧ (pieces (e :: l) = [] → leftover (e :: l) = e :: l) := by
    intro e l he hl hp
    rw [leftover, objectEnd_eq]
    by_cases hb : breakNow e = true
    · constructor
      · simpa [hb] using hl
      · rw [pieces, objectEnd_eq, if_pos hb]; intro h; cases h
    · rw [Bool.not_eq_true] at hb
      cases hl2 : pieces l with
      | nil =>
        constructor
        · simp only [hb, List.isEmpty_nil, Bool.not_true, Bool.or_self, Bool.false_eq_true, if_false]
          rw [hl2, hb] at he
          have he : isQuiet e = true := by simpa using he
          exact List.forall_mem_cons.2 ⟨he, by rwa [hp hl2] at hl⟩
        · intro _; simp [hb]
      | cons p ps =>
        constructor
        · simpa [hb] using hl
        · rw [pieces, objectEnd_eq, hb, hl2]; intro h; simp at h
  induction f generalizing t with
  | nil => exact ⟨ht, hp⟩
  | text r ih =>
    obtain ⟨h1, h2⟩ := ih t ht hp
    exact single .other _ (.inl rfl) h1 h2
  | elem n as k r ihk ihr =>
    obtain ⟨h1, h2⟩ := ihr t ht hp
    have e : (Forest.elem n as k r).events ++ t = .start n as :: (k.events ++ (.stop n :: (r.events ++ t))) := by
      simp [Forest.events]
    have hs : isQuiet (.stop n) = true ∨ pieces (r.events ++ t) ≠ [] ∨ breakNow (.stop n) = true := by
      cases hn : isObjName n with
      | true => exact .inr (.inr hn)
      | false => left; simp [isQuiet, pushNow, breakNow, hn]
    obtain ⟨g1, g2⟩ := single (.stop n) _ hs h1 h2
    obtain ⟨k1, k2⟩ := ihk (.stop n :: (r.events ++ t)) g1 g2
    rw [e]
    refine single _ _ ?_ k1 k2
    cases hn : isObjName n with
    | false => left; simp [isQuiet, pushNow, breakNow, hn]
    | true =>
      right; left
      intro h
      have hl := congrArg List.length h
      rw [pieces_append, pieces, objectEnd_eq, show breakNow (.stop n) = true from hn, if_pos rfl] at hl
      simp at hl

/-- Reading a document, call by call, whatever is inside what. -/
theorem calls_any (doc : Forest) (hd : doc.Distinct) (t : List (Option XmlEvent)) :
    ∃ rs : List (Option StringOSMObj),
      (calls XMLReader.next doc.objectCount (doc.events.map some ++ t)).1 = rs.map .ok ∧
      rs.map (Option.map objData) = (pieces doc.events).map pieceObject ∧
      XMLReader.next (calls XMLReader.next doc.objectCount (doc.events.map some ++ t)).2 = XMLReader.next t := by
  obtain ⟨rs, h1, h2⟩ := calls_pieces _ doc.events (Nat.le_refl _) (forest_starts hd) t
  rw [pieces_count] at h1
  refine ⟨rs, by rw [h1], h2, ?_⟩
  rw [h1]
  have := (leftover_quiet doc [] (by simp [leftover]) (fun _ => rfl)).1
  rw [List.append_nil] at this
  exact next_quiet _ this t

theorem calls_any_reported {norm : Xml.Config} {t : Str} {doc : Forest} (h : ReportedAs norm t doc) (hd : doc.Distinct) :
    ∃ rs : List (Option StringOSMObj),
      (calls XMLReader.next doc.objectCount (XMLReader.new norm (Utf8.encode t))).1 = rs.map .ok ∧
      rs.map (Option.map objData) = (pieces doc.events).map pieceObject ∧
      XMLReader.next (calls XMLReader.next doc.objectCount (XMLReader.new norm (Utf8.encode t))).2 = (.ok none, []) := by
  rcases h with e | e
  · rw [XMLReader.new, e]
    exact calls_any doc hd [some .other]
  · rw [XMLReader.new, e]
    obtain ⟨rs, h1, h2, h3⟩ := calls_any doc hd []
    rw [List.append_nil] at h1 h3
    exact ⟨rs, h1, h2, h3⟩

theorem calls_any_text {norm : Xml.Config} (hn : IsNorm norm) {t : Str} {ts : List Tok} {doc : Forest} (h : Document t ts doc) :
    ∃ rs : List (Option StringOSMObj),
      (calls XMLReader.next doc.objectCount (XMLReader.new norm (Utf8.encode t))).1 = rs.map .ok ∧
      rs.map (Option.map objData) = (pieces doc.events).map pieceObject ∧
      XMLReader.next (calls XMLReader.next doc.objectCount (XMLReader.new norm (Utf8.encode t))).2 = (.ok none, []) :=
  calls_any_reported (document_events hn h) (document_distinct h)

/-- **C30, C32, C33** for every document of the grammar: there is one answer for every object element, in the order in which they end;
the answers are those of the pieces; and after them the file is at its end. -/
theorem C30_any {norm : Xml.Config} (hn : IsNorm norm) {t : Str} {ts : List Tok} {doc : Forest} (h : Document t ts doc) :
    (pieces doc.events).length = doc.objectCount ∧ ∃ rs : List (Option StringOSMObj),
      (calls XMLReader.next doc.objectCount (XMLReader.new norm (Utf8.encode t))).1 = rs.map .ok ∧
      rs.map (Option.map objData) = (pieces doc.events).map pieceObject ∧
      XMLReader.next (calls XMLReader.next doc.objectCount (XMLReader.new norm (Utf8.encode t))).2 = (.ok none, []) :=
  ⟨pieces_count doc, calls_any_text hn h⟩

/-- As `loop_of_calls`. -/
theorem loop_any {rs : List (Option StringOSMObj)} {s : List (Option XmlEvent)} (h1 : (calls XMLReader.next rs.length s).1 = rs.map .ok)
    (h3 : XMLReader.next (calls XMLReader.next rs.length s).2 = (.ok none, [])) :
    ∃ (os : List StringOSMObj) (q : List (Option XmlEvent)), Drain XMLReader.next s os none q ∧
      os.map (fun o => some (objData o)) = (rs.map (Option.map objData)).takeWhile Option.isSome := by
  have hmap : ∀ rs : List (Option StringOSMObj), (rs.takeWhile Option.isSome).reduceOption.map (fun o => some (objData o)) =
      (rs.map (Option.map objData)).takeWhile Option.isSome := by
    intro rs
    induction rs with
    | nil => rfl
    | cons r rs ih => cases r <;> simp [List.reduceOption] at * <;> exact ih
  obtain ⟨ha, hb⟩ := drain_of_calls rs s h1 (.done h3)
  cases hall : rs.all Option.isSome with
  | false =>
    obtain ⟨q, hq⟩ := hb hall
    exact ⟨_, q, hq, hmap rs⟩
  | true =>
    have e : rs.takeWhile Option.isSome = rs := by
      rw [List.all_eq_true] at hall
      exact List.takeWhile_eq_self_iff.2 hall
    refine ⟨_, _, ha hall, ?_⟩
    rw [← hmap rs, e, List.append_nil]

theorem loop_any_reported {norm : Xml.Config} {t : Str} {doc : Forest} (h : ReportedAs norm t doc) (hd : doc.Distinct) :
    ∃ (os : List StringOSMObj) (q : List (Option XmlEvent)), Drain XMLReader.next (XMLReader.new norm (Utf8.encode t)) os none q ∧
      os.map (fun o => some (objData o)) = ((pieces doc.events).map pieceObject).takeWhile Option.isSome := by
  obtain ⟨rs, h1, h2, h3⟩ := calls_any_reported h hd
  have hl : doc.objectCount = rs.length := by
    rw [← pieces_count, ← List.length_map (as := rs) (Option.map objData), h2, List.length_map]
  rw [hl] at h1 h3
  rw [← h2]
  exact loop_any h1 h3

/-- **C33** for every document: a loop yields what the pieces stand for up to the first that stands for nothing. -/
theorem C33_any {norm : Xml.Config} (hn : IsNorm norm) {t : Str} {ts : List Tok} {doc : Forest} (h : Document t ts doc) :
    ∃ (os : List StringOSMObj) (q : List (Option XmlEvent)), Drain XMLReader.next (XMLReader.new norm (Utf8.encode t)) os none q ∧
      os.map (fun o => some (objData o)) = ((pieces doc.events).map pieceObject).takeWhile Option.isSome :=
  loop_any_reported (document_events hn h) (document_distinct h)

/-! ## Which documents are read whole -/

/-- Does an object begin before every end of an object, since the last one? -/
def covered : Bool → List XmlEvent → Bool
  | _, [] => true
  | b, e :: r => if breakNow e then b && covered false r else covered (b || pushNow e) r

theorem firstObject_none {p : List XmlEvent} : firstObject p = none ↔ ∀ e ∈ p, pushNow e = false := by
  induction p with
  | nil => simp [firstObject]
  | cons e p ih =>
    cases e with
    | start n as =>
      rw [List.forall_mem_cons, pushNow_start, ← ih, firstObject]
      cases kindOf n <;> simp
    | stop n =>
      rw [List.forall_mem_cons, ← ih, firstObject]
      · simp [pushNow]
      · intro n as h; cases h
    | other =>
      rw [List.forall_mem_cons, ← ih, firstObject]
      · simp [pushNow]
      · intro n as h; cases h

theorem covered_of {evs : List XmlEvent} (b : Bool)
    (h : ∀ p ps, pieces evs = p :: ps → (b = true ∨ firstObject p ≠ none) ∧ ∀ q ∈ ps, firstObject q ≠ none) : covered b evs = true := by
  induction evs generalizing b with
  | nil => rfl
  | cons e r ih =>
    rw [covered]
    cases he : breakNow e with
    | true =>
      have hp : pieces (e :: r) = [e] :: pieces r := by rw [pieces, objectEnd_eq, if_pos he]
      obtain ⟨h1, h2⟩ := h _ _ hp
      have hb : b = true := by
        rcases h1 with h1 | h1
        · exact h1
        · refine absurd (firstObject_none.2 ?_) h1
          intro x hx
          rw [List.mem_singleton] at hx
          subst hx
          cases x with
          | stop n => rfl
          | start n as => cases he
          | other => cases he
      rw [if_pos rfl, hb, Bool.true_and]
      refine ih false fun p ps hps => ?_
      rw [hps] at h2
      exact ⟨.inr (h2 p List.mem_cons_self), fun q hq => h2 q (List.mem_cons_of_mem _ hq)⟩
    | false =>
      rw [if_neg (by simp)]
      refine ih _ fun p ps hps => ?_
      have hp : pieces (e :: r) = (e :: p) :: ps := by rw [pieces, objectEnd_eq, he, hps]; rfl
      obtain ⟨h1, h2⟩ := h _ _ hp
      refine ⟨?_, h2⟩
      rcases h1 with h1 | h1
      · left; rw [h1]; rfl
      · cases hpe : pushNow e with
        | true => left; simp
        | false =>
          right
          intro hn
          refine h1 (firstObject_none.2 (List.forall_mem_cons.2 ⟨hpe, firstObject_none.1 hn⟩))

/-- Then no object is inside another one. -/
theorem flat_of_covered (f : Forest) (b : Bool) (t : List XmlEvent) (h : covered b (f.events ++ t) = true) :
    f.Flat ∧ covered (b && f.objects.isEmpty) t = true := by
  induction f generalizing b t with
  | nil => exact ⟨trivial, by simpa [Forest.events, Forest.objects] using h⟩
  | text r ih =>
    have : covered b (r.events ++ t) = true := by simpa [Forest.events, covered, breakNow, pushNow] using h
    exact ih b t this
  | elem n as k r ihk ihr =>
    have e : (Forest.elem n as k r).events ++ t = .start n as :: (k.events ++ (.stop n :: (r.events ++ t))) := by
      simp [Forest.events]
    rw [e, covered, if_neg (by simp [breakNow]), pushNow_start] at h
    obtain ⟨f1, h1⟩ := ihk _ _ h
    cases hk : kindOf n with
    | none =>
      have hn : breakNow (.stop n) = false := by
        show isObjName n = false
        rw [← kindOf_isSome, hk]; rfl
      rw [covered, hn, hk] at h1
      simp only [Bool.false_eq_true, if_false, pushNow, Bool.or_false, Option.isSome_none] at h1
      obtain ⟨f2, h2⟩ := ihr _ _ h1
      refine ⟨⟨f1, by simp [hk], f2⟩, ?_⟩
      have : (Forest.elem n as k r).objects = k.objects ++ r.objects := by rw [Forest.objects, hk]
      have e2 : (k.objects ++ r.objects).isEmpty = (k.objects.isEmpty && r.objects.isEmpty) := by
        cases k.objects <;> rfl
      rw [this, e2, ← Bool.and_assoc]
      exact h2
    | some kind =>
      have hn : breakNow (.stop n) = true := by
        show isObjName n = true
        rw [← kindOf_isSome, hk]; rfl
      rw [covered, hn, if_pos rfl, hk] at h1
      simp only [Option.isSome_some, Bool.or_true, Bool.true_and, Bool.and_eq_true] at h1
      obtain ⟨f2, h2⟩ := ihr _ _ h1.2
      refine ⟨⟨f1, fun _ => List.isEmpty_iff.1 h1.1, f2⟩, ?_⟩
      have : (Forest.elem n as k r).objects = (kind, as, k) :: r.objects := by rw [Forest.objects, hk]
      rw [this]
      simpa using h2

theorem loop_any_reported_iff {norm : Xml.Config} {t : Str} {doc : Forest} (h : ReportedAs norm t doc) (hdoc : doc.Distinct) :
    (∃ (os : List StringOSMObj) (q : List (Option XmlEvent)), Drain XMLReader.next (XMLReader.new norm (Utf8.encode t)) os none q ∧
      os.length = doc.objectCount) ↔ doc.Flat ∧ ∀ e ∈ doc.objects, readElem e ≠ none := by
  constructor
  · rintro ⟨os', q', hd', hl'⟩
    obtain ⟨os, q, hd, hos⟩ := loop_any_reported h hdoc
    obtain ⟨rfl, -, -⟩ := hd.unique hd'
    have hl := congrArg List.length hos
    rw [List.length_map, hl'] at hl
    have hpre : ((pieces doc.events).map pieceObject).takeWhile Option.isSome = (pieces doc.events).map pieceObject :=
      (List.takeWhile_prefix _).eq_of_length (by rw [← hl, List.length_map, pieces_count])
    have hall := List.takeWhile_eq_self_iff.1 hpre
    have hfo : ∀ p ∈ pieces doc.events, firstObject p ≠ none := by
      intro p hp hno
      have := hall (pieceObject p) (List.mem_map.2 ⟨p, hp, rfl⟩)
      rw [pieceObject, hno] at this
      cases this
    have hcov : covered false (doc.events ++ []) = true := by
      rw [List.append_nil]
      refine covered_of false fun p ps hps => ?_
      rw [hps] at hfo
      exact ⟨.inr (hfo p List.mem_cons_self), fun q hq => hfo q (List.mem_cons_of_mem _ hq)⟩
    have hf := (flat_of_covered doc false [] hcov).1
    exact ⟨hf, (loop_reported_iff h hdoc hf).1 ⟨os, q, hd, by rw [hl', (objects_count hf).1]⟩⟩
  · rintro ⟨hf, hr⟩
    obtain ⟨os, q, hd, hl⟩ := (loop_reported_iff h hdoc hf).2 hr
    exact ⟨os, q, hd, by rw [hl, (objects_count hf).1]⟩

/-- **C30.** A loop over a document yields as many objects as it has object elements, counting those inside others, if and only if no
object is inside another one and every element stands for an object. -/
theorem C30_any_iff {norm : Xml.Config} (hn : IsNorm norm) {t : Str} {ts : List Tok} {doc : Forest} (h : Document t ts doc) :
    (∃ (os : List StringOSMObj) (q : List (Option XmlEvent)), Drain XMLReader.next (XMLReader.new norm (Utf8.encode t)) os none q ∧
      os.length = doc.objectCount) ↔ doc.Flat ∧ ∀ e ∈ doc.objects, readElem e ≠ none :=
  loop_any_reported_iff (document_events hn h) (document_distinct h)

/-! ## An example: a node inside a way -/

def nestedText : Str := str% "<way id='1'><tag k='a' v='b'/><node id='2'/><nd ref='3'/></way>"

def nestedToks : List Tok :=
  [.start (str% "way") [⟨str% "id", str% "1", str% "1"⟩],
    .empty (str% "tag") [⟨str% "k", str% "a", str% "a"⟩, ⟨str% "v", str% "b", str% "b"⟩],
    .empty (str% "node") [⟨str% "id", str% "2", str% "2"⟩], .empty (str% "nd") [⟨str% "ref", str% "3", str% "3"⟩], .stop (str% "way")]

def nestedTree : Forest :=
  .elem ⟨none, str% "way"⟩ [⟨⟨none, str% "id"⟩, str% "1"⟩]
    (.elem ⟨none, str% "tag"⟩ [⟨⟨none, str% "k"⟩, str% "a"⟩, ⟨⟨none, str% "v"⟩, str% "b"⟩] .nil
      (.elem ⟨none, str% "node"⟩ [⟨⟨none, str% "id"⟩, str% "2"⟩] .nil
        (.elem ⟨none, str% "nd"⟩ [⟨⟨none, str% "ref"⟩, str% "3"⟩] .nil .nil))) .nil

theorem nested_toks : Toks true nestedText nestedToks :=
  have a {key v : Str} {t : Str} {as : List SrcAttr} (h1 : IsName key) (h2 : key ≠ str% "xmlns") (h3 : Quoted '\'' v v) (h : Attrs t as) :
      Attrs ([' '] ++ (key ++ ([] ++ '=' :: ([] ++ '\'' :: (v ++ '\'' :: t))))) (⟨key, v, v⟩ :: as) :=
    sample_attr (by decide) (by decide) h1 h2 (by decide) h3 h
  .start (n := str% "way") (a := str% " id='1'") (w := []) (isName_of (by decide +kernel))
    (a (key := str% "id") (v := str% "1") (isName_of (by decide +kernel)) (by decide) (plain_value (by decide +kernel)) .nil)
    (by decide) (by decide)
  (.empty (n := str% "tag") (a := str% " k='a' v='b'") (w := []) (isName_of (by decide +kernel))
    (a (key := str% "k") (v := str% "a") (isName_of (by decide +kernel)) (by decide) (plain_value (by decide +kernel))
    (a (key := str% "v") (v := str% "b") (isName_of (by decide +kernel)) (by decide) (plain_value (by decide +kernel)) .nil))
    (by decide) (by decide)
  (.empty (n := str% "node") (a := str% " id='2'") (w := []) (isName_of (by decide +kernel))
    (a (key := str% "id") (v := str% "2") (isName_of (by decide +kernel)) (by decide) (plain_value (by decide +kernel)) .nil)
    (by decide) (by decide)
  (.empty (n := str% "nd") (a := str% " ref='3'") (w := []) (isName_of (by decide +kernel))
    (a (key := str% "ref") (v := str% "3") (isName_of (by decide +kernel)) (by decide) (plain_value (by decide +kernel)) .nil)
    (by decide) (by decide)
  (.stop (n := str% "way") (w := []) (isName_of (by decide +kernel)) (by decide) .nil))))

theorem nested_document : Document nestedText nestedToks nestedTree :=
  have hk : Tree nestedToks.tail.dropLast (.elem ⟨none, str% "tag"⟩ [⟨⟨none, str% "k"⟩, str% "a"⟩, ⟨⟨none, str% "v"⟩, str% "b"⟩] .nil
      (.elem ⟨none, str% "node"⟩ [⟨⟨none, str% "id"⟩, str% "2"⟩] .nil
        (.elem ⟨none, str% "nd"⟩ [⟨⟨none, str% "ref"⟩, str% "3"⟩] .nil .nil))) := .empty (.empty (.empty .nil))
  .plain (.mk (before := []) (root := nestedToks) (after := []) (n := str% "way") (ks := nestedToks.tail.dropLast)
    nested_toks (by simp) (by simp) (.inr rfl) hk (.elem (ks := nestedToks.tail.dropLast) hk .nil))

example : ¬ nestedTree.Flat := by simp [nestedTree, Forest.Flat, Forest.objects, kindOf]

/-- The way is yielded at the end of the node, with its tag and without its node; the end of the way is taken for the end of the file. -/
example : ((pieces nestedTree.events).map pieceObject).map (fun o => o.map fun d => (d.view.id, d.view.tags, d.nodes.length)) =
    [some (1, [(str% "a", str% "b")], 0), none] := by rfl

example : ∃ (os : List StringOSMObj) (q : List (Option XmlEvent)),
    Drain XMLReader.next (XMLReader.new .keep (Utf8.encode nestedText)) os none q ∧
      os.map (fun o => some (objData o)) = ((pieces nestedTree.events).map pieceObject).takeWhile Option.isSome :=
  C33_any (fun _ _ _ _ => rfl) nested_document

end Osmio
