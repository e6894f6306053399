import Verif.Model.XmlSource
import Verif.Spec.XmlCut
import Verif.Props.ReaderExact
/-! # Lemmas: the XML reader over part of a document -/

namespace Osmio.Utf8

theorem decodeFirst_append {b : UInt8} {r : List UInt8} {c : Char} {k : Nat} (h : decodeFirst b r = some (c, k)) (t : List UInt8) :
    decodeFirst b (r ++ t) = some (c, k) ∧ k - 1 ≤ r.length := by
  have hk : decodeFirst b r = some (c, k) → k - 1 ≤ r.length ∧ decodeFirst b (r ++ t) = some (c, k) := by
    unfold decodeFirst
    dsimp only
    split_ifs
    · intro h; cases h; exact ⟨by simp, rfl⟩
    · intro h; cases h
    · rcases r with _ | ⟨b1, r⟩
      · intro h; cases h
      · dsimp only [List.cons_append]
        intro h
        refine ⟨?_, h⟩
        split at h
        · obtain ⟨_, _, h2⟩ := Option.map_eq_some_iff.1 h; cases h2; simp
        · cases h
    · rcases r with _ | ⟨b1, _ | ⟨b2, r⟩⟩
      · intro h; cases h
      · intro h; cases h
      · dsimp only [List.cons_append]
        intro h
        refine ⟨?_, h⟩
        split at h
        · obtain ⟨_, _, h2⟩ := Option.map_eq_some_iff.1 h; cases h2; simp
        · cases h
    · rcases r with _ | ⟨b1, _ | ⟨b2, _ | ⟨b3, r⟩⟩⟩
      · intro h; cases h
      · intro h; cases h
      · intro h; cases h
      · dsimp only [List.cons_append]
        intro h
        refine ⟨?_, h⟩
        split at h
        · obtain ⟨_, _, h2⟩ := Option.map_eq_some_iff.1 h; cases h2; simp
        · cases h
    · intro h; cases h
  exact ⟨(hk h).2, (hk h).1⟩

theorem decodePrefixAux_append (n m : Nat) (a b : List UInt8) (hn : a.length ≤ n) (hm : a.length + b.length ≤ m) :
    (decodePrefixAux n a).1 <+: (decodePrefixAux m (a ++ b)).1 := by
  induction n generalizing m a with
  | zero =>
    have : a = [] := List.eq_nil_of_length_eq_zero (by omega)
    subst this
    exact List.nil_prefix
  | succ n ih =>
    rcases a with _ | ⟨x, r⟩
    · exact List.nil_prefix
    · obtain ⟨m, rfl⟩ : ∃ m', m = m' + 1 := ⟨m - 1, by simp only [List.length_cons] at hm; omega⟩
      simp only [decodePrefixAux, List.cons_append]
      cases hd : decodeFirst x r with
      | none => exact List.nil_prefix
      | some p =>
        obtain ⟨c, k⟩ := p
        obtain ⟨h1, h2⟩ := decodeFirst_append hd b
        rw [h1]
        dsimp only
        rw [List.drop_append_of_le_length h2]
        simp only [List.length_cons] at hn hm
        have := List.length_drop (i := k - 1) (l := r)
        exact (List.prefix_cons_inj c).2 (ih m _ (by omega) (by omega))

theorem decodePrefix_append (a b : List UInt8) : (decodePrefix a).1 <+: (decodePrefix (a ++ b)).1 :=
  decodePrefixAux_append _ _ a b (Nat.le_refl _) (by simp)

end Osmio.Utf8

namespace Osmio
open Spec Xml OSMObjBase

theorem before_append (a : List UInt8) (r : Source) :
    Source.before (a.map some ++ r) = (a ++ (Source.before r).1, (Source.before r).2) := by
  induction a with
  | nil => rfl
  | cons b a ih => simp only [List.map_cons, List.cons_append, Source.before, ih]

theorem over_new (norm : Xml.Config) (a : List UInt8) : XMLReader.over norm (a.map some) = XMLReader.new norm a := by
  have := before_append a []
  rw [List.append_nil] at this
  unfold XMLReader.over XMLReader.new eventsOfSource eventsOfBytes
  simp [this, Source.before]

/-- The events of the bytes before the error. -/
def eventsIn (norm : Xml.Config) (a : List UInt8) : List XmlEvent := (Xml.run norm initial (Utf8.decodePrefix a).1).events

theorem over_failing (norm : Xml.Config) (a : List UInt8) (after : Source) :
    XMLReader.over norm (a.map some ++ none :: after) = (eventsIn norm a).map some ++ [none] := by
  unfold XMLReader.over eventsOfSource
  simp only [before_append, Source.before, List.append_nil, events, Bool.and_false]
  rfl

theorem new_eq (norm : Xml.Config) (a : List UInt8) :
    ∃ last, XMLReader.new norm a = (eventsIn norm a).map some ++ [last] ∧ (last = none ∨ last = some .other) := by
  unfold XMLReader.new eventsOfBytes events
  refine ⟨_, rfl, ?_⟩
  split
  · exact .inr rfl
  · exact .inl rfl

theorem new_append (norm : Xml.Config) (a b : List UInt8) :
    ∃ rest, XMLReader.new norm (a ++ b) = (eventsIn norm a).map some ++ rest := by
  obtain ⟨last, h, _⟩ := new_eq norm (a ++ b)
  obtain ⟨t, ht⟩ := Utf8.decodePrefix_append a b
  have h2 : eventsIn norm a <+: eventsIn norm (a ++ b) := by
    unfold eventsIn
    rw [← ht, run_append]
    exact run_events _ _ _
  obtain ⟨more, hm⟩ := h2
  refine ⟨more.map some ++ [last], ?_⟩
  rw [h, ← hm, List.map_append, List.append_assoc]

/-- Nothing to read. -/
theorem next_nil : XMLReader.next [] = (.ok none, []) := rfl

theorem calls_nil (n : Nat) : (calls XMLReader.next n []).1 = List.replicate n (.ok none) := by
  induction n with
  | zero => rfl
  | succ n ih => simp only [calls, next_nil, ih, List.replicate_succ]

/-- The number of objects that end. -/
def ends (evs : List XmlEvent) : Nat := evs.countP breakNow

theorem ends_append (a b : List XmlEvent) : ends (a ++ b) = ends a + ends b := List.countP_append

theorem ends_zero {evs : List XmlEvent} : ends evs = 0 ↔ ∀ e ∈ evs, breakNow e = false := by
  simp [ends, List.countP_eq_zero]

theorem collect_fails (b : Bool) (acc evs : List XmlEvent) :
    (ends evs = 0 ∧ ∀ t, XMLReader.collect b acc (evs.map some ++ none :: t) = (.error .unwrap, t)) ∨
    ∃ els rest, ends evs = ends rest + 1 ∧ (∃ used, evs = used ++ rest) ∧
      ∀ t, XMLReader.collect b acc (evs.map some ++ t) = (.ok els, rest.map some ++ t) := by
  induction evs generalizing b acc with
  | nil => exact .inl ⟨rfl, fun t => rfl⟩
  | cons e evs ih =>
    simp only [List.map_cons, List.cons_append, XMLReader.collect]
    by_cases hb : breakNow e = true
    · exact .inr ⟨_, evs, by simp [ends, hb], ⟨[e], rfl⟩, fun t => by rw [if_pos hb]⟩
    · have hc : ends (e :: evs) = ends evs := by simp [ends, hb]
      rw [hc]
      rcases ih (b || pushNow e) (if (b || pushNow e) = true then acc ++ [e] else acc) with ⟨h0, h⟩ | ⟨els, rest, h1, ⟨used, h2⟩, h3⟩
      · exact .inl ⟨h0, fun t => by rw [if_neg hb]; exact h t⟩
      · exact .inr ⟨els, rest, h1, ⟨e :: used, by rw [h2]; rfl⟩, fun t => by rw [if_neg hb]; exact h3 t⟩

theorem next_fails (evs : List XmlEvent) :
    (ends evs = 0 ∧ ∀ t, XMLReader.next (evs.map some ++ none :: t) = (.error .unwrap, t)) ∨
    ∃ o rest, ends evs = ends rest + 1 ∧ (∃ used, evs = used ++ rest) ∧
      ∀ t, XMLReader.next (evs.map some ++ t) = (.ok o, rest.map some ++ t) := by
  rcases collect_fails false [] evs with ⟨h0, h⟩ | ⟨els, rest, h1, h2, h3⟩
  · exact .inl ⟨h0, fun t => by unfold XMLReader.next; rw [h]⟩
  · exact .inr ⟨xmlElementsToOsmObj els, rest, h1, h2, fun t => by unfold XMLReader.next; rw [h3]⟩

/-- Reading up to an error. -/
theorem calls_fails (evs : List XmlEvent) (t : List (Option XmlEvent)) :
    (∀ r ∈ (calls XMLReader.next (ends evs) (evs.map some ++ t)).1, ∃ o, r = .ok o) ∧
      ∀ k, (calls XMLReader.next (ends evs + 1 + k) (evs.map some ++ [none])).1 =
        (calls XMLReader.next (ends evs) (evs.map some ++ t)).1 ++ .error .unwrap :: List.replicate k (.ok none) := by
  induction hl : ends evs generalizing evs with
  | zero =>
    rcases next_fails evs with ⟨_, h⟩ | ⟨o, rest, h1, _, h3⟩
    · refine ⟨by simp [calls], fun k => ?_⟩
      rw [Nat.zero_add, Nat.add_comm]
      simp only [calls, h [], calls_nil, List.nil_append]
    · omega
  | succ m ih =>
    rcases next_fails evs with ⟨h0, _⟩ | ⟨o, rest, h1, _, h3⟩
    · omega
    · obtain ⟨i1, i2⟩ := ih rest (by omega)
      refine ⟨?_, fun k => ?_⟩
      · intro r hr
        simp only [calls, h3 t, List.mem_cons] at hr
        rcases hr with rfl | hr
        · exact ⟨o, rfl⟩
        · exact i1 r hr
      · have e : m + 1 + 1 + k = (m + 1 + k) + 1 := by omega
        rw [e]
        simp only [calls, h3, List.cons_append, i2 k]

/-! ## A document that is complete -/

/-- Every object that begins ends. -/
theorem forest_closes (g : Forest) : ∀ (l1 : List XmlEvent) (n : Name) (as : List Attr) (l2 : List XmlEvent),
    g.events = l1 ++ .start n as :: l2 → .stop n ∈ l2 := by
  induction g with
  | nil => intro l1 n as l2 h; cases l1 <;> cases h
  | text r ih =>
    intro l1 n as l2 h
    cases l1 with
    | nil => cases h
    | cons x l1 => exact ih l1 n as l2 (List.cons.inj h).2
  | elem m bs k r ihk ihr =>
    intro l1 n as l2 h
    cases l1 with
    | nil =>
      obtain ⟨h1, h2⟩ := List.cons.inj h
      cases h1
      rw [← h2]
      simp
    | cons x l1 =>
      have h2 := (List.cons.inj h).2
      rcases List.append_eq_append_iff.1 h2 with ⟨a', e1, e2⟩ | ⟨a', e1, e2⟩
      · cases a' with
        | nil => cases e2
        | cons y a' => exact ihr a' n as l2 (List.cons.inj e2).2
      · cases a' with
        | nil => cases e2
        | cons y a' =>
          obtain ⟨hy, ha⟩ := List.cons.inj e2
          subst hy
          have := ihk l1 n as a' e1
          rw [ha]
          exact List.mem_append_left _ this

theorem pushNow_iff (e : XmlEvent) : pushNow e = true ↔ ∃ n as, e = .start n as ∧ isObjName n = true := by
  cases e <;> simp [pushNow]

theorem breakNow_iff (e : XmlEvent) : breakNow e = true ↔ ∃ n, e = .stop n ∧ isObjName n = true := by
  cases e <;> simp [breakNow]

/-- Reading to the end of a document that is complete. -/
theorem calls_complete (g : Forest) (used evs : List XmlEvent) (hg : g.events = used ++ evs) (t : List (Option XmlEvent)) :
    ∀ k, (calls XMLReader.next (ends evs + k) (evs.map some ++ [some .other])).1 =
        (calls XMLReader.next (ends evs) (evs.map some ++ t)).1 ++ List.replicate k (.ok none) := by
  induction hl : ends evs generalizing evs used with
  | zero =>
    intro k
    have hq : ∀ e ∈ evs, isQuiet e = true := by
      intro e he
      have hb := ends_zero.1 hl
      simp only [isQuiet, Bool.not_eq_true', Bool.or_eq_false_iff]
      refine ⟨?_, hb e he⟩
      by_contra hp
      rw [Bool.not_eq_false, pushNow_iff] at hp
      obtain ⟨n, as, rfl, hn⟩ := hp
      obtain ⟨l1, l2, rfl⟩ := List.append_of_mem he
      have := forest_closes g (used ++ l1) n as l2 (by rw [hg, List.append_assoc])
      have h2 := hb (.stop n) (by simp [this])
      rw [(breakNow_iff _).2 ⟨n, rfl, hn⟩] at h2
      cases h2
    cases k with
    | zero => rfl
    | succ k =>
      rw [Nat.zero_add]
      simp only [calls, next_quiet evs hq, next_end, calls_nil, List.nil_append, List.replicate_succ]
  | succ m ih =>
    rcases next_fails evs with ⟨h0, _⟩ | ⟨o, rest, h1, ⟨u, rfl⟩, h3⟩
    · omega
    · intro k
      have := ih (used ++ u) rest (by rw [hg, List.append_assoc]) (by omega) k
      have e : m + 1 + k = (m + k) + 1 := by omega
      rw [e]
      simp only [calls, h3, List.cons_append, this]

/-! ## Closing the open elements -/

theorem holder_cases {P : Str → Prop} (h1 : P (str% "osm")) (h2 : P (str% "osmChange")) (h3 : P (str% "modify"))
    (h4 : P (str% "create")) (h5 : P (str% "delete")) : ∀ x ∈ holders, P x := by
  intro x hx
  simp only [holders, List.mem_cons, List.not_mem_nil, or_false] at hx
  rcases hx with rfl | rfl | rfl | rfl | rfl <;> assumption

theorem run_failed (norm : Xml.Config) (t : Str) (s : PState) (h : s.mode = .fail) : (Xml.run norm s t).events = s.events := by
  obtain ⟨m, o, r, e⟩ := s
  cases h
  rw [run_fail]

theorem finishEnd_holder (s : PState) {x : Str} (hx : x ∈ holders) :
    ∃ l, (finishEnd s x).events = s.events ++ l ∧ ends l = 0 := by
  unfold finishEnd
  split
  · exact ⟨[], by simp [PState.err], rfl⟩
  · split
    · split
      · rename_i q hq
        refine ⟨[.stop q], rfl, ?_⟩
        refine holder_cases (P := fun x => splitName x = some q → ends [XmlEvent.stop q] = 0) ?_ ?_ ?_ ?_ ?_ x hx hq <;>
          (intro h; cases h; rfl)
      · exact ⟨[], by simp [PState.err], rfl⟩
    · exact ⟨[], by simp [PState.err], rfl⟩

theorem run_endTag_lt (norm : Xml.Config) (s : PState) {x : Str} (hx : x ∈ holders) (h : s.mode = .lt) :
    Xml.run norm s (str% "/" ++ x ++ str% ">") = finishEnd (s.goto (.endName x)) x := by
  obtain ⟨m, o, r, e⟩ := s
  cases h
  refine holder_cases (P := fun x => Xml.run norm ⟨.lt, o, r, e⟩ (str% "/" ++ x ++ str% ">") =
    finishEnd (PState.goto ⟨.lt, o, r, e⟩ (.endName x)) x) ?_ ?_ ?_ ?_ ?_ x hx <;> rfl

theorem run_pi_plain (norm : Xml.Config) {w : Str} (hw : ∀ c ∈ w, c ≠ '?' ∧ isXmlChar c = true) (q : Str)
    (hq : q.getLast? ≠ some '?') (o : List (Str × List Str)) (r : Bool) (e : List XmlEvent) :
    Xml.run norm ⟨.pi q, o, r, e⟩ w = ⟨.pi (q ++ w), o, r, e⟩ := by
  induction w generalizing q with
  | nil => rw [List.append_nil]; rfl
  | cons c w ih =>
    have h1 : step norm ⟨.pi q, o, r, e⟩ c = ⟨.pi (q ++ [c]), o, r, e⟩ := by
      simp only [Xml.step, stepPi, if_neg (fun h : c = '>' ∧ q.getLast? = some '?' => hq h.2), (hw c (by simp)).2, if_true, PState.goto]
    rw [Xml.run_cons, h1, ih (fun x hx => hw x (by simp [hx])) _ (by simpa using (hw c (by simp)).1)]
    simp

theorem run_endTag_in (norm : Xml.Config) (s : PState) {x : Str} (hx : x ∈ holders)
    (h : s.mode = .comment 0 ∨ s.mode = .cdata 0 ∨ ∃ q, s.mode = .pi (q ++ ['<'])) :
    (Xml.run norm s (str% "/" ++ x ++ str% ">")).events = s.events := by
  obtain ⟨m, o, r, e⟩ := s
  rcases h with h | h | ⟨q, h⟩
  rotate_left 2
  · cases h
    rw [run_pi_plain norm _ _ (by simp)]
    refine holder_cases (P := fun x => ∀ c ∈ str% "/" ++ x ++ str% ">", c ≠ '?' ∧ isXmlChar c = true) ?_ ?_ ?_ ?_ ?_ x hx <;>
      decide +kernel
  all_goals refine holder_cases (P := fun x => (Xml.run norm ⟨m, o, r, e⟩ (str% "/" ++ x ++ str% ">")).events = e) ?_ ?_ ?_ ?_ ?_ x hx <;>
    (cases h; rfl)

theorem run_endTag (norm : Xml.Config) (s : PState) {x : Str} (hx : x ∈ holders) :
    ∃ l, (Xml.run norm s (endTag x)).events = s.events ++ l ∧ ends l = 0 := by
  have e : endTag x = '<' :: (str% "/" ++ x ++ str% ">") := rfl
  rw [e, Xml.run_cons]
  have hfail : (step norm s '<').mode = .fail → (step norm s '<').events = s.events →
      ∃ l, (Xml.run norm (step norm s '<') (str% "/" ++ x ++ str% ">")).events = s.events ++ l ∧ ends l = 0 := by
    intro h1 h2
    exact ⟨[], by rw [run_failed norm _ _ h1, h2, List.append_nil], rfl⟩
  have hin : ((step norm s '<').mode = .comment 0 ∨ (step norm s '<').mode = .cdata 0 ∨ ∃ q, (step norm s '<').mode = .pi (q ++ ['<'])) →
      (step norm s '<').events = s.events →
      ∃ l, (Xml.run norm (step norm s '<') (str% "/" ++ x ++ str% ">")).events = s.events ++ l ∧ ends l = 0 := by
    intro h1 h2
    exact ⟨[], by rw [run_endTag_in norm _ hx h1, h2, List.append_nil], rfl⟩
  obtain ⟨m, o, r, ev⟩ := s
  cases m with
  | text p =>
    have h1 : (step norm ⟨.text p, o, r, ev⟩ '<').mode = .lt := by cases p <;> rfl
    obtain ⟨l1, e1, n1⟩ : ∃ l, (step norm ⟨.text p, o, r, ev⟩ '<').events = ev ++ l ∧ ends l = 0 := by
      cases p
      · exact ⟨[], (List.append_nil _).symm, rfl⟩
      · exact ⟨[.other], rfl, rfl⟩
    rw [run_endTag_lt norm _ hx h1]
    obtain ⟨l2, e2, n2⟩ := finishEnd_holder ((step norm ⟨.text p, o, r, ev⟩ '<').goto (.endName x)) hx
    refine ⟨l1 ++ l2, ?_, by rw [ends_append, n1, n2]⟩
    rw [e2]
    show (step norm ⟨.text p, o, r, ev⟩ '<').events ++ l2 = _
    rw [e1, List.append_assoc]
  | comment d =>
    by_cases hd : 2 ≤ d
    · have e1 : step norm ⟨.comment d, o, r, ev⟩ '<' = ⟨.fail, o, r, ev⟩ := by
        simp only [Xml.step, stepComment, if_pos hd]
        rfl
      exact hfail (by rw [e1]) (by rw [e1])
    · have e1 : step norm ⟨.comment d, o, r, ev⟩ '<' = ⟨.comment 0, o, r, ev⟩ := by
        simp only [Xml.step, stepComment, if_neg hd]
        rfl
      exact hin (.inl (by rw [e1])) (by rw [e1])
  | cdata d => exact hin (.inr (.inl rfl)) rfl
  | pi q => exact hin (.inr (.inr ⟨q, rfl⟩)) rfl
  | attrVal n as k q v =>
    by_cases hq : '<' = q
    · subst hq
      refine ⟨[], ?_, rfl⟩
      rw [List.append_nil]
      refine holder_cases (P := fun x => (Xml.run norm (step norm ⟨.attrVal n as k '<' v, o, r, ev⟩ '<')
        (str% "/" ++ x ++ str% ">")).events = ev) ?_ ?_ ?_ ?_ ?_ x hx <;> rfl
    · exact hfail (by simp [Xml.step, stepAttrVal, hq, PState.err]) (by simp [Xml.step, stepAttrVal, hq, PState.err])
  | bang t =>
    have hno : ∀ l : Str, '<' ∉ l → ¬ (t ++ ['<']) <+: l := fun l hl hp => hl (hp.subset (by simp))
    have n1 : t ++ ['<'] ≠ str% "--" := fun h => hno (str% "--") (by decide) (by rw [h])
    have n2 : t ++ ['<'] ≠ str% "[CDATA[" := fun h => hno (str% "[CDATA[") (by decide) (by rw [h])
    have p1 : (t ++ ['<']).isPrefixOf (str% "--") = false := by
      rw [Bool.eq_false_iff, ne_eq, List.isPrefixOf_iff_prefix]; exact hno _ (by decide)
    have p2 : (t ++ ['<']).isPrefixOf (str% "[CDATA[") = false := by
      rw [Bool.eq_false_iff, ne_eq, List.isPrefixOf_iff_prefix]; exact hno _ (by decide)
    have hs : step norm ⟨.bang t, o, r, ev⟩ '<' = ⟨.fail, o, r, ev⟩ := by
      simp only [Xml.step, stepBang]
      rw [if_neg n1, if_neg n2, p1, p2]
      rfl
    exact hfail (by rw [hs]) (by rw [hs])
  | _ => exact hfail rfl rfl

/-- End tags. -/
theorem run_endTags (norm : Xml.Config) (xs : List Str) (hx : ∀ x ∈ xs, x ∈ holders) (s : PState) :
    ∃ l, (Xml.run norm s (xs.flatMap endTag)).events = s.events ++ l ∧ ends l = 0 := by
  induction xs generalizing s with
  | nil => exact ⟨[], (List.append_nil _).symm, rfl⟩
  | cons x xs ih =>
    rw [List.flatMap_cons, run_append]
    obtain ⟨l1, e1, n1⟩ := run_endTag norm s (hx x (by simp))
    obtain ⟨l2, e2, n2⟩ := ih (fun y hy => hx y (by simp [hy])) (Xml.run norm s (endTag x))
    exact ⟨l1 ++ l2, by rw [e2, e1, List.append_assoc], by rw [ends_append, n1, n2]⟩

/-! ## Counting objects -/

theorem breakNow_stop (n : Name) : breakNow (.stop n) = (kindOf n).isSome := by
  unfold kindOf
  simp only [breakNow, isObjName]
  by_cases h1 : n.loc = str% "node"
  · simp [h1]
  · by_cases h2 : n.loc = str% "way"
    · simp [h2]
    · by_cases h3 : n.loc = str% "relation"
      · simp [h3]
      · rw [if_neg h1, if_neg h2, if_neg h3]
        simp [h1, h2, h3]

theorem ends_forest (g : Forest) (h : g.Flat) : ends g.events = g.objects.length := by
  induction g with
  | nil => rfl
  | text r ih => exact (ends_append [.other] _).trans (by simpa [ends, breakNow, Forest.objects] using ih h)
  | elem n as k r ihk ihr =>
    obtain ⟨h1, h2, h3⟩ := h
    have e : (Forest.elem n as k r).events = [.start n as] ++ (k.events ++ ([.stop n] ++ r.events)) := by simp [Forest.events]
    have e1 : ends [XmlEvent.start n as] = 0 := rfl
    have e2 : ends [XmlEvent.stop n] = if (kindOf n).isSome then 1 else 0 := by
      simp [ends, breakNow_stop, List.countP_cons]
    rw [e, ends_append, ends_append, ends_append, e1, e2, ihk h1, ihr h3]
    cases hk : kindOf n with
    | none => simp [Forest.objects, hk]
    | some q =>
      rw [hk] at h2
      simp only [Forest.objects, hk, h2 rfl, List.length_cons, List.length_nil]
      simp
      omega

end Osmio
