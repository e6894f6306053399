import Verif.Spec.XmlGrammar
import Verif.Proofs.XmlLex
/-! # Lemmas: tags, name spaces and nesting as the parser sees them -/

namespace Osmio.Spec.Gram
open Xml Osmio.Spec.Lex

variable {norm : Xml.Config}

/-! ## Names -/

theorem span_colon {p r : Str} (h : ':' ∉ p) : (p ++ ':' :: r).span (· != ':') = (p, ':' :: r) := by
  rw [List.span_eq_takeWhile_dropWhile]
  induction p with
  | nil => simp
  | cons c p ih =>
    have hc : (c != ':') = true := by rw [bne_iff_ne]; rintro rfl; exact h (by simp)
    have ih := ih fun h' => h (by simp [h'])
    rw [Prod.mk.injEq] at ih
    simp only [List.cons_append, List.takeWhile_cons, List.dropWhile_cons, hc, if_true, ih.1, ih.2]

theorem colon_unique {p q r t : Str} (hp : ':' ∉ p) (hq : ':' ∉ q) (h : p ++ ':' :: r = q ++ ':' :: t) : p = q ∧ r = t := by
  have h1 := span_colon (r := r) hp
  rw [h, span_colon hq] at h1
  simp only [Prod.mk.injEq, List.cons.injEq, true_and] at h1
  exact ⟨h1.1.symm, h1.2.symm⟩

theorem splitName_iff {s : Str} {n : Name} : splitName s = some n ↔ QName s n := by
  obtain ⟨pre, loc⟩ := n
  unfold QName
  by_cases hc : ':' ∈ s
  · obtain ⟨p, r, rfl, hp⟩ := List.eq_append_cons_of_mem hc
    unfold splitName
    rw [span_colon hp]
    cases p with
    | nil =>
      simp only [List.nil_append, reduceCtorEq, false_iff, not_and, not_or, not_exists]
      rintro _ h2
      refine ⟨?_, ?_⟩
      · rintro _ h; rw [← h] at h2; simp at h2
      · rintro p _ h3 h4 h5
        cases p with
        | nil => exact h3 rfl
        | cons x p => simp only [List.cons_append, List.cons.injEq] at h5; exact h4 (by simp [← h5.1])
    | cons x p =>
      simp only
      split
      · rename_i h
        simp only [reduceCtorEq, false_iff, not_and, not_or, not_exists]
        rintro h1 h2
        refine ⟨?_, ?_⟩
        · rintro _ h3; exact h2 (by rw [← h3]; exact hc)
        · rintro q _ _ h4 h5
          have := (colon_unique hp h4 h5).2
          subst this
          rcases h with h | h
          · exact h1 h
          · exact h2 h
      · rename_i h
        rw [not_or] at h
        simp only [Option.some.injEq, Name.mk.injEq]
        constructor
        · rintro ⟨rfl, rfl⟩
          exact ⟨h.1, h.2, .inr ⟨_, rfl, by simp, hp, rfl⟩⟩
        · rintro ⟨h1, h2, ⟨rfl, h3⟩ | ⟨q, rfl, _, h4, h5⟩⟩
          · exact absurd hc (by rw [h3]; exact h2)
          · obtain ⟨rfl, rfl⟩ := colon_unique hp h4 h5
            exact ⟨rfl, rfl⟩
  · unfold splitName
    rw [span_no_colon hc]
    cases s with
    | nil =>
      simp only [reduceCtorEq, false_iff, not_and, not_or, not_exists]
      rintro h1 _
      refine ⟨fun _ h => h1 h.symm, ?_⟩
      rintro p _ _ _ h
      simp at h
    | cons c r =>
      simp only [Option.some.injEq, Name.mk.injEq]
      constructor
      · rintro ⟨rfl, rfl⟩
        exact ⟨by simp, hc, .inl ⟨rfl, rfl⟩⟩
      · rintro ⟨h1, h2, ⟨rfl, h3⟩ | ⟨q, rfl, _, h4, h5⟩⟩
        · exact ⟨rfl, h3⟩
        · exact absurd (by rw [h5]; simp) hc

/-! ## Name spaces -/

theorem isXmlns_iff {k : Str} : isXmlns k = true ↔ Declares k := by
  unfold isXmlns Declares
  rw [Bool.or_eq_true, beq_iff_eq, List.isPrefixOf_iff_prefix]
  constructor
  · rintro (h | ⟨p, h⟩)
    · exact .inl h
    · exact .inr ⟨p, h.symm⟩
  · rintro (h | ⟨p, h⟩)
    · exact .inl h
    · exact .inr ⟨p, h.symm⟩

theorem declareOk_iff {a : Str × Str} (h : Declares a.1) : declareOk a = true ↔ Allowed a := by
  obtain ⟨k, v⟩ := a
  unfold declareOk Allowed
  rcases h with rfl | ⟨p, rfl⟩
  · simp only [if_true, Bool.and_eq_true, bne_iff_ne, ne_eq, true_and, nsXml, nsXmlns, List.mem_cons, List.not_mem_nil, or_false,
      not_or]
    constructor
    · rintro ⟨⟨⟨h1, h2⟩, h3⟩, h4⟩; exact .inl ⟨h2, h1, h3, h4⟩
    · rintro (⟨h2, h1, h3, h4⟩ | ⟨p, h, _⟩)
      · exact ⟨⟨⟨h1, h2⟩, h3⟩, h4⟩
      · simp at h
  · have h1 : str% "xmlns:" ++ p ≠ str% "xmlns" := by simp
    have h2 : (str% "xmlns:").isPrefixOf (str% "xmlns:" ++ p) = true := by rw [List.isPrefixOf_iff_prefix]; exact ⟨p, rfl⟩
    have h3 : (str% "xmlns:" ++ p).drop 6 = p := rfl
    simp only [if_neg h1, h2, if_true, h3]
    rw [Bool.and_eq_true, Bool.and_eq_true, Bool.and_eq_true, Bool.and_eq_true, Bool.or_eq_true]
    simp only [bne_iff_ne, ne_eq, Bool.not_eq_true', beq_iff_eq, nsXml, List.contains_eq_mem, decide_eq_false_iff_not]
    constructor
    · rintro ⟨⟨⟨⟨g1, g2⟩, g3⟩, g4⟩, g5⟩
      exact .inr ⟨p, rfl, g1, g2, g3, fun g => g4.resolve_left (fun h => h g), g5⟩
    · rintro (⟨h, _⟩ | ⟨q, e, g1, g2, g3, g4, g5⟩)
      · exact absurd h h1
      · obtain rfl := List.append_cancel_left e
        exact ⟨⟨⟨⟨g1, g2⟩, g3⟩, or_iff_not_imp_left.2 fun h => g4 (not_not.1 h)⟩, g5⟩

theorem allowed_declares {a : Str × Str} (h : Allowed a) : Declares a.1 := by
  rcases h with h | ⟨p, h, _⟩
  · exact .inl h.1
  · exact .inr ⟨p, h⟩

theorem mem_declared {as : List (Str × Str)} {p : Str} : p ∈ declared as ↔ ∃ uri, (str% "xmlns:" ++ p, uri) ∈ as := by
  unfold declared
  simp only [List.mem_map, List.mem_filter, List.isPrefixOf_iff_prefix]
  constructor
  · rintro ⟨⟨k, v⟩, ⟨h1, q, h2⟩, h3⟩
    simp only at h2 h3
    subst h2
    have : q = p := h3
    subst this
    exact ⟨v, h1⟩
  · rintro ⟨v, h⟩
    exact ⟨_, ⟨h, p, rfl⟩, rfl⟩

/-- The open elements declare the prefixes that these attributes do. -/
def Scoped (opened : List (Str × List Str)) (sc : List (Str × Str)) : Prop :=
  ∀ p, (∃ s ∈ opened, p ∈ s.2) ↔ ∃ uri, (str% "xmlns:" ++ p, uri) ∈ sc

theorem scoped_nil : Scoped [] [] := by intro p; simp

theorem scoped_cons {o : List (Str × List Str)} {sc : List (Str × Str)} (h : Scoped o sc) (n : Str) (as : List (Str × Str)) :
    Scoped ((n, declared as) :: o) (as ++ sc) := by
  intro p
  simp only [List.mem_cons, exists_eq_or_imp, List.mem_append, exists_or, h p, mem_declared]

theorem nameOk_iff {o : List (Str × List Str)} {sc as : List (Str × Str)} (h : Scoped o sc) (n : Name) :
    nameOk o (declared as) n = true ↔ ∀ p, n.pre = some p → Bound (as ++ sc) p := by
  unfold nameOk Bound
  cases hp : n.pre with
  | none => simp
  | some p =>
    simp only [Bool.or_eq_true, beq_iff_eq, List.contains_iff_mem, List.any_eq_true, Option.some.injEq, forall_eq', mem_declared,
      List.mem_append, exists_or, ← h p, or_assoc]

theorem mkAttrs_iff {o : List (Str × List Str)} {sc all : List (Str × Str)} (h : Scoped o sc) {as : List (Str × Str)} {l : List Attr} :
    (mkAttrs o (declared all) as = some l ∧ as.all declareOk = true) ↔ Reported (all ++ sc) as l := by
  induction as generalizing l with
  | nil =>
    constructor
    · rintro ⟨h1, _⟩; cases h1; exact .nil
    · intro h; cases h; exact ⟨rfl, rfl⟩
  | cons a as ih =>
    rw [mkAttrs, List.all_cons, Bool.and_eq_true]
    by_cases hx : isXmlns a.1 = true
    · rw [if_pos hx]
      have hd := isXmlns_iff.1 hx
      constructor
      · rintro ⟨h1, h2, h3⟩
        exact .declares ((declareOk_iff hd).1 h2) (ih.1 ⟨h1, h3⟩)
      · intro h
        cases h with
        | declares h1 h2 => exact ⟨(ih.2 h2).1, (declareOk_iff hd).2 h1, (ih.2 h2).2⟩
        | attr h1 => exact absurd hd h1
    · rw [if_neg hx]
      have hd : ¬ Declares a.1 := fun h => hx (isXmlns_iff.2 h)
      have ho : declareOk a = true := by
        rw [declareOk, if_neg fun h => hd (.inl h), if_neg]
        intro h
        rw [List.isPrefixOf_iff_prefix] at h
        obtain ⟨p, h⟩ := h
        exact hd (.inr ⟨p, h.symm⟩)
      rw [ho, mkAttr]
      constructor
      · rintro ⟨h1, _, h3⟩
        cases hs : splitName a.1 with
        | none => simp [hs] at h1
        | some n =>
          simp only [hs] at h1
          by_cases hk : nameOk o (declared all) n = true
          · rw [if_pos hk] at h1
            cases hm : mkAttrs o (declared all) as with
            | none => simp [hm] at h1
            | some xs =>
              simp only [hm, Option.some.injEq] at h1
              subst h1
              exact .attr hd (splitName_iff.1 hs) ((nameOk_iff h n).1 hk) (ih.1 ⟨hm, h3⟩)
          · rw [if_neg hk] at h1; simp at h1
      · intro hr
        cases hr with
        | declares h1 => exact absurd (allowed_declares h1) hd
        | attr _ h2 h3 h4 =>
          obtain ⟨g1, g2⟩ := ih.2 h4
          simp only [splitName_iff.2 h2, if_pos ((nameOk_iff h _).2 h3), g1, g2, and_self]

/-! ## Tags -/

/-- No further element is allowed. -/
def Full (norm : Xml.Config) (s : PState) : Prop := s.opened = [] ∧ s.rooted = true ∧ norm.manyRoots = false

/-- After a start tag. -/
def afterTag (s : PState) (name : Str) (as : List (Str × Str)) (e : Bool) (n : Name) (l : List Attr) : PState :=
  ⟨.text false, if e then s.opened else (name, declared as) :: s.opened, true,
    s.events ++ if e then [.start n l, .stop n] else [.start n l]⟩

theorem finishTag_of {s : PState} {sc : List (Str × Str)} (hsc : Scoped s.opened sc) {name : Str} {as : List (Str × Str)} {n : Name}
    {l : List Attr} (h : TagSays (as ++ sc) name as n l) (hf : ¬ Full norm s) (e : Bool) :
    finishTag norm s name as e = afterTag s name as e n l := by
  have h1 : mkName s.opened (declared as) name = some n := by
    simp only [mkName, splitName_iff.2 h.name, if_pos ((nameOk_iff hsc n).2 fun p hp => (h.bound p hp).1)]
  obtain ⟨h2, h3⟩ := (mkAttrs_iff hsc).2 h.attrs
  have hc : ¬ ((s.opened = [] ∧ s.rooted = true ∧ norm.manyRoots = false) ∨ ¬ (as.map Prod.fst).Nodup ∨
        n.pre = some (str% "xml") ∨ n.pre = some (str% "xmlns") ∨ as.all declareOk = false) := by
    rintro (g | g | g | g | g)
    · exact hf g
    · exact g h.once
    · exact (h.bound _ g).2.1 rfl
    · exact (h.bound _ g).2.2 rfl
    · rw [h3] at g; cases g
  simp only [finishTag, h1, h2, if_neg hc, afterTag]

theorem finishTag_says {s : PState} {sc : List (Str × Str)} (hsc : Scoped s.opened sc) {name : Str} {as : List (Str × Str)} {e : Bool}
    (h : (finishTag norm s name as e).mode ≠ .fail) :
    ¬ Full norm s ∧ ∃ n l, TagSays (as ++ sc) name as n l ∧ finishTag norm s name as e = afterTag s name as e n l := by
  have key : ¬ Full norm s ∧ ∃ n l, TagSays (as ++ sc) name as n l := by
    simp only [finishTag] at h
    split at h
    · rename_i n l h1 h2
      split at h
      · exact absurd rfl h
      · rename_i hc
        simp only [not_or, not_not] at hc
        obtain ⟨g1, g2, g3, g4, g5⟩ := hc
        refine ⟨g1, n, l, g2, ?_, ?_, ?_⟩
        · unfold mkName at h1
          split at h1
          · rename_i m hm
            split at h1
            · cases h1; exact splitName_iff.1 hm
            · cases h1
          · cases h1
        · unfold mkName at h1
          split at h1
          · rename_i m hm
            split at h1
            · rename_i hk
              cases h1
              intro p hp
              refine ⟨(nameOk_iff hsc n).1 hk p hp, ?_, ?_⟩
              · rintro rfl; exact g3 hp
              · rintro rfl; exact g4 hp
            · cases h1
          · cases h1
        · exact (mkAttrs_iff hsc).1 ⟨h2, by simpa using g5⟩
    · exact absurd rfl h
  obtain ⟨h1, n, l, h2⟩ := key
  exact ⟨h1, n, l, h2, finishTag_of hsc h2 h1 e⟩

/-! ## Nesting -/

/-- Reading one part. -/
def tokStep (norm : Xml.Config) (s : PState) : Tok → Option PState
  | .start n as => if (finishTag norm s n as false).mode = .fail then none else some (finishTag norm s n as false)
  | .empty n as => if (finishTag norm s n as true).mode = .fail then none else some (finishTag norm s n as true)
  | .stop n => if (finishEnd s n).mode = .fail then none else some (finishEnd s n)
  | .text => if s.opened = [] then none else some { s with events := s.events ++ [.other] }
  | .space => some { s with events := s.events ++ [.other] }

/-- Reading parts. -/
def tokRun (norm : Xml.Config) : PState → List Tok → Option PState
  | s, [] => some s
  | s, x :: ts => (tokStep norm s x).bind fun s' => tokRun norm s' ts

theorem tokRun_append (s : PState) (a b : List Tok) : tokRun norm s (a ++ b) = (tokRun norm s a).bind fun s' => tokRun norm s' b := by
  induction a generalizing s with
  | nil => rfl
  | cons x a ih =>
    simp only [List.cons_append, tokRun]
    cases tokStep norm s x with
    | none => rfl
    | some s' => exact ih s'

/-- Between two parts. -/
def between (o : List (Str × List Str)) (r : Bool) (ev : List XmlEvent) : PState := ⟨.text false, o, r, ev⟩

theorem tokStep_start {o : List (Str × List Str)} {r : Bool} {ev : List XmlEvent} {sc : List (Str × Str)} (hsc : Scoped o sc) {name : Str}
    {as : List (Str × Str)} {n : Name} {l : List Attr} (h : TagSays (as ++ sc) name as n l) (hf : ¬ Full norm (between o r ev)) :
    tokStep norm (between o r ev) (.start name as) = some (between ((name, declared as) :: o) true (ev ++ [.start n l])) ∧
    tokStep norm (between o r ev) (.empty name as) = some (between o true (ev ++ [.start n l, .stop n])) := by
  have h1 := finishTag_of (s := between o r ev) hsc h hf
  simp only [tokStep, h1]
  exact ⟨rfl, rfl⟩

theorem tokStep_stop {o : List (Str × List Str)} {r : Bool} {ev : List XmlEvent} {name : Str} {n : Name} (h : QName name n) (ds : List Str) :
    tokStep norm (between ((name, ds) :: o) r ev) (.stop name) = some (between o r (ev ++ [.stop n])) := by
  have h1 : finishEnd (between ((name, ds) :: o) r ev) name = between o r (ev ++ [.stop n]) := by
    simp [finishEnd, between, splitName_iff.2 h]
  simp only [tokStep, h1]
  rfl

/-- A tree inside an element. -/
theorem tokRun_tree {sc : List (Str × Str)} {ts : List Tok} {f : Forest} (h : Tree sc ts f) (o : List (Str × List Str)) (ho : o ≠ [])
    (hsc : Scoped o sc) (ev : List XmlEvent) :
    tokRun norm (between o true ev) ts = some (between o true (ev ++ f.events)) := by
  have hfull : ∀ o ev, o ≠ [] → ¬ Full norm (between o true ev) := fun o ev ho h => ho h.1
  induction h generalizing o ev with
  | nil => simp [tokRun, Forest.events]
  | text _ ih =>
    have e : tokStep norm (between o true ev) .text = some (between o true (ev ++ [.other])) := if_neg ho
    simp only [tokRun, e, Option.bind_some, ih o ho hsc]
    simp [Forest.events]
  | space _ ih =>
    have e : tokStep norm (between o true ev) .space = some (between o true (ev ++ [.other])) := rfl
    simp only [tokRun, e, Option.bind_some, ih o ho hsc]
    simp [Forest.events]
  | empty ht _ ih =>
    simp only [tokRun, (tokStep_start hsc ht (hfull o ev ho)).2, Option.bind_some, ih o ho hsc]
    simp [Forest.events]
  | @elem sc name as n l ks k ts f ht _ _ ihk ih =>
    simp only [tokRun, (tokStep_start hsc ht (hfull o ev ho)).1, Option.bind_some, tokRun_append,
      ihk _ (List.cons_ne_nil _ _) (scoped_cons hsc name as), tokStep_stop ht.name, ih o ho hsc]
    simp [Forest.events]

/-- A whole document. -/
theorem tokRun_top {i : Nat} {ts : List Tok} {f : Forest} (h : Top i ts f) (r : Bool) (ev : List XmlEvent)
    (hr : i = 0 ∨ (i = 1 ∧ r = false) ∨ norm.manyRoots = true) :
    tokRun norm (between [] r ev) ts = some (between [] (r || decide (0 < i)) (ev ++ f.events)) := by
  have hfull : ∀ {j r ev}, (j + 1 = 0 ∨ (j + 1 = 1 ∧ r = false) ∨ norm.manyRoots = true) → ¬ Full norm (between [] r ev) := by
    rintro j r ev (h | h | h) ⟨_, h1, h2⟩
    · cases h
    · rw [show (between [] r ev).rooted = r from rfl, h.2] at h1; cases h1
    · rw [h] at h2; cases h2
  have hnext : ∀ {j} {r : Bool}, (j + 1 = 0 ∨ (j + 1 = 1 ∧ r = false) ∨ norm.manyRoots = true) →
      (j = 0 ∨ (j = 1 ∧ true = false) ∨ norm.manyRoots = true) := by
    rintro j r (h | h | h)
    · cases h
    · left; omega
    · exact .inr (.inr h)
  induction h generalizing r ev with
  | nil => simp [tokRun, Forest.events]
  | space _ ih =>
    have e : tokStep norm (between [] r ev) .space = some (between [] r (ev ++ [.other])) := rfl
    simp only [tokRun, e, Option.bind_some, ih r _ hr]
    simp [Forest.events]
  | empty ht _ ih =>
    simp only [tokRun, (tokStep_start scoped_nil (by simpa using ht) (hfull hr)).2, Option.bind_some, ih true _ (hnext hr)]
    simp [Forest.events]
  | @elem i name as n l ks k ts f ht hk _ ih =>
    have hs := scoped_cons scoped_nil name as
    rw [List.append_nil] at hs
    simp only [tokRun, (tokStep_start scoped_nil (by simpa using ht) (hfull hr)).1, Option.bind_some, tokRun_append,
      tokRun_tree hk _ (List.cons_ne_nil _ _) hs, tokStep_stop ht.name, ih true _ (hnext hr)]
    simp [Forest.events]

/-! ### The converse -/

theorem tokStep_inv {o : List (Str × List Str)} {r : Bool} {ev : List XmlEvent} {sc : List (Str × Str)} (hsc : Scoped o sc) {x : Tok}
    {z : PState} (h : tokStep norm (between o r ev) x = some z) :
    (x = .text ∧ o ≠ [] ∧ z = between o r (ev ++ [.other])) ∨ (x = .space ∧ z = between o r (ev ++ [.other])) ∨
    (∃ name as n l, x = .start name as ∧ TagSays (as ++ sc) name as n l ∧ ¬ Full norm (between o r ev) ∧
      z = between ((name, declared as) :: o) true (ev ++ [.start n l])) ∨
    (∃ name as n l, x = .empty name as ∧ TagSays (as ++ sc) name as n l ∧ ¬ Full norm (between o r ev) ∧
      z = between o true (ev ++ [.start n l, .stop n])) ∨
    ∃ name ds o' q, x = .stop name ∧ o = (name, ds) :: o' ∧ QName name q ∧ z = between o' r (ev ++ [.stop q]) := by
  cases x with
  | text =>
    simp only [tokStep] at h
    split at h
    · cases h
    · rename_i ho; cases h; exact .inl ⟨rfl, ho, rfl⟩
  | space => cases h; exact .inr (.inl ⟨rfl, rfl⟩)
  | start name as =>
    simp only [tokStep] at h
    split at h
    · cases h
    · rename_i hf
      obtain ⟨g1, n, l, g2, g3⟩ := finishTag_says (s := between o r ev) hsc hf
      rw [g3] at h
      cases h
      exact .inr (.inr (.inl ⟨name, as, n, l, rfl, g2, g1, rfl⟩))
  | empty name as =>
    simp only [tokStep] at h
    split at h
    · cases h
    · rename_i hf
      obtain ⟨g1, n, l, g2, g3⟩ := finishTag_says (s := between o r ev) hsc hf
      rw [g3] at h
      cases h
      exact .inr (.inr (.inr (.inl ⟨name, as, n, l, rfl, g2, g1, rfl⟩)))
  | stop name =>
    simp only [tokStep] at h
    split at h
    · cases h
    · rename_i hf
      right; right; right; right
      cases o with
      | nil => exact absurd rfl hf
      | cons y o' =>
        obtain ⟨m, ds⟩ := y
        simp only [finishEnd, between] at hf h
        split at hf
        · rename_i hm
          subst hm
          rw [if_pos rfl] at h
          cases hs : splitName m with
          | none => rw [hs] at hf; exact absurd rfl hf
          | some q =>
            rw [hs] at h
            cases h
            exact ⟨m, ds, o', q, rfl, rfl, splitName_iff.1 hs, rfl⟩
        · exact absurd rfl hf

/-- The rest of an element that is closed in the end. -/
theorem tree_of_tokRun (N : Nat) : ∀ {ts : List Tok}, ts.length ≤ N → ∀ {sc : List (Str × Str)} {name : Str} {ds : List Str}
    {o : List (Str × List Str)} {ev : List XmlEvent} {z : PState}, Scoped ((name, ds) :: o) sc →
    tokRun norm (between ((name, ds) :: o) true ev) ts = some z → z.opened = [] →
    ∃ ks k ts' q, ts = ks ++ .stop name :: ts' ∧ Tree sc ks k ∧ QName name q ∧
      tokRun norm (between o true (ev ++ k.events ++ [.stop q])) ts' = some z := by
  induction N with
  | zero =>
    intro ts hl sc name ds o ev z hsc h hz
    obtain rfl := List.eq_nil_of_length_eq_zero (Nat.le_zero.1 hl)
    cases h; cases hz
  | succ N ih =>
    intro ts hl sc name ds o ev z hsc h hz
    cases ts with
    | nil => cases h; cases hz
    | cons x ts =>
      simp only [List.length_cons] at hl
      simp only [tokRun, Option.bind_eq_some_iff] at h
      obtain ⟨s, hs, h⟩ := h
      rcases tokStep_inv hsc hs with ⟨rfl, _, rfl⟩ | ⟨rfl, rfl⟩ | ⟨nm, as, n, l, rfl, ht, _, rfl⟩ | ⟨nm, as, n, l, rfl, ht, _, rfl⟩ |
          ⟨nm, ds', o', q, rfl, e, hq, rfl⟩
      · obtain ⟨ks, k, ts', q, rfl, h1, h2, h3⟩ := ih (by omega) hsc h hz
        exact ⟨_, _, ts', q, rfl, .text h1, h2, by simpa [Forest.events] using h3⟩
      · obtain ⟨ks, k, ts', q, rfl, h1, h2, h3⟩ := ih (by omega) hsc h hz
        exact ⟨_, _, ts', q, rfl, .space h1, h2, by simpa [Forest.events] using h3⟩
      · obtain ⟨ks1, k1, ts1, q1, rfl, g1, g2, g3⟩ := ih (by omega) (scoped_cons hsc nm as) h hz
        have : q1 = n := by
          have e1 := splitName_iff.2 g2
          rw [splitName_iff.2 ht.name] at e1
          exact (Option.some.inj e1).symm
        subst this
        obtain ⟨ks, k, ts', q, rfl, h1, h2, h3⟩ := ih (by simp at hl; omega) hsc g3 hz
        exact ⟨.start nm as :: (ks1 ++ .stop nm :: ks), _, ts', q, by simp, .elem ht g1 h1, h2, by simpa [Forest.events] using h3⟩
      · obtain ⟨ks, k, ts', q, rfl, h1, h2, h3⟩ := ih (by omega) hsc h hz
        exact ⟨_, _, ts', q, rfl, .empty ht h1, h2, by simpa [Forest.events] using h3⟩
      · cases e
        exact ⟨[], .nil, ts, q, rfl, .nil, hq, by simpa [Forest.events] using h⟩

theorem top_of_tokRun (N : Nat) : ∀ {ts : List Tok}, ts.length ≤ N → ∀ {r : Bool} {ev : List XmlEvent} {z : PState},
    tokRun norm (between [] r ev) ts = some z → z.opened = [] →
    ∃ i f, Top i ts f ∧ z = between [] (r || decide (0 < i)) (ev ++ f.events) ∧
      (i = 0 ∨ (i = 1 ∧ r = false) ∨ norm.manyRoots = true) := by
  have hroot : ∀ {r : Bool} {ev}, ¬ Full norm (between [] r ev) → r = false ∨ norm.manyRoots = true := by
    intro r ev h
    by_contra hc
    rw [not_or] at hc
    exact h ⟨rfl, Bool.eq_true_of_not_eq_false hc.1, Bool.eq_false_of_not_eq_true hc.2⟩
  have hnum : ∀ {i : Nat} {r : Bool}, (i = 0 ∨ (i = 1 ∧ true = false) ∨ norm.manyRoots = true) → (r = false ∨ norm.manyRoots = true) →
      (i + 1 = 0 ∨ (i + 1 = 1 ∧ r = false) ∨ norm.manyRoots = true) := by
    rintro i r (h | h | h) (h' | h')
    all_goals first | exact .inr (.inr h) | exact .inr (.inr h') | exact absurd h.2 (by simp) | skip
    exact .inr (.inl ⟨by omega, h'⟩)
  induction N with
  | zero =>
    intro ts hl r ev z h hz
    obtain rfl := List.eq_nil_of_length_eq_zero (Nat.le_zero.1 hl)
    cases h
    exact ⟨0, .nil, .nil, by simp [Forest.events], .inl rfl⟩
  | succ N ih =>
    intro ts hl r ev z h hz
    cases ts with
    | nil =>
      cases h
      exact ⟨0, .nil, .nil, by simp [Forest.events], .inl rfl⟩
    | cons x ts =>
      simp only [List.length_cons] at hl
      simp only [tokRun, Option.bind_eq_some_iff] at h
      obtain ⟨s, hs, h⟩ := h
      rcases tokStep_inv scoped_nil hs with ⟨rfl, ho, rfl⟩ | ⟨rfl, rfl⟩ | ⟨nm, as, n, l, rfl, ht, hf, rfl⟩ | ⟨nm, as, n, l, rfl, ht, hf, rfl⟩ |
          ⟨nm, ds', o', q, rfl, e, hq, rfl⟩
      · exact absurd rfl ho
      · obtain ⟨i, f, h1, rfl, h3⟩ := ih (by omega) h hz
        exact ⟨i, _, .space h1, by simp [Forest.events], h3⟩
      · obtain ⟨ks1, k1, ts1, q1, rfl, g1, g2, g3⟩ := tree_of_tokRun _ (Nat.le_refl _) (scoped_cons scoped_nil nm as) h hz
        have : q1 = n := by
          have e1 := splitName_iff.2 g2
          rw [splitName_iff.2 ht.name] at e1
          exact (Option.some.inj e1).symm
        subst this
        obtain ⟨i, f, h1, rfl, h3⟩ := ih (by simp at hl; omega) g3 hz
        rw [List.append_nil] at ht g1
        exact ⟨i + 1, _, .elem ht g1 h1, by simp [Forest.events], hnum h3 (hroot hf)⟩
      · obtain ⟨i, f, h1, rfl, h3⟩ := ih (by omega) h hz
        rw [List.append_nil] at ht
        exact ⟨i + 1, _, .empty ht h1, by simp [Forest.events], hnum h3 (hroot hf)⟩
      · cases e

end Osmio.Spec.Gram
