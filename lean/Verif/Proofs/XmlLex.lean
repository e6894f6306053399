import Verif.Proofs.XmlValue
import Verif.Spec.XmlLex
import Verif.Proofs.XmlParse
/-! # Lemmas: the parser of xml-rs on documents given by the grammar -/

namespace Osmio.Spec.Lex
open Xml

/-! ## Nesting as a stack machine -/

/-- The open elements after some parts; `none` if the parts cannot stand here. The flag says that there has been a root. -/
def nest : List Str → Bool → List Tok → Option (List Str × Bool)
  | st, r, [] => some (st, r)
  | st, r, .start n _ :: ts => if st = [] ∧ r = true then none else nest (n :: st) true ts
  | st, r, .empty _ _ :: ts => if st = [] ∧ r = true then none else nest st true ts
  | n' :: st, r, .stop n :: ts => if n = n' then nest st r ts else none
  | [], _, .stop _ :: _ => none
  | st, r, .text :: ts => if st = [] then none else nest st r ts
  | st, r, .space :: ts => nest st r ts

/-- The events of the parts. -/
def tokEvents : List Tok → List XmlEvent
  | [] => []
  | .start n as :: ts => .start ⟨none, n⟩ (as.map SrcAttr.attr) :: tokEvents ts
  | .empty n as :: ts => .start ⟨none, n⟩ (as.map SrcAttr.attr) :: .stop ⟨none, n⟩ :: tokEvents ts
  | .stop n :: ts => .stop ⟨none, n⟩ :: tokEvents ts
  | .text :: ts => .other :: tokEvents ts
  | .space :: ts => .other :: tokEvents ts

theorem tokEvents_append (a b : List Tok) : tokEvents (a ++ b) = tokEvents a ++ tokEvents b := by
  induction a with
  | nil => rfl
  | cons x a ih => cases x <;> simp [tokEvents, ih]

theorem tree_events {ts : List Tok} {f : Forest} (h : Tree ts f) : tokEvents ts = f.events := by
  induction h with
  | nil => rfl
  | text _ ih => simp [tokEvents, Forest.events, ih]
  | space _ ih => simp [tokEvents, Forest.events, ih]
  | empty _ ih => simp [tokEvents, Forest.events, ih]
  | elem _ _ ihk ih => simp [tokEvents, tokEvents_append, Forest.events, ihk, ih]

theorem nest_append (a b : List Tok) (st : List Str) (r : Bool) :
    nest st r (a ++ b) = (nest st r a).bind fun p => nest p.1 p.2 b := by
  induction a generalizing st r with
  | nil => simp [nest]
  | cons x a ih =>
    cases x with
    | start n as => simp only [List.cons_append, nest]; split <;> simp [ih]
    | empty n as => simp only [List.cons_append, nest]; split <;> simp [ih]
    | stop n =>
      cases st with
      | nil => simp [nest]
      | cons m st => simp only [List.cons_append, nest]; split <;> simp [ih]
    | text => simp only [List.cons_append, nest]; split <;> simp [ih]
    | space => simp only [List.cons_append, nest]; exact ih _ _

/-- Inside an element. -/
theorem nest_tree {ts : List Tok} {f : Forest} (h : Tree ts f) (st : List Str) (hs : st ≠ []) :
    nest st true ts = some (st, true) := by
  induction h generalizing st with
  | nil => rfl
  | text _ ih => simp [nest, hs, ih st hs]
  | space _ ih => simp [nest, ih st hs]
  | empty _ ih => simp [nest, hs, ih st hs]
  | elem _ _ ihk ih =>
    simp only [nest, hs, false_and, if_false, nest_append, ihk _ (List.cons_ne_nil _ _), Option.bind_some, if_true]
    exact ih st hs

theorem nest_spaces {ts : List Tok} (h : ∀ x ∈ ts, x = .space) (st : List Str) (r : Bool) :
    nest st r ts = some (st, r) := by
  induction ts with
  | nil => rfl
  | cons x ts ih =>
    rw [h x (by simp)]
    exact ih fun y hy => h y (by simp [hy])

/-- A document is nested properly and has one root. -/
theorem nest_body {t : Str} {ts : List Tok} {f : Forest} (h : Body t ts f) : nest [] false ts = some ([], true) := by
  cases h with
  | mk _ hb ha hr hk =>
    rw [nest_append, nest_spaces hb]
    simp only [Option.bind_some]
    rw [nest_append]
    rcases hr with rfl | rfl
    · simp [nest, nest_spaces ha]
    · simp [nest, nest_append, nest_tree hk _ (List.cons_ne_nil _ _), nest_spaces ha]

theorem tree_body {t : Str} {ts : List Tok} {f : Forest} (h : Body t ts f) : Tree ts f := by
  cases h with
  | mk _ _ _ _ _ h => exact h

/-! ## The automaton -/

variable {norm : Xml.Config}

/-- A parser state in which no element declares a prefix. -/
def mkState (m : Mode) (st : List Str) (r : Bool) (evs : List XmlEvent) : PState := ⟨m, st.map fun n => (n, []), r, evs⟩

theorem ws_isWs {s : Str} (h : Ws s) : ∀ c ∈ s, isWs c = true := by
  intro c hc
  rcases h c hc with rfl | rfl | rfl | rfl <;> rfl

theorem isName_iff {s : Str} : IsName s ↔
    ∃ c r, s = c :: r ∧ isNameStart c = true ∧ c ≠ ':' ∧ ∀ d ∈ r, isNameChar d = true ∧ d ≠ ':' := by
  simp only [IsName, isNameStart_iff, isNameChar_iff]

theorem xmlChars_iff {s : Str} : XmlChars s ↔ ∀ c ∈ s, isXmlChar c = true := by
  simp only [XmlChars, isXmlChar_iff]

theorem digit_name {base : Nat} {c : Char} {d : Nat} (h : digit base c = some d) : isNameChar c = true := by
  have h1 : (48 ≤ c.toNat ∧ c.toNat ≤ 57) ∨ (97 ≤ c.toNat ∧ c.toNat ≤ 102) ∨ (65 ≤ c.toNat ∧ c.toNat ≤ 70) := by
    unfold digit at h
    simp only at h
    split at h
    · left; assumption
    · split at h
      · right; left; rename_i h2; exact h2.2
      · split at h
        · right; right; rename_i h2; exact h2.2
        · cases h
  unfold isNameChar isNameStart
  rcases h1 with ⟨h1, h2⟩ | ⟨h1, h2⟩ | ⟨h1, h2⟩ <;> simp [inRanges] <;> omega

theorem number_snoc (base : Nat) (s : Str) (acc n d : Nat) (c : Char) (h : number base acc s = some n)
    (hd : digit base c = some d) : number base acc (s ++ [c]) = some (base * n + d) := by
  induction s generalizing acc with
  | nil => simp only [number, Option.some.injEq] at h; subst h; simp [number, hd]
  | cons x s ih =>
    simp only [List.cons_append, number] at h ⊢
    cases hx : digit base x with
    | none => rw [hx] at h; cases h
    | some y => rw [hx] at h; exact ih _ h

theorem number_of {base : Nat} (hb : base = 10 ∨ base = 16) {s : Str} {n : Nat} (h : Spec.Value.Number base s n) :
    number base 0 s = some n ∧ s ≠ [] ∧ (∀ c ∈ s, isNameChar c = true) ∧
      ∃ c r d, s = c :: r ∧ digit base c = some d := by
  induction h with
  | @digit c d hd =>
    replace hd : digit base c = some d := (QuickXml.digit_iff hb).2 hd
    exact ⟨by simp [number, hd], by simp, by simpa using digit_name hd, c, [], d, rfl, hd⟩
  | @more s n c d _ hd ih =>
    replace hd : digit base c = some d := (QuickXml.digit_iff hb).2 hd
    obtain ⟨h1, h2, h3, x, r, y, h4, h5⟩ := ih
    refine ⟨number_snoc base s 0 n d c h1 hd, by simp, ?_, x, r ++ [c], y, by simp [h4], h5⟩
    intro z hz
    rcases List.mem_append.1 hz with hz | hz
    · exact h3 z hz
    · rw [List.mem_singleton.1 hz]; exact digit_name hd

/-- References have the form the parser expects. -/
theorem reference_cases {r : Str} {c : Char} (h : Reference r c) :
    ∃ e, r = '&' :: (e ++ [';']) ∧ (∀ x ∈ e, (isNameChar x || x == '#') = true) ∧ Xml.resolve e = some c := by
  have href : ∀ {c : Char}, Spec.XmlChar c → charRef (some c.toNat) = some c := by
    intro c hc
    replace hc := (isXmlChar_iff c).2 hc
    have h1 : c.toNat.isValidChar := c.valid
    simp [charRef, h1, Char.ofNat_toNat, hc]
  cases h with
  | @entity name c h =>
    refine ⟨name, rfl, ?_⟩
    simp only [predefined, List.mem_cons, Prod.mk.injEq, List.not_mem_nil, or_false] at h
    rcases h with ⟨rfl, rfl⟩ | ⟨rfl, rfl⟩ | ⟨rfl, rfl⟩ | ⟨rfl, rfl⟩ | ⟨rfl, rfl⟩ <;>
      exact ⟨by decide +kernel, rfl⟩
  | @dec s c h hc =>
    obtain ⟨h1, h2, h3, x, y, d, rfl, h5⟩ := number_of (.inl rfl) h
    refine ⟨'#' :: x :: y, rfl, ?_, ?_⟩
    · intro z hz
      rcases List.mem_cons.1 hz with rfl | hz
      · rfl
      · simp [h3 z hz]
    · have hx : x ≠ 'x' := by
        rintro rfl
        have : digit 10 'x' = none := by decide
        rw [this] at h5; cases h5
      unfold Xml.resolve
      rw [if_neg (by simp), if_neg (by simp), if_neg (by simp), if_neg (by simp), if_neg (by simp)]
      split
      · rename_i heq; simp only [List.cons.injEq, true_and] at heq; exact absurd heq.1 hx
      · rename_i heq; cases heq; rw [h1]; exact href hc
      · rename_i hne; exact absurd rfl (hne x y)
  | @hex s c h hc =>
    obtain ⟨h1, h2, h3, x, y, d, rfl, h5⟩ := number_of (.inr rfl) h
    refine ⟨'#' :: 'x' :: x :: y, rfl, ?_, ?_⟩
    · intro z hz
      rcases List.mem_cons.1 hz with rfl | hz
      · rfl
      · rcases List.mem_cons.1 hz with rfl | hz
        · decide +kernel
        · simp [h3 z hz]
    · unfold Xml.resolve
      rw [if_neg (by simp), if_neg (by simp), if_neg (by simp), if_neg (by simp), if_neg (by simp)]
      show charRef (number 16 0 (x :: y)) = some c
      rw [h1]; exact href hc

theorem run_attrEnt (s : PState) (n : Str) (as : List (Str × Str)) (k : Str) (q : Char) (v e0 e : Str)
    (h : ∀ x ∈ e, (isNameChar x || x == '#') = true) (hs : s.mode = .attrEnt n as k q v e0) :
    run norm s e = s.goto (.attrEnt n as k q v (e0 ++ e)) := by
  induction e generalizing s e0 with
  | nil => cases s; simp_all [run, PState.goto]
  | cons x e ih =>
    have hx := h x (by simp)
    have hne : x ≠ ';' := by rintro rfl; revert hx; decide +kernel
    have h1 : Xml.step norm s x = s.goto (.attrEnt n as k q v (e0 ++ [x])) := by
      simp only [Xml.step, hs, stepAttrEnt, if_neg hne, hx, if_true]
    rw [run_cons, h1, ih _ (e0 ++ [x]) (fun y hy => h y (by simp [hy])) rfl]
    simp [PState.goto]

theorem run_value {q : Char} (hq : q = '"' ∨ q = '\'') (hn : IsNorm norm) {src v : Str} (h : Quoted q src v) (s : PState) (n : Str)
    (as : List (Str × Str)) (k acc : Str) (hs : s.mode = .attrVal n as k q acc) :
    run norm s src = s.goto (.attrVal n as k q (acc ++ v)) := by
  induction h generalizing s acc with
  | nil => cases s; simp_all [run, PState.goto]
  | @plain c src v h1 h2 h3 h4 h5 h6 h7 _ ih =>
    replace h1 := (isXmlChar_iff c).2 h1
    have e : Xml.step norm s c = s.goto (.attrVal n as k q (acc ++ [c])) := by
      simp only [Xml.step, hs, stepAttrVal, if_neg h4, if_neg h2, if_neg h3, h1, if_true, hn c h5 h6 h7]
    rw [run_cons, e, ih _ (acc ++ [c]) rfl]
    simp [PState.goto]
  | @ref r c src v hr _ ih =>
    obtain ⟨e, rfl, he, hres⟩ := reference_cases hr
    have h1 : Xml.step norm s '&' = s.goto (.attrEnt n as k q acc []) := by
      have hne : ('&' : Char) ≠ q := by rcases hq with rfl | rfl <;> decide
      simp only [Xml.step, hs, stepAttrVal, if_neg hne]
      rfl
    have h2 : ∀ s' : PState, s'.mode = .attrEnt n as k q acc e → Xml.step norm s' ';' = s'.goto (.attrVal n as k q (acc ++ [c])) := by
      intro s' hs'
      simp only [Xml.step, hs', stepAttrEnt, if_true, hres]
    rw [run_append, run_cons, run_append, h1, run_attrEnt _ n as k q acc [] e he rfl, run_cons, run_nil, h2 _ rfl,
      ih _ (acc ++ [c]) rfl]
    simp [PState.goto]

theorem run_inTag_ws {s : PState} {n : Str} {as : List (Str × Str)} {w : Str} (hw : Ws w) (hs : s.mode = .inTag n as) :
    run norm s w = s.goto (.inTag n as) := by
  induction w generalizing s with
  | nil => cases s; simp_all [run, PState.goto]
  | cons c w ih =>
    have e : Xml.step norm s c = s.goto (.inTag n as) := by
      simp only [Xml.step, hs, stepInTag, ws_isWs hw c (by simp), if_true]
    rw [run_cons, e, ih (fun x hx => hw x (by simp [hx])) rfl]
    rfl

theorem run_attrEq_ws {s : PState} {n : Str} {as : List (Str × Str)} {k w : Str} (hw : Ws w) (hs : s.mode = .attrEq n as k) :
    run norm s w = s.goto (.attrEq n as k) := by
  induction w generalizing s with
  | nil => cases s; simp_all [run, PState.goto]
  | cons c w ih =>
    have e : Xml.step norm s c = s.goto (.attrEq n as k) := by
      simp only [Xml.step, hs, stepAttrEq, ws_isWs hw c (by simp), if_true]
    rw [run_cons, e, ih (fun x hx => hw x (by simp [hx])) rfl]
    rfl

theorem run_attrPre_ws {s : PState} {n : Str} {as : List (Str × Str)} {k w : Str} (hw : Ws w) (hs : s.mode = .attrPre n as k) :
    run norm s w = s.goto (.attrPre n as k) := by
  induction w generalizing s with
  | nil => cases s; simp_all [run, PState.goto]
  | cons c w ih =>
    have e : Xml.step norm s c = s.goto (.attrPre n as k) := by
      simp only [Xml.step, hs, stepAttrPre, ws_isWs hw c (by simp), if_true]
    rw [run_cons, e, ih (fun x hx => hw x (by simp [hx])) rfl]
    rfl

theorem run_endWs_ws {s : PState} {n : Str} {w : Str} (hw : Ws w) (hs : s.mode = .endWs n) : run norm s w = s := by
  induction w generalizing s with
  | nil => rfl
  | cons c w ih =>
    have e : Xml.step norm s c = s := by
      simp only [Xml.step, hs, ws_isWs hw c (by simp), if_true]
    rw [run_cons, e, ih (fun x hx => hw x (by simp [hx])) hs]

/-- In a tag, where attributes may begin. -/
def InTag (m : Mode) (n : Str) (as : List (Str × Str)) : Prop :=
  (m = .tagName n ∧ as = []) ∨ m = .attrDone n as ∨ m = .inTag n as

theorem ws_not_name {c : Char} (h : isWs c = true) : isNameChar c = false := by
  simp only [isWs, Bool.or_eq_true, beq_iff_eq] at h
  rcases h with ((rfl | rfl) | rfl) | rfl <;> decide +kernel

theorem step_inTag_ws {s : PState} {n : Str} {as : List (Str × Str)} (hs : InTag s.mode n as) {c : Char} (hc : isWs c = true) :
    Xml.step norm s c = s.goto (.inTag n as) := by
  rcases hs with ⟨hs, rfl⟩ | hs | hs
  · simp only [Xml.step, hs, stepTagName, ws_not_name hc, hc, if_true, Bool.false_eq_true, if_false]
  · simp only [Xml.step, hs, stepAttrDone, hc, if_true]
  · simp only [Xml.step, hs, stepInTag, hc, if_true]

theorem run_ws {s : PState} {n : Str} {as : List (Str × Str)} (hs : InTag s.mode n as) {w : Str} (hw : Ws w) :
    ∃ m, InTag m n as ∧ run norm s w = s.goto m := by
  cases w with
  | nil => exact ⟨s.mode, hs, by cases s; rfl⟩
  | cons c w =>
    refine ⟨.inTag n as, .inr (.inr rfl), ?_⟩
    rw [run_cons, step_inTag_ws hs (ws_isWs hw c (by simp)), run_inTag_ws (fun x hx => hw x (by simp [hx])) rfl]
    rfl

theorem run_attrName' {s : PState} {n : Str} {as : List (Str × Str)} {k t : Str} (ht : ∀ c ∈ t, isNameChar c = true)
    (hs : s.mode = .attrName n as k) : run norm s t = s.goto (.attrName n as (k ++ t)) := by
  obtain ⟨m, op, r, evs⟩ := s
  cases hs
  exact run_attrName op r evs n as k t ht

theorem run_attrs' (hn : IsNorm norm) {t : Str} {as : List SrcAttr} (h : Attrs t as) (s : PState) (n : Str) (pre : List (Str × Str))
    (hs : InTag s.mode n pre) :
    ∃ m, InTag m n (pre ++ as.map fun a => (a.key, a.value)) ∧ run norm s t = s.goto m := by
  induction h generalizing s pre with
  | nil => exact ⟨s.mode, by simpa using hs, by cases s; rfl⟩
  | @cons w key w1 w2 q src value t as hw0 hw hkey hx hw1 hw2 hq hv _ ih =>
    obtain ⟨c, r, rfl, hc, _, hr⟩ := isName_iff.1 hkey
    -- white space
    have e1 : run norm s w = s.goto (.inTag n pre) := by
      cases w with
      | nil => exact absurd rfl hw0
      | cons x w =>
        rw [run_cons, step_inTag_ws hs (ws_isWs hw x (by simp)), run_inTag_ws (fun y hy => hw y (by simp [hy])) rfl]
        rfl
    -- name
    have e2 : Xml.step norm (s.goto (.inTag n pre)) c = s.goto (.attrName n pre [c]) := by
      simp only [Xml.step, PState.goto, stepInTag, nameStart_not_ws hc, hc, if_true, Bool.false_eq_true, if_false]
    have e3 : run norm (s.goto (.attrName n pre [c])) r = s.goto (.attrName n pre (c :: r)) := by
      rw [run_attrName' (fun x hx => (hr x hx).1) rfl]; rfl
    -- equals sign
    have e4 : run norm (s.goto (.attrName n pre (c :: r))) (w1 ++ ['=']) = s.goto (.attrPre n pre (c :: r)) := by
      have heq : isNameChar '=' = false := by decide +kernel
      have hws : isWs '=' = false := by decide
      cases w1 with
      | nil =>
        rw [List.nil_append, run_cons, run_nil]
        simp only [Xml.step, PState.goto, stepAttrName, heq, Bool.false_eq_true, if_false, if_true]
      | cons x w1 =>
        have hx := ws_isWs hw1 x (by simp)
        have hne : x ≠ '=' := by rintro rfl; rw [hws] at hx; cases hx
        have : Xml.step norm (s.goto (.attrName n pre (c :: r))) x = s.goto (.attrEq n pre (c :: r)) := by
          simp only [Xml.step, PState.goto, stepAttrName, ws_not_name hx, hx, if_neg hne, if_true, Bool.false_eq_true, if_false]
        rw [List.cons_append, run_cons, this, run_append, run_attrEq_ws (fun y hy => hw1 y (List.mem_cons_of_mem _ hy)) rfl, run_cons, run_nil]
        simp only [Xml.step, PState.goto, stepAttrEq, hws, Bool.false_eq_true, if_false, if_true]
    -- value
    have e5 : run norm (s.goto (.attrPre n pre (c :: r))) (w2 ++ [q]) = s.goto (.attrVal n pre (c :: r) q []) := by
      rw [run_append, run_attrPre_ws hw2 rfl, run_cons, run_nil]
      have : isWs q = false := by rcases hq with rfl | rfl <;> rfl
      simp only [Xml.step, PState.goto, stepAttrPre, this, Bool.false_eq_true, if_false, if_pos hq]
    have e6 : run norm (s.goto (.attrVal n pre (c :: r) q [])) (src ++ [q]) = s.goto (.attrDone n (pre ++ [(c :: r, value)])) := by
      rw [run_append, run_value hq hn hv _ n pre (c :: r) [] rfl, run_cons, run_nil]
      simp only [Xml.step, PState.goto, stepAttrVal, if_true, List.nil_append]
    obtain ⟨m, hm, e7⟩ := ih (s.goto (.attrDone n (pre ++ [(c :: r, value)]))) (pre ++ [(c :: r, value)]) (.inr (.inl rfl))
    refine ⟨m, by simpa using hm, ?_⟩
    have e : w ++ ((c :: r) ++ (w1 ++ '=' :: (w2 ++ q :: (src ++ q :: t)))) =
        w ++ (c :: (r ++ ((w1 ++ ['=']) ++ ((w2 ++ [q]) ++ ((src ++ [q]) ++ t))))) := by simp
    rw [e, run_append, e1, run_cons, e2, run_append, e3, run_append, e4, run_append, e5, run_append, e6, e7]
    rfl

theorem attrs_keys {t : Str} {as : List SrcAttr} (h : Attrs t as) :
    ∀ a ∈ as, IsName a.key ∧ a.key ≠ str% "xmlns" := by
  induction h with
  | nil => simp
  | cons _ _ h1 h2 _ _ _ _ _ ih =>
    intro a ha
    rcases List.mem_cons.1 ha with rfl | ha
    · exact ⟨h1, h2⟩
    · exact ih a ha

theorem isName_colon {n : Str} (h : IsName n) : ':' ∉ n ∧ n ≠ [] := by
  obtain ⟨c, r, rfl, _, h2, h3⟩ := h
  refine ⟨?_, by simp⟩
  intro hc
  rcases List.mem_cons.1 hc with hc | hc
  · exact h2 hc.symm
  · exact (h3 _ hc).2 rfl

theorem isKey_of_isName {k : Str} (h : IsName k) (hx : k ≠ str% "xmlns") : IsKey k := by
  have h0 := isName_colon h
  obtain ⟨c, r, rfl, h1, h2, h3⟩ := h
  exact ⟨c, r, rfl, h1, fun x hx => (h3 x hx).1, h0.1, hx⟩

theorem splitName_isName {n : Str} (h : IsName n) : splitName n = some ⟨none, n⟩ := by
  obtain ⟨h1, h2⟩ := isName_colon h
  unfold splitName
  rw [span_no_colon h1]
  cases n with
  | nil => exact absurd rfl h2
  | cons c r => rfl

theorem finishTag_names {t n : Str} {as : List SrcAttr} (m : Mode) (st : List Str) (r : Bool)
    (evs : List XmlEvent) (hn : IsName n) (ha : Attrs t as) (hd : (as.map SrcAttr.key).Nodup)
    (ho : ¬ (st = [] ∧ r = true)) (e : Bool) :
    finishTag norm (mkState m st r evs) n (as.map fun a => (a.key, a.value)) e =
      mkState (.text false) (if e then st else n :: st) true
        (evs ++ (if e then [.start ⟨none, n⟩ (as.map SrcAttr.attr), .stop ⟨none, n⟩] else [.start ⟨none, n⟩ (as.map SrcAttr.attr)])) := by
  have hk : ∀ x ∈ as.map (fun a => (a.key, a.value)), IsKey x.1 := by
    intro x hx
    obtain ⟨a, ha', rfl⟩ := List.mem_map.1 hx
    exact isKey_of_isName (attrs_keys ha a ha').1 (attrs_keys ha a ha').2
  have hd' : ((as.map fun a => (a.key, a.value)).map Prod.fst).Nodup := by simpa [List.map_map, Function.comp_def] using hd
  have hc : ¬ ((st.map (fun n => (n, ([] : List Str))) = [] ∧ r = true ∧ norm.manyRoots = false) ∨
      ¬ ((as.map fun a => (a.key, a.value)).map Prod.fst).Nodup ∨
      (none : Option Str) = some (str% "xml") ∨ (none : Option Str) = some (str% "xmlns") ∨
      (as.map fun a => (a.key, a.value)).all declareOk = false) := by
    rintro (⟨h1, h2, _⟩ | h1 | h1 | h1 | h1)
    · exact ho ⟨List.map_eq_nil_iff.1 h1, h2⟩
    · exact h1 hd'
    · cases h1
    · cases h1
    · rw [declareOk_keys hk] at h1; cases h1
  have hm : (as.map fun a => (a.key, a.value)).map attrOf = as.map SrcAttr.attr := by
    simp [List.map_map, Function.comp_def, attrOf, SrcAttr.attr]
  unfold finishTag mkState
  simp only [declared_keys hk, mkAttrs_keys _ _ hk, mkName, splitName_isName hn, nameOk, if_true, if_neg hc, hm]
  cases e <;> rfl

theorem run_tagName {s : PState} {n r : Str} (hr : ∀ c ∈ r, isNameChar c = true) (hs : s.mode = .tagName n) :
    run norm s r = s.goto (.tagName (n ++ r)) := by
  induction r generalizing s n with
  | nil => cases s; simp_all [run, PState.goto]
  | cons c r ih =>
    have e : Xml.step norm s c = s.goto (.tagName (n ++ [c])) := by
      simp only [Xml.step, hs, stepTagName, hr c (by simp), if_true]
    rw [run_cons, e, ih (fun x hx => hr x (by simp [hx])) rfl]
    simp [PState.goto]

theorem run_endName {s : PState} {n r : Str} (hr : ∀ c ∈ r, isNameChar c = true) (hs : s.mode = .endName n) :
    run norm s r = s.goto (.endName (n ++ r)) := by
  induction r generalizing s n with
  | nil => cases s; simp_all [run, PState.goto]
  | cons c r ih =>
    have e : Xml.step norm s c = s.goto (.endName (n ++ [c])) := by
      simp only [Xml.step, hs, stepEndName, hr c (by simp), if_true]
    rw [run_cons, e, ih (fun x hx => hr x (by simp [hx])) rfl]
    simp [PState.goto]

theorem isName_chars {n : Str} (h : IsName n) : ∀ c ∈ n, isNameChar c = true := by
  obtain ⟨c, r, rfl, h1, _, h3⟩ := h
  intro x hx
  rcases List.mem_cons.1 hx with rfl | hx
  · simp [isNameChar, (isNameStart_iff _).2 h1]
  · exact (isNameChar_iff _).2 (h3 x hx).1

/-- The pending text as an event. -/
def pend (p : Bool) : List XmlEvent := if p then [.other] else []

theorem step_lt (p : Bool) (st : List Str) (r : Bool) (evs : List XmlEvent) :
    Xml.step norm (mkState (.text p) st r evs) '<' = mkState .lt st r (evs ++ pend p) := by
  cases p <;> simp [Xml.step, mkState, stepText, flush, PState.goto, pend]

/-- A start tag up to the place where it ends. -/
theorem run_tag (hn : IsNorm norm) {n a w : Str} {as : List SrcAttr} (h1 : IsName n) (h2 : Attrs a as) (hw : Ws w) (p : Bool)
    (st : List Str) (r : Bool) (evs : List XmlEvent) :
    ∃ m, InTag m n (as.map fun a => (a.key, a.value)) ∧
      run norm (mkState (.text p) st r evs) ('<' :: (n ++ (a ++ w))) = mkState m st r (evs ++ pend p) := by
  have hch := isName_chars h1
  obtain ⟨c, t, rfl, hc, _, ht⟩ := isName_iff.1 h1
  have e1 : Xml.step norm (mkState .lt st r (evs ++ pend p)) c = mkState (.tagName [c]) st r (evs ++ pend p) := by
    have a1 : c ≠ '/' := by rintro rfl; revert hc; decide +kernel
    have a2 : c ≠ '!' := by rintro rfl; revert hc; decide +kernel
    have a3 : c ≠ '?' := by rintro rfl; revert hc; decide +kernel
    simp only [Xml.step, mkState, stepLt, if_neg a1, if_neg a2, if_neg a3, hc, if_true, PState.goto]
  have e2 : run norm (mkState (.tagName [c]) st r (evs ++ pend p)) t = mkState (.tagName (c :: t)) st r (evs ++ pend p) := by
    rw [run_tagName (fun x hx => (ht x hx).1) rfl]; rfl
  obtain ⟨m1, hm1, e3⟩ := run_attrs' hn h2 (mkState (.tagName (c :: t)) st r (evs ++ pend p)) (c :: t) [] (.inl ⟨rfl, rfl⟩)
  obtain ⟨m2, hm2, e4⟩ := run_ws (norm := norm) (s := (mkState (.tagName (c :: t)) st r (evs ++ pend p)).goto m1) hm1 hw
  refine ⟨m2, by simpa using hm2, ?_⟩
  rw [run_cons, step_lt, List.cons_append, run_cons, e1, run_append, e2, run_append, e3, e4]
  rfl

theorem run_text {s : Str} (h : Text s) (st : List Str) (hst : st ≠ []) (r : Bool) (evs : List XmlEvent) (p : Bool) :
    run norm (mkState (.text p) st r evs) s = mkState (.text (p || !s.isEmpty)) st r evs := by
  have hop : (st.map fun n => (n, ([] : List Str))) ≠ [] := by simpa using hst
  induction h generalizing p with
  | nil => simp [run]
  | @plain c s h1 h2 h3 _ ih =>
    replace h1 := (isXmlChar_iff c).2 h1
    have e : Xml.step norm (mkState (.text p) st r evs) c = mkState (.text true) st r evs := by
      simp only [Xml.step, mkState, stepText, if_neg h2, if_neg hop, if_neg h3, h1, if_true, PState.goto]
    rw [run_cons, e, ih]
    simp
  | @ref rr c s hr _ ih =>
    obtain ⟨e, rfl, he, hres⟩ := reference_cases hr
    have e1 : Xml.step norm (mkState (.text p) st r evs) '&' = mkState (.textEnt []) st r evs := by
      simp only [Xml.step, mkState, stepText, if_neg hop]
      rfl
    have e2 : ∀ e0, run norm (mkState (.textEnt e0) st r evs) e = mkState (.textEnt (e0 ++ e)) st r evs := by
      clear hres e1 hr
      induction e with
      | nil => intro e0; simp [run]
      | cons x e ihe =>
        intro e0
        have hx := he x (by simp)
        have hne : x ≠ ';' := by rintro rfl; revert hx; decide +kernel
        have : Xml.step norm (mkState (.textEnt e0) st r evs) x = mkState (.textEnt (e0 ++ [x])) st r evs := by
          simp only [Xml.step, mkState, stepTextEnt, if_neg hne, hx, if_true, PState.goto]
        rw [run_cons, this, ihe (fun y hy => he y (by simp [hy]))]
        simp
    have e3 : Xml.step norm (mkState (.textEnt e) st r evs) ';' = mkState (.text true) st r evs := by
      simp only [Xml.step, mkState, stepTextEnt, if_true, hres, Option.isSome_some, PState.goto]
    rw [run_append, run_cons, e1, run_append, e2, List.nil_append, run_cons, run_nil, e3, ih]
    simp

theorem ws_not_special {c : Char} (h : isWs c = true) : c ≠ '<' ∧ c ≠ '&' ∧ isXmlChar c = true := by
  simp only [isWs, Bool.or_eq_true, beq_iff_eq] at h
  rcases h with ((rfl | rfl) | rfl) | rfl <;> exact ⟨by decide, by decide, by decide⟩

theorem run_space {s : Str} (h : Ws s) (st : List Str) (r : Bool) (evs : List XmlEvent) (p : Bool) :
    run norm (mkState (.text p) st r evs) s = mkState (.text (p || !s.isEmpty)) st r evs := by
  induction s generalizing p with
  | nil => simp [run]
  | cons c s ih =>
    have hc := ws_isWs h c (by simp)
    obtain ⟨h1, h2, h3⟩ := ws_not_special hc
    have e : Xml.step norm (mkState (.text p) st r evs) c = mkState (.text true) st r evs := by
      simp only [Xml.step, mkState, stepText, if_neg h1, hc, if_true, if_neg h2, h3, PState.goto]
      split <;> rfl
    rw [run_cons, e, ih fun x hx => h x (by simp [hx])]
    simp

theorem infix_cons {p s : Str} {c : Char} (h : ¬ p <:+: (c :: s)) : ¬ p <:+: s :=
  fun ⟨a, b, h'⟩ => h ⟨c :: a, b, by simp [← h']⟩

/-- The inside of a comment. After it there are at most one dash. -/
theorem run_comment {s : Str} (hc : ∀ c ∈ s, isXmlChar c = true) (st : List Str) (r : Bool) (evs : List XmlEvent) (d : Nat)
    (hs : ¬ (str% "--") <:+: (List.replicate d '-' ++ s)) (hl : s.getLast? ≠ some '-') (hd : d = 0 ∨ s ≠ []) :
    run norm (mkState (.comment d) st r evs) s = mkState (.comment 0) st r evs := by
  induction s generalizing d with
  | nil => rcases hd with rfl | h; rfl; exact absurd rfl h
  | cons c s ih =>
    have hd2 : d < 2 := by
      by_contra h
      apply hs
      obtain ⟨k, rfl⟩ : ∃ k, d = k + 2 := ⟨d - 2, by omega⟩
      exact ⟨[], List.replicate k '-' ++ c :: s, by simp [List.replicate_succ]⟩
    by_cases hm : c = '-'
    · subst hm
      have hne : s ≠ [] := by rintro rfl; simp at hl
      have hd0 : d = 0 := by
        by_contra h
        have : d = 1 := by omega
        subst this
        exact hs ⟨[], s, rfl⟩
      subst hd0
      have e : Xml.step norm (mkState (.comment 0) st r evs) '-' = mkState (.comment 1) st r evs := by
        simp [Xml.step, mkState, stepComment, PState.goto]
      rw [run_cons, e]
      refine ih (fun x hx => hc x (by simp [hx])) 1 (by simpa using hs) ?_ (.inr hne)
      cases s with
      | nil => exact absurd rfl hne
      | cons y s => simpa using hl
    · have e : Xml.step norm (mkState (.comment d) st r evs) c = mkState (.comment 0) st r evs := by
        have : ¬ 2 ≤ d := by omega
        simp only [Xml.step, mkState, stepComment, if_neg hm, if_neg this, hc c (by simp), if_true, PState.goto]
      rw [run_cons, e]
      refine ih (fun x hx => hc x (by simp [hx])) 0 ?_ ?_ (.inl rfl)
      · intro h
        obtain ⟨a, b, h'⟩ := h
        exact hs ⟨List.replicate d '-' ++ c :: a, b, by simpa using h'⟩
      · cases s with
        | nil => simp
        | cons y s => simpa using hl

/-- The inside of a CDATA section. -/
theorem run_cdata {s : Str} (hc : ∀ c ∈ s, isXmlChar c = true) (st : List Str) (r : Bool) (evs : List XmlEvent) (d : Nat)
    (hs : ¬ (str% "]]>") <:+: (List.replicate d ']' ++ s)) :
    ∃ d', run norm (mkState (.cdata d) st r evs) s = mkState (.cdata d') st r evs := by
  induction s generalizing d with
  | nil => exact ⟨d, rfl⟩
  | cons c s ih =>
    by_cases hm : c = ']'
    · subst hm
      have e : Xml.step norm (mkState (.cdata d) st r evs) ']' = mkState (.cdata (d + 1)) st r evs := by
        simp [Xml.step, mkState, stepCdata, PState.goto]
      rw [run_cons, e]
      refine ih (fun x hx => hc x (by simp [hx])) (d + 1) ?_
      rw [List.replicate_succ']
      simpa using hs
    · have e : Xml.step norm (mkState (.cdata d) st r evs) c = mkState (.cdata 0) st r evs := by
        have : ¬ (c = '>' ∧ 2 ≤ d) := by
          rintro ⟨rfl, hd⟩
          apply hs
          obtain ⟨k, rfl⟩ : ∃ k, d = k + 2 := ⟨d - 2, by omega⟩
          exact ⟨List.replicate k ']', s, by simp [List.replicate_add]⟩
        simp only [Xml.step, mkState, stepCdata, if_neg hm, if_neg this, hc c (by simp), if_true, PState.goto]
      rw [run_cons, e]
      refine ih (fun x hx => hc x (by simp [hx])) 0 ?_
      intro h
      obtain ⟨a, b, h'⟩ := h
      exact hs ⟨List.replicate d ']' ++ c :: a, b, by simpa using h'⟩

/-- The inside of a processing instruction. -/
theorem run_pi {s : Str} (hc : ∀ c ∈ s, isXmlChar c = true) (st : List Str) (r : Bool) (evs : List XmlEvent) (q : Str)
    (hs : ¬ (str% "?>") <:+: (q ++ s)) :
    run norm (mkState (.pi q) st r evs) s = mkState (.pi (q ++ s)) st r evs := by
  induction s generalizing q with
  | nil => simp [run]
  | cons c s ih =>
    have e : Xml.step norm (mkState (.pi q) st r evs) c = mkState (.pi (q ++ [c])) st r evs := by
      have : ¬ (c = '>' ∧ q.getLast? = some '?') := by
        rintro ⟨rfl, h⟩
        obtain ⟨x, rfl⟩ := List.getLast?_eq_some_iff.1 h
        exact hs ⟨x, s, by simp⟩
      simp only [Xml.step, mkState, stepPi, if_neg this, hc c (by simp), if_true, PState.goto]
    rw [run_cons, e, ih (fun x hx => hc x (by simp [hx])) _ (by simpa using hs)]
    simp

theorem takeWhile_name {n s : Str} (hn : ∀ c ∈ n, isNameChar c = true) (h0 : ∀ c ∈ s.head?, Ws [c]) :
    (n ++ s).takeWhile isNameChar = n ∧ (n ++ s).dropWhile isNameChar = s := by
  have hs : s.takeWhile isNameChar = [] ∧ s.dropWhile isNameChar = s := by
    cases s with
    | nil => exact ⟨rfl, rfl⟩
    | cons c s =>
      have : isNameChar c = false := ws_not_name (ws_isWs (h0 c rfl) c (by simp))
      simp [this]
  rw [List.takeWhile_append_of_pos hn, List.dropWhile_append_of_pos hn, hs.1, hs.2]
  simp

/-- A processing instruction is accepted. -/
theorem piOk_name {n s : Str} (first : Bool) (hn : IsName n) (hx : n.map Char.toLower ≠ str% "xml")
    (h0 : ∀ c ∈ s.head?, Ws [c]) : piOk first (n ++ s) = true := by
  have hne : n ≠ str% "xml" := by rintro rfl; exact hx rfl
  obtain ⟨e1, e2⟩ := takeWhile_name (isName_chars hn) h0
  have hh : n.head?.any isNameStart = true := by
    obtain ⟨c, r, rfl, h1, _⟩ := hn
    simpa using (isNameStart_iff c).2 h1
  have hw : s.head?.all isWs = true := by
    cases s with
    | nil => rfl
    | cons c s => simpa using ws_isWs (h0 c rfl) c (by simp)
  simp only [piOk, e1, e2, if_neg hne, hh, hw, Bool.true_and, Bool.and_true]
  simpa using hx

theorem nameChar_xml {c : Char} (h : isNameChar c = true) : isXmlChar c = true := by
  simp only [isNameChar, isNameStart, inRanges, isXmlChar, Bool.or_eq_true, beq_iff_eq, Bool.and_eq_true,
    decide_eq_true_eq, Bool.false_eq_true, or_false] at *
  rcases h with ((((h | h) | h) | h) | h) | h
  all_goals first | omega | (subst h; decide)

theorem name_xml {n : Str} (h : IsName n) : ∀ c ∈ n, isXmlChar c = true := fun c hc => nameChar_xml (isName_chars h c hc)

/-- What ends a processing instruction does not begin in its name. -/
theorem pi_infix {n s : Str} (hn : ∀ c ∈ n, isNameChar c = true) (h : ¬ (str% "?>") <:+: s) :
    ¬ (str% "?>") <:+: (n ++ s) := by
  induction n with
  | nil => exact h
  | cons c n ih =>
    have ih := ih fun x hx => hn x (by simp [hx])
    rintro ⟨a, b, e⟩
    cases a with
    | nil =>
      simp only [List.nil_append, List.cons_append, List.cons.injEq] at e
      have := hn c (by simp)
      rw [← e.1] at this
      revert this; decide +kernel
    | cons x a =>
      simp only [List.cons_append, List.cons.injEq] at e
      exact ih ⟨a, b, by simpa using e.2⟩

/-- Reading parts. -/
theorem run_toks (hn : IsNorm norm) {b : Bool} {t : Str} {ts : List Tok} (h : Toks b t ts) (p : Bool) (hb : b = true → p = false)
    (st : List Str) (r : Bool) (evs : List XmlEvent) (st' : List Str) (r' : Bool) (hst : nest st r ts = some (st', r')) :
    ∃ p' evs', run norm (mkState (.text p) st r evs) t = mkState (.text p') st' r' evs' ∧
      evs' ++ pend p' = evs ++ pend p ++ tokEvents ts := by
  induction h generalizing p st r evs with
  | nil =>
    simp only [nest, Option.some.injEq, Prod.mk.injEq] at hst
    obtain ⟨rfl, rfl⟩ := hst
    exact ⟨p, evs, rfl, by simp [tokEvents]⟩
  | @space s t ts hs hw _ ih =>
    have hp := hb rfl; subst hp
    obtain ⟨p', evs', h1, h2⟩ := ih true (by simp) st r evs hst
    refine ⟨p', evs', ?_, ?_⟩
    · rw [run_append, run_space hw]
      simpa [List.isEmpty_eq_false_iff.2 hs] using h1
    · rw [h2]; simp [pend, tokEvents]
  | @text s t ts hs hw _ _ ih =>
    have hp := hb rfl; subst hp
    have hne : st ≠ [] := by rintro rfl; simp [nest] at hst
    rw [nest, if_neg hne] at hst
    obtain ⟨p', evs', h1, h2⟩ := ih true (by simp) st r evs hst
    refine ⟨p', evs', ?_, ?_⟩
    · rw [run_append, run_text hw st hne]
      simpa [List.isEmpty_eq_false_iff.2 hs] using h1
    · rw [h2]; simp [pend, tokEvents]
  | @comment b s t ts hc h1 h2 _ ih =>
    obtain ⟨p', evs', e1, e2⟩ := ih false (by simp) st r (evs ++ pend p ++ [.other]) hst
    refine ⟨p', evs', ?_, ?_⟩
    · have a1 : run norm (mkState (.text p) st r evs) (str% "<!--") = mkState (.comment 0) st r (evs ++ pend p) := by
        rw [run_cons, step_lt]; rfl
      have a2 : run norm (mkState (.comment 0) st r (evs ++ pend p)) (str% "-->") = mkState (.text false) st r (evs ++ pend p ++ [.other]) := rfl
      rw [run_append, a1, run_append, run_comment (xmlChars_iff.1 hc) st r _ 0 (by simpa using h1) h2 (.inl rfl), run_append, a2]
      exact e1
    · rw [e2]; simp [pend, tokEvents]
  | @cdata b s t ts hc h1 _ ih =>
    have hne : st ≠ [] := by rintro rfl; simp [nest] at hst
    rw [nest, if_neg hne] at hst
    obtain ⟨p', evs', e1, e2⟩ := ih false (by simp) st r (evs ++ pend p ++ [.other]) hst
    refine ⟨p', evs', ?_, ?_⟩
    · have a1 : run norm (mkState (.text p) st r evs) (str% "<![CDATA[") = mkState (.cdata 0) st r (evs ++ pend p) := by
        rw [run_cons, step_lt]
        cases st with
        | nil => exact absurd rfl hne
        | cons x st => rfl
      obtain ⟨d, a2⟩ := run_cdata (norm := norm) (xmlChars_iff.1 hc) st r (evs ++ pend p) 0 (by simpa using h1)
      have a3 : run norm (mkState (.cdata d) st r (evs ++ pend p)) (str% "]]>") = mkState (.text false) st r (evs ++ pend p ++ [.other]) := by
        simp [run, Xml.step, mkState, stepCdata, PState.goto, flush]
      rw [run_append, a1, run_append, a2, run_append, a3]
      exact e1
    · rw [e2]; simp [pend, tokEvents]
  | @pi b n s t ts h1 h2 h0 h3 h4 _ ih =>
    obtain ⟨p', evs', e1, e2⟩ := ih false (by simp) st r (evs ++ pend p ++ [.other]) hst
    refine ⟨p', evs', ?_, ?_⟩
    · have a1 : run norm (mkState (.text p) st r evs) (str% "<?") = mkState (.pi []) st r (evs ++ pend p) := by
        rw [run_cons, step_lt]; rfl
      have hx : ∀ c ∈ n ++ s, isXmlChar c = true := by
        intro c hc
        rcases List.mem_append.1 hc with hc | hc
        · exact name_xml h1 c hc
        · exact xmlChars_iff.1 h3 c hc
      have hq : ¬ (str% "?>") <:+: (n ++ s) := pi_infix (isName_chars h1) h4
      have a2 := run_pi (norm := norm) hx st r (evs ++ pend p) [] (by simpa using hq)
      rw [List.nil_append] at a2
      have a3 : run norm (mkState (.pi (n ++ s)) st r (evs ++ pend p)) (str% "?>") = mkState (.text false) st r (evs ++ pend p ++ [.other]) := by
        have b1 : Xml.step norm (mkState (.pi (n ++ s)) st r (evs ++ pend p)) '?' = mkState (.pi (n ++ s ++ ['?'])) st r (evs ++ pend p) := by
          have : isXmlChar '?' = true := by decide
          simp [Xml.step, mkState, stepPi, this, PState.goto]
        rw [run_cons, b1, run_cons, run_nil]
        simp only [Xml.step, mkState, stepPi, List.getLast?_concat, List.dropLast_concat, and_self, if_true, piOk_name _ h1 h2 h0]
        simp [flush, PState.goto]
      have e : str% "<?" ++ (n ++ (s ++ (str% "?>" ++ t))) = str% "<?" ++ ((n ++ s) ++ (str% "?>" ++ t)) := by simp
      rw [e, run_append, a1, run_append, a2, run_append, a3]
      exact e1
    · rw [e2]; simp [pend, tokEvents]
  | @start b n a as w t ts h1 h2 h3 h4 _ ih =>
    have ho : ¬ (st = [] ∧ r = true) := by intro h; simp [nest, h] at hst
    rw [nest, if_neg ho] at hst
    obtain ⟨m, hm, e1⟩ := run_tag (norm := norm) hn h1 h2 h4 p st r evs
    obtain ⟨p', evs', e2, e3⟩ := ih false (by simp) (n :: st) true (evs ++ pend p ++ [.start ⟨none, n⟩ (as.map SrcAttr.attr)]) hst
    refine ⟨p', evs', ?_, e3.trans (by simp [pend, tokEvents])⟩
    · have e : '<' :: (n ++ (a ++ (w ++ '>' :: t))) = '<' :: (n ++ (a ++ w)) ++ '>' :: t := by simp
      have e4 : Xml.step norm (mkState m st r (evs ++ pend p)) '>' =
          finishTag norm (mkState m st r (evs ++ pend p)) n (as.map fun a => (a.key, a.value)) false := by
        have q1 : isNameChar '>' = false := by decide +kernel
        have q2 : isWs '>' = false := by decide
        have q3 : isNameStart '>' = false := by decide +kernel
        rcases hm with ⟨rfl, hm⟩ | rfl | rfl
        · simp only [Xml.step, mkState, stepTagName, q1, q2, Bool.false_eq_true, if_false, if_true, hm]
        · simp only [Xml.step, mkState, stepAttrDone, q2, Bool.false_eq_true, if_false, if_true]
        · simp only [Xml.step, mkState, stepInTag, q2, q3, Bool.false_eq_true, if_false, if_true]
      rw [e, run_append, e1, run_cons, e4, finishTag_names m st r _ h1 h2 h3 ho]
      exact e2
  | @empty b n a as w t ts h1 h2 h3 h4 _ ih =>
    have ho : ¬ (st = [] ∧ r = true) := by intro h; simp [nest, h] at hst
    rw [nest, if_neg ho] at hst
    obtain ⟨m, hm, e1⟩ := run_tag (norm := norm) hn h1 h2 h4 p st r evs
    obtain ⟨p', evs', e2, e3⟩ := ih false (by simp) st true (evs ++ pend p ++ [.start ⟨none, n⟩ (as.map SrcAttr.attr), .stop ⟨none, n⟩]) hst
    refine ⟨p', evs', ?_, e3.trans (by simp [pend, tokEvents])⟩
    · have e : '<' :: (n ++ (a ++ (w ++ '/' :: '>' :: t))) = '<' :: (n ++ (a ++ w)) ++ '/' :: '>' :: t := by simp
      have e4 : Xml.step norm (mkState m st r (evs ++ pend p)) '/' =
          mkState (.slash n (as.map fun a => (a.key, a.value))) st r (evs ++ pend p) := by
        have q1 : isNameChar '/' = false := by decide +kernel
        have q2 : isWs '/' = false := by decide
        have q3 : isNameStart '/' = false := by decide +kernel
        have q4 : ('/' : Char) ≠ '>' := by decide
        rcases hm with ⟨rfl, hm⟩ | rfl | rfl
        · simp only [Xml.step, mkState, stepTagName, q1, q2, q4, Bool.false_eq_true, if_false, if_true, hm, PState.goto]
        · simp only [Xml.step, mkState, stepAttrDone, q2, q4, Bool.false_eq_true, if_false, if_true, PState.goto]
        · simp only [Xml.step, mkState, stepInTag, q2, q3, q4, Bool.false_eq_true, if_false, if_true, PState.goto]
      have e5 : Xml.step norm (mkState (.slash n (as.map fun a => (a.key, a.value))) st r (evs ++ pend p)) '>' =
          finishTag norm (mkState (.slash n (as.map fun a => (a.key, a.value))) st r (evs ++ pend p)) n
            (as.map fun a => (a.key, a.value)) true := by
        simp only [Xml.step, mkState, if_true]
      rw [e, run_append, e1, run_cons, e4, run_cons, e5, finishTag_names _ st r _ h1 h2 h3 ho]
      exact e2
  | @stop b n w t ts h1 h2 _ ih =>
    cases st with
    | nil => simp [nest] at hst
    | cons n' st =>
      simp only [nest] at hst
      split at hst
      · rename_i hnn; subst hnn
        obtain ⟨p', evs', e2, e3⟩ := ih false (by simp) st r (evs ++ pend p ++ [.stop ⟨none, n⟩]) hst
        refine ⟨p', evs', ?_, e3.trans (by simp [pend, tokEvents])⟩
        have a1 : Xml.step norm (mkState .lt (n :: st) r (evs ++ pend p)) '/' = mkState (.endName []) (n :: st) r (evs ++ pend p) := rfl
        have a2 : run norm (mkState (.endName []) (n :: st) r (evs ++ pend p)) n = mkState (.endName n) (n :: st) r (evs ++ pend p) := by
          rw [run_endName (isName_chars h1) rfl]; rfl
        have a3 : run norm (mkState (.endName n) (n :: st) r (evs ++ pend p)) (w ++ ['>']) =
            finishEnd (mkState (if w = [] then .endName n else .endWs n) (n :: st) r (evs ++ pend p)) n := by
          have q1 : isNameChar '>' = false := by decide +kernel
          have q2 : isWs '>' = false := by decide
          cases w with
          | nil =>
            rw [List.nil_append, run_cons, run_nil]
            simp only [Xml.step, mkState, stepEndName, q1, Bool.false_eq_true, if_false, if_true]
          | cons x w =>
            have hx := ws_isWs h2 x (by simp)
            have hne : x ≠ '>' := by rintro rfl; rw [q2] at hx; cases hx
            have : Xml.step norm (mkState (.endName n) (n :: st) r (evs ++ pend p)) x = mkState (.endWs n) (n :: st) r (evs ++ pend p) := by
              simp only [Xml.step, mkState, stepEndName, ws_not_name hx, hx, if_neg hne, Bool.false_eq_true, if_false, if_true, PState.goto]
            rw [List.cons_append, run_cons, this, run_append, run_endWs_ws (fun y hy => h2 y (List.mem_cons_of_mem _ hy)) rfl, run_cons, run_nil]
            simp only [Xml.step, mkState, q2, Bool.false_eq_true, if_false, if_true, reduceCtorEq]
        have a4 : ∀ m, finishEnd (mkState m (n :: st) r (evs ++ pend p)) n =
            mkState (.text false) st r (evs ++ pend p ++ [.stop ⟨none, n⟩]) := by
          intro m
          simp only [finishEnd, mkState, List.map_cons, if_true, splitName_isName h1]
        have e : '<' :: '/' :: (n ++ (w ++ '>' :: t)) = '<' :: '/' :: (n ++ ((w ++ ['>']) ++ t)) := by simp
        rw [e, run_cons, step_lt, run_cons, a1, run_append, a2, run_append, a3, a4]
        exact e2
      · cases hst

theorem run_declaration {decl : Str} (h : decl ∈ declarations) :
    run norm (mkState (.text false) [] false []) decl = mkState (.text false) [] false [.other] := by
  simp only [declarations, List.mem_cons, List.not_mem_nil, or_false] at h
  rcases h with rfl | rfl | rfl | rfl <;> rfl

/-- The events of a document. -/
theorem document_events (hn : IsNorm norm) {t : Str} {ts : List Tok} {f : Forest} (h : Document t ts f) :
    eventsOfBytes norm (Utf8.encode t) = f.events.map some ++ [some .other] ∨
      eventsOfBytes norm (Utf8.encode t) = f.events.map some := by
  have key : ∀ {t ts f} (evs : List XmlEvent), Body t ts f → ∃ p' evs',
      run norm (mkState (.text false) [] false evs) t = mkState (.text p') [] true evs' ∧ evs' ++ pend p' = evs ++ f.events := by
    intro t ts f evs h
    have ht := tree_events (tree_body h)
    have hs := nest_body h
    cases h with
    | mk h _ _ _ _ _ =>
      obtain ⟨p', evs', e1, e2⟩ := run_toks (norm := norm) hn h false (by simp) [] false evs [] true hs
      exact ⟨p', evs', e1, by rw [e2, ← ht]; simp [pend]⟩
  have fin : ∀ p' evs', run norm (mkState (.text false) [] false []) t = mkState (.text p') [] true evs' →
      evs' ++ pend p' = f.events → eventsOfBytes norm (Utf8.encode t) = f.events.map some ++ [some .other] ∨
      eventsOfBytes norm (Utf8.encode t) = f.events.map some := by
    intro p' evs' e1 e2
    have e3 : eventsOfBytes norm (Utf8.encode t) = evs'.map some ++ [some .other] := by
      have e1' : t.foldl (Xml.step norm) initial = mkState (.text p') [] true evs' := e1
      simp only [eventsOfBytes, Utf8.decodePrefix_encode, events, e1']
      rfl
    rw [e3, ← e2]
    cases p'
    · left; simp [pend]
    · right; simp [pend]
  cases h with
  | plain h =>
    obtain ⟨p', evs', e1, e2⟩ := key [] h
    exact fin p' evs' e1 e2
  | @declared decl t ts f hd h =>
    obtain ⟨p', evs', e1, e2⟩ := key [.other] h
    exact fin p' evs' (by rw [run_append, run_declaration hd, e1]) (by rw [e2]; rfl)

end Osmio.Spec.Lex
