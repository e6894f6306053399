import Verif.Proofs.XmlGrammarRun
import Verif.Proofs.Utf8Strict
/-! # Lemmas: what the parser accepts is given by the grammar -/

namespace Osmio.Spec.Gram
open Xml Osmio.Spec.Lex

variable {norm : Xml.Config}

/-- The parser is between two parts or in text. -/
def Ended (z : PState) : Prop := ∃ p, z.mode = .text p

theorem run_stuck (t : Str) {s : PState} (h : s.mode = .fail) : run norm s t = s := by
  induction t with
  | nil => rfl
  | cons c t ih =>
    have : Xml.step norm s c = s := by unfold Xml.step; rw [h]
    rw [run_cons, this, ih]

theorem ended_fail {s : PState} (hs : s.mode = .fail) {t : Str} (h : Ended (run norm s t)) {α : Prop} : α := by
  rw [run_stuck t hs] at h
  obtain ⟨p, h⟩ := h
  rw [hs] at h; cases h

theorem ended_nil {s : PState} (h : Ended (run norm s [])) : ∃ p, s.mode = .text p := h

/-! ## References -/

theorem reference_of {e : Str} {x : Char} (h : Xml.resolve e = some x) : Reference ('&' :: (e ++ [';'])) x := by
  have key : ∀ {base : Nat} {s : Str}, base = 10 ∨ base = 16 → s ≠ [] → Xml.charRef (Xml.number base 0 s) = some x →
      Value.Number base s x.toNat ∧ Spec.XmlChar x := by
    intro base s hb hs h
    have hd : ∀ c, Xml.digit base c = QuickXml.digit base c := fun c => rfl
    have hn : ∀ (s : Str) (a : Nat), Xml.number base a s = QuickXml.number base a s := by
      intro s
      induction s with
      | nil => intro a; rfl
      | cons c s ih =>
        intro a
        simp only [Xml.number, QuickXml.number, hd]
        cases QuickXml.digit base c with
        | none => rfl
        | some d => exact ih _
    rw [hn] at h
    unfold Xml.charRef at h
    split at h
    · rename_i n hn'
      split at h
      · rename_i hv
        cases h
        rw [Utf8.toNat_ofNat hv.1]
        exact ⟨(QuickXml.number_iff hb).1 ⟨hs, hn'⟩, (isXmlChar_iff _).1 hv.2⟩
      · cases h
    · cases h
  unfold Xml.resolve at h
  split at h
  · rename_i he; cases h; subst he; exact .entity (by decide)
  split at h
  · rename_i he; cases h; subst he; exact .entity (by decide)
  split at h
  · rename_i he; cases h; subst he; exact .entity (by decide)
  split at h
  · rename_i he; cases h; subst he; exact .entity (by decide)
  split at h
  · rename_i he; cases h; subst he; exact .entity (by decide)
  split at h
  · obtain ⟨h1, h2⟩ := key (.inr rfl) (by simp) h
    exact .hex h1 h2
  · obtain ⟨h1, h2⟩ := key (.inl rfl) (by simp) h
    exact .dec h1 h2
  · cases h

theorem inv_textEnt {t : Str} : ∀ {s : PState} {e0 : Str}, s.mode = .textEnt e0 → Ended (run norm s t) →
    ∃ e x t', t = e ++ ';' :: t' ∧ Xml.resolve (e0 ++ e) = some x ∧ run norm s t = run norm (s.goto (.text true)) t' := by
  induction t with
  | nil => intro s e0 hs h; obtain ⟨p, h⟩ := ended_nil h; rw [hs] at h; cases h
  | cons c t ih =>
    intro s e0 hs h
    rw [run_cons] at h ⊢
    have e : Xml.step norm s c = stepTextEnt s e0 c := by simp only [Xml.step, hs]
    rw [e] at h ⊢
    unfold stepTextEnt at h ⊢
    by_cases h1 : c = ';'
    · subst h1
      simp only [if_true] at h ⊢
      cases hr : Xml.resolve e0 with
      | none => simp only [hr, Option.isSome_none, Bool.false_eq_true, if_false] at h; exact ended_fail rfl h
      | some x =>
        refine ⟨[], x, t, rfl, by simpa using hr, ?_⟩
        simp
    · simp only [if_neg h1] at h ⊢
      by_cases h2 : (isNameChar c || c == '#') = true
      · simp only [if_pos h2] at h ⊢
        obtain ⟨e, x, t', rfl, h3, h4⟩ := ih rfl h
        exact ⟨c :: e, x, t', rfl, by simpa using h3, h4⟩
      · simp only [if_neg h2] at h; exact ended_fail rfl h

theorem inv_attrEnt {t : Str} {n : Str} {as : List (Str × Str)} {k : Str} {q : Char} {v : Str} : ∀ {s : PState} {e0 : Str},
    s.mode = .attrEnt n as k q v e0 → Ended (run norm s t) →
    ∃ e x t', t = e ++ ';' :: t' ∧ Xml.resolve (e0 ++ e) = some x ∧ run norm s t = run norm (s.goto (.attrVal n as k q (v ++ [x]))) t' := by
  induction t with
  | nil => intro s e0 hs h; obtain ⟨p, h⟩ := ended_nil h; rw [hs] at h; cases h
  | cons c t ih =>
    intro s e0 hs h
    rw [run_cons] at h ⊢
    have e : Xml.step norm s c = stepAttrEnt s n as k q v e0 c := by simp only [Xml.step, hs]
    rw [e] at h ⊢
    unfold stepAttrEnt at h ⊢
    by_cases h1 : c = ';'
    · subst h1
      simp only [if_true] at h ⊢
      cases hr : Xml.resolve e0 with
      | none => simp only [hr] at h; exact ended_fail rfl h
      | some x => exact ⟨[], x, t, rfl, by simpa using hr, by simp⟩
    · simp only [if_neg h1] at h ⊢
      by_cases h2 : (isNameChar c || c == '#') = true
      · simp only [if_pos h2] at h ⊢
        obtain ⟨e, x, t', rfl, h3, h4⟩ := ih rfl h
        exact ⟨c :: e, x, t', rfl, by simpa using h3, h4⟩
      · simp only [if_neg h2] at h; exact ended_fail rfl h

/-! ## Attributes -/

theorem inv_attrVal {n : Str} {as : List (Str × Str)} {k : Str} {q : Char} (N : Nat) : ∀ {t : Str}, t.length ≤ N → ∀ {s : PState} {v : Str},
    s.mode = .attrVal n as k q v → Ended (run norm s t) →
    ∃ src w t', t = src ++ q :: t' ∧ Quoted norm.char q src w ∧ run norm s t = run norm (s.goto (.attrDone n (as ++ [(k, v ++ w)]))) t' := by
  induction N with
  | zero =>
    intro t ht s v hs h
    obtain rfl := List.eq_nil_of_length_eq_zero (Nat.le_zero.1 ht)
    obtain ⟨p, h⟩ := ended_nil h; rw [hs] at h; cases h
  | succ N ih =>
    intro t ht s v hs h
    cases t with
    | nil => obtain ⟨p, h⟩ := ended_nil h; rw [hs] at h; cases h
    | cons c t =>
      simp only [List.length_cons] at ht
      rw [run_cons] at h ⊢
      have e : Xml.step norm s c = stepAttrVal norm s n as k q v c := by simp only [Xml.step, hs]
      rw [e] at h ⊢
      unfold stepAttrVal at h ⊢
      by_cases h1 : c = q
      · subst h1
        simp only [if_true]
        exact ⟨[], [], t, rfl, .nil, by simp⟩
      · simp only [if_neg h1] at h ⊢
        by_cases h2 : c = '<'
        · simp only [if_pos h2] at h; exact ended_fail rfl h
        simp only [if_neg h2] at h ⊢
        by_cases h3 : c = '&'
        · subst h3
          simp only [if_true] at h ⊢
          obtain ⟨e, x, t', rfl, h4, h5⟩ := inv_attrEnt rfl h
          rw [h5] at h ⊢
          obtain ⟨src, w, t'', rfl, h6, h7⟩ := ih (by simp at ht; omega) rfl h
          refine ⟨('&' :: (e ++ [';'])) ++ src, x :: w, t'', by simp, .ref (reference_of (by simpa using h4)) h6, ?_⟩
          rw [h7]; simp [PState.goto]
        · simp only [if_neg h3] at h ⊢
          by_cases h4 : isXmlChar c = true
          · simp only [if_pos h4] at h ⊢
            obtain ⟨src, w, t'', rfl, h6, h7⟩ := ih (by omega) rfl h
            refine ⟨c :: src, norm.char c :: w, t'', rfl, .plain ((isXmlChar_iff c).1 h4) h2 h3 h1 h6, ?_⟩
            rw [h7]; simp [PState.goto]
          · simp only [if_neg h4] at h; exact ended_fail rfl h

theorem ws_cons {c : Char} {w : Str} (hc : isWs c = true) (hw : Ws w) : Ws (c :: w) := by
  rw [← all_ws, List.all_cons, hc, Bool.true_and]; exact all_ws.2 hw

theorem ws_nil : Ws [] := fun _ h => absurd h (by simp)

theorem inv_attrPre {n : Str} {as : List (Str × Str)} {k t : Str} : ∀ {s : PState}, s.mode = .attrPre n as k → Ended (run norm s t) →
    ∃ w q t', Ws w ∧ (q = '"' ∨ q = '\'') ∧ t = w ++ q :: t' ∧ run norm s t = run norm (s.goto (.attrVal n as k q [])) t' := by
  induction t with
  | nil => intro s hs h; obtain ⟨p, h⟩ := ended_nil h; rw [hs] at h; cases h
  | cons c t ih =>
    intro s hs h
    rw [run_cons] at h ⊢
    have e : Xml.step norm s c = stepAttrPre s n as k c := by simp only [Xml.step, hs]
    rw [e] at h ⊢
    unfold stepAttrPre at h ⊢
    by_cases h1 : isWs c = true
    · simp only [if_pos h1] at h ⊢
      obtain ⟨w, q, t', g1, g2, rfl, g3⟩ := ih rfl h
      exact ⟨c :: w, q, t', ws_cons h1 g1, g2, rfl, g3⟩
    · simp only [if_neg h1] at h ⊢
      by_cases h2 : c = '"' ∨ c = '\''
      · simp only [if_pos h2]
        exact ⟨[], c, t, ws_nil, h2, rfl, rfl⟩
      · simp only [if_neg h2] at h; exact ended_fail rfl h

theorem inv_attrEq {n : Str} {as : List (Str × Str)} {k t : Str} : ∀ {s : PState}, s.mode = .attrEq n as k → Ended (run norm s t) →
    ∃ w t', Ws w ∧ t = w ++ '=' :: t' ∧ run norm s t = run norm (s.goto (.attrPre n as k)) t' := by
  induction t with
  | nil => intro s hs h; obtain ⟨p, h⟩ := ended_nil h; rw [hs] at h; cases h
  | cons c t ih =>
    intro s hs h
    rw [run_cons] at h ⊢
    have e : Xml.step norm s c = stepAttrEq s n as k c := by simp only [Xml.step, hs]
    rw [e] at h ⊢
    unfold stepAttrEq at h ⊢
    by_cases h1 : isWs c = true
    · simp only [if_pos h1] at h ⊢
      obtain ⟨w, t', g1, rfl, g3⟩ := ih rfl h
      exact ⟨c :: w, t', ws_cons h1 g1, rfl, g3⟩
    · simp only [if_neg h1] at h ⊢
      by_cases h2 : c = '='
      · subst h2
        simp only [if_true]
        exact ⟨[], t, ws_nil, rfl, rfl⟩
      · simp only [if_neg h2] at h; exact ended_fail rfl h

theorem inv_attrName {n : Str} {as : List (Str × Str)} {t : Str} : ∀ {s : PState} {k : Str}, s.mode = .attrName n as k → Ended (run norm s t) →
    ∃ r w t', (∀ c ∈ r, isNameChar c = true) ∧ Ws w ∧ t = r ++ (w ++ '=' :: t') ∧
      run norm s t = run norm (s.goto (.attrPre n as (k ++ r))) t' := by
  induction t with
  | nil => intro s k hs h; obtain ⟨p, h⟩ := ended_nil h; rw [hs] at h; cases h
  | cons c t ih =>
    intro s k hs h
    rw [run_cons] at h ⊢
    have e : Xml.step norm s c = stepAttrName s n as k c := by simp only [Xml.step, hs]
    rw [e] at h ⊢
    unfold stepAttrName at h ⊢
    by_cases h1 : isNameChar c = true
    · simp only [if_pos h1] at h ⊢
      obtain ⟨r, w, t', g0, g1, rfl, g3⟩ := ih rfl h
      refine ⟨c :: r, w, t', ?_, g1, rfl, ?_⟩
      · intro x hx
        rcases List.mem_cons.1 hx with rfl | hx
        · exact h1
        · exact g0 x hx
      · rw [g3]; simp [PState.goto]
    · simp only [if_neg h1] at h ⊢
      by_cases h2 : c = '='
      · subst h2
        simp only [if_true]
        exact ⟨[], [], t, by simp, ws_nil, rfl, by simp⟩
      · simp only [if_neg h2] at h ⊢
        by_cases h3 : isWs c = true
        · simp only [if_pos h3] at h ⊢
          obtain ⟨w, t', g1, rfl, g3⟩ := inv_attrEq rfl h
          exact ⟨[], c :: w, t', by simp, ws_cons h3 g1, rfl, by rw [g3]; simp [PState.goto]⟩
        · simp only [if_neg h3] at h; exact ended_fail rfl h

/-- The rest of a tag. -/
def TagRest (norm : Xml.Config) (s : PState) (n : Str) (as : List (Str × Str)) (t : Str) (z : PState) : Prop :=
  ∃ x bs w t', Attrs norm.char x bs ∧ Ws w ∧
    ((t = x ++ (w ++ '>' :: t') ∧ z = run norm (finishTag norm s n (as ++ bs) false) t') ∨
     (t = x ++ (w ++ '/' :: '>' :: t') ∧ z = run norm (finishTag norm s n (as ++ bs) true) t'))

theorem inv_slash {s : PState} {n : Str} {as : List (Str × Str)} {t : Str} (hs : s.mode = .slash n as) (h : Ended (run norm s t)) :
    ∃ t', t = '>' :: t' ∧ run norm s t = run norm (finishTag norm s n as true) t' := by
  cases t with
  | nil => obtain ⟨p, h⟩ := ended_nil h; rw [hs] at h; cases h
  | cons c t =>
    rw [run_cons] at h ⊢
    have e : Xml.step norm s c = if c = '>' then finishTag norm s n as true else s.err := by simp only [Xml.step, hs]
    rw [e] at h ⊢
    by_cases h1 : c = '>'
    · subst h1; exact ⟨t, rfl, by simp⟩
    · simp only [if_neg h1] at h; exact ended_fail rfl h

theorem inv_inTag {n : Str} (N : Nat) : ∀ {t : Str}, t.length ≤ N → ∀ {s : PState} {as : List (Str × Str)} {w0 : Str},
    s.mode = .inTag n as → Ws w0 → w0 ≠ [] → Ended (run norm s t) → TagRest norm s n as (w0 ++ t) (run norm s t) := by
  induction N with
  | zero =>
    intro t ht s v w0 hs _ _ h
    obtain rfl := List.eq_nil_of_length_eq_zero (Nat.le_zero.1 ht)
    obtain ⟨p, h⟩ := ended_nil h; rw [hs] at h; cases h
  | succ N ih =>
    intro t ht s as w0 hs hw hw0 h
    cases t with
    | nil => obtain ⟨p, h⟩ := ended_nil h; rw [hs] at h; cases h
    | cons c t =>
      simp only [List.length_cons] at ht
      rw [run_cons] at h ⊢
      have e : Xml.step norm s c = stepInTag norm s n as c := by simp only [Xml.step, hs]
      rw [e] at h ⊢
      unfold stepInTag at h ⊢
      by_cases h1 : isWs c = true
      · simp only [if_pos h1] at h ⊢
        have := ih (t := t) (by omega) (s := s.goto (.inTag n as)) (w0 := w0 ++ [c]) rfl (by
          intro x hx
          rcases List.mem_append.1 hx with hx | hx
          · exact hw x hx
          · exact ws_cons h1 ws_nil x hx) (by simp) h
        simpa [TagRest, finishTag_goto] using this
      · simp only [if_neg h1] at h ⊢
        by_cases h2 : isNameStart c = true
        · simp only [if_pos h2] at h ⊢
          obtain ⟨r, w1, t1, g1, g2, rfl, g3⟩ := inv_attrName rfl h
          rw [g3] at h ⊢
          obtain ⟨w2, q, t2, g4, g5, rfl, g6⟩ := inv_attrPre rfl h
          rw [g6] at h ⊢
          obtain ⟨src, v, t3, rfl, g7, g8⟩ := inv_attrVal _ (Nat.le_refl _) rfl h
          rw [g8] at h ⊢
          have hk : NameText (c :: r) := nameText_iff.2 ⟨c, r, rfl, h2, g1⟩
          -- what follows the value
          have key : ∀ {x bs y}, Attrs norm.char x bs →
              Attrs norm.char (w0 ++ ((c :: r) ++ (w1 ++ '=' :: (w2 ++ q :: (src ++ q :: x))))) ((c :: r, v) :: bs) ∧
              w0 ++ c :: (r ++ (w1 ++ '=' :: (w2 ++ q :: (src ++ q :: (x ++ y))))) =
                (w0 ++ ((c :: r) ++ (w1 ++ '=' :: (w2 ++ q :: (src ++ q :: x))))) ++ y := by
            intro x bs y hx
            exact ⟨.cons hw0 hw hk g2 g4 g5 g7 hx, by simp⟩
          cases t3 with
          | nil => obtain ⟨p, h⟩ := ended_nil h; cases h
          | cons d t3 =>
            rw [run_cons] at h ⊢
            simp only [PState.goto, Xml.step, stepAttrDone, List.nil_append] at h ⊢
            by_cases k1 : isWs d = true
            · simp only [if_pos k1] at h ⊢
              obtain ⟨x, bs, w, t', a1, a2, a3⟩ := ih (t := t3) (by simp at ht; omega) (w0 := [d]) rfl (ws_cons k1 ws_nil) (by simp) h
              rcases a3 with ⟨a3, a4⟩ | ⟨a3, a4⟩
              · refine ⟨_, _, w, t', (key (y := w ++ '>' :: t') a1).1, a2, .inl ⟨?_, ?_⟩⟩
                · rw [← (key a1).2]
                  simp only [List.cons_append, List.nil_append] at a3
                  rw [a3]
                · rw [a4]; simp; rfl
              · refine ⟨_, _, w, t', (key (y := w ++ '>' :: t') a1).1, a2, .inr ⟨?_, ?_⟩⟩
                · rw [← (key a1).2]
                  simp only [List.cons_append, List.nil_append] at a3
                  rw [a3]
                · rw [a4]; simp; rfl
            · simp only [if_neg k1] at h ⊢
              by_cases k2 : d = '>'
              · subst k2
                simp only [if_true]
                refine ⟨_, _, [], t3, (key (y := []) .nil).1, ws_nil, .inl ⟨?_, ?_⟩⟩
                · rw [← (key .nil).2]; rfl
                · rfl
              · simp only [if_neg k2] at h ⊢
                by_cases k3 : d = '/'
                · subst k3
                  simp only [if_true] at h ⊢
                  obtain ⟨t', rfl, a1⟩ := inv_slash rfl h
                  rw [a1]
                  refine ⟨_, _, [], t', (key (y := []) .nil).1, ws_nil, .inr ⟨?_, ?_⟩⟩
                  · rw [← (key .nil).2]; rfl
                  · rfl
                · simp only [if_neg k3] at h; exact ended_fail rfl h
        · simp only [if_neg h2] at h ⊢
          by_cases k2 : c = '>'
          · subst k2
            simp only [if_true]
            exact ⟨[], [], w0, t, .nil, hw, .inl ⟨rfl, by simp⟩⟩
          · simp only [if_neg k2] at h ⊢
            by_cases k3 : c = '/'
            · subst k3
              simp only [if_true] at h ⊢
              obtain ⟨t', rfl, a1⟩ := inv_slash rfl h
              rw [a1]
              exact ⟨[], [], w0, t', .nil, hw, .inr ⟨rfl, by simp [finishTag_goto]⟩⟩
            · simp only [if_neg k3] at h; exact ended_fail rfl h

theorem inv_tagName {t : Str} : ∀ {s : PState} {n : Str}, s.mode = .tagName n → Ended (run norm s t) →
    ∃ r t', (∀ c ∈ r, isNameChar c = true) ∧ t = r ++ t' ∧ TagRest norm s (n ++ r) [] t' (run norm s t) := by
  induction t with
  | nil => intro s n hs h; obtain ⟨p, h⟩ := ended_nil h; rw [hs] at h; cases h
  | cons c t ih =>
    intro s n hs h
    rw [run_cons] at h ⊢
    have e : Xml.step norm s c = stepTagName norm s n c := by simp only [Xml.step, hs]
    rw [e] at h ⊢
    unfold stepTagName at h ⊢
    by_cases h1 : isNameChar c = true
    · simp only [if_pos h1] at h ⊢
      obtain ⟨r, t', g0, rfl, g3⟩ := ih rfl h
      refine ⟨c :: r, t', ?_, rfl, ?_⟩
      · intro x hx
        rcases List.mem_cons.1 hx with rfl | hx
        · exact h1
        · exact g0 x hx
      · simpa [TagRest, finishTag_goto] using g3
    · simp only [if_neg h1] at h ⊢
      by_cases h2 : isWs c = true
      · simp only [if_pos h2] at h ⊢
        have := inv_inTag _ (Nat.le_refl _) (s := s.goto (.inTag n [])) (w0 := [c]) rfl (ws_cons h2 ws_nil) (by simp) h
        exact ⟨[], c :: t, by simp, rfl, by simpa [TagRest, finishTag_goto] using this⟩
      · simp only [if_neg h2] at h ⊢
        by_cases k2 : c = '>'
        · subst k2
          simp only [if_true]
          exact ⟨[], '>' :: t, by simp, rfl, [], [], [], t, .nil, ws_nil, .inl ⟨rfl, by simp⟩⟩
        · simp only [if_neg k2] at h ⊢
          by_cases k3 : c = '/'
          · subst k3
            simp only [if_true] at h ⊢
            obtain ⟨t', rfl, a1⟩ := inv_slash rfl h
            rw [a1]
            exact ⟨[], _, by simp, rfl, [], [], [], t', .nil, ws_nil, .inr ⟨rfl, by simp [finishTag_goto]⟩⟩
          · simp only [if_neg k3] at h; exact ended_fail rfl h

/-! ## End tags -/

theorem inv_endWs {n t : Str} : ∀ {s : PState}, s.mode = .endWs n → Ended (run norm s t) →
    ∃ w t', Ws w ∧ t = w ++ '>' :: t' ∧ run norm s t = run norm (finishEnd s n) t' := by
  induction t with
  | nil => intro s hs h; obtain ⟨p, h⟩ := ended_nil h; rw [hs] at h; cases h
  | cons c t ih =>
    intro s hs h
    rw [run_cons] at h ⊢
    have e : Xml.step norm s c = if isWs c then s else if c = '>' then finishEnd s n else s.err := by simp only [Xml.step, hs]
    rw [e] at h ⊢
    by_cases h1 : isWs c = true
    · simp only [if_pos h1] at h ⊢
      obtain ⟨w, t', g1, rfl, g3⟩ := ih hs h
      exact ⟨c :: w, t', ws_cons h1 g1, rfl, g3⟩
    · simp only [if_neg h1] at h ⊢
      by_cases h2 : c = '>'
      · subst h2
        exact ⟨[], t, ws_nil, rfl, by simp⟩
      · simp only [if_neg h2] at h; exact ended_fail rfl h

theorem inv_endName {t : Str} : ∀ {s : PState} {n : Str}, s.mode = .endName n → Ended (run norm s t) →
    ∃ r w t', Ws w ∧ t = r ++ (w ++ '>' :: t') ∧ run norm s t = run norm (finishEnd s (n ++ r)) t' := by
  induction t with
  | nil => intro s n hs h; obtain ⟨p, h⟩ := ended_nil h; rw [hs] at h; cases h
  | cons c t ih =>
    intro s n hs h
    rw [run_cons] at h ⊢
    have e : Xml.step norm s c = stepEndName s n c := by simp only [Xml.step, hs]
    rw [e] at h ⊢
    unfold stepEndName at h ⊢
    by_cases h1 : isNameChar c = true
    · simp only [if_pos h1] at h ⊢
      obtain ⟨r, w, t', g1, rfl, g3⟩ := ih rfl h
      exact ⟨c :: r, w, t', g1, rfl, by rw [g3]; simp [finishEnd_goto]⟩
    · simp only [if_neg h1] at h ⊢
      by_cases h2 : c = '>'
      · subst h2
        exact ⟨[], [], t, ws_nil, rfl, by simp⟩
      · simp only [if_neg h2] at h ⊢
        by_cases h3 : isWs c = true
        · simp only [if_pos h3] at h ⊢
          obtain ⟨w, t', g1, rfl, g3⟩ := inv_endWs rfl h
          exact ⟨[], c :: w, t', ws_cons h3 g1, rfl, by rw [g3]; simp [finishEnd_goto]⟩
        · simp only [if_neg h3] at h; exact ended_fail rfl h

/-! ## Comments, CDATA sections, processing instructions -/

theorem inv_comment {t : Str} : ∀ {s : PState} {d : Nat}, s.mode = .comment d → d ≤ 2 → Ended (run norm s t) →
    ∃ x t', List.replicate d '-' ++ t = x ++ (str% "-->" ++ t') ∧ XmlChars x ∧ ¬ (str% "--") <:+: x ∧ x.getLast? ≠ some '-' ∧
      run norm s t = run norm ((flush s true).goto (.text false)) t' := by
  induction t with
  | nil => intro s n hs _ h; obtain ⟨p, h⟩ := ended_nil h; rw [hs] at h; cases h
  | cons c t ih =>
    intro s d hs hd h
    rw [run_cons] at h ⊢
    have e : Xml.step norm s c = stepComment s d c := by simp only [Xml.step, hs]
    rw [e] at h ⊢
    unfold stepComment at h ⊢
    by_cases h1 : 2 ≤ d
    · simp only [if_pos h1] at h ⊢
      obtain rfl : d = 2 := by omega
      by_cases h2 : c = '>'
      · subst h2
        refine ⟨[], t, rfl, fun _ h => absurd h (by simp), ?_, by simp, by simp⟩
        rintro ⟨a, b, h⟩; simp at h
      · simp only [if_neg h2] at h; exact ended_fail rfl h
    · simp only [if_neg h1] at h ⊢
      by_cases h2 : c = '-'
      · subst h2
        simp only [if_true] at h ⊢
        obtain ⟨x, t', g1, g2, g3, g4, g5⟩ := ih rfl (by omega) h
        refine ⟨x, t', ?_, g2, g3, g4, g5⟩
        rw [← g1, List.replicate_succ', List.append_assoc]; rfl
      · simp only [if_neg h2] at h ⊢
        by_cases h3 : isXmlChar c = true
        · simp only [if_pos h3] at h ⊢
          obtain ⟨x, t', g1, g2, g3, g4, g5⟩ := ih rfl (by omega) h
          simp only [List.replicate_zero, List.nil_append] at g1
          refine ⟨List.replicate d '-' ++ c :: x, t', by rw [g1]; simp, ?_, ?_, ?_, g5⟩
          · intro y hy
            rcases List.mem_append.1 hy with hy | hy
            · rw [(List.mem_replicate.1 hy).2]; exact (isXmlChar_iff _).1 (by decide)
            · rcases List.mem_cons.1 hy with rfl | hy
              · exact (isXmlChar_iff _).1 h3
              · exact g2 y hy
          · have hno : ¬ (str% "--") <:+: (c :: x) := by
              rintro ⟨a, b, e⟩
              cases a with
              | nil => simp only [List.nil_append, List.cons_append, List.cons.injEq] at e; exact h2 e.1.symm
              | cons y a => simp only [List.cons_append, List.cons.injEq] at e; exact g3 ⟨a, b, by simpa using e.2⟩
            have hd : d = 0 ∨ d = 1 := by omega
            rcases hd with rfl | rfl
            · exact hno
            · rintro ⟨a, b, e⟩
              cases a with
              | nil =>
                simp only [List.nil_append, List.cons_append, List.replicate_succ, List.replicate_zero, List.cons.injEq] at e
                exact h2 e.2.1.symm
              | cons y a =>
                simp only [List.cons_append, List.replicate_succ, List.replicate_zero, List.nil_append, List.cons.injEq] at e
                exact hno ⟨a, b, by simpa using e.2⟩
          · rw [List.getLast?_append, List.getLast?_cons]
            cases hx : x.getLast? with
            | none => simp; exact h2
            | some y => rw [hx] at g4; simpa using g4
        · simp only [if_neg h3] at h; exact ended_fail rfl h

theorem inv_cdata {t : Str} : ∀ {s : PState} {d : Nat}, s.mode = .cdata d → Ended (run norm s t) →
    ∃ x t', List.replicate d ']' ++ t = x ++ (str% "]]>" ++ t') ∧ XmlChars x ∧ ¬ (str% "]]>") <:+: x ∧
      run norm s t = run norm ((flush s true).goto (.text false)) t' := by
  induction t with
  | nil => intro s n hs h; obtain ⟨p, h⟩ := ended_nil h; rw [hs] at h; cases h
  | cons c t ih =>
    intro s d hs h
    rw [run_cons] at h ⊢
    have e : Xml.step norm s c = stepCdata s d c := by simp only [Xml.step, hs]
    rw [e] at h ⊢
    have hrep : ∀ k, XmlChars (List.replicate k ']') := by
      intro k y hy
      rw [(List.mem_replicate.1 hy).2]; exact (isXmlChar_iff _).1 (by decide)
    unfold stepCdata at h ⊢
    by_cases h2 : c = ']'
    · subst h2
      simp only [if_true] at h ⊢
      obtain ⟨x, t', g1, g2, g3, g5⟩ := ih rfl h
      refine ⟨x, t', ?_, g2, g3, g5⟩
      rw [← g1, List.replicate_succ', List.append_assoc]; rfl
    · simp only [if_neg h2] at h ⊢
      by_cases h1 : c = '>' ∧ 2 ≤ d
      · simp only [if_pos h1]
        obtain ⟨rfl, h1⟩ := h1
        obtain ⟨k, rfl⟩ : ∃ k, d = k + 2 := ⟨d - 2, by omega⟩
        refine ⟨List.replicate k ']', t, by simp [List.replicate_add], hrep k, ?_, rfl⟩
        intro hi
        have : '>' ∈ List.replicate k ']' := hi.subset (by simp)
        have := (List.mem_replicate.1 this).2
        revert this; decide
      · simp only [if_neg h1] at h ⊢
        by_cases h3 : isXmlChar c = true
        · simp only [if_pos h3] at h ⊢
          obtain ⟨x, t', g1, g2, g3, g5⟩ := ih rfl h
          simp only [List.replicate_zero, List.nil_append] at g1
          refine ⟨List.replicate d ']' ++ c :: x, t', by rw [g1]; simp, ?_, ?_, g5⟩
          · intro y hy
            rcases List.mem_append.1 hy with hy | hy
            · exact hrep d y hy
            · rcases List.mem_cons.1 hy with rfl | hy
              · exact (isXmlChar_iff _).1 h3
              · exact g2 y hy
          · have hno : ¬ (str% "]]>") <:+: (c :: x) := by
              rintro ⟨a, b, e⟩
              cases a with
              | nil => simp only [List.nil_append, List.cons_append, List.cons.injEq] at e; exact h2 e.1.symm
              | cons y a => simp only [List.cons_append, List.cons.injEq] at e; exact g3 ⟨a, b, by simpa using e.2⟩
            clear g1 h ih hs e
            induction d with
            | zero => exact hno
            | succ d ihd =>
              rintro ⟨a, b, e⟩
              cases a with
              | nil =>
                simp only [List.nil_append, List.cons_append, List.replicate_succ, List.cons.injEq, true_and] at e
                cases d with
                | zero =>
                  simp only [List.replicate_zero, List.nil_append, List.cons.injEq] at e
                  exact h2 e.1.symm
                | succ d =>
                  simp only [List.cons_append, List.replicate_succ, List.cons.injEq, true_and] at e
                  cases d with
                  | zero =>
                    simp only [List.replicate_zero, List.nil_append, List.cons.injEq] at e
                    exact h1 ⟨e.1.symm, by omega⟩
                  | succ d =>
                    simp only [List.cons_append, List.replicate_succ, List.cons.injEq] at e
                    exact absurd e.1 (by decide)
              | cons y a =>
                simp only [List.cons_append, List.replicate_succ, List.cons.injEq] at e
                exact ihd (fun h => h1 ⟨h.1, by omega⟩) ⟨a, b, by simpa using e.2⟩
        · simp only [if_neg h3] at h; exact ended_fail rfl h

theorem inv_pi {t : Str} : ∀ {s : PState} {q : Str}, s.mode = .pi q → XmlChars q → ¬ (str% "?>") <:+: q → Ended (run norm s t) →
    ∃ x t', q ++ t = x ++ (str% "?>" ++ t') ∧ XmlChars x ∧ ¬ (str% "?>") <:+: x ∧ piOk s.events.isEmpty x = true ∧
      run norm s t = run norm ((flush s true).goto (.text false)) t' := by
  induction t with
  | nil => intro s n hs _ _ h; obtain ⟨p, h⟩ := ended_nil h; rw [hs] at h; cases h
  | cons c t ih =>
    intro s q hs hc hq h
    rw [run_cons] at h ⊢
    have e : Xml.step norm s c = stepPi s q c := by simp only [Xml.step, hs]
    rw [e] at h ⊢
    unfold stepPi at h ⊢
    by_cases h1 : c = '>' ∧ q.getLast? = some '?'
    · simp only [if_pos h1] at h ⊢
      obtain ⟨rfl, h1⟩ := h1
      obtain ⟨x, rfl⟩ := List.getLast?_eq_some_iff.1 h1
      rw [List.dropLast_concat] at h ⊢
      by_cases h2 : piOk s.events.isEmpty x = true
      · simp only [if_pos h2]
        refine ⟨x, t, by simp, fun y hy => hc y (by simp [hy]), ?_, h2, rfl⟩
        rintro ⟨a, b, e⟩
        exact hq ⟨a, b ++ ['?'], by rw [← e]; simp⟩
      · simp only [if_neg h2] at h; exact ended_fail rfl h
    · simp only [if_neg h1] at h ⊢
      by_cases h3 : isXmlChar c = true
      · simp only [if_pos h3] at h ⊢
        obtain ⟨x, t', g1, g2, g3, g4, g5⟩ := ih (s := s.goto (.pi (q ++ [c]))) rfl (by
            intro y hy
            rcases List.mem_append.1 hy with hy | hy
            · exact hc y hy
            · rw [List.mem_singleton.1 hy]; exact (isXmlChar_iff _).1 h3) (by
            rintro ⟨a, b, e⟩
            cases b using List.reverseRecOn with
            | nil =>
              have e' : (a ++ ['?']) ++ ['>'] = q ++ [c] := by rw [← e]; simp
              obtain ⟨e1, e2⟩ := List.append_inj' e' rfl
              apply h1
              refine ⟨by simpa using e2.symm, ?_⟩
              rw [← e1]; simp
            | append_singleton b y _ =>
              have e' : (a ++ (str% "?>" ++ b)) ++ [y] = q ++ [c] := by rw [← e]; simp
              obtain ⟨e1, _⟩ := List.append_inj' e' rfl
              exact hq ⟨a, b, by rw [← e1]; simp⟩) h
        exact ⟨x, t', by rw [← g1]; simp, g2, g3, g4, g5⟩
      · simp only [if_neg h3] at h; exact ended_fail rfl h

theorem inv_pseudo {key s v r : Str} (h : pseudo key s = some (v, r)) : ∃ a, s = a ++ r ∧ Pseudo key v a := by
  have hdw : ∀ u : Str, ∃ w, Ws w ∧ u = w ++ u.dropWhile isWs := by
    intro u
    refine ⟨u.takeWhile isWs, all_ws.1 ?_, (List.takeWhile_append_dropWhile).symm⟩
    exact List.all_takeWhile
  unfold pseudo at h
  split at h
  · cases h
  · rename_i c u
    split at h
    · rename_i hc
      obtain ⟨hc, hk⟩ := hc
      obtain ⟨w, hw, ew⟩ := hdw u
      rw [List.isPrefixOf_iff_prefix] at hk
      obtain ⟨u1, e1⟩ := hk
      rw [← e1, List.drop_left] at h
      obtain ⟨w1, hw1, ew1⟩ := hdw u1
      split at h
      · rename_i u2 e2
        obtain ⟨w2, hw2, ew2⟩ := hdw u2
        split at h
        · rename_i q u3 e3
          split at h
          · rename_i hq
            split at h
            · rename_i v' y r' e4
              cases h
              rw [List.span_eq_takeWhile_dropWhile, Prod.mk.injEq] at e4
              have e5 : u3 = v ++ y :: r := by
                have := List.takeWhile_append_dropWhile (p := (· != q)) (l := u3)
                rw [e4.1, e4.2] at this; exact this.symm
              have e6 : y = q := by
                have := List.head?_dropWhile_not (· != q) u3
                rw [e4.2] at this
                simpa using this
              subst e6
              refine ⟨c :: w ++ (key ++ (w1 ++ '=' :: (w2 ++ y :: (v ++ [y])))), ?_,
                c :: w, w1, w2, y, by simp, ws_cons hc hw, hw1, hw2, hq, rfl⟩
              rw [ew, ← e1, ew1, e2, ew2, e3, e5]
              simp
            · cases h
          · cases h
        · cases h
      · cases h
    · cases h

theorem inv_declOk {s : Str} (h : declOk s = true) : DeclTail s := by
  unfold declOk at h
  split at h
  · rename_i v r hv
    obtain ⟨a, rfl, ha⟩ := inv_pseudo hv
    rw [Bool.and_eq_true, Bool.or_eq_true, beq_iff_eq, beq_iff_eq] at h
    obtain ⟨h1, h⟩ := h
    have hp : ∀ {key : Str} {ok : Str → Bool} {s r : Str}, pseudo? key ok s = some r →
        ∃ b, s = b ++ r ∧ (b = [] ∨ ∃ v, ok v = true ∧ Pseudo key v b) := by
      intro key ok s r h
      unfold pseudo? at h
      split at h
      · rename_i v r' hv
        split at h
        · rename_i hok
          cases h
          obtain ⟨b, rfl, hb⟩ := inv_pseudo hv
          exact ⟨b, rfl, .inr ⟨v, hok, hb⟩⟩
        · cases h
      · cases h; exact ⟨[], rfl, .inl rfl⟩
    split at h
    · rename_i w hw
      rw [Option.bind_eq_some_iff] at hw
      obtain ⟨r1, h2, h3⟩ := hw
      obtain ⟨b, rfl, hb⟩ := hp h2
      obtain ⟨c, rfl, hc⟩ := hp h3
      refine ⟨v, a, b, c, w, h1, ha, ?_, ?_, all_ws.1 h, rfl⟩
      · rcases hb with hb | ⟨e, he, hb⟩
        · exact .inl hb
        · exact .inr ⟨e, by simpa using he, hb⟩
      · rcases hc with hc | ⟨y, hy, hc⟩
        · exact .inl hc
        · exact .inr ⟨y, by simpa using hy, hc⟩
    · cases h
  · cases h

/-- What a processing instruction may be. -/
theorem inv_piOk {first : Bool} {x : Str} (h : piOk first x = true) (hc : XmlChars x) (hq : ¬ (str% "?>") <:+: x) :
    (first = true ∧ ∃ s, x = str% "xml" ++ s ∧ DeclTail s) ∨
    ∃ n s, x = n ++ s ∧ NameText n ∧ n.map Char.toLower ≠ str% "xml" ∧ (∀ c ∈ s.head?, Ws [c]) ∧ XmlChars s ∧ ¬ (str% "?>") <:+: s := by
  have e := (List.takeWhile_append_dropWhile (p := isNameChar) (l := x)).symm
  unfold piOk at h
  simp only at h
  split at h
  · rename_i hn
    rw [Bool.and_eq_true] at h
    refine .inl ⟨h.1, x.dropWhile isNameChar, ?_, inv_declOk h.2⟩
    rw [← hn]; exact e
  · rw [Bool.and_eq_true, Bool.and_eq_true] at h
    obtain ⟨⟨h1, h2⟩, h3⟩ := h
    refine .inr ⟨x.takeWhile isNameChar, x.dropWhile isNameChar, e, ?_, by simpa using h2, ?_, ?_, ?_⟩
    · rw [nameText_iff]
      cases hn : x.takeWhile isNameChar with
      | nil => rw [hn] at h1; cases h1
      | cons c r =>
        rw [hn] at h1
        refine ⟨c, r, rfl, by simpa using h1, ?_⟩
        intro d hd
        exact List.all_eq_true.1 (List.all_takeWhile (p := isNameChar) (l := x)) d (by rw [hn]; simp [hd])
    · intro c hc'
      cases hr : x.dropWhile isNameChar with
      | nil => rw [hr] at hc'; cases hc'
      | cons y r =>
        rw [hr] at hc' h3
        cases hc'
        exact all_ws.1 (by simpa using h3)
    · intro c hc'
      exact hc c ((List.dropWhile_suffix isNameChar).subset hc')
    · exact fun h => hq (h.trans (List.dropWhile_suffix isNameChar).isInfix)

/-! ## Text -/

theorem inv_text_in {o : List (Str × List Str)} (ho : o ≠ []) {r : Bool} {ev : List XmlEvent} (N : Nat) : ∀ {t : Str}, t.length ≤ N → ∀ {p : Bool},
    Ended (run norm ⟨.text p, o, r, ev⟩ t) →
    ∃ s t', t = s ++ t' ∧ Text s ∧ (t' = [] ∨ ∃ u, t' = '<' :: u) ∧
      run norm ⟨.text p, o, r, ev⟩ t = run norm ⟨.text (p || !s.isEmpty), o, r, ev⟩ t' := by
  induction N with
  | zero =>
    intro t ht p h
    obtain rfl := List.eq_nil_of_length_eq_zero (Nat.le_zero.1 ht)
    exact ⟨[], [], rfl, .nil, .inl rfl, by simp⟩
  | succ N ih =>
    intro t ht p h
    cases t with
    | nil => exact ⟨[], [], rfl, .nil, .inl rfl, by simp⟩
    | cons c t =>
      simp only [List.length_cons] at ht
      by_cases h1 : c = '<'
      · subst h1; exact ⟨[], _, rfl, .nil, .inr ⟨t, rfl⟩, by simp⟩
      rw [run_cons] at h ⊢
      simp only [Xml.step, stepText, if_neg h1, if_neg ho] at h ⊢
      by_cases h2 : c = '&'
      · subst h2
        simp only [if_true] at h ⊢
        obtain ⟨e, x, t', rfl, h4, h5⟩ := inv_textEnt rfl h
        rw [h5] at h ⊢
        obtain ⟨s, t'', rfl, g1, g2, g3⟩ := ih (by simp at ht; omega) h
        refine ⟨('&' :: (e ++ [';'])) ++ s, t'', by simp, .ref (reference_of (by simpa using h4)) g1, g2, ?_⟩
        simpa [PState.goto] using g3
      · simp only [if_neg h2] at h ⊢
        by_cases h3 : isXmlChar c = true
        · simp only [if_pos h3] at h ⊢
          obtain ⟨s, t'', rfl, g1, g2, g3⟩ := ih (by omega) h
          refine ⟨c :: s, t'', rfl, .plain ((isXmlChar_iff c).1 h3) h1 h2 g1, g2, ?_⟩
          simpa [PState.goto] using g3
        · simp only [if_neg h3] at h; exact ended_fail rfl h

theorem inv_text_out {r : Bool} {ev : List XmlEvent} {t : Str} : ∀ {p : Bool}, Ended (run norm ⟨.text p, [], r, ev⟩ t) →
    ∃ s t', t = s ++ t' ∧ Ws s ∧ (t' = [] ∨ ∃ u, t' = '<' :: u) ∧
      run norm ⟨.text p, [], r, ev⟩ t = run norm ⟨.text (p || !s.isEmpty), [], r, ev⟩ t' := by
  induction t with
  | nil => intro p h; exact ⟨[], [], rfl, ws_nil, .inl rfl, by simp⟩
  | cons c t ih =>
    intro p h
    by_cases h1 : c = '<'
    · subst h1; exact ⟨[], _, rfl, ws_nil, .inr ⟨t, rfl⟩, by simp⟩
    rw [run_cons] at h ⊢
    simp only [Xml.step, stepText, if_neg h1, if_true] at h ⊢
    by_cases h3 : isWs c = true
    · simp only [if_pos h3] at h ⊢
      obtain ⟨s, t'', rfl, g1, g2, g3⟩ := ih h
      refine ⟨c :: s, t'', rfl, ws_cons h3 g1, g2, ?_⟩
      simpa [PState.goto] using g3
    · simp only [if_neg h3] at h; exact ended_fail rfl h

/-! ## Parts -/

/-- The names of open elements are names. -/
def Named (o : List (Str × List Str)) : Prop := ∀ x ∈ o, NameText x.1

theorem named_tag {s : PState} {n : Str} {as : List (Str × Str)} {e : Bool} (hs : Named s.opened) (hn : NameText n) :
    Named (finishTag norm s n as e).opened := by
  simp only [finishTag]
  split
  · split
    · exact hs
    · simp only
      split
      · exact hs
      · intro x hx
        rcases List.mem_cons.1 hx with rfl | hx
        · exact hn
        · exact hs x hx
  · exact hs

theorem named_end {s : PState} {n : Str} (hs : Named s.opened) (h : (finishEnd s n).mode ≠ .fail) :
    NameText n ∧ Named (finishEnd s n).opened := by
  unfold finishEnd at h ⊢
  split
  · rename_i h0; simp only [h0] at h; exact absurd rfl h
  · rename_i m ds rest h0
    simp only [h0] at h
    rw [h0] at hs
    split
    · rename_i h1
      subst h1
      refine ⟨hs _ (List.mem_cons_self), ?_⟩
      split
      · exact fun x hx => hs x (List.mem_cons_of_mem _ hx)
      · rename_i h2; simp only [if_true, h2] at h; exact absurd rfl h
    · rename_i h1; rw [if_neg h1] at h; exact absurd rfl h

theorem not_fail {s : PState} {t : Str} (h : Ended (run norm s t)) : s.mode ≠ .fail := fun hf => ended_fail hf h

theorem settle_text (p : Bool) (o : List (Str × List Str)) (r : Bool) (ev : List XmlEvent) :
    settle ⟨.text p, o, r, ev⟩ = between o r (ev ++ pend p) := rfl

/-- A text the parser accepts consists of parts, and the parser reads them one after the other. -/
theorem parts_of_run (N : Nat) : ∀ {t : Str}, t.length ≤ N → ∀ {p : Bool} {o : List (Str × List Str)} {r : Bool} {ev : List XmlEvent},
    Named o → Ended (run norm ⟨.text p, o, r, ev⟩ t) → (p = false ∨ t = [] ∨ ∃ u, t = '<' :: u) →
    ∃ ts, Toks norm.char (ev ++ pend p).isEmpty (!p) t ts ∧
      tokRun norm (between o r (ev ++ pend p)) ts = some (settle (run norm ⟨.text p, o, r, ev⟩ t)) := by
  induction N with
  | zero =>
    intro t ht p o r ev _ h _
    obtain rfl := List.eq_nil_of_length_eq_zero (Nat.le_zero.1 ht)
    exact ⟨[], .nil, rfl⟩
  | succ N ih =>
    -- markup
    have markup : ∀ {u : Str}, u.length ≤ N → ∀ {p : Bool} {o : List (Str × List Str)} {r : Bool} {ev : List XmlEvent} (b : Bool),
        Named o → Ended (run norm ⟨.text p, o, r, ev⟩ ('<' :: u)) →
        ∃ ts, Toks norm.char (ev ++ pend p).isEmpty b ('<' :: u) ts ∧
          tokRun norm (between o r (ev ++ pend p)) ts = some (settle (run norm ⟨.text p, o, r, ev⟩ ('<' :: u))) := by
      intro u hu p o r ev b ho h
      rw [run_cons, step_lt'] at h ⊢
      generalize ev ++ pend p = ev at *
      -- the rest, after this part
      have next : ∀ {t' : Str} {o' r' ev'}, t'.length ≤ N → Named o' → ev' ≠ [] → Ended (run norm ⟨.text false, o', r', ev'⟩ t') →
          ∃ ts, Toks norm.char false true t' ts ∧ tokRun norm (between o' r' ev') ts = some (settle (run norm ⟨.text false, o', r', ev'⟩ t')) := by
        intro t' o' r' ev' hl ho' hev h'
        obtain ⟨ts, h1, h2⟩ := ih hl ho' h' (.inl rfl)
        have e : ev' ++ pend false = ev' := List.append_nil _
        rw [e] at h1 h2
        rw [List.isEmpty_eq_false_iff.2 hev] at h1
        exact ⟨ts, h1, h2⟩
      have after : ∀ {t' : Str} {m : Mode}, t'.length ≤ N → Ended (run norm ((flush ⟨m, o, r, ev⟩ true).goto (.text false)) t') →
          ∃ ts, Toks norm.char false true t' ts ∧ tokRun norm (between o r (ev ++ [.other])) ts =
            some (settle (run norm ((flush ⟨m, o, r, ev⟩ true).goto (.text false)) t')) := by
        intro t' m hl h'
        exact next hl ho (by simp) h'
      have nextTag : ∀ {t' : Str} {s : PState}, t'.length ≤ N → Named s.opened → (∃ o r ev, s = between o r ev) → s.events ≠ [] → Ended (run norm s t') →
          ∃ ts, Toks norm.char false true t' ts ∧ tokRun norm s ts = some (settle (run norm s t')) := by
        rintro t' s hl hs ⟨o', r', ev', rfl⟩ hev h'
        exact next hl hs hev h'
      cases u with
      | nil => obtain ⟨p, h⟩ := ended_nil h; cases h
      | cons c u =>
        simp only [List.length_cons] at hu
        rw [run_cons] at h ⊢
        have e : Xml.step norm ⟨.lt, o, r, ev⟩ c = stepLt ⟨.lt, o, r, ev⟩ c := rfl
        rw [e] at h ⊢
        unfold stepLt at h ⊢
        by_cases c1 : c = '/'
        · -- an end tag
          subst c1
          simp only [if_true] at h ⊢
          obtain ⟨n, w, t', g1, rfl, g2⟩ := inv_endName rfl h
          rw [List.nil_append] at g2
          rw [g2] at h ⊢
          have hf := not_fail h
          obtain ⟨k1, k2⟩ := named_end (s := PState.goto ⟨.lt, o, r, ev⟩ (.endName [])) ho hf
          have hev : (finishEnd (PState.goto ⟨.lt, o, r, ev⟩ (.endName [])) n).events ≠ [] := by
            unfold finishEnd at hf ⊢
            split
            · rename_i h0; simp only [h0] at hf; exact absurd rfl hf
            · rename_i h0
              simp only [h0] at hf
              split
              · rename_i h1
                rw [if_pos h1] at hf
                split
                · simp
                · rename_i h2; simp only [h2] at hf; exact absurd rfl hf
              · rename_i h1; rw [if_neg h1] at hf; exact absurd rfl hf
          obtain ⟨ts, a1, a2⟩ := nextTag (by simp at hu; omega) k2 (finishEnd_text hf) hev h
          refine ⟨.stop n :: ts, .stop k1 g1 a1, ?_⟩
          simp only [tokRun, tokStep]
          rw [show finishEnd (between o r ev) n = finishEnd (PState.goto ⟨.lt, o, r, ev⟩ (.endName [])) n from rfl, if_neg hf, Option.bind_some, a2]
        · simp only [if_neg c1] at h ⊢
          by_cases c2 : c = '!'
          · -- a comment or CDATA section
            subst c2
            simp only [if_true] at h ⊢
            have hb : ∀ {seen : Str} {t : Str}, Ended (run norm ⟨.bang seen, o, r, ev⟩ t) →
                ∃ d t', t = d :: t' ∧ run norm ⟨.bang seen, o, r, ev⟩ t = run norm (stepBang ⟨.bang seen, o, r, ev⟩ seen d) t' := by
              intro seen t h
              cases t with
              | nil => obtain ⟨p, h⟩ := ended_nil h; cases h
              | cons d t => exact ⟨d, t, rfl, rfl⟩
            have hpre : ∀ {seen : Str} {t : Str}, seen <+: str% "[CDATA[" → seen.length < 7 → Ended (run norm ⟨.bang seen, o, r, ev⟩ t) →
                seen ≠ [] → ∃ t', t = (str% "[CDATA[").drop seen.length ++ t' ∧ o ≠ [] ∧ run norm ⟨.bang seen, o, r, ev⟩ t = run norm ⟨.cdata 0, o, r, ev⟩ t' := by
              intro seen t hp hl h hne
              have hm : ∀ m, 7 - seen.length = m → ∃ t', t = (str% "[CDATA[").drop seen.length ++ t' ∧ o ≠ [] ∧
                  run norm ⟨.bang seen, o, r, ev⟩ t = run norm ⟨.cdata 0, o, r, ev⟩ t' := by
                intro m
                induction m generalizing seen t with
                | zero => intro h; omega
                | succ m ihm =>
                  intro hm
                  obtain ⟨d, t', rfl, e1⟩ := hb h
                  rw [e1] at h ⊢
                  obtain ⟨x, hx⟩ := hp
                  cases x with
                  | nil =>
                    rw [List.append_nil] at hx
                    rw [hx] at hl
                    simp at hl
                  | cons y x =>
                    have hnd : seen ++ [d] ≠ str% "--" := by
                      intro hh
                      cases seen with
                      | nil => exact hne rfl
                      | cons a seen =>
                        simp only [List.cons_append, List.cons.injEq] at hh hx
                        rw [hh.1] at hx
                        exact absurd hx.1 (by decide)
                    unfold stepBang at h ⊢
                    simp only [if_neg hnd] at h ⊢
                    by_cases hd : seen ++ [d] = str% "[CDATA["
                    · simp only [if_pos hd] at h ⊢
                      have hle : seen.length = 6 := by have := congrArg List.length hd; simpa using this
                      have hdy : seen ++ [d] = seen ++ (y :: x) := hd.trans hx.symm
                      have hdx := List.append_cancel_left hdy
                      by_cases hoo : o = []
                      · simp only [if_pos hoo] at h; exact ended_fail rfl h
                      · simp only [if_neg hoo]
                        refine ⟨t', ?_, hoo, rfl⟩
                        rw [← hd, List.drop_left]; rfl
                    · simp only [if_neg hd] at h ⊢
                      by_cases hq : ((seen ++ [d]).isPrefixOf (str% "--") || (seen ++ [d]).isPrefixOf (str% "[CDATA[")) = true
                      · simp only [if_pos hq] at h ⊢
                        rw [Bool.or_eq_true, List.isPrefixOf_iff_prefix, List.isPrefixOf_iff_prefix] at hq
                        have hq' : (seen ++ [d]) <+: str% "[CDATA[" := by
                          rcases hq with ⟨z, hz⟩ | hq
                          · cases seen with
                            | nil => exact absurd rfl hne
                            | cons a seen =>
                              simp only [List.cons_append, List.cons.injEq] at hz hx
                              rw [hz.1] at hx
                              exact absurd hx.1 (by decide)
                          · exact hq
                        have hl' : (seen ++ [d]).length < 7 := by
                          rcases Nat.lt_or_ge (seen ++ [d]).length 7 with hh | hh
                          · exact hh
                          · exact absurd (hq'.eq_of_length_le (by simpa using hh)) hd
                        obtain ⟨t'', rfl, g1, g2⟩ := ihm hq' hl' h (by simp) (by simp; omega)
                        refine ⟨t'', ?_, g1, g2⟩
                        obtain ⟨z, hz⟩ := hq'
                        have e3 : str% "[CDATA[" = seen ++ (d :: z) := by rw [← hz]; simp
                        rw [show (str% "[CDATA[").drop (seen ++ [d]).length = z by rw [← hz, List.drop_left],
                          show (str% "[CDATA[").drop seen.length = d :: z by rw [e3, List.drop_left]]
                        rfl
                      · simp only [if_neg hq] at h; exact ended_fail rfl h
              exact hm _ rfl
            obtain ⟨d, t1, rfl, e1⟩ := hb (seen := []) h
            replace e1 : run norm (PState.goto ⟨.lt, o, r, ev⟩ (.bang [])) (d :: t1) = run norm (stepBang ⟨.bang [], o, r, ev⟩ [] d) t1 := e1
            rw [e1] at h ⊢
            by_cases d1 : d = '-'
            · subst d1
              obtain ⟨d, t2, rfl, e2⟩ := hb (seen := ['-']) h
              have e3 : stepBang ⟨.bang [], o, r, ev⟩ [] '-' = ⟨.bang ['-'], o, r, ev⟩ := rfl
              rw [e3] at h ⊢
              rw [e2] at h ⊢
              by_cases d2 : d = '-'
              · subst d2
                have e4 : stepBang ⟨.bang ['-'], o, r, ev⟩ ['-'] '-' = ⟨.comment 0, o, r, ev⟩ := rfl
                rw [e4] at h ⊢
                obtain ⟨x, t', g1, g2, g3, g4, g5⟩ := inv_comment rfl (by omega) h
                simp only [List.replicate_zero, List.nil_append] at g1
                subst g1
                rw [g5] at h ⊢
                obtain ⟨ts, a1, a2⟩ := after (by simp at hu ⊢; omega) h
                exact ⟨.space :: ts, .comment g2 g3 g4 a1, a2⟩
              · have e4 : (stepBang ⟨.bang ['-'], o, r, ev⟩ ['-'] d).mode = .fail := by
                  simp [stepBang, d2, PState.err, List.isPrefixOf]
                exact ended_fail e4 h
            · by_cases d2 : d = '['
              · subst d2
                have e3 : stepBang ⟨.bang [], o, r, ev⟩ [] '[' = ⟨.bang ['['], o, r, ev⟩ := rfl
                rw [e3] at h ⊢
                obtain ⟨t', rfl, hoo, g0⟩ := hpre (seen := ['[']) ⟨str% "CDATA[", rfl⟩ (by simp) h (by simp)
                rw [g0] at h ⊢
                obtain ⟨x, t'', g1, g2, g3, g5⟩ := inv_cdata rfl h
                simp only [List.replicate_zero, List.nil_append] at g1
                subst g1
                rw [g5] at h ⊢
                obtain ⟨ts, a1, a2⟩ := after (by simp at hu ⊢; omega) h
                refine ⟨.text :: ts, .cdata g2 g3 a1, ?_⟩
                have e : tokStep norm (between o r ev) .text = some (between o r (ev ++ [.other])) := if_neg hoo
                simp only [tokRun, e, Option.bind_some]
                exact a2
              · have e4 : (stepBang ⟨.bang [], o, r, ev⟩ [] d).mode = .fail := by
                  have d1' : ¬ '-' = d := fun h => d1 h.symm
                  have d2' : ¬ '[' = d := fun h => d2 h.symm
                  simp [stepBang, d1, d2, PState.err, List.isPrefixOf]
                exact ended_fail e4 h
          · simp only [if_neg c2] at h ⊢
            by_cases c3 : c = '?'
            · -- a processing instruction
              subst c3
              simp only [if_true] at h ⊢
              obtain ⟨x, t', g1, g2, g3, g4, g5⟩ := inv_pi rfl (fun _ h => absurd h (by simp)) (by
                rintro ⟨a, b, h⟩; simp at h) h
              rw [List.nil_append] at g1
              subst g1
              rw [g5] at h ⊢
              obtain ⟨ts, a1, a2⟩ := after (by simp at hu ⊢; omega) h
              refine ⟨.space :: ts, ?_, a2⟩
              rcases inv_piOk g4 g2 g3 with ⟨k1, s, rfl, k2⟩ | ⟨n, s, rfl, k1, k2, k3, k4, k5⟩
              · have e : '<' :: '?' :: (str% "xml" ++ s ++ (str% "?>" ++ t')) = (str% "<?xml" ++ (s ++ str% "?>")) ++ t' := by simp
                rw [e, show ev.isEmpty = true from k1]
                exact .declaration (declaration_iff.2 ⟨s, rfl, k2⟩) a1
              · have e : '<' :: '?' :: (n ++ s ++ (str% "?>" ++ t')) = str% "<?" ++ (n ++ (s ++ (str% "?>" ++ t'))) := by simp
                rw [e]
                exact .pi k1 k2 k3 k4 k5 a1
            · simp only [if_neg c3] at h ⊢
              by_cases c4 : isNameStart c = true
              · -- a start tag
                simp only [if_pos c4] at h ⊢
                obtain ⟨rr, t1, g1, rfl, g2⟩ := inv_tagName rfl h
                have hn : NameText (c :: rr) := nameText_iff.2 ⟨c, rr, rfl, c4, g1⟩
                obtain ⟨x, bs, w, t', k1, k2, k3⟩ := g2
                simp only [List.cons_append, List.nil_append] at k3
                have hev : ∀ {e}, (finishTag norm (PState.goto ⟨.lt, o, r, ev⟩ (.tagName [c])) (c :: rr) bs e).mode ≠ .fail →
                    (finishTag norm (PState.goto ⟨.lt, o, r, ev⟩ (.tagName [c])) (c :: rr) bs e).events ≠ [] := by
                  intro e hf
                  simp only [finishTag] at hf ⊢
                  split
                  · rename_i h1 h2
                    simp only [h1, h2] at hf
                    split
                    · rename_i h3; rw [if_pos h3] at hf; exact absurd rfl hf
                    · cases e <;> simp
                  · rename_i h0
                    split at hf
                    · rename_i h1 h2; exact absurd h2 (h0 _ _ h1)
                    · exact absurd rfl hf
                rcases k3 with ⟨rfl, k3⟩ | ⟨rfl, k3⟩
                · rw [k3] at h ⊢
                  have hf := not_fail h
                  obtain ⟨ts, a1, a2⟩ := nextTag (by simp at hu; omega)
                    (named_tag (s := PState.goto ⟨.lt, o, r, ev⟩ (.tagName [c])) ho hn) (finishTag_text hf) (hev hf) h
                  refine ⟨.start (c :: rr) bs :: ts, .start hn k1 k2 a1, ?_⟩
                  simp only [tokRun, tokStep]
                  rw [show finishTag norm (between o r ev) (c :: rr) bs false =
                    finishTag norm (PState.goto ⟨.lt, o, r, ev⟩ (.tagName [c])) (c :: rr) bs false from rfl, if_neg hf, Option.bind_some, a2]
                · rw [k3] at h ⊢
                  have hf := not_fail h
                  obtain ⟨ts, a1, a2⟩ := nextTag (by simp at hu; omega)
                    (named_tag (s := PState.goto ⟨.lt, o, r, ev⟩ (.tagName [c])) ho hn) (finishTag_text hf) (hev hf) h
                  refine ⟨.empty (c :: rr) bs :: ts, .empty hn k1 k2 a1, ?_⟩
                  simp only [tokRun, tokStep]
                  rw [show finishTag norm (between o r ev) (c :: rr) bs true =
                    finishTag norm (PState.goto ⟨.lt, o, r, ev⟩ (.tagName [c])) (c :: rr) bs true from rfl, if_neg hf, Option.bind_some, a2]
              · simp only [if_neg c4] at h; exact ended_fail rfl h
    -- text, or markup at once
    intro t ht p o r ev ho h hp
    rcases hp with rfl | rfl | ⟨u, rfl⟩
    · have step1 : ∃ (s t' : Str) (x : Tok), t = s ++ t' ∧ (t' = [] ∨ ∃ u, t' = '<' :: u) ∧
          run norm ⟨.text false, o, r, ev⟩ t = run norm ⟨.text (false || !s.isEmpty), o, r, ev⟩ t' ∧
          (s ≠ [] → ∀ {ts}, Toks norm.char false false t' ts → Toks norm.char ev.isEmpty true (s ++ t') (x :: ts)) ∧
          tokStep norm (between o r ev) x = some (between o r (ev ++ [.other])) := by
        by_cases hoo : o = []
        · subst hoo
          obtain ⟨s, t', g1, g2, g3, g4⟩ := inv_text_out h
          exact ⟨s, t', .space, g1, g3, g4, fun hs _ hts => .space hs g2 hts, rfl⟩
        · obtain ⟨s, t', g1, g2, g3, g4⟩ := inv_text_in hoo _ (Nat.le_refl _) h
          exact ⟨s, t', .text, g1, g3, g4, fun hs _ hts => .text hs g2 hts, if_neg hoo⟩
      obtain ⟨s, t', x, rfl, g1, g2, g3, g4⟩ := step1
      have e0 : ev ++ pend false = ev := List.append_nil _
      rw [e0]
      cases s with
      | nil =>
        rw [List.nil_append] at h ⊢
        rcases g1 with rfl | ⟨u, rfl⟩
        · exact ⟨[], .nil, by simp [tokRun, run_nil, settle_text, e0]⟩
        · have := markup (by simp at ht; omega) (!false) ho h
          rwa [e0] at this
      | cons c s =>
        rw [g2] at h ⊢
        simp only [Bool.false_or, List.isEmpty_cons, Bool.not_false] at h ⊢
        have e1 : (ev ++ pend true).isEmpty = false := by simp [pend]
        rcases g1 with rfl | ⟨u, rfl⟩
        · refine ⟨[x], g3 (by simp) .nil, ?_⟩
          simp only [tokRun, g4, Option.bind_some]
          rfl
        · obtain ⟨ts, a1, a2⟩ := markup (by simp at ht; omega) false ho h
          rw [e1] at a1
          refine ⟨x :: ts, g3 (by simp) a1, ?_⟩
          simp only [tokRun, g4, Option.bind_some]
          exact a2
    · exact ⟨[], .nil, rfl⟩
    · exact markup (by simp at ht; omega) (!p) ho h

/-! ## Documents -/

theorem accepted_iff {t : Str} {p : Bool} {ev : List XmlEvent} : run norm initial t = ⟨.text p, [], true, ev⟩ →
    ∃ f, WellFormed norm.char norm.manyRoots t f ∧ ev ++ pend p = f.events := by
  intro h
  obtain ⟨ts, h1, h2⟩ := parts_of_run (norm := norm) _ (Nat.le_refl _) (t := t) (p := false) (o := []) (r := false) (ev := [])
    (fun _ h => absurd h (by simp)) (by rw [show (⟨.text false, [], false, []⟩ : PState) = initial from rfl, h]; exact ⟨p, rfl⟩) (.inl rfl)
  rw [show (⟨.text false, [], false, []⟩ : PState) = initial from rfl, h, settle_text] at h2
  obtain ⟨i, f, g1, g2, g3⟩ := top_of_tokRun (norm := norm) _ (Nat.le_refl _) h2 rfl
  have e : (ev ++ pend p) = f.events := by
    have := congrArg PState.events g2
    simpa [between, pend] using this
  have hi : 0 < i := by
    have := congrArg PState.rooted g2
    simpa [between] using this
  refine ⟨f, ⟨ts, i, h1, g1, ?_⟩, e⟩
  rcases g3 with g3 | ⟨g3, _⟩ | g3
  · omega
  · exact .inl g3
  · rcases Nat.lt_or_ge 1 i with h | h
    · exact .inr ⟨g3, h⟩
    · left; omega

theorem run_wellFormed {t : Str} {f : Forest} (h : WellFormed norm.char norm.manyRoots t f) :
    ∃ p ev, run norm initial t = ⟨.text p, [], true, ev⟩ ∧ ev ++ pend p = f.events := by
  obtain ⟨ts, i, h1, h2, h3⟩ := h
  have hi : 0 < i := by rcases h3 with h3 | ⟨_, h3⟩ <;> omega
  have hz := tokRun_top (norm := norm) h2 false [] (by
    rcases h3 with h3 | ⟨h3, _⟩
    · exact .inr (.inl ⟨h3, rfl⟩)
    · exact .inr (.inr h3))
  rw [decide_eq_true hi] at hz
  obtain ⟨p, o, r, ev, e1, e2⟩ := run_parts h1 false (by simp) [] false [] (by simp [pend]) hz
  simp only [between, Bool.or_true, List.nil_append, PState.mk.injEq, true_and] at e2
  obtain ⟨rfl, rfl, e2⟩ := e2
  exact ⟨p, ev, e1, e2.symm⟩

/-- The events of a well formed document. -/
theorem wellFormed_events {t : Str} {f : Forest} (h : WellFormed norm.char norm.manyRoots t f) :
    eventsOfBytes norm (Utf8.encode t) = f.events.map some ++ [some .other] ∨ eventsOfBytes norm (Utf8.encode t) = f.events.map some := by
  obtain ⟨p, ev, e1, e2⟩ := run_wellFormed h
  have e3 : eventsOfBytes norm (Utf8.encode t) = ev.map some ++ [some .other] := by
    have e1' : t.foldl (Xml.step norm) initial = ⟨.text p, [], true, ev⟩ := e1
    simp only [eventsOfBytes, Utf8.decodePrefix_encode, events, e1']
    rfl
  rw [e3, ← e2]
  cases p
  · left; simp [pend]
  · right; simp [pend]

/-- Without an error only for well formed documents. -/
theorem wellFormed_of_events {bs : List UInt8} (h : none ∉ eventsOfBytes norm bs) :
    ∃ t f, bs = Utf8.encode t ∧ WellFormed norm.char norm.manyRoots t f := by
  simp only [eventsOfBytes, events, List.mem_append, List.mem_singleton, not_or] at h
  have hc : (complete ((Utf8.decodePrefix bs).1.foldl (Xml.step norm) initial) && (Utf8.decodePrefix bs).2) = true := by
    by_contra hc
    rw [if_neg hc] at h
    exact h.2 rfl
  rw [Bool.and_eq_true] at hc
  refine ⟨(Utf8.decodePrefix bs).1, ?_⟩
  have e : ∃ p ev, run norm initial (Utf8.decodePrefix bs).1 = ⟨.text p, [], true, ev⟩ := by
    have h1 := hc.1
    rw [show (Utf8.decodePrefix bs).1.foldl (Xml.step norm) initial = run norm initial (Utf8.decodePrefix bs).1 from rfl] at h1
    generalize run norm initial (Utf8.decodePrefix bs).1 = z at h1
    obtain ⟨m, o, r, ev⟩ := z
    unfold complete at h1
    split at h1
    · rename_i p hp
      simp only [Bool.and_eq_true, List.isEmpty_iff] at h1
      obtain ⟨rfl, rfl⟩ := h1
      simp only at hp
      subst hp
      exact ⟨p, ev, rfl⟩
    · cases h1
  obtain ⟨p, ev, e⟩ := e
  obtain ⟨f, h1, _⟩ := accepted_iff e
  exact ⟨f, Utf8.eq_encode_of_prefix hc.2, h1⟩

end Osmio.Spec.Gram
