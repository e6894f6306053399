import Verif.Proofs.XmlGrammar
/-! # Lemmas: the parser reads the parts of a text given by the grammar -/

namespace Osmio.Spec.Gram
open Xml Osmio.Spec.Lex

variable {norm : Xml.Config}

theorem nameText_iff {s : Str} : NameText s ↔ ∃ c r, s = c :: r ∧ isNameStart c = true ∧ ∀ d ∈ r, isNameChar d = true := by
  simp only [NameText, isNameStart_iff, isNameChar_iff]

theorem nameText_chars {n : Str} (h : NameText n) : ∀ c ∈ n, isNameChar c = true := by
  obtain ⟨c, r, rfl, h1, h3⟩ := nameText_iff.1 h
  intro x hx
  rcases List.mem_cons.1 hx with rfl | hx
  · simp [isNameChar, h1]
  · exact h3 x hx

/-! ## The XML declaration -/

theorem dropWhile_ws {w u : Str} (hw : Ws w) (hu : ∀ c ∈ u.head?, isWs c = false) : (w ++ u).dropWhile isWs = u := by
  rw [List.dropWhile_append_of_pos (ws_isWs hw)]
  cases u with
  | nil => rfl
  | cons c u => rw [List.dropWhile_cons_of_neg (by simp [hu c rfl])]

theorem span_quote {q : Char} {v r : Str} (h : q ∉ v) : (v ++ q :: r).span (· != q) = (v, q :: r) := by
  rw [List.span_eq_takeWhile_dropWhile]
  induction v with
  | nil => simp
  | cons c v ih =>
    have hc : (c != q) = true := by rw [bne_iff_ne]; rintro rfl; exact h (by simp)
    have ih := ih fun h' => h (by simp [h'])
    rw [Prod.mk.injEq] at ih
    simp only [List.cons_append, List.takeWhile_cons, List.dropWhile_cons, hc, if_true, ih.1, ih.2]

/-- A part of the declaration is found. -/
theorem pseudo_of {key v a : Str} (h : Pseudo key v a) (h1 : '"' ∉ v) (h2 : '\'' ∉ v) (hk : key ≠ []) (hk' : ∀ c ∈ key.head?, isWs c = false)
    (r : Str) : pseudo key (a ++ r) = some (v, r) := by
  obtain ⟨w, w1, w2, q, hw0, hw, hw1, hw2, hq, rfl⟩ := h
  cases w with
  | nil => exact absurd rfl hw0
  | cons c w =>
    have hc := ws_isWs hw c (by simp)
    have hw' : Ws w := fun x hx => hw x (by simp [hx])
    have e1 : (w ++ (key ++ (w1 ++ '=' :: (w2 ++ q :: (v ++ q :: r))))).dropWhile isWs =
        key ++ (w1 ++ '=' :: (w2 ++ q :: (v ++ q :: r))) := by
      refine dropWhile_ws hw' ?_
      cases key with
      | nil => exact absurd rfl hk
      | cons x key => exact hk'
    have e2 : (w1 ++ '=' :: (w2 ++ q :: (v ++ q :: r))).dropWhile isWs = '=' :: (w2 ++ q :: (v ++ q :: r)) :=
      dropWhile_ws hw1 (by simp [isWs])
    have e3 : (w2 ++ q :: (v ++ q :: r)).dropWhile isWs = q :: (v ++ q :: r) := by
      refine dropWhile_ws hw2 ?_
      rcases hq with rfl | rfl <;> simp [isWs]
    have e4 : (v ++ q :: r).span (· != q) = (v, q :: r) := by
      refine span_quote ?_
      rcases hq with rfl | rfl
      · exact h1
      · exact h2
    have e5 : key.isPrefixOf (key ++ (w1 ++ '=' :: (w2 ++ q :: (v ++ q :: r)))) = true := by
      rw [List.isPrefixOf_iff_prefix]; exact ⟨_, rfl⟩
    simp only [List.cons_append, List.append_assoc, List.nil_append, pseudo, e1, e5, hc, and_self, if_true, List.drop_left, e2, e3, if_pos hq, e4]

/-- A part of the declaration is missing. -/
theorem pseudo_none {key w u : Str} (hw : Ws w) (hu : ∀ c ∈ u.head?, isWs c = false) (hk : ¬ key <+: u) : pseudo key (w ++ u) = none := by
  cases w with
  | nil =>
    cases u with
    | nil => rfl
    | cons c u =>
      have : ¬ (isWs c = true ∧ key.isPrefixOf (u.dropWhile isWs) = true) := by
        rintro ⟨h, _⟩; rw [hu c rfl] at h; cases h
      simp only [List.nil_append, pseudo, if_neg this]
  | cons c w =>
    have hw' : Ws w := fun x hx => hw x (by simp [hx])
    have : ¬ (isWs c = true ∧ key.isPrefixOf ((w ++ u).dropWhile isWs) = true) := by
      rintro ⟨_, h⟩
      rw [dropWhile_ws hw' hu, List.isPrefixOf_iff_prefix] at h
      exact hk h
    simp only [List.cons_append, pseudo, if_neg this]

theorem map_lower_quote {e s : Str} (h : e.map Char.toLower = s) (h1 : '"' ∉ s) (h2 : '\'' ∉ s) : '"' ∉ e ∧ '\'' ∉ e := by
  subst h
  refine ⟨fun h => h1 ?_, fun h => h2 ?_⟩
  · exact List.mem_map.2 ⟨'"', h, by decide⟩
  · exact List.mem_map.2 ⟨'\'', h, by decide⟩

theorem all_ws {w : Str} : w.all isWs = true ↔ Ws w := by
  rw [List.all_eq_true]
  constructor
  · intro h c hc
    have := h c hc
    simp only [isWs, Bool.or_eq_true, beq_iff_eq] at this
    rcases this with ((h | h) | h) | h
    · exact .inl h
    · exact .inr (.inl h)
    · exact .inr (.inr (.inl h))
    · exact .inr (.inr (.inr h))
  · exact ws_isWs

/-- What may stand in a declaration after `xml`. -/
def DeclTail (s : Str) : Prop :=
  ∃ version a b c w, (version = str% "1.0" ∨ version = str% "1.1") ∧ Pseudo (str% "version") version a ∧
    (b = [] ∨ ∃ e, (e.map Char.toLower = str% "utf-8" ∨ e.map Char.toLower = str% "utf8") ∧ Pseudo (str% "encoding") e b) ∧
    (c = [] ∨ ∃ y, (y = str% "yes" ∨ y = str% "no") ∧ Pseudo (str% "standalone") y c) ∧ Ws w ∧
    s = a ++ (b ++ (c ++ w))

theorem declOk_of {s : Str} (h : DeclTail s) : declOk s = true := by
  obtain ⟨version, a, b, c, w, hv, ha, hb, hc, hw, rfl⟩ := h
  have hws : ∀ key, key ≠ [] → pseudo key w = none := by
    intro key hk
    have := pseudo_none (key := key) (u := []) hw (by simp) (by simpa using hk)
    simpa using this
  have e1 : pseudo (str% "version") (a ++ (b ++ (c ++ w))) = some (version, b ++ (c ++ w)) := by
    refine pseudo_of ha ?_ ?_ (by simp) (by simp [isWs]) _
    all_goals rcases hv with rfl | rfl <;> decide
  have e2 : pseudo? (str% "encoding") (fun e => e.map Char.toLower == str% "utf-8" || e.map Char.toLower == str% "utf8") (b ++ (c ++ w)) = some (c ++ w) := by
    rcases hb with rfl | ⟨e, he, hb⟩
    · have : pseudo (str% "encoding") (c ++ w) = none := by
        rcases hc with rfl | ⟨y, hy, w0, w1, w2, q, _, h0, _, _, _, rfl⟩
        · exact hws _ (by simp)
        · simp only [List.append_assoc]
          refine pseudo_none h0 (by simp [isWs]) ?_
          intro h
          simp [List.cons_prefix_cons] at h
      simp only [List.nil_append, pseudo?, this]
    · obtain ⟨g1, g2⟩ : '"' ∉ e ∧ '\'' ∉ e := by
        rcases he with he | he <;> exact map_lower_quote he (by decide) (by decide)
      have g3 : (e.map Char.toLower == str% "utf-8" || e.map Char.toLower == str% "utf8") = true := by
        rcases he with he | he <;> rw [he] <;> rfl
      simp only [pseudo?, pseudo_of hb g1 g2 (by simp) (by simp [isWs]), g3, if_true]
  have e3 : pseudo? (str% "standalone") (fun y => y == str% "yes" || y == str% "no") (c ++ w) = some w := by
    rcases hc with rfl | ⟨y, hy, hc⟩
    · simp only [List.nil_append, pseudo?, hws (str% "standalone") (by simp)]
    · have g1 : '"' ∉ y ∧ '\'' ∉ y := by rcases hy with rfl | rfl <;> decide
      have g2 : (y == str% "yes" || y == str% "no") = true := by rcases hy with rfl | rfl <;> rfl
      simp only [pseudo?, pseudo_of hc g1.1 g1.2 (by simp) (by simp [isWs]), g2, if_true]
  have e4 : (version == str% "1.0" || version == str% "1.1") = true := by rcases hv with rfl | rfl <;> rfl
  simp only [declOk, e1, e2, Option.bind_some, e3, e4, Bool.true_and]
  exact all_ws.2 hw

theorem declTail_chars {s : Str} (h : DeclTail s) : (∀ c ∈ s, isXmlChar c = true) ∧ '?' ∉ s ∧ ∃ c r, s = c :: r ∧ isWs c = true := by
  obtain ⟨version, a, b, c, w, hv, ha, hb, hc, hw, rfl⟩ := h
  have hP : ∀ {key v s : Str}, (∀ c ∈ key, isXmlChar c = true ∧ c ≠ '?') → (∀ c ∈ v, isXmlChar c = true ∧ c ≠ '?') → Pseudo key v s →
      ∀ c ∈ s, isXmlChar c = true ∧ c ≠ '?' := by
    intro key v s hk hv h
    have hws : ∀ {w : Str}, Ws w → ∀ c ∈ w, isXmlChar c = true ∧ c ≠ '?' := by
      intro w hw c hc
      refine ⟨(ws_not_special (ws_isWs hw c hc)).2.2, ?_⟩
      rintro rfl
      exact absurd (ws_isWs hw _ hc) (by decide)
    obtain ⟨w, w1, w2, q, _, hw, hw1, hw2, hq, rfl⟩ := h
    intro c hc
    have hq' : isXmlChar q = true ∧ q ≠ '?' := by rcases hq with rfl | rfl <;> decide
    simp only [List.mem_append, List.mem_cons, List.not_mem_nil, or_false] at hc
    rcases hc with hc | hc | hc | rfl | hc | rfl | hc | rfl
    · exact hws hw c hc
    · exact hk c hc
    · exact hws hw1 c hc
    · decide
    · exact hws hw2 c hc
    · exact hq'
    · exact hv c hc
    · exact hq'
  have hA := hP (by decide) (by rcases hv with rfl | rfl <;> decide) ha
  have hB : ∀ c ∈ b, isXmlChar c = true ∧ c ≠ '?' := by
    rcases hb with rfl | ⟨e, he, hb⟩
    · simp
    · refine hP (by decide) ?_ hb
      intro c hc
      have h1 : c.toLower ∈ str% "utf-8" := by
        have h0 : c.toLower ∈ e.map Char.toLower := List.mem_map.2 ⟨c, hc, rfl⟩
        rcases he with he | he
        · rw [← he]; exact h0
        · rw [he] at h0
          exact (show (str% "utf8") ⊆ str% "utf-8" by decide) h0
      have h2 : c.toNat ≤ 127 ∧ 32 ≤ c.toNat ∧ c ≠ '?' := by
        by_cases hu : c.isUpper = true
        · simp only [Char.isUpper, ge_iff_le, decide_eq_true_eq, UInt32.le_iff_toNat_le] at hu
          have a1 : 65 ≤ c.toNat := hu.1
          have a2 : c.toNat ≤ 90 := hu.2
          refine ⟨by omega, by omega, ?_⟩
          rintro rfl; revert a1; decide
        · have : c.toLower = c := by
            unfold Char.toLower
            simp only [Char.isUpper, ge_iff_le, decide_eq_true_eq] at hu
            rw [dif_neg]
            exact hu
          rw [this] at h1
          simp only [List.mem_cons, List.not_mem_nil, or_false] at h1
          rcases h1 with rfl | rfl | rfl | rfl | rfl <;> decide
      refine ⟨?_, h2.2.2⟩
      simp only [isXmlChar, Bool.or_eq_true, Bool.and_eq_true, decide_eq_true_eq]
      left; left; right; omega
  have hC : ∀ x ∈ c, isXmlChar x = true ∧ x ≠ '?' := by
    rcases hc with rfl | ⟨y, hy, hc⟩
    · simp
    · exact hP (by decide) (by rcases hy with rfl | rfl <;> decide) hc
  have hall : ∀ x ∈ a ++ (b ++ (c ++ w)), isXmlChar x = true ∧ x ≠ '?' := by
    intro x hx
    simp only [List.mem_append] at hx
    rcases hx with hx | hx | hx | hx
    · exact hA x hx
    · exact hB x hx
    · exact hC x hx
    · refine ⟨(ws_not_special (ws_isWs hw x hx)).2.2, ?_⟩
      rintro rfl
      exact absurd (ws_isWs hw _ hx) (by decide)
  refine ⟨fun x hx => (hall x hx).1, fun h => (hall _ h).2 rfl, ?_⟩
  obtain ⟨w0, w1, w2, q, h0, h1, _, _, _, rfl⟩ := ha
  cases w0 with
  | nil => exact absurd rfl h0
  | cons x w0 => exact ⟨x, _, rfl, ws_isWs h1 x (by simp)⟩

theorem declaration_iff {d : Str} : Declaration d ↔ ∃ s, d = str% "<?xml" ++ (s ++ str% "?>") ∧ DeclTail s := by
  constructor
  · rintro ⟨version, a, b, c, w, hv, ha, hb, hc, hw, rfl⟩
    exact ⟨a ++ (b ++ (c ++ w)), by simp, version, a, b, c, w, hv, ha, hb, hc, hw, rfl⟩
  · rintro ⟨_, rfl, version, a, b, c, w, hv, ha, hb, hc, hw, rfl⟩
    exact ⟨version, a, b, c, w, hv, ha, hb, hc, hw, by simp⟩

/-! ## Attributes -/

theorem run_quoted {q : Char} (hq : q = '"' ∨ q = '\'') {src v : Str} (h : Quoted norm.char q src v) (s : PState) (n : Str)
    (as : List (Str × Str)) (k acc : Str) (hs : s.mode = .attrVal n as k q acc) :
    run norm s src = s.goto (.attrVal n as k q (acc ++ v)) := by
  induction h generalizing s acc with
  | nil => cases s; simp_all [run, PState.goto]
  | @plain c src v h1 h2 h3 h4 _ ih =>
    replace h1 := (isXmlChar_iff c).2 h1
    have e : Xml.step norm s c = s.goto (.attrVal n as k q (acc ++ [norm.char c])) := by
      simp only [Xml.step, hs, stepAttrVal, if_neg h4, if_neg h2, if_neg h3, h1, if_true]
    rw [run_cons, e, ih _ (acc ++ [norm.char c]) rfl]
    simp [PState.goto]
  | @ref r c src v hr _ ih =>
    obtain ⟨e, rfl, he, hres⟩ := reference_cases hr
    have h1 : Xml.step norm s '&' = s.goto (.attrEnt n as k q acc []) := by
      have hne : ('&' : Char) ≠ q := by rcases hq with rfl | rfl <;> decide
      simp only [Xml.step, hs, stepAttrVal, if_neg hne]
      rfl
    have h2 : ∀ s' : PState, s'.mode = .attrEnt n as k q acc e → Xml.step norm s' ';' = s'.goto (.attrVal n as k q (acc ++ [c])) := by
      intro s' hs'
      simp only [Xml.step, hs', stepAttrEnt, if_true, hres]
    rw [run_append, run_cons, run_append, h1, run_attrEnt _ n as k q acc [] e he rfl, run_cons, run_nil, h2 _ rfl,
      ih _ (acc ++ [c]) rfl]
    simp [PState.goto]

theorem run_attributes {t : Str} {as : List (Str × Str)} (h : Attrs norm.char t as) (s : PState) (n : Str) (pre : List (Str × Str))
    (hs : InTag s.mode n pre) : ∃ m, InTag m n (pre ++ as) ∧ run norm s t = s.goto m := by
  induction h generalizing s pre with
  | nil => exact ⟨s.mode, by simpa using hs, by cases s; rfl⟩
  | @cons w key w1 w2 q src value t as hw0 hw hkey hw1 hw2 hq hv _ ih =>
    obtain ⟨c, r, rfl, hc, hr⟩ := nameText_iff.1 hkey
    have e1 : run norm s w = s.goto (.inTag n pre) := by
      cases w with
      | nil => exact absurd rfl hw0
      | cons x w =>
        rw [run_cons, step_inTag_ws hs (ws_isWs hw x (by simp)), run_inTag_ws (fun y hy => hw y (by simp [hy])) rfl]
        rfl
    have e2 : Xml.step norm (s.goto (.inTag n pre)) c = s.goto (.attrName n pre [c]) := by
      simp only [Xml.step, PState.goto, stepInTag, nameStart_not_ws hc, hc, if_true, Bool.false_eq_true, if_false]
    have e3 : run norm (s.goto (.attrName n pre [c])) r = s.goto (.attrName n pre (c :: r)) := by
      rw [run_attrName' hr rfl]; rfl
    have e4 : run norm (s.goto (.attrName n pre (c :: r))) (w1 ++ ['=']) = s.goto (.attrPre n pre (c :: r)) := by
      have heq : isNameChar '=' = false := by decide +kernel
      have hws : isWs '=' = false := by decide
      cases w1 with
      | nil =>
        rw [List.nil_append, run_cons, run_nil]
        simp only [Xml.step, PState.goto, stepAttrName, heq, Bool.false_eq_true, if_false, if_true]
      | cons x w1 =>
        have hx := ws_isWs hw1 x (by simp)
        have hne : x ≠ '=' := by rintro rfl; rw [hws] at hx; cases hx
        have : Xml.step norm (s.goto (.attrName n pre (c :: r))) x = s.goto (.attrEq n pre (c :: r)) := by
          simp only [Xml.step, PState.goto, stepAttrName, ws_not_name hx, hx, if_neg hne, if_true, Bool.false_eq_true, if_false]
        rw [List.cons_append, run_cons, this, run_append, run_attrEq_ws (fun y hy => hw1 y (List.mem_cons_of_mem _ hy)) rfl, run_cons, run_nil]
        simp only [Xml.step, PState.goto, stepAttrEq, hws, Bool.false_eq_true, if_false, if_true]
    have e5 : run norm (s.goto (.attrPre n pre (c :: r))) (w2 ++ [q]) = s.goto (.attrVal n pre (c :: r) q []) := by
      rw [run_append, run_attrPre_ws hw2 rfl, run_cons, run_nil]
      have : isWs q = false := by rcases hq with rfl | rfl <;> rfl
      simp only [Xml.step, PState.goto, stepAttrPre, this, Bool.false_eq_true, if_false, if_pos hq]
    have e6 : run norm (s.goto (.attrVal n pre (c :: r) q [])) (src ++ [q]) = s.goto (.attrDone n (pre ++ [(c :: r, value)])) := by
      rw [run_append, run_quoted hq hv _ n pre (c :: r) [] rfl, run_cons, run_nil]
      simp only [Xml.step, PState.goto, stepAttrVal, if_true, List.nil_append]
    obtain ⟨m, hm, e7⟩ := ih (s.goto (.attrDone n (pre ++ [(c :: r, value)]))) (pre ++ [(c :: r, value)]) (.inr (.inl rfl))
    refine ⟨m, by simpa using hm, ?_⟩
    have e : w ++ ((c :: r) ++ (w1 ++ '=' :: (w2 ++ q :: (src ++ q :: t)))) =
        w ++ (c :: (r ++ ((w1 ++ ['=']) ++ ((w2 ++ [q]) ++ ((src ++ [q]) ++ t))))) := by simp
    rw [e, run_append, e1, run_cons, e2, run_append, e3, run_append, e4, run_append, e5, run_append, e6, e7]
    rfl

/-! ## Parts -/

section
variable (o : List (Str × List Str)) (r : Bool) (ev : List XmlEvent)

theorem step_lt' (p : Bool) : Xml.step norm ⟨.text p, o, r, ev⟩ '<' = ⟨.lt, o, r, ev ++ pend p⟩ := by
  cases p <;> simp [Xml.step, stepText, flush, PState.goto, pend]

theorem run_tag' {n a w : Str} {as : List (Str × Str)} (h1 : NameText n) (h2 : Attrs norm.char a as) (hw : Ws w) (p : Bool) :
    ∃ m, InTag m n as ∧ run norm ⟨.text p, o, r, ev⟩ ('<' :: (n ++ (a ++ w))) = ⟨m, o, r, ev ++ pend p⟩ := by
  obtain ⟨c, t, rfl, hc, ht⟩ := nameText_iff.1 h1
  have e1 : Xml.step norm ⟨.lt, o, r, ev ++ pend p⟩ c = ⟨.tagName [c], o, r, ev ++ pend p⟩ := by
    have a1 : c ≠ '/' := by rintro rfl; revert hc; decide +kernel
    have a2 : c ≠ '!' := by rintro rfl; revert hc; decide +kernel
    have a3 : c ≠ '?' := by rintro rfl; revert hc; decide +kernel
    simp only [Xml.step, stepLt, if_neg a1, if_neg a2, if_neg a3, hc, if_true, PState.goto]
  have e2 : run norm ⟨.tagName [c], o, r, ev ++ pend p⟩ t = ⟨.tagName (c :: t), o, r, ev ++ pend p⟩ := by
    rw [run_tagName ht rfl]; rfl
  obtain ⟨m1, hm1, e3⟩ := run_attributes h2 ⟨.tagName (c :: t), o, r, ev ++ pend p⟩ (c :: t) [] (.inl ⟨rfl, rfl⟩)
  obtain ⟨m2, hm2, e4⟩ := run_ws (norm := norm) (s := PState.goto ⟨.tagName (c :: t), o, r, ev ++ pend p⟩ m1) hm1 hw
  refine ⟨m2, by simpa using hm2, ?_⟩
  rw [run_cons, step_lt', List.cons_append, run_cons, e1, run_append, e2, run_append, e3, e4]
  rfl

theorem run_text' {s : Str} (h : Text s) (ho : o ≠ []) (p : Bool) :
    run norm ⟨.text p, o, r, ev⟩ s = ⟨.text (p || !s.isEmpty), o, r, ev⟩ := by
  induction h generalizing p with
  | nil => simp [run]
  | @plain c s h1 h2 h3 _ ih =>
    replace h1 := (isXmlChar_iff c).2 h1
    have e : Xml.step norm ⟨.text p, o, r, ev⟩ c = ⟨.text true, o, r, ev⟩ := by
      simp only [Xml.step, stepText, if_neg h2, if_neg ho, if_neg h3, h1, if_true, PState.goto]
    rw [run_cons, e, ih]
    simp
  | @ref rr c s hr _ ih =>
    obtain ⟨e, rfl, he, hres⟩ := reference_cases hr
    have e1 : Xml.step norm ⟨.text p, o, r, ev⟩ '&' = ⟨.textEnt [], o, r, ev⟩ := by
      simp only [Xml.step, stepText, if_neg ho]
      rfl
    have e2 : ∀ e0, run norm ⟨.textEnt e0, o, r, ev⟩ e = ⟨.textEnt (e0 ++ e), o, r, ev⟩ := by
      clear hres e1 hr
      induction e with
      | nil => intro e0; simp [run]
      | cons x e ihe =>
        intro e0
        have hx := he x (by simp)
        have hne : x ≠ ';' := by rintro rfl; revert hx; decide +kernel
        have : Xml.step norm ⟨.textEnt e0, o, r, ev⟩ x = ⟨.textEnt (e0 ++ [x]), o, r, ev⟩ := by
          simp only [Xml.step, stepTextEnt, if_neg hne, hx, if_true, PState.goto]
        rw [run_cons, this, ihe (fun y hy => he y (by simp [hy]))]
        simp
    have e3 : Xml.step norm ⟨.textEnt e, o, r, ev⟩ ';' = ⟨.text true, o, r, ev⟩ := by
      simp only [Xml.step, stepTextEnt, if_true, hres, Option.isSome_some, PState.goto]
    rw [run_append, run_cons, e1, run_append, e2, List.nil_append, run_cons, run_nil, e3, ih]
    simp

theorem run_space' {s : Str} (h : Ws s) (p : Bool) :
    run norm ⟨.text p, o, r, ev⟩ s = ⟨.text (p || !s.isEmpty), o, r, ev⟩ := by
  induction s generalizing p with
  | nil => simp [run]
  | cons c s ih =>
    have hc := ws_isWs h c (by simp)
    obtain ⟨h1, h2, h3⟩ := ws_not_special hc
    have e : Xml.step norm ⟨.text p, o, r, ev⟩ c = ⟨.text true, o, r, ev⟩ := by
      simp only [Xml.step, stepText, if_neg h1, hc, if_true, if_neg h2, h3, PState.goto]
      split <;> rfl
    rw [run_cons, e, ih fun x hx => h x (by simp [hx])]
    simp

theorem run_comment' {s : Str} (hc : ∀ c ∈ s, isXmlChar c = true) (d : Nat)
    (hs : ¬ (str% "--") <:+: (List.replicate d '-' ++ s)) (hl : s.getLast? ≠ some '-') (hd : d = 0 ∨ s ≠ []) :
    run norm ⟨.comment d, o, r, ev⟩ s = ⟨.comment 0, o, r, ev⟩ := by
  induction s generalizing d with
  | nil => rcases hd with rfl | h; rfl; exact absurd rfl h
  | cons c s ih =>
    have hd2 : d < 2 := by
      by_contra h
      apply hs
      obtain ⟨k, rfl⟩ : ∃ k, d = k + 2 := ⟨d - 2, by omega⟩
      exact ⟨[], List.replicate k '-' ++ c :: s, by simp [List.replicate_succ]⟩
    by_cases hm : c = '-'
    · subst hm
      have hne : s ≠ [] := by rintro rfl; simp at hl
      have hd0 : d = 0 := by
        by_contra h
        have : d = 1 := by omega
        subst this
        exact hs ⟨[], s, rfl⟩
      subst hd0
      have e : Xml.step norm ⟨.comment 0, o, r, ev⟩ '-' = ⟨.comment 1, o, r, ev⟩ := by
        simp [Xml.step, stepComment, PState.goto]
      rw [run_cons, e]
      refine ih (fun x hx => hc x (by simp [hx])) 1 (by simpa using hs) ?_ (.inr hne)
      cases s with
      | nil => exact absurd rfl hne
      | cons y s => simpa using hl
    · have e : Xml.step norm ⟨.comment d, o, r, ev⟩ c = ⟨.comment 0, o, r, ev⟩ := by
        have : ¬ 2 ≤ d := by omega
        simp only [Xml.step, stepComment, if_neg hm, if_neg this, hc c (by simp), if_true, PState.goto]
      rw [run_cons, e]
      refine ih (fun x hx => hc x (by simp [hx])) 0 ?_ ?_ (.inl rfl)
      · intro h
        obtain ⟨a, b, h'⟩ := h
        exact hs ⟨List.replicate d '-' ++ c :: a, b, by simpa using h'⟩
      · cases s with
        | nil => simp
        | cons y s => simpa using hl

theorem run_cdata' {s : Str} (hc : ∀ c ∈ s, isXmlChar c = true) (d : Nat) (hs : ¬ (str% "]]>") <:+: (List.replicate d ']' ++ s)) :
    ∃ d', run norm ⟨.cdata d, o, r, ev⟩ s = ⟨.cdata d', o, r, ev⟩ := by
  induction s generalizing d with
  | nil => exact ⟨d, rfl⟩
  | cons c s ih =>
    by_cases hm : c = ']'
    · subst hm
      have e : Xml.step norm ⟨.cdata d, o, r, ev⟩ ']' = ⟨.cdata (d + 1), o, r, ev⟩ := by
        simp [Xml.step, stepCdata, PState.goto]
      rw [run_cons, e]
      refine ih (fun x hx => hc x (by simp [hx])) (d + 1) ?_
      rw [List.replicate_succ']
      simpa using hs
    · have e : Xml.step norm ⟨.cdata d, o, r, ev⟩ c = ⟨.cdata 0, o, r, ev⟩ := by
        have : ¬ (c = '>' ∧ 2 ≤ d) := by
          rintro ⟨rfl, hd⟩
          apply hs
          obtain ⟨k, rfl⟩ : ∃ k, d = k + 2 := ⟨d - 2, by omega⟩
          exact ⟨List.replicate k ']', s, by simp [List.replicate_add]⟩
        simp only [Xml.step, stepCdata, if_neg hm, if_neg this, hc c (by simp), if_true, PState.goto]
      rw [run_cons, e]
      refine ih (fun x hx => hc x (by simp [hx])) 0 ?_
      intro h
      obtain ⟨a, b, h'⟩ := h
      exact hs ⟨List.replicate d ']' ++ c :: a, b, by simpa using h'⟩

theorem run_pi' {s : Str} (hc : ∀ c ∈ s, isXmlChar c = true) (q : Str) (hs : ¬ (str% "?>") <:+: (q ++ s)) :
    run norm ⟨.pi q, o, r, ev⟩ s = ⟨.pi (q ++ s), o, r, ev⟩ := by
  induction s generalizing q with
  | nil => simp [run]
  | cons c s ih =>
    have e : Xml.step norm ⟨.pi q, o, r, ev⟩ c = ⟨.pi (q ++ [c]), o, r, ev⟩ := by
      have : ¬ (c = '>' ∧ q.getLast? = some '?') := by
        rintro ⟨rfl, h⟩
        obtain ⟨x, rfl⟩ := List.getLast?_eq_some_iff.1 h
        exact hs ⟨x, s, by simp⟩
      simp only [Xml.step, stepPi, if_neg this, hc c (by simp), if_true, PState.goto]
    rw [run_cons, e, ih (fun x hx => hc x (by simp [hx])) _ (by simpa using hs)]
    simp

/-- A processing instruction or declaration. -/
theorem run_instruction {x : Str} (hx : ∀ c ∈ x, isXmlChar c = true) (hq : ¬ (str% "?>") <:+: x) (p : Bool)
    (hok : piOk (ev ++ pend p).isEmpty x = true) :
    run norm ⟨.text p, o, r, ev⟩ (str% "<?" ++ (x ++ str% "?>")) = ⟨.text false, o, r, ev ++ pend p ++ [.other]⟩ := by
  have a1 : run norm ⟨.text p, o, r, ev⟩ (str% "<?") = ⟨.pi [], o, r, ev ++ pend p⟩ := by
    rw [run_cons, step_lt']; rfl
  have a2 := run_pi' (norm := norm) o r (ev ++ pend p) hx [] (by simpa using hq)
  rw [List.nil_append] at a2
  have b1 : Xml.step norm ⟨.pi x, o, r, ev ++ pend p⟩ '?' = ⟨.pi (x ++ ['?']), o, r, ev ++ pend p⟩ := by
    have : isXmlChar '?' = true := by decide
    simp [Xml.step, stepPi, this, PState.goto]
  rw [run_append, a1, run_append, a2, run_cons, b1, run_cons, run_nil]
  simp only [Xml.step, stepPi, List.getLast?_concat, List.dropLast_concat, and_self, if_true, hok]
  simp [flush, PState.goto]

end

theorem piOk_text {n s : Str} (first : Bool) (hn : NameText n) (hx : n.map Char.toLower ≠ str% "xml")
    (h0 : ∀ c ∈ s.head?, Ws [c]) : piOk first (n ++ s) = true := by
  have hne : n ≠ str% "xml" := by rintro rfl; exact hx rfl
  obtain ⟨e1, e2⟩ := takeWhile_name (nameText_chars hn) h0
  have hh : n.head?.any isNameStart = true := by
    obtain ⟨c, r, rfl, h1, _⟩ := nameText_iff.1 hn
    simpa using h1
  have hw : s.head?.all isWs = true := by
    cases s with
    | nil => rfl
    | cons c s => simpa using ws_isWs (h0 c rfl) c (by simp)
  simp only [piOk, e1, e2, if_neg hne, hh, hw, Bool.true_and, Bool.and_true]
  simpa using hx

theorem piOk_declaration {s : Str} (h : DeclTail s) : piOk true (str% "xml" ++ s) = true := by
  obtain ⟨_, _, c, r, e, hc⟩ := declTail_chars h
  obtain ⟨e1, e2⟩ := takeWhile_name (n := str% "xml") (s := s) (by decide +kernel) (by
    subst e
    intro x hx
    cases hx
    exact fun y hy => by rw [List.mem_singleton.1 hy]; exact (all_ws (w := [c])).1 (by simp [hc]) c (by simp))
  simp only [piOk, e1, e2, if_true, Bool.true_and]
  exact declOk_of h

/-- Pending text as an event: between two parts. -/
def settle (s : PState) : PState :=
  match s.mode with
  | .text p => between s.opened s.rooted (s.events ++ pend p)
  | _ => s

theorem finishTag_goto (s : PState) (m : Mode) (n : Str) (as : List (Str × Str)) (e : Bool) :
    finishTag norm (s.goto m) n as e = finishTag norm s n as e := rfl

theorem finishEnd_goto (s : PState) (m : Mode) (n : Str) : finishEnd (s.goto m) n = finishEnd s n := rfl

theorem finishTag_text {s : PState} {n : Str} {as : List (Str × Str)} {e : Bool} (h : (finishTag norm s n as e).mode ≠ .fail) :
    ∃ o r ev, finishTag norm s n as e = between o r ev := by
  simp only [finishTag] at h ⊢
  split
  · rename_i h1 h2
    split
    · rename_i hc
      simp only [h1, h2, if_pos hc] at h
      exact absurd rfl h
    · exact ⟨_, _, _, rfl⟩
  · rename_i h0
    split at h
    · rename_i h1 h2; exact absurd h2 (h0 _ _ h1)
    · exact absurd rfl h

theorem finishEnd_text {s : PState} {n : Str} (h : (finishEnd s n).mode ≠ .fail) : ∃ o r ev, finishEnd s n = between o r ev := by
  unfold finishEnd at h ⊢
  split
  · rename_i h0; simp only [h0] at h; exact absurd rfl h
  · rename_i m ds rest h0
    simp only [h0] at h
    split
    · rename_i h1
      rw [if_pos h1] at h
      split
      · exact ⟨_, _, _, rfl⟩
      · rename_i h2; simp only [h2] at h; exact absurd rfl h
    · rename_i h1; rw [if_neg h1] at h; exact absurd rfl h

/-- Reading a text, part by part. -/
theorem run_parts {a b : Bool} {t : Str} {ts : List Tok} (h : Toks norm.char a b t ts) (p : Bool) (hb : b = true → p = false)
    (o : List (Str × List Str)) (r : Bool) (ev : List XmlEvent) (ha : a = true → ev ++ pend p = []) {z : PState}
    (hz : tokRun norm (between o r (ev ++ pend p)) ts = some z) :
    ∃ p' o' r' ev', run norm ⟨.text p, o, r, ev⟩ t = ⟨.text p', o', r', ev'⟩ ∧ z = between o' r' (ev' ++ pend p') := by
  induction h generalizing p o r ev with
  | nil => cases hz; exact ⟨p, o, r, ev, rfl, rfl⟩
  | @declaration b d t ts hd _ ih =>
    obtain ⟨s, rfl, hs⟩ := declaration_iff.1 hd
    obtain ⟨p', o', r', ev', e1, e2⟩ := ih false (by simp) o r (ev ++ pend p ++ [.other]) (by simp) ((congrArg (fun e => tokRun norm (between o r e) ts) (List.append_nil _)).trans hz)
    refine ⟨p', o', r', ev', ?_, e2⟩
    obtain ⟨hc, hq, _⟩ := declTail_chars hs
    have e : str% "<?xml" ++ (s ++ str% "?>") ++ t = str% "<?" ++ ((str% "xml" ++ s) ++ str% "?>") ++ t := by simp
    have hq' : '?' ∉ str% "xml" ++ s := by
      intro h
      rcases List.mem_append.1 h with h | h
      · revert h; decide
      · exact hq h
    rw [e, run_append, run_instruction o r ev ?_ ?_ p ?_, e1]
    · intro c hc'
      rcases List.mem_append.1 hc' with hc' | hc'
      · exact (by decide : ∀ c ∈ str% "xml", isXmlChar c = true) c hc'
      · exact hc c hc'
    · rintro ⟨x, y, h⟩
      apply hq'
      rw [← h]; simp
    · rw [ha rfl]
      exact piOk_declaration hs
  | @space a s t ts hs hw _ ih =>
    have hp := hb rfl; subst hp
    obtain ⟨p', o', r', ev', e1, e2⟩ := ih true (by simp) o r ev (by simp) ((congrArg (fun e => tokRun norm (between o r (e ++ [.other])) ts) (List.append_nil ev).symm).trans hz)
    refine ⟨p', o', r', ev', ?_, e2⟩
    rw [run_append, run_space' o r ev hw]
    simpa [List.isEmpty_eq_false_iff.2 hs] using e1
  | @text a s t ts hs hw _ ih =>
    have hp := hb rfl; subst hp
    have ho : o ≠ [] := by rintro rfl; simp [tokRun, tokStep, between] at hz
    have hz' : tokRun norm (between o r (ev ++ pend true)) ts = some z := by
      have e : tokStep norm (between o r (ev ++ pend false)) .text = some (between o r (ev ++ pend true)) := by
        simp [tokStep, between, ho, pend]
      simpa only [tokRun, e, Option.bind_some] using hz
    obtain ⟨p', o', r', ev', e1, e2⟩ := ih true (by simp) o r ev (by simp) hz'
    refine ⟨p', o', r', ev', ?_, e2⟩
    rw [run_append, run_text' o r ev hw ho]
    simpa [List.isEmpty_eq_false_iff.2 hs] using e1
  | @comment a b s t ts hc h1 h2 _ ih =>
    obtain ⟨p', o', r', ev', e1, e2⟩ := ih false (by simp) o r (ev ++ pend p ++ [.other]) (by simp) ((congrArg (fun e => tokRun norm (between o r e) ts) (List.append_nil _)).trans hz)
    refine ⟨p', o', r', ev', ?_, e2⟩
    have a1 : run norm ⟨.text p, o, r, ev⟩ (str% "<!--") = ⟨.comment 0, o, r, ev ++ pend p⟩ := by
      rw [run_cons, step_lt']; rfl
    have a2 : run norm ⟨.comment 0, o, r, ev ++ pend p⟩ (str% "-->") = ⟨.text false, o, r, ev ++ pend p ++ [.other]⟩ := rfl
    rw [run_append, a1, run_append, run_comment' o r _ (xmlChars_iff.1 hc) 0 (by simpa using h1) h2 (.inl rfl), run_append, a2]
    exact e1
  | @cdata a b s t ts hc h1 _ ih =>
    have ho : o ≠ [] := by rintro rfl; simp [tokRun, tokStep, between] at hz
    have hz' : tokRun norm (between o r (ev ++ pend p ++ [.other])) ts = some z := by
      have e : tokStep norm (between o r (ev ++ pend p)) .text = some (between o r (ev ++ pend p ++ [.other])) := by
        simp [tokStep, between, ho]
      simpa only [tokRun, e, Option.bind_some] using hz
    obtain ⟨p', o', r', ev', e1, e2⟩ := ih false (by simp) o r (ev ++ pend p ++ [.other]) (by simp) (by simpa [pend] using hz')
    refine ⟨p', o', r', ev', ?_, e2⟩
    have a1 : run norm ⟨.text p, o, r, ev⟩ (str% "<![CDATA[") = ⟨.cdata 0, o, r, ev ++ pend p⟩ := by
      rw [run_cons, step_lt']
      cases o with
      | nil => exact absurd rfl ho
      | cons x st => rfl
    obtain ⟨d, a2⟩ := run_cdata' (norm := norm) o r (ev ++ pend p) (xmlChars_iff.1 hc) 0 (by simpa using h1)
    have a3 : run norm ⟨.cdata d, o, r, ev ++ pend p⟩ (str% "]]>") = ⟨.text false, o, r, ev ++ pend p ++ [.other]⟩ := by
      simp [run, Xml.step, stepCdata, PState.goto, flush]
    rw [run_append, a1, run_append, a2, run_append, a3]
    exact e1
  | @pi a b n s t ts h1 h2 h0 h3 h4 _ ih =>
    obtain ⟨p', o', r', ev', e1, e2⟩ := ih false (by simp) o r (ev ++ pend p ++ [.other]) (by simp) ((congrArg (fun e => tokRun norm (between o r e) ts) (List.append_nil _)).trans hz)
    refine ⟨p', o', r', ev', ?_, e2⟩
    have hx : ∀ c ∈ n ++ s, isXmlChar c = true := by
      intro c hc
      rcases List.mem_append.1 hc with hc | hc
      · exact nameChar_xml (nameText_chars h1 c hc)
      · exact xmlChars_iff.1 h3 c hc
    have e : str% "<?" ++ (n ++ (s ++ (str% "?>" ++ t))) = str% "<?" ++ ((n ++ s) ++ str% "?>") ++ t := by simp
    rw [e, run_append, run_instruction o r ev hx (pi_infix (nameText_chars h1) h4) p (piOk_text _ h1 h2 h0)]
    exact e1
  | @start a b n x as w t ts h1 h2 h4 _ ih =>
    obtain ⟨m, hm, e1⟩ := run_tag' o r ev h1 h2 h4 p
    simp only [tokRun, Option.bind_eq_some_iff] at hz
    obtain ⟨s, hs, hz⟩ := hz
    simp only [tokStep] at hs
    split at hs
    · cases hs
    rename_i hf
    cases hs
    obtain ⟨o1, r1, ev1, e0⟩ := finishTag_text hf
    rw [e0] at hz
    obtain ⟨p', o', r', ev', e2, e3⟩ := ih false (by simp) o1 r1 ev1 (by simp) (by simpa [pend] using hz)
    refine ⟨p', o', r', ev', ?_, e3⟩
    have e : '<' :: (n ++ (x ++ (w ++ '>' :: t))) = '<' :: (n ++ (x ++ w)) ++ '>' :: t := by simp
    have e4 : Xml.step norm ⟨m, o, r, ev ++ pend p⟩ '>' = finishTag norm (between o r (ev ++ pend p)) n as false := by
      have q1 : isNameChar '>' = false := by decide +kernel
      have q2 : isWs '>' = false := by decide
      have q3 : isNameStart '>' = false := by decide +kernel
      rcases hm with ⟨rfl, rfl⟩ | rfl | rfl
      · simp only [Xml.step, stepTagName, q1, q2, Bool.false_eq_true, if_false, if_true]; rfl
      · simp only [Xml.step, stepAttrDone, q2, Bool.false_eq_true, if_false, if_true]; rfl
      · simp only [Xml.step, stepInTag, q2, q3, Bool.false_eq_true, if_false, if_true]; rfl
    rw [e, run_append, e1, run_cons, e4, e0]
    exact e2
  | @empty a b n x as w t ts h1 h2 h4 _ ih =>
    obtain ⟨m, hm, e1⟩ := run_tag' o r ev h1 h2 h4 p
    simp only [tokRun, Option.bind_eq_some_iff] at hz
    obtain ⟨s, hs, hz⟩ := hz
    simp only [tokStep] at hs
    split at hs
    · cases hs
    rename_i hf
    cases hs
    obtain ⟨o1, r1, ev1, e0⟩ := finishTag_text hf
    rw [e0] at hz
    obtain ⟨p', o', r', ev', e2, e3⟩ := ih false (by simp) o1 r1 ev1 (by simp) (by simpa [pend] using hz)
    refine ⟨p', o', r', ev', ?_, e3⟩
    have e : '<' :: (n ++ (x ++ (w ++ '/' :: '>' :: t))) = '<' :: (n ++ (x ++ w)) ++ '/' :: '>' :: t := by simp
    have e4 : Xml.step norm ⟨m, o, r, ev ++ pend p⟩ '/' = ⟨.slash n as, o, r, ev ++ pend p⟩ := by
      have q1 : isNameChar '/' = false := by decide +kernel
      have q2 : isWs '/' = false := by decide
      have q3 : isNameStart '/' = false := by decide +kernel
      have q4 : ('/' : Char) ≠ '>' := by decide
      rcases hm with ⟨rfl, rfl⟩ | rfl | rfl
      · simp only [Xml.step, stepTagName, q1, q2, q4, Bool.false_eq_true, if_false, if_true, PState.goto]
      · simp only [Xml.step, stepAttrDone, q2, q4, Bool.false_eq_true, if_false, if_true, PState.goto]
      · simp only [Xml.step, stepInTag, q2, q3, q4, Bool.false_eq_true, if_false, if_true, PState.goto]
    have e5 : Xml.step norm ⟨.slash n as, o, r, ev ++ pend p⟩ '>' = finishTag norm (between o r (ev ++ pend p)) n as true := by
      simp only [Xml.step, if_true]; rfl
    rw [e, run_append, e1, run_cons, e4, run_cons, e5, e0]
    exact e2
  | @stop a b n w t ts h1 h2 _ ih =>
    simp only [tokRun, Option.bind_eq_some_iff] at hz
    obtain ⟨s, hs, hz⟩ := hz
    simp only [tokStep] at hs
    split at hs
    · cases hs
    rename_i hf
    cases hs
    obtain ⟨o1, r1, ev1, e0⟩ := finishEnd_text hf
    rw [e0] at hz
    obtain ⟨p', o', r', ev', e2, e3⟩ := ih false (by simp) o1 r1 ev1 (by simp) (by simpa [pend] using hz)
    refine ⟨p', o', r', ev', ?_, e3⟩
    have a1 : Xml.step norm ⟨.lt, o, r, ev ++ pend p⟩ '/' = ⟨.endName [], o, r, ev ++ pend p⟩ := rfl
    have a2 : run norm ⟨.endName [], o, r, ev ++ pend p⟩ n = ⟨.endName n, o, r, ev ++ pend p⟩ := by
      rw [run_endName (nameText_chars h1) rfl]; rfl
    have a3 : run norm ⟨.endName n, o, r, ev ++ pend p⟩ (w ++ ['>']) = finishEnd (between o r (ev ++ pend p)) n := by
      have q1 : isNameChar '>' = false := by decide +kernel
      have q2 : isWs '>' = false := by decide
      cases w with
      | nil =>
        rw [List.nil_append, run_cons, run_nil]
        simp only [Xml.step, stepEndName, q1, Bool.false_eq_true, if_false, if_true]; rfl
      | cons x w =>
        have hx := ws_isWs h2 x (by simp)
        have hne : x ≠ '>' := by rintro rfl; rw [q2] at hx; cases hx
        have : Xml.step norm ⟨.endName n, o, r, ev ++ pend p⟩ x = ⟨.endWs n, o, r, ev ++ pend p⟩ := by
          simp only [Xml.step, stepEndName, ws_not_name hx, hx, if_neg hne, Bool.false_eq_true, if_false, if_true, PState.goto]
        rw [List.cons_append, run_cons, this, run_append, run_endWs_ws (fun y hy => h2 y (List.mem_cons_of_mem _ hy)) rfl, run_cons, run_nil]
        simp only [Xml.step, q2, Bool.false_eq_true, if_false, if_true]; rfl
    have e : '<' :: '/' :: (n ++ (w ++ '>' :: t)) = '<' :: '/' :: (n ++ ((w ++ ['>']) ++ t)) := by simp
    rw [e, run_cons, step_lt', run_cons, a1, run_append, a2, run_append, a3, e0]
    exact e2

end Osmio.Spec.Gram
