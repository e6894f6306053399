import Verif.Proofs.XmlChars
import Verif.Lib.Xml
import Verif.Spec.Representable
import Verif.Proofs.RustNum
import Verif.Proofs.Utf8
/-! # Lemmas: what the parser makes of written text -/

namespace Osmio.Xml
open Spec

/-- Reading text. -/
def run (norm : Xml.Config) (s : PState) (t : Str) : PState := t.foldl (step norm) s

theorem run_append (norm : Xml.Config) (s : PState) (a b : Str) :
    run norm s (a ++ b) = run norm (run norm s a) b := by simp [run]

theorem run_cons (norm : Xml.Config) (s : PState) (c : Char) (b : Str) :
    run norm s (c :: b) = run norm (step norm s c) b := rfl

theorem run_nil (norm : Xml.Config) (s : PState) : run norm s [] = s := rfl

/-- The text `t` of an attribute value (between `"`) is reported as `v`. -/
def ReadsAs (norm : Xml.Config) (t v : Str) : Prop :=
  ∀ (op : List (Str × List Str)) (r : Bool) (evs : List XmlEvent) (n : Str) (as : List (Str × Str)) (k acc : Str),
    run norm ⟨.attrVal n as k '"' acc, op, r, evs⟩ t = ⟨.attrVal n as k '"' (acc ++ v), op, r, evs⟩

theorem ReadsAs.nil (norm : Xml.Config) : ReadsAs norm [] [] := by
  intro op r evs n as k acc; simp [run]

theorem ReadsAs.append {norm : Xml.Config} {t1 v1 t2 v2 : Str} (h1 : ReadsAs norm t1 v1) (h2 : ReadsAs norm t2 v2) :
    ReadsAs norm (t1 ++ t2) (v1 ++ v2) := by
  intro op r evs n as k acc
  rw [run_append, h1, h2, List.append_assoc]

theorem step_attrVal_plain {norm : Xml.Config} (hn : IsNorm norm) {c : Char} (hc : plainChar c = true)
    (op : List (Str × List Str)) (r : Bool) (evs : List XmlEvent) (n : Str) (as : List (Str × Str)) (k acc : Str) :
    step norm ⟨.attrVal n as k '"' acc, op, r, evs⟩ c = ⟨.attrVal n as k '"' (acc ++ [c]), op, r, evs⟩ := by
  simp only [plainChar, Bool.and_eq_true, bne_iff_ne, ne_eq] at hc
  obtain ⟨⟨⟨⟨⟨⟨h1, h2⟩, h3⟩, h4⟩, h5⟩, h6⟩, h7⟩ := hc
  show stepAttrVal norm _ n as k '"' acc c = _
  simp only [stepAttrVal, h1, h2, h3, h4, if_false, if_true, PState.goto, hn c h5 h6 h7]

theorem ReadsAs.plain {norm : Xml.Config} (hn : IsNorm norm) {t : Str} (ht : ∀ c ∈ t, plainChar c = true) :
    ReadsAs norm t t := by
  induction t with
  | nil => exact .nil norm
  | cons c t ih =>
    have h1 : ReadsAs norm [c] [c] := by
      intro op r evs n as k acc
      exact step_attrVal_plain hn (ht c (by simp)) op r evs n as k acc
    exact h1.append (ih fun x hx => ht x (by simp [hx]))

theorem ReadsAs.escaped {norm : Xml.Config} (hn : IsNorm norm) {v : Str} (hv : ∀ c ∈ v, valueChar c = true) :
    ReadsAs norm (escaped v) v := by
  induction v with
  | nil => exact .nil norm
  | cons c v ih =>
    have ih := ih fun x hx => hv x (by simp [hx])
    have h1 : ReadsAs norm (escaped1 c) [c] := by
      unfold escaped1 entity
      split
      · rename_i e heq
        split at heq <;> cases heq <;> (intro op r evs n as k acc; rfl)
      · rename_i heq
        refine ReadsAs.plain hn fun x hx => ?_
        rw [List.mem_singleton] at hx
        subst hx
        have hx := hv x (by simp)
        simp only [valueChar, Bool.and_eq_true, bne_iff_ne, ne_eq] at hx
        obtain ⟨⟨⟨h1, h2⟩, h3⟩, h4⟩ := hx
        have a1 : x ≠ '"' := by rintro rfl; simp at heq
        have a2 : x ≠ '<' := by rintro rfl; simp at heq
        have a3 : x ≠ '&' := by rintro rfl; simp at heq
        simp [plainChar, *]
    exact h1.append ih

theorem ReadsAs.raw {norm : Xml.Config} {t : Str} (ht : ∀ c ∈ t, rawChar c = true) : ReadsAs norm t (t.map norm) := by
  induction t with
  | nil => exact .nil norm
  | cons c t ih =>
    have h1 : ReadsAs norm [c] [norm c] := by
      intro op r evs n as k acc
      have hc := ht c (by simp)
      simp only [rawChar, Bool.and_eq_true, bne_iff_ne, ne_eq] at hc
      obtain ⟨⟨⟨h1, h2⟩, h3⟩, h4⟩ := hc
      show stepAttrVal norm _ n as k '"' acc c = _
      simp only [stepAttrVal, h1, h2, h3, h4, if_false, if_true, PState.goto]
    exact h1.append (ih fun x hx => ht x (by simp [hx]))

/-- Escaped text is reported with its white space replaced. -/
theorem ReadsAs.escapedMap {norm : Xml.Config} (hn : IsNorm norm) {v : Str} (hv : ∀ c ∈ v, isXmlChar c = true) :
    ReadsAs norm (Spec.escaped v) (v.map norm) := by
  induction v with
  | nil => exact .nil norm
  | cons c v ih =>
    have ih := ih fun x hx => hv x (by simp [hx])
    have h1 : ReadsAs norm (escaped1 c) [norm c] := by
      unfold escaped1 entity
      split
      · rename_i e heq
        split at heq <;> cases heq <;> rw [hn _ (by decide) (by decide) (by decide)] <;> (intro op r evs n as k acc; rfl)
      · rename_i heq
        refine ReadsAs.raw fun x hx => ?_
        rw [List.mem_singleton] at hx
        subst hx
        have hx := hv x (by simp)
        have a1 : x ≠ '"' := by rintro rfl; simp at heq
        have a2 : x ≠ '<' := by rintro rfl; simp at heq
        have a3 : x ≠ '&' := by rintro rfl; simp at heq
        simp [rawChar, *]
    exact h1.append ih

theorem plain_map {norm : Xml.Config} (hn : IsNorm norm) {t : Str} (ht : ∀ c ∈ t, plainChar c = true) : t.map norm = t := by
  refine (List.map_congr_left fun c hc => ?_).trans (List.map_id t)
  have := ht c hc
  simp only [plainChar, Bool.and_eq_true, bne_iff_ne, ne_eq] at this
  exact hn c this.1.1.2 this.1.2 this.2

theorem plain_raw {c : Char} (h : plainChar c = true) : rawChar c = true := by
  simp only [plainChar, Bool.and_eq_true] at h
  simp only [rawChar, Bool.and_eq_true]
  exact h.1.1.1

theorem nameStart_not_ws {c : Char} (h : isNameStart c = true) : isWs c = false := by
  by_contra hw
  simp only [Bool.not_eq_false, isWs, Bool.or_eq_true, beq_iff_eq] at hw
  rcases hw with ((rfl | rfl) | rfl) | rfl <;> revert h <;> decide

theorem run_attrName {norm : Xml.Config} (op : List (Str × List Str)) (r : Bool) (evs : List XmlEvent) (n : Str)
    (as : List (Str × Str)) (k t : Str) (ht : ∀ c ∈ t, isNameChar c = true) :
    run norm ⟨.attrName n as k, op, r, evs⟩ t = ⟨.attrName n as (k ++ t), op, r, evs⟩ := by
  induction t generalizing k with
  | nil => simp [run]
  | cons c t ih =>
    rw [run_cons]
    show run norm (stepAttrName _ n as k c) t = _
    simp only [stepAttrName, ht c (by simp), if_true, PState.goto]
    rw [ih _ fun x hx => ht x (by simp [hx])]
    simp

/-- From inside a tag, after white space. -/
theorem run_attr_inTag {norm : Xml.Config} (op : List (Str × List Str)) (r : Bool) (evs : List XmlEvent) (n : Str)
    (as : List (Str × Str)) {k t v : Str} (hk : IsKey k) (hv : ReadsAs norm t v) :
    run norm ⟨.inTag n as, op, r, evs⟩ (k ++ '=' :: '"' :: (t ++ ['"'])) = ⟨.attrDone n (as ++ [(k, v)]), op, r, evs⟩ := by
  obtain ⟨c, s, rfl, hc, hs, _, _⟩ := hk
  replace hc := (isNameStart_iff c).2 hc
  replace hs := fun x hx => (isNameChar_iff x).2 (hs x hx)
  rw [List.cons_append, run_cons]
  have h1 : step norm ⟨.inTag n as, op, r, evs⟩ c = ⟨.attrName n as [c], op, r, evs⟩ := by
    show stepInTag norm _ n as c = _
    simp [stepInTag, nameStart_not_ws hc, hc, PState.goto]
  have hq : isNameChar '=' = false := by decide +kernel
  rw [h1, run_append, run_attrName _ _ _ _ _ _ _ hs, run_cons, run_cons]
  have h2 : step norm (step norm ⟨.attrName n as ([c] ++ s), op, r, evs⟩ '=') '"' =
      ⟨.attrVal n as (c :: s) '"' [], op, r, evs⟩ := by
    have : step norm ⟨.attrName n as ([c] ++ s), op, r, evs⟩ '=' = ⟨.attrPre n as (c :: s), op, r, evs⟩ := by
      show stepAttrName _ n as _ '=' = _
      simp [stepAttrName, hq, PState.goto]
    rw [this]; rfl
  rw [h2, run_append, hv]
  rfl

theorem run_attr_done {norm : Xml.Config} (op : List (Str × List Str)) (r : Bool) (evs : List XmlEvent) (n : Str)
    (as : List (Str × Str)) {k t v : Str} (hk : IsKey k) (hv : ReadsAs norm t v) :
    run norm ⟨.attrDone n as, op, r, evs⟩ (rawAttr k t) = ⟨.attrDone n (as ++ [(k, v)]), op, r, evs⟩ := by
  unfold rawAttr
  rw [run_cons]
  exact run_attr_inTag op r evs n as hk hv

theorem run_attr_first {norm : Xml.Config} (op : List (Str × List Str)) (r : Bool) (evs : List XmlEvent) (n : Str)
    {k t v : Str} (hk : IsKey k) (hv : ReadsAs norm t v) :
    run norm ⟨.tagName n, op, r, evs⟩ (rawAttr k t) = ⟨.attrDone n [(k, v)], op, r, evs⟩ := by
  unfold rawAttr
  rw [run_cons]
  exact run_attr_inTag op r evs n [] hk hv

/-- Attributes one after the other; each is a key, the text of the value and the value. -/
theorem run_attrs {norm : Xml.Config} (op : List (Str × List Str)) (r : Bool) (evs : List XmlEvent) (n : Str)
    (as : List (Str × Str)) (l : List (Str × Str × Str)) (hl : ∀ x ∈ l, IsKey x.1 ∧ ReadsAs norm x.2.1 x.2.2) :
    run norm ⟨.attrDone n as, op, r, evs⟩ (l.flatMap fun x => rawAttr x.1 x.2.1) =
      ⟨.attrDone n (as ++ l.map fun x => (x.1, x.2.2)), op, r, evs⟩ := by
  induction l generalizing as with
  | nil => simp [run]
  | cons x l ih =>
    have hx := hl x (by simp)
    rw [List.flatMap_cons, run_append, run_attr_done _ _ _ _ _ hx.1 hx.2, ih _ fun y hy => hl y (by simp [hy])]
    simp

theorem span_no_colon {k : Str} (h : ':' ∉ k) : k.span (· != ':') = (k, []) := by
  have : ∀ c ∈ k, (c != ':') = true := by
    intro c hc; rw [bne_iff_ne]; rintro rfl; exact h hc
  rw [List.span_eq_takeWhile_dropWhile]
  clear h
  induction k with
  | nil => rfl
  | cons c k ih =>
    have ih := ih fun x hx => this x (by simp [hx])
    rw [Prod.mk.injEq] at ih
    have hc : (c != ':') = true := this c (by simp)
    simp only [List.takeWhile_cons, List.dropWhile_cons, hc, if_true, ih.1, ih.2]

theorem splitName_key {k : Str} (h : IsKey k) : splitName k = some ⟨none, k⟩ := by
  obtain ⟨c, r, rfl, _, _, h, _⟩ := h
  unfold splitName
  rw [span_no_colon h]

theorem prefix_colon {k : Str} (h : ':' ∉ k) : (str% "xmlns:").isPrefixOf k = false := by
  by_contra hp
  rw [Bool.not_eq_false, List.isPrefixOf_iff_prefix] at hp
  exact h (hp.subset (by decide))

theorem isXmlns_key {k : Str} (h : IsKey k) : isXmlns k = false := by
  obtain ⟨c, r, rfl, _, _, h, h2⟩ := h
  unfold isXmlns
  rw [prefix_colon h, Bool.or_false, beq_eq_false_iff_ne]
  exact h2

theorem declared_keys {l : List (Str × Str)} (h : ∀ x ∈ l, IsKey x.1) : declared l = [] := by
  unfold declared
  rw [List.map_eq_nil_iff, List.filter_eq_nil_iff]
  intro x hx
  obtain ⟨c, r, hk, _, _, h1, _⟩ := h x hx
  rw [prefix_colon h1]; simp

theorem declareOk_keys {l : List (Str × Str)} (h : ∀ x ∈ l, IsKey x.1) : l.all declareOk = true := by
  rw [List.all_eq_true]
  intro x hx
  obtain ⟨c, r, hk, _, _, h1, h2⟩ := h x hx
  rw [declareOk, if_neg h2, if_neg (by rw [prefix_colon h1]; simp)]

/-- How an attribute without a prefix is reported. -/
def attrOf (x : Str × Str) : Attr := ⟨⟨none, x.1⟩, x.2⟩

theorem mkAttrs_keys (sc : List (Str × List Str)) (ds : List Str) {l : List (Str × Str)} (h : ∀ x ∈ l, IsKey x.1) :
    mkAttrs sc ds l = some (l.map attrOf) := by
  induction l with
  | nil => rfl
  | cons x l ih =>
    have hx := h x (by simp)
    simp only [mkAttrs, isXmlns_key hx, Bool.false_eq_true, if_false, ih fun y hy => h y (by simp [hy]), mkAttr,
      splitName_key hx, nameOk, if_true]
    rfl

theorem finishTag_keys {norm : Xml.Config} {n : Str} {l : List (Str × Str)} (m : Mode) (op : List (Str × List Str)) (r : Bool)
    (evs : List XmlEvent) (hn : IsKey n) (h : ∀ x ∈ l, IsKey x.1) (hd : (l.map Prod.fst).Nodup)
    (ho : op ≠ [] ∨ r = false) (empty : Bool) :
    finishTag norm ⟨m, op, r, evs⟩ n l empty =
      ⟨.text false, if empty then op else (n, []) :: op, true,
        evs ++ (if empty then [.start ⟨none, n⟩ (l.map attrOf), .stop ⟨none, n⟩] else [.start ⟨none, n⟩ (l.map attrOf)])⟩ := by
  have hc : ¬ ((op = [] ∧ r = true ∧ norm.manyRoots = false) ∨ ¬ (l.map Prod.fst).Nodup ∨
      (none : Option Str) = some (str% "xml") ∨ (none : Option Str) = some (str% "xmlns") ∨ l.all declareOk = false) := by
    rintro (⟨h1, h2, _⟩ | h1 | h1 | h1 | h1)
    · rcases ho with h3 | h3
      · exact h3 h1
      · rw [h2] at h3; cases h3
    · exact h1 hd
    · cases h1
    · cases h1
    · rw [declareOk_keys h] at h1; cases h1
  simp only [finishTag, declared_keys h, mkAttrs_keys _ _ h, mkName, splitName_key hn, nameOk, if_true, if_neg hc]

/-- The ends of a start tag. -/
theorem run_close_empty {norm : Xml.Config} {n : Str} {l : List (Str × Str)} (op : List (Str × List Str)) (r : Bool)
    (evs : List XmlEvent) (hn : IsKey n) (h : ∀ x ∈ l, IsKey x.1) (hd : (l.map Prod.fst).Nodup)
    (ho : op ≠ [] ∨ r = false) :
    run norm ⟨.attrDone n l, op, r, evs⟩ (str% "/>") =
      ⟨.text false, op, true, evs ++ [.start ⟨none, n⟩ (l.map attrOf), .stop ⟨none, n⟩]⟩ := by
  show finishTag norm ⟨.slash n l, op, r, evs⟩ n l true = _
  rw [finishTag_keys _ _ _ _ hn h hd ho]; rfl

theorem run_close_empty' {norm : Xml.Config} {n : Str} {l : List (Str × Str)} (op : List (Str × List Str)) (r : Bool)
    (evs : List XmlEvent) (hn : IsKey n) (h : ∀ x ∈ l, IsKey x.1) (hd : (l.map Prod.fst).Nodup)
    (ho : op ≠ [] ∨ r = false) :
    run norm ⟨.attrDone n l, op, r, evs⟩ (str% " />") =
      ⟨.text false, op, true, evs ++ [.start ⟨none, n⟩ (l.map attrOf), .stop ⟨none, n⟩]⟩ := by
  show finishTag norm ⟨.slash n l, op, r, evs⟩ n l true = _
  rw [finishTag_keys _ _ _ _ hn h hd ho]; rfl

theorem run_close_open {norm : Xml.Config} {n : Str} {l : List (Str × Str)} (op : List (Str × List Str)) (r : Bool)
    (evs : List XmlEvent) (hn : IsKey n) (h : ∀ x ∈ l, IsKey x.1) (hd : (l.map Prod.fst).Nodup)
    (ho : op ≠ [] ∨ r = false) :
    run norm ⟨.attrDone n l, op, r, evs⟩ (str% ">") =
      ⟨.text false, (n, []) :: op, true, evs ++ [.start ⟨none, n⟩ (l.map attrOf)]⟩ := by
  show finishTag norm ⟨.attrDone n l, op, r, evs⟩ n l false = _
  rw [finishTag_keys _ _ _ _ hn h hd ho]; rfl

/-! ## Numbers and names -/

theorem isDigit_plain {c : Char} (h : isDigit c = true) : plainChar c = true := by
  have h1 : 48 ≤ c.toNat ∧ c.toNat ≤ 57 := by simpa [isDigit] using h
  have hc : c = Char.ofNat c.toNat := by simp
  have : ∀ n : Fin 58, 48 ≤ n.val → plainChar (Char.ofNat n.val) = true := by decide +kernel
  rw [hc]
  exact this ⟨c.toNat, by omega⟩ h1.1

theorem i64Str_reads {norm : Xml.Config} (hn : IsNorm norm) (i : Int64) : ReadsAs norm (i64Str i) (i64Str i) := by
  refine .plain hn fun c hc => ?_
  rcases intStr_chars _ c hc with h | rfl
  · exact isDigit_plain h
  · decide

theorem u32Str_reads {norm : Xml.Config} (hn : IsNorm norm) (i : UInt32) : ReadsAs norm (u32Str i) (u32Str i) :=
  .plain hn fun c hc => isDigit_plain (natStr_isDigit _ c hc)

end Osmio.Xml
