import Verif.Lib.QuickXmlBytes
import Verif.Proofs.QuickXmlBytes
import Verif.Spec.QuickTokens
/-! The tokenizer of the changeset readers divides any bytes as `Verif/Spec/QuickTokens.lean` says. -/

namespace Osmio.QuickXml
open Spec.Quick

/-! ## First occurrences -/

theorem after_some {pat : List UInt8} {bs r : List UInt8} (h : after pat bs = some r) : After pat bs r := by
  induction bs with
  | nil => cases h
  | cons c bs ih =>
    unfold after at h
    split at h
    · rename_i hpre
      cases h
      obtain ⟨t, ht⟩ := List.isPrefixOf_iff_prefix.1 hpre
      refine ⟨[], ?_, fun _ _ _ => Nat.zero_le _⟩
      rw [← ht]; simp
    · rename_i hpre
      obtain ⟨x, hx, hm⟩ := ih h
      refine ⟨c :: x, by simp [hx], fun y z hy => ?_⟩
      cases y with
      | nil => exact absurd (List.isPrefixOf_iff_prefix.2 ⟨z, by simpa using hy.symm⟩) hpre
      | cons d y =>
        have := hm y z (by simpa using (List.cons.inj hy).2)
        simp only [List.length_cons]; omega

theorem after_none {pat : List UInt8} (hp : pat ≠ []) {bs : List UInt8} (h : after pat bs = none) : Without pat bs := by
  induction bs with
  | nil =>
    rintro ⟨x, y, hxy⟩
    have := congrArg List.length hxy
    have := List.length_pos_of_ne_nil hp
    simp at *; omega
  | cons c bs ih =>
    unfold after at h
    split at h
    · cases h
    · rename_i hpre
      rintro ⟨x, y, hxy⟩
      cases x with
      | nil => exact hpre (List.isPrefixOf_iff_prefix.2 ⟨y, by simpa using hxy.symm⟩)
      | cons d x => exact ih h ⟨x, y, by simpa using (List.cons.inj hxy).2⟩

theorem after_unique {pat bs r r' : List UInt8} (h : After pat bs r) (h' : After pat bs r') : r = r' := by
  obtain ⟨x, hx, hm⟩ := h
  obtain ⟨x', hx', hm'⟩ := h'
  have hl : x.length = x'.length := Nat.le_antisymm (hm _ _ hx') (hm' _ _ hx)
  rw [hx] at hx'
  simp only [List.append_assoc] at hx'
  have h1 := (List.append_inj hx' hl).2
  exact List.append_cancel_left h1

theorem after_first {pat : List UInt8} (hp : pat ≠ []) {bs r : List UInt8} (h : After pat bs r) : after pat bs = some r := by
  cases ha : after pat bs with
  | some r' => rw [after_unique h (after_some ha)]
  | none =>
    obtain ⟨x, hx, _⟩ := h
    exact absurd ⟨x, r, hx⟩ (after_none hp ha)

theorem after_eq_none {pat : List UInt8} {bs : List UInt8} (h : Without pat bs) : after pat bs = none := by
  cases ha : after pat bs with
  | none => rfl
  | some r =>
    obtain ⟨x, hx, _⟩ := after_some ha
    exact absurd ⟨x, r, hx⟩ h

/-! ## Tags -/

theorem inside_quiet {c : List UInt8} (h : Inside c) : Quiet c := by
  induction h with
  | nil => exact quiet_nil
  | @byte c x h1 h2 _ ih =>
    exact quiet_append (a := [c]) (quiet_plain (by
      intro b hb
      rw [List.mem_singleton.1 hb]
      exact ⟨h1, fun h => h2 (.inl h), fun h => h2 (.inr h)⟩)) ih
  | @quoted q v x hq hv _ ih =>
    have := quiet_append (quiet_quoted hq hv) ih
    simpa using this

theorem tagEnd_inside (bs : List UInt8) : ∀ c r,
    (tagEnd none bs = some (c, r) → Tag bs c r) ∧
    ∀ q, Quote q → tagEnd (some q) bs = some (c, r) → ∃ v x, c = v ++ q :: x ∧ q ∉ v ∧ Inside x ∧ bs = c ++ 62 :: r := by
  induction bs with
  | nil => intro c r; exact ⟨fun h => (by cases h), fun q _ h => (by cases h)⟩
  | cons d bs ih =>
    intro c r
    refine ⟨fun h => ?_, fun q hq h => ?_⟩
    · unfold tagEnd at h
      split at h
      · rename_i hd
        cases h
        exact ⟨by rw [hd]; rfl, .nil⟩
      · rename_i hd
        obtain ⟨⟨c', r'⟩, h1, h2⟩ := Option.map_eq_some_iff.1 h
        cases h2
        split at h1
        · rename_i hq
          obtain ⟨v, x, hc, hv, hx, hb⟩ := (ih c' r').2 d hq h1
          refine ⟨by rw [hb]; rfl, ?_⟩
          rw [hc]
          exact .quoted hq hv hx
        · rename_i hq
          obtain ⟨hb, hi⟩ := (ih c' r').1 h1
          exact ⟨by rw [hb]; rfl, .byte hd hq hi⟩
    · unfold tagEnd at h
      obtain ⟨⟨c', r'⟩, h1, h2⟩ := Option.map_eq_some_iff.1 h
      cases h2
      split at h1
      · rename_i hd
        obtain ⟨hb, hi⟩ := (ih c' r').1 h1
        refine ⟨[], c', by rw [hd]; rfl, by simp, hi, by rw [hb]; rfl⟩
      · rename_i hd
        obtain ⟨v, x, hc, hv, hx, hb⟩ := (ih c' r').2 q hq h1
        refine ⟨d :: v, x, by rw [hc]; rfl, ?_, hx, by rw [hb]; rfl⟩
        intro hm
        rcases List.mem_cons.1 hm with h | h
        · exact hd h.symm
        · exact hv h

theorem tagEnd_iff {bs c r : List UInt8} : tagEnd none bs = some (c, r) ↔ Tag bs c r := by
  refine ⟨(tagEnd_inside bs c r).1, ?_⟩
  rintro ⟨rfl, h⟩
  exact quiet_end (inside_quiet h) r

theorem tagEnd_none {bs : List UInt8} : tagEnd none bs = none ↔ ¬ ∃ x rest, Tag bs x rest := by
  constructor
  · rintro h ⟨x, rest, hx⟩
    rw [tagEnd_iff.2 hx] at h
    cases h
  · intro h
    cases ht : tagEnd none bs with
    | none => rfl
    | some p => exact absurd ⟨p.1, p.2, tagEnd_iff.1 (by rw [ht])⟩ h

/-! ## Document types -/

theorem paired_append {x y : List UInt8} (hx : Paired x) (hy : Paired y) : Paired (x ++ y) := by
  induction hx with
  | nil => exact hy
  | byte h1 h2 _ ih => exact .byte h1 h2 ih
  | pair h1 _ _ ih =>
    have := Paired.pair h1 ih
    simpa using this

/-- So many `>` without `<`. -/
def Levels : Nat → List UInt8 → Prop
  | 0, x => Paired x
  | d + 1, x => ∃ p y, x = p ++ 62 :: y ∧ Paired p ∧ Levels d y

theorem levels_paired {d : Nat} {p y : List UInt8} (hp : Paired p) (hy : Levels d y) : Levels d (p ++ y) := by
  cases d with
  | zero => exact paired_append hp hy
  | succ d =>
    obtain ⟨p', y', rfl, h1, h2⟩ := hy
    exact ⟨p ++ p', y', by simp, paired_append hp h1, h2⟩

theorem doctypeEnd_levels {bs r : List UInt8} : ∀ {d : Nat}, doctypeEnd d bs = some r → ∃ x, bs = x ++ 62 :: r ∧ Levels d x := by
  induction bs with
  | nil => intro d h; cases d <;> cases h
  | cons c bs ih =>
    intro d h
    unfold doctypeEnd at h
    split at h
    · rename_i hc
      cases d with
      | zero => cases h; exact ⟨[], by rw [hc]; rfl, .nil⟩
      | succ d =>
        obtain ⟨x, hx, hl⟩ := ih h
        exact ⟨62 :: x, by rw [hc, hx]; rfl, [], x, rfl, .nil, hl⟩
    · rename_i hc
      split at h
      · rename_i hc'
        obtain ⟨x, hx, p, y, hpy, hp, hy⟩ := ih h
        refine ⟨60 :: x, by rw [hc', hx]; rfl, ?_⟩
        rw [hpy]
        have : (60 : UInt8) :: (p ++ 62 :: y) = (60 :: (p ++ 62 :: [])) ++ y := by simp
        rw [this]
        exact levels_paired (.pair hp .nil) hy
      · rename_i hc'
        obtain ⟨x, hx, hl⟩ := ih h
        refine ⟨c :: x, by rw [hx]; rfl, ?_⟩
        exact levels_paired (p := [c]) (.byte hc' hc .nil) hl

theorem doctypeEnd_paired {p : List UInt8} (hp : Paired p) : ∀ (d : Nat) (r : List UInt8), doctypeEnd d (p ++ r) = doctypeEnd d r := by
  induction hp with
  | nil => intro d r; rfl
  | byte h1 h2 _ ih =>
    intro d r
    rw [List.cons_append, doctypeEnd.eq_def]
    simp only
    rw [if_neg h2, if_neg h1, ih]
  | @pair y x _ _ ih1 ih2 =>
    intro d r
    rw [List.cons_append, doctypeEnd.eq_def]
    simp only
    rw [if_neg (by decide), if_pos trivial, List.append_assoc, ih1, List.cons_append, doctypeEnd.eq_def]
    simp only
    rw [if_pos trivial]
    exact ih2 d r

theorem doctypeEnd_iff {bs r : List UInt8} : doctypeEnd 0 bs = some r ↔ Doctype bs r := by
  constructor
  · intro h
    exact doctypeEnd_levels h
  · rintro ⟨x, rfl, hx⟩
    rw [doctypeEnd_paired hx, doctypeEnd, if_pos rfl]

theorem doctypeEnd_none {bs : List UInt8} : doctypeEnd 0 bs = none ↔ ¬ ∃ rest, Doctype bs rest := by
  constructor
  · rintro h ⟨rest, hr⟩
    rw [doctypeEnd_iff.2 hr] at h
    cases h
  · intro h
    cases hd : doctypeEnd 0 bs with
    | none => rfl
    | some r => exact absurd ⟨r, doctypeEnd_iff.1 hd⟩ h

/-! ## Attributes -/

theorem space_iff {x : List UInt8} : Space x ↔ ∀ c ∈ x, isWsB c = true := by
  unfold Space
  exact forall₂_congr fun c _ => (isWsB_iff c).symm

theorem solid_iff {x : List UInt8} : Solid x ↔ ∀ c ∈ x, isWsB c = false := by
  unfold Solid
  refine forall₂_congr fun c _ => ?_
  rw [← isWsB_iff, Bool.not_eq_true]

theorem space_nil : Space [] := fun _ h => absurd h List.not_mem_nil

theorem space_one {c : UInt8} : Space [c] ↔ isWsB c = true := by simp [space_iff]

theorem span_eq {α : Type} (p : α → Bool) (l : List α) : ∃ a b, l = a ++ b ∧ (∀ x ∈ a, p x = true) ∧ (∀ x ∈ b.head?, p x = false) ∧
    l.takeWhile p = a ∧ l.dropWhile p = b := by
  refine ⟨l.takeWhile p, l.dropWhile p, List.takeWhile_append_dropWhile.symm, fun x hx => List.all_eq_true.1 List.all_takeWhile x hx, ?_, rfl, rfl⟩
  intro x hx
  induction l with
  | nil => cases hx
  | cons a l ih =>
    rw [List.dropWhile_cons] at hx
    split at hx
    · exact ih hx
    · rename_i h
      simp only [List.head?_cons, Option.mem_def, Option.some.injEq] at hx
      rw [← hx]
      simpa using h

theorem trimB_split (bs : List UInt8) : ∃ w, Space w ∧ bs = w ++ trimB bs ∧ ∀ c ∈ (trimB bs).head?, isWsB c = false := by
  obtain ⟨w, r, h1, h2, h3, _, h5⟩ := span_eq isWsB bs
  unfold trimB
  rw [h5]
  exact ⟨w, space_iff.2 h2, h1, h3⟩

theorem nextAttr_none {seen : List (List UInt8)} {bs : List UInt8} : nextAttr seen bs = none ↔ Space bs := by
  constructor
  · intro h
    obtain ⟨w, hw, hb, -⟩ := trimB_split bs
    unfold nextAttr at h
    split at h
    · rename_i he
      rw [hb, he, List.append_nil]; exact hw
    · exfalso
      revert h
      dsimp only
      split
      · split
        · simp
        · split
          · split
            · split <;> simp
            · simp
          · simp
      · simp
  · intro h
    unfold nextAttr
    have : trimB bs = [] := dropWhile_all (space_iff.1 h)
    rw [this]

theorem quote_ne {q : UInt8} (h : Quote q) : isWsB q = false := by rcases h with rfl | rfl <;> decide

theorem nextAttr_some {seen : List (List UInt8)} {bs : List UInt8} {a : Attr} {rest : List UInt8} :
    nextAttr seen bs = some (some (a, rest)) ↔ Begins seen bs a rest := by
  constructor
  · intro h
    obtain ⟨w1, hw1, hb, hh⟩ := trimB_split bs
    unfold nextAttr at h
    split at h
    · cases h
    rename_i c cs hc
    dsimp only at h
    obtain ⟨key, more, h1, h2, h3, h4, h5⟩ := span_eq (fun b => !keyEnd b) (c :: cs)
    rw [h4, h5] at h
    obtain ⟨w2, hw2, hb2, -⟩ := trimB_split more
    split at h
    · rename_i r hr
      split at h
      · cases h
      rename_i hk
      rw [not_or] at hk
      obtain ⟨w3, hw3, hb3, -⟩ := trimB_split r
      split at h
      · rename_i q r' hq'
        split at h
        · rename_i hq
          obtain ⟨v, more', g1, g2, g3, g4, g5⟩ := span_eq (fun b => b != q) r'
          rw [g4, g5] at h
          split at h
          · rename_i d rest'
            cases h
            have hd : d = q := by
              have := g3 d (by simp)
              simpa using this
            subst hd
            refine ⟨w1, w2, w3, d, ?_, hw1, hw2, hw3, hq, ?_, hk.1, ?_, ?_, hk.2⟩
            · rw [hb, hc, h1, hb2, hr, hb3, hq', g1]
            · intro hm
              have := g2 d hm
              simp at this
            · rw [solid_iff]
              intro x hx
              have := h2 x hx
              simp only [keyEnd, Bool.not_or, Bool.and_eq_true, Bool.not_eq_true'] at this
              exact this.2
            · intro hx
              have := h2 61 hx
              simp [keyEnd] at this
          · cases h
        · cases h
      · cases h
    · cases h
  · rintro ⟨w1, w2, w3, q, rfl, hw1, hw2, hw3, hq, hqv, hk, hs, he, hseen⟩
    obtain ⟨key, value⟩ := a
    simp only at *
    have hs' := solid_iff.1 hs
    obtain ⟨c, cs, hc⟩ := List.exists_cons_of_ne_nil hk
    have hcw : isWsB c = false := hs' c (by rw [hc]; simp)
    have hke : ∀ x ∈ key, (!keyEnd x) = true := by
      intro x hx
      have h1 := hs' x hx
      have h2 : x ≠ 61 := fun h => he (h ▸ hx)
      simp [keyEnd, h1, h2]
    have t1 : trimB (w1 ++ (key ++ (w2 ++ 61 :: (w3 ++ q :: (value ++ q :: rest))))) = key ++ (w2 ++ 61 :: (w3 ++ q :: (value ++ q :: rest))) := by
      rw [hc]
      exact trimB_ws (space_iff.1 hw1) hcw _
    have t2 : ∀ r, ∃ d ds, w2 ++ 61 :: r = d :: ds ∧ (!keyEnd d) = false := by
      intro r
      cases hw : w2 with
      | nil => exact ⟨61, r, rfl, by decide⟩
      | cons d ds =>
        refine ⟨d, ds ++ 61 :: r, rfl, ?_⟩
        have := space_iff.1 hw2 d (by rw [hw]; simp)
        simp [keyEnd, this]
    obtain ⟨d, ds, hd, hdk⟩ := t2 (w3 ++ q :: (value ++ q :: rest))
    have t3 : trimB (w2 ++ 61 :: (w3 ++ q :: (value ++ q :: rest))) = 61 :: (w3 ++ q :: (value ++ q :: rest)) :=
      trimB_ws (space_iff.1 hw2) (by decide) _
    have t4 : trimB (w3 ++ q :: (value ++ q :: rest)) = q :: (value ++ q :: rest) := trimB_ws (space_iff.1 hw3) (quote_ne hq) _
    have hv : ∀ x ∈ value, (x != q) = true := by
      intro x hx
      have : x ≠ q := fun h => hqv (h ▸ hx)
      simpa using this
    have hqq : (q != q) = false := by simp
    have tk : ((key ++ (w2 ++ 61 :: (w3 ++ q :: (value ++ q :: rest)))).takeWhile fun b => !keyEnd b) = key := by
      rw [hd]; exact takeWhile_stop hke hdk _
    have td : ((key ++ (w2 ++ 61 :: (w3 ++ q :: (value ++ q :: rest)))).dropWhile fun b => !keyEnd b) =
        w2 ++ 61 :: (w3 ++ q :: (value ++ q :: rest)) := by
      rw [hd]; exact dropWhile_stop hke hdk _
    have vt : (value ++ q :: rest).takeWhile (· != q) = value := takeWhile_stop hv hqq _
    have vd : (value ++ q :: rest).dropWhile (· != q) = q :: rest := dropWhile_stop hv hqq _
    unfold nextAttr
    rw [t1]
    generalize hkey : key ++ (w2 ++ 61 :: (w3 ++ q :: (value ++ q :: rest))) = all at *
    cases all with
    | nil => rw [hc] at hkey; cases hkey
    | cons e es =>
      dsimp only
      rw [tk, td, t3]
      simp only
      rw [if_neg (by simp [hk, hseen]), t4]
      simp only
      rw [if_pos (show q = 34 ∨ q = 39 from hq), vt, vd]

theorem begins_shorter {seen : List (List UInt8)} {bs : List UInt8} {a : Attr} {rest : List UInt8} (h : Begins seen bs a rest) :
    rest.length < bs.length := by
  obtain ⟨w1, w2, w3, q, rfl, -⟩ := h
  simp only [List.length_append, List.length_cons]; omega

theorem attrsAux_attributes (n : Nat) : ∀ (seen : List (List UInt8)) (bs : List UInt8), bs.length ≤ n → Attributes seen bs (attrsAux n seen bs) := by
  induction n with
  | zero =>
    intro seen bs h
    rw [List.length_eq_zero_iff.1 (Nat.le_zero.1 h)]
    exact .done space_nil
  | succ n ih =>
    intro seen bs h
    unfold attrsAux
    cases hn : nextAttr seen bs with
    | none => exact .done (nextAttr_none.1 hn)
    | some o =>
      cases o with
      | none =>
        refine .error (fun hs => ?_) ?_
        · rw [nextAttr_none.2 hs] at hn; cases hn
        · rintro ⟨a, rest, hb⟩
          rw [nextAttr_some.2 hb] at hn; cases hn
      | some p =>
        obtain ⟨a, r⟩ := p
        have hb := nextAttr_some.1 hn
        have := begins_shorter hb
        exact .attr hb (ih _ _ (by omega))

theorem attributes_attrsAux {seen : List (List UInt8)} {bs : List UInt8} {as : Attrs} (h : Attributes seen bs as) :
    ∀ n, bs.length ≤ n → attrsAux n seen bs = as := by
  induction h with
  | done hs =>
    intro n _
    cases n with
    | zero => rfl
    | succ n => rw [attrsAux, nextAttr_none.2 hs]
  | attr hb _ ih =>
    intro n hn
    have := begins_shorter hb
    cases n with
    | zero => omega
    | succ n => rw [attrsAux, nextAttr_some.2 hb]; simp only; rw [ih n (by omega)]
  | @error seen bs hs hb =>
    intro n hn
    cases n with
    | zero => rw [List.length_eq_zero_iff.1 (Nat.le_zero.1 hn)] at hs; exact absurd space_nil hs
    | succ n =>
      rw [attrsAux]
      cases ho : nextAttr seen bs with
      | none => exact absurd (nextAttr_none.1 ho) hs
      | some o =>
        cases o with
        | none => rfl
        | some p => exact absurd ⟨p.1, p.2, nextAttr_some.1 ho⟩ hb

theorem attributes_iff {bs : List UInt8} {as : Attrs} : attributes bs = as ↔ Attributes [] bs as := by
  constructor
  · rintro rfl
    exact attrsAux_attributes _ _ _ (Nat.le_refl _)
  · intro h
    exact attributes_attrsAux h _ (Nat.le_refl _)

theorem element_iff {x n : List UInt8} {as : Attrs} : Element x n as ↔ tagName x = n ∧ attributes (x.drop (tagName x).length) = as := by
  have key : ∀ {name more : List UInt8}, Solid name → (∀ c ∈ more.head?, Space [c]) → tagName (name ++ more) = name := by
    intro name more h1 h2
    unfold tagName
    have h1' : ∀ c ∈ name, (!isWsB c) = true := by
      intro c hc; simp [solid_iff.1 h1 c hc]
    cases more with
    | nil => rw [List.append_nil]; exact takeWhile_all h1'
    | cons d more => exact takeWhile_stop h1' (by simp [space_one.1 (h2 d (by simp))]) _
  constructor
  · rintro ⟨more, rfl, h1, h2, h3⟩
    rw [key h1 h2, List.drop_left]
    exact ⟨rfl, attributes_iff.2 h3⟩
  · rintro ⟨h1, h2⟩
    obtain ⟨name, more, g1, g2, g3, g4, g5⟩ := span_eq (fun b => !isWsB b) x
    have hn : tagName x = name := g4
    rw [hn] at h1
    subst h1
    rw [hn, g1, List.drop_left] at h2
    refine ⟨more, g1, ?_, ?_, attributes_iff.1 h2⟩
    · rw [solid_iff]
      intro c hc
      simpa using g2 c hc
    · intro c hc
      rw [space_one]
      simpa using g3 c hc

theorem endName_iff {x n : List UInt8} : EndName x n ↔ trimEndB x = n := by
  unfold trimEndB
  constructor
  · rintro ⟨w, rfl, hw, hn⟩
    rw [List.reverse_append]
    have hw' : ∀ c ∈ w.reverse, isWsB c = true := fun c hc => space_iff.1 hw c (by simpa using hc)
    rcases hr : n.reverse with _ | ⟨c, cs⟩
    · rw [List.append_nil, dropWhile_all hw']
      have := congrArg List.reverse hr
      simpa using this.symm
    · rw [dropWhile_stop hw' (by
        have := hn c (by rw [← List.reverse_reverse n, hr]; simp)
        rw [space_one] at this
        simpa using this), ← hr, List.reverse_reverse]
  · intro h
    obtain ⟨a, c, h1, h2, h3, -, h5⟩ := span_eq isWsB x.reverse
    rw [h5] at h
    refine ⟨a.reverse, ?_, ?_, ?_⟩
    · rw [← h, ← List.reverse_append, ← h1, List.reverse_reverse]
    · rw [space_iff]; intro d hd; exact h2 d (by simpa using hd)
    · intro d hd
      rw [← h, List.getLast?_reverse] at hd
      rw [space_one, h3 d hd]; simp

/-! ## Markup -/

theorem enc_bang (r : List UInt8) : b (str% "!--") ++ r = 33 :: (Utf8.encode (str% "--") ++ r) := rfl
theorem enc_cdata (r : List UInt8) : b (str% "![CDATA[") ++ r = 33 :: (Utf8.encode (str% "[CDATA[") ++ r) := rfl
theorem enc_doctype (r : List UInt8) : b (str% "!DOCTYPE") ++ r = 33 :: (Utf8.encode (str% "DOCTYPE") ++ r) := rfl
theorem enc_doctype' (r : List UInt8) : b (str% "!doctype") ++ r = 33 :: (Utf8.encode (str% "doctype") ++ r) := rfl

theorem isPrefixOf_self (p r : List UInt8) : p.isPrefixOf (p ++ r) = true := List.isPrefixOf_iff_prefix.2 ⟨r, rfl⟩

theorem readMarkup_bang (s : Src) (r : List UInt8) : readMarkup s (33 :: r) = readBang s r := by
  rw [readMarkup, if_pos rfl]

theorem readMarkup_of {s : Src} {o : List (List UInt8)} {bs : List UInt8} {e : Option Event} {o' : List (List UInt8)} {rest : List UInt8} (h : Markup o bs e o' rest)
    (hs : s.opened = o) : readMarkup s bs = (e, ⟨rest, o'⟩) := by
  obtain ⟨sb, so⟩ := s
  simp only at hs
  subst hs
  have p1 : ∀ r, (Utf8.encode (str% "--")).isPrefixOf (Utf8.encode (str% "[CDATA[") ++ r) = false := fun r => rfl
  have p2 : ∀ r, (Utf8.encode (str% "--")).isPrefixOf (Utf8.encode (str% "DOCTYPE") ++ r) = false := fun r => rfl
  have p3 : ∀ r, (Utf8.encode (str% "--")).isPrefixOf (Utf8.encode (str% "doctype") ++ r) = false := fun r => rfl
  have p4 : ∀ r, (Utf8.encode (str% "[CDATA[")).isPrefixOf (Utf8.encode (str% "DOCTYPE") ++ r) = false := fun r => rfl
  have p5 : ∀ r, (Utf8.encode (str% "[CDATA[")).isPrefixOf (Utf8.encode (str% "doctype") ++ r) = false := fun r => rfl
  have d1 : ∀ r, (Utf8.encode (str% "--") ++ r).drop 2 = r := fun r => rfl
  have d2 : ∀ r, (Utf8.encode (str% "[CDATA[") ++ r).drop 7 = r := fun r => rfl
  have d3 : ∀ r, (Utf8.encode (str% "DOCTYPE") ++ r).drop 7 = r := fun r => rfl
  have d4 : ∀ r, (Utf8.encode (str% "doctype") ++ r).drop 7 = r := fun r => rfl
  cases h with
  | comment ha =>
    rw [enc_bang, readMarkup_bang, readBang, if_pos (isPrefixOf_self _ _), d1, after_first (by decide) ha]
  | cutComment ha =>
    rw [enc_bang, readMarkup_bang, readBang, if_pos (isPrefixOf_self _ _), d1, after_eq_none ha]
  | cdata ha =>
    rw [enc_cdata, readMarkup_bang, readBang, p1, if_neg (by simp), if_pos (isPrefixOf_self _ _), d2, after_first (by decide) ha]
  | cutCdata ha =>
    rw [enc_cdata, readMarkup_bang, readBang, p1, if_neg (by simp), if_pos (isPrefixOf_self _ _), d2, after_eq_none ha]
  | doctype hd ha =>
    rcases hd with rfl | rfl
    · rw [enc_doctype, readMarkup_bang, readBang, p2, p4, if_neg (by simp), if_neg (by simp), if_pos (.inl (isPrefixOf_self _ _)), d3, doctypeEnd_iff.2 ha]
    · rw [enc_doctype', readMarkup_bang, readBang, p3, p5, if_neg (by simp), if_neg (by simp), if_pos (.inr (isPrefixOf_self _ _)), d4, doctypeEnd_iff.2 ha]
  | cutDoctype hd ha =>
    rcases hd with rfl | rfl
    · rw [enc_doctype, readMarkup_bang, readBang, p2, p4, if_neg (by simp), if_neg (by simp), if_pos (.inl (isPrefixOf_self _ _)), d3, doctypeEnd_none.2 ha]
    · rw [enc_doctype', readMarkup_bang, readBang, p3, p5, if_neg (by simp), if_neg (by simp), if_pos (.inr (isPrefixOf_self _ _)), d4, doctypeEnd_none.2 ha]
  | noBang ha =>
    have hn : ∀ d ∈ [str% "--", str% "[CDATA[", str% "DOCTYPE", str% "doctype"], ¬ (Utf8.encode d).isPrefixOf rest = true :=
      fun d hd h => ha d hd (List.isPrefixOf_iff_prefix.1 h)
    rw [readMarkup_bang, readBang, if_neg (hn _ (by simp)), if_neg (hn _ (by simp)),
      if_neg (not_or.2 ⟨hn (str% "DOCTYPE") (by simp), hn (str% "doctype") (by simp)⟩)]
  | pi ha => rw [readMarkup, if_neg (by decide), if_pos rfl, readPi, after_first (by decide) ha]
  | cutPi ha => rw [readMarkup, if_neg (by decide), if_pos rfl, readPi, after_eq_none ha]
  | stop ht he =>
    rw [readMarkup, if_neg (by decide), if_neg (by decide), if_pos rfl, readEnd, tagEnd_iff.2 ht]
    simp only
    rw [if_pos (endName_iff.1 he)]
  | otherStop ht he =>
    rw [readMarkup, if_neg (by decide), if_neg (by decide), if_pos rfl, readEnd, tagEnd_iff.2 ht]
    simp only
    rw [if_neg fun h => he (endName_iff.2 h)]
  | strayStop ht => rw [readMarkup, if_neg (by decide), if_neg (by decide), if_pos rfl, readEnd, tagEnd_iff.2 ht]
  | cutStop ht => rw [readMarkup, if_neg (by decide), if_neg (by decide), if_pos rfl, readEnd, tagEnd_none.2 ht]
  | start h1 h2 h3 ht hl he =>
    obtain ⟨g1, g2⟩ := element_iff.1 he
    rw [readMarkup, if_neg h1, if_neg h2, if_neg h3, readStart, tagEnd_iff.2 ht]
    simp only
    rw [if_neg hl, g2, g1]
  | empty h1 h2 h3 ht he =>
    obtain ⟨g1, g2⟩ := element_iff.1 he
    rw [readMarkup, if_neg h1, if_neg h2, if_neg h3, readStart, tagEnd_iff.2 ht]
    simp only
    rw [if_pos (by simp), List.dropLast_concat, g2, g1]
  | cutStart h1 h2 h3 ht => rw [readMarkup, if_neg h1, if_neg h2, if_neg h3, readStart, tagEnd_none.2 ht]
  | nothing => rfl

theorem markup_of (s : Src) (bs : List UInt8) : Markup s.opened bs (readMarkup s bs).1 (readMarkup s bs).2.opened (readMarkup s bs).2.bytes := by
  suffices ∃ e o' rest, Markup s.opened bs e o' rest by
    obtain ⟨e, o', rest, h⟩ := this
    rw [readMarkup_of h rfl]
    exact h
  cases bs with
  | nil => exact ⟨_, _, _, .nothing⟩
  | cons c r =>
    by_cases h1 : c = 33
    · subst h1
      by_cases hc : b (str% "--") <+: r
      · obtain ⟨t, rfl⟩ := hc
        rw [← enc_bang]
        cases ha : after (b (str% "-->")) t with
        | some r' => exact ⟨_, _, _, .comment (after_some ha)⟩
        | none => exact ⟨_, _, _, .cutComment (after_none (by decide) ha)⟩
      by_cases hd : b (str% "[CDATA[") <+: r
      · obtain ⟨t, rfl⟩ := hd
        rw [← enc_cdata]
        cases ha : after (b (str% "]]>")) t with
        | some r' => exact ⟨_, _, _, .cdata (after_some ha)⟩
        | none => exact ⟨_, _, _, .cutCdata (after_none (by decide) ha)⟩
      by_cases he : b (str% "DOCTYPE") <+: r
      · obtain ⟨t, rfl⟩ := he
        rw [← enc_doctype]
        by_cases ha : ∃ rest, Doctype t rest
        · obtain ⟨rest, ha⟩ := ha
          exact ⟨_, _, _, .doctype (.inl rfl) ha⟩
        · exact ⟨_, _, _, .cutDoctype (.inl rfl) ha⟩
      by_cases hf : b (str% "doctype") <+: r
      · obtain ⟨t, rfl⟩ := hf
        rw [← enc_doctype']
        by_cases ha : ∃ rest, Doctype t rest
        · obtain ⟨rest, ha⟩ := ha
          exact ⟨_, _, _, .doctype (.inr rfl) ha⟩
        · exact ⟨_, _, _, .cutDoctype (.inr rfl) ha⟩
      refine ⟨_, _, _, .noBang ?_⟩
      intro d hd'
      simp only [List.mem_cons, List.not_mem_nil, or_false] at hd'
      rcases hd' with rfl | rfl | rfl | rfl <;> assumption
    by_cases h2 : c = 63
    · subst h2
      cases ha : after (b (str% "?>")) r with
      | some r' => exact ⟨_, _, _, .pi (after_some ha)⟩
      | none => exact ⟨_, _, _, .cutPi (after_none (by decide) ha)⟩
    by_cases h3 : c = 47
    · subst h3
      by_cases ht : ∃ x rest, Tag r x rest
      · obtain ⟨x, rest, ht⟩ := ht
        cases s.opened with
        | nil => exact ⟨_, _, _, .strayStop ht⟩
        | cons n o =>
          by_cases he : EndName x n
          · exact ⟨_, _, _, .stop ht he⟩
          · exact ⟨_, _, _, .otherStop ht he⟩
      · exact ⟨_, _, _, .cutStop ht⟩
    by_cases ht : ∃ x rest, Tag (c :: r) x rest
    · obtain ⟨x, rest, ht⟩ := ht
      by_cases hl : x.getLast? = some 47
      · obtain ⟨y, hy⟩ : ∃ y, x = y ++ [47] := by
          obtain ⟨y, hy⟩ := List.getLast?_eq_some_iff.1 hl
          exact ⟨y, hy⟩
        subst hy
        exact ⟨_, _, _, .empty h1 h2 h3 ht (element_iff.2 ⟨rfl, rfl⟩)⟩
      · exact ⟨_, _, _, .start h1 h2 h3 ht hl (element_iff.2 ⟨rfl, rfl⟩)⟩
    · exact ⟨_, _, _, .cutStart h1 h2 h3 ht⟩

/-! ## The whole file -/

theorem plain_iff {x : List UInt8} : Plain x ↔ ∀ c ∈ x, isTextB c = true := by
  unfold Plain
  refine forall₂_congr fun c _ => ?_
  simp [isTextB]

theorem plain_one {c : UInt8} : Plain [c] ↔ isTextB c = true := by simp [plain_iff]

theorem dropText {x rest : List UInt8} (hx : Plain x) (hr : ∀ c ∈ rest.head?, ¬ Plain [c]) : (x ++ rest).dropWhile isTextB = rest := by
  cases rest with
  | nil => rw [List.append_nil]; exact dropWhile_all (plain_iff.1 hx)
  | cons d rest =>
    refine dropWhile_stop (plain_iff.1 hx) ?_ _
    have := hr d (by simp)
    rw [plain_one] at this
    simpa using this

theorem readRef_ok (s : Src) {x : List UInt8} (hx : Plain x) (h : 59 ∉ x) (rest : List UInt8) :
    readRef s (x ++ 59 :: rest) = (some .other, { s with bytes := rest }) := by
  induction x with
  | nil => rw [List.nil_append, readRef, if_pos rfl]
  | cons c x ih =>
    obtain ⟨h1, h2⟩ := hx c (by simp)
    rw [List.cons_append, readRef, if_neg fun e => h (by simp [e]), if_neg (by simp [h1, h2]),
      ih (fun d hd => hx d (List.mem_cons_of_mem _ hd)) fun hm => h (List.mem_cons_of_mem _ hm)]

theorem readRef_bad (s : Src) {x rest : List UInt8} (hx : Plain x) (h : 59 ∉ x) (hr : ∀ c ∈ rest.head?, ¬ Plain [c]) :
    readRef s (x ++ rest) = (none, { s with bytes := rest }) := by
  induction x with
  | nil =>
    cases rest with
    | nil => rfl
    | cons d rest =>
      have hd := hr d (by simp)
      have hd' : d = 38 ∨ d = 60 := by
        rw [plain_one] at hd
        simp only [isTextB, Bool.and_eq_true, bne_iff_ne, not_and, not_not, ne_eq] at hd
        by_cases h : d = 60
        · exact .inr h
        · exact .inl (hd h)
      rw [List.nil_append, readRef, if_neg (by rcases hd' with rfl | rfl <;> decide), if_pos hd']
  | cons c x ih =>
    obtain ⟨h1, h2⟩ := hx c (by simp)
    rw [List.cons_append, readRef, if_neg fun e => h (by simp [e]), if_neg (by simp [h1, h2]),
      ih (fun d hd => hx d (List.mem_cons_of_mem _ hd)) fun hm => h (List.mem_cons_of_mem _ hm)]

theorem events_of_parts {o : List (List UInt8)} {bs : List UInt8} {evs : Events} (h : Parts o bs evs) : events bs o = evs := by
  induction h with
  | nil => rfl
  | @text o x rest evs hne hx hr _ ih =>
    obtain ⟨c, cs, rfl⟩ := List.exists_cons_of_ne_nil hne
    obtain ⟨h1, h2⟩ := hx c (by simp)
    rw [List.cons_append, events_cons, readOne, if_neg h1, if_neg h2]
    simp only
    rw [dropText (fun d hd => hx d (List.mem_cons_of_mem _ hd)) hr, ih]
  | reference hx h _ ih =>
    rw [events_cons, readOne, if_neg (by decide), if_pos rfl, readRef_ok _ hx h]
    simp only [ih]
  | noReference hx h hr _ ih =>
    rw [events_cons, readOne, if_neg (by decide), if_pos rfl, readRef_bad _ hx h hr]
    simp only [ih]
  | markup hm _ ih =>
    rw [events_cons, readOne, if_pos rfl, readMarkup_of hm rfl]
    simp only [ih]

theorem parts_events (n : Nat) : ∀ (o : List (List UInt8)) (bs : List UInt8), bs.length ≤ n → ∃ evs, Parts o bs evs := by
  induction n with
  | zero =>
    intro o bs h
    rw [List.length_eq_zero_iff.1 (Nat.le_zero.1 h)]
    exact ⟨_, .nil⟩
  | succ n ih =>
    intro o bs h
    cases bs with
    | nil => exact ⟨_, .nil⟩
    | cons c r =>
      simp only [List.length_cons] at h
      by_cases h1 : c = 60
      · subst h1
        have hm := markup_of ⟨60 :: r, o⟩ r
        have hl := readMarkup_length ⟨60 :: r, o⟩ r
        obtain ⟨evs, he⟩ := ih _ _ (hl.trans (by omega))
        exact ⟨_, .markup hm he⟩
      by_cases h2 : c = 38
      · subst h2
        obtain ⟨x, rest, g1, g2, g3, -, -⟩ := span_eq (fun d => isTextB d && d != 59) r
        have hx : Plain x := plain_iff.2 fun d hd => by
          have := g2 d hd
          simp only [Bool.and_eq_true] at this
          exact this.1
        have h59 : 59 ∉ x := fun hd => by
          have := g2 59 hd
          simp at this
        have hl := congrArg List.length g1
        rw [List.length_append] at hl
        subst g1
        by_cases hr : ∀ d ∈ rest.head?, ¬ Plain [d]
        · obtain ⟨evs, he⟩ := ih o rest (by omega)
          exact ⟨_, .noReference hx h59 hr he⟩
        · cases rest with
          | nil => simp at hr
          | cons d rest =>
            have hd : d = 59 := by
              have h3 := g3 d (by simp)
              simp only [List.head?_cons, Option.mem_def, Option.some.injEq, forall_eq', not_not] at hr
              rw [plain_one.1 hr] at h3
              simpa using h3
            subst hd
            obtain ⟨evs, he⟩ := ih o rest (by simp only [List.length_cons] at hl; omega)
            exact ⟨_, .reference hx h59 he⟩
      · obtain ⟨x, rest, g1, g2, g3, -, -⟩ := span_eq isTextB r
        have hl := congrArg List.length g1
        rw [List.length_append] at hl
        obtain ⟨evs, he⟩ := ih o rest (by omega)
        subst g1
        refine ⟨_, .text (x := c :: x) (by simp) ?_ ?_ he⟩
        · intro d hd
          rcases List.mem_cons.1 hd with rfl | hd
          · exact ⟨h1, h2⟩
          · exact plain_iff.2 g2 d hd
        · intro d hd
          rw [plain_one, g3 d hd]; simp

theorem parts_iff {o : List (List UInt8)} {bs : List UInt8} {evs : Events} : Parts o bs evs ↔ events bs o = evs := by
  refine ⟨events_of_parts, ?_⟩
  rintro rfl
  obtain ⟨evs, h⟩ := parts_events _ o bs (Nat.le_refl _)
  rw [events_of_parts h]
  exact h

theorem file_iff {bytes : List UInt8} {evs : Events} : File bytes evs ↔ eventsOf bytes = evs := by
  unfold File eventsOf
  by_cases h : [0xEF, 0xBB, 0xBF] <+: bytes
  · obtain ⟨bs, rfl⟩ := h
    simp only [parts_iff]
    rw [if_pos (isPrefixOf_self _ _)]
    constructor
    · rintro (⟨bs', h1, h2⟩ | ⟨h1, -⟩)
      · simp only [List.cons_append, List.nil_append, List.cons.injEq, true_and] at h1
        subst h1
        exact h2
      · exact absurd ⟨bs, rfl⟩ h1
    · intro h2
      exact .inl ⟨bs, rfl, h2⟩
  · simp only [parts_iff]
    rw [if_neg fun hp => h (List.isPrefixOf_iff_prefix.1 hp)]
    constructor
    · rintro (⟨bs', h1, h2⟩ | ⟨-, h2⟩)
      · exact absurd ⟨bs', by rw [h1]; rfl⟩ h
      · exact h2
    · exact fun h2 => .inr ⟨h, h2⟩

end Osmio.QuickXml
