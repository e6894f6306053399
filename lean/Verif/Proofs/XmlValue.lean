import Verif.Spec.XmlValue
import Verif.Lib.QuickXml
import Verif.Proofs.Utf8Strict
import Mathlib.Tactic.IntervalCases
import Mathlib.Data.List.Induction
/-! # Lemmas: values of attributes -/

namespace Osmio.QuickXml
open Spec.Value

theorem digit_iff {base : Nat} (hb : base = 10 ∨ base = 16) {c : Char} {d : Nat} : digit base c = some d ↔ Digit base c d := by
  constructor
  · intro h
    unfold digit at h
    simp only at h
    have hc : c = Char.ofNat c.toNat := (Char.ofNat_toNat c).symm
    generalize c.toNat = n at h hc
    subst hc
    split at h
    · rename_i hn
      obtain ⟨h1, h2⟩ := hn
      cases h
      unfold Digit
      refine ⟨by omega, ?_⟩
      interval_cases n <;> decide
    split at h
    · rename_i hn
      obtain ⟨h0, h1, h2⟩ := hn
      cases h
      unfold Digit
      refine ⟨by omega, ?_⟩
      interval_cases n <;> decide
    split at h
    · rename_i hn
      obtain ⟨h0, h1, h2⟩ := hn
      cases h
      unfold Digit
      refine ⟨by omega, ?_⟩
      interval_cases n <;> decide
    · cases h
  · rintro ⟨h1, h2⟩
    rcases hb with rfl | rfl
    · interval_cases d <;> simp at h2 <;> subst h2 <;> decide
    · interval_cases d <;> simp at h2 <;> rcases h2 with rfl | rfl <;> decide

theorem number_append (base : Nat) (s t : Str) (acc : Nat) :
    number base acc (s ++ t) = (number base acc s).bind fun a => number base a t := by
  induction s generalizing acc with
  | nil => rfl
  | cons c s ih =>
    simp only [List.cons_append, number]
    cases digit base c with
    | none => rfl
    | some d => exact ih _

theorem number_iff {base : Nat} (hb : base = 10 ∨ base = 16) {s : Str} {n : Nat} :
    (s ≠ [] ∧ number base 0 s = some n) ↔ Number base s n := by
  constructor
  · induction s using List.reverseRecOn generalizing n with
    | nil => exact fun h => absurd rfl h.1
    | append_singleton s c ih =>
      rintro ⟨_, h⟩
      rw [number_append] at h
      obtain ⟨m, hm, h⟩ := Option.bind_eq_some_iff.1 h
      simp only [number] at h
      cases hd : digit base c with
      | none => rw [hd] at h; cases h
      | some d =>
        rw [hd] at h
        cases h
        have hd := (digit_iff hb).1 hd
        by_cases hs : s = []
        · subst hs
          cases hm
          simpa using Number.digit hd
        · exact .more (ih ⟨hs, hm⟩) hd
  · intro h
    induction h with
    | digit h => exact ⟨by simp, by simp [number, (digit_iff hb).2 h]⟩
    | more _ h ih => exact ⟨by simp, by simp [number_append, ih.2, number, (digit_iff hb).2 h]⟩

theorem charRef_iff {base : Nat} (hb : base = 10 ∨ base = 16) {s : Str} {c : Char} :
    charRef base s = some c ↔ Number base s c.toNat ∧ c.toNat ≠ 0 := by
  unfold charRef
  cases s with
  | nil =>
    refine ⟨fun h => (by cases h), fun h => ?_⟩
    exact absurd rfl ((number_iff hb).2 h.1).1
  | cons x r =>
    simp only
    constructor
    · intro h
      split at h
      · rename_i n hn
        split at h
        · rename_i h1
          cases h
          rw [Utf8.toNat_ofNat h1.2]
          exact ⟨(number_iff hb).1 ⟨by simp, hn⟩, h1.1⟩
        · cases h
      · cases h
    · rintro ⟨h, h0⟩
      rw [((number_iff hb).2 h).2]
      exact (if_pos ⟨h0, c.valid⟩).trans (congrArg some (Char.ofNat_toNat c))

theorem not_number10_x {r : Str} {n : Nat} (h : Number 10 ('x' :: r) n) : False := by
  have := ((number_iff (.inl rfl)).2 h).2
  rw [number, show digit 10 'x' = none by decide] at this
  cases this

theorem resolve_iff {e : Str} {c : Char} : resolve e = some c ↔ Stands e c := by
  constructor
  · intro h
    unfold resolve at h
    split at h
    · obtain ⟨h1, h2⟩ := (charRef_iff (.inr rfl)).1 h
      exact .hex h1 h2
    · obtain ⟨h1, h2⟩ := (charRef_iff (.inl rfl)).1 h
      exact .dec h1 h2
    · refine .entity ?_
      unfold Spec.predefined
      split at h
      · rename_i he; cases h; subst he; decide
      split at h
      · rename_i he; cases h; subst he; decide
      split at h
      · rename_i he; cases h; subst he; decide
      split at h
      · rename_i he; cases h; subst he; decide
      split at h
      · rename_i he; cases h; subst he; decide
      · cases h
  · intro h
    cases h with
    | entity h =>
      simp only [Spec.predefined, List.mem_cons, Prod.mk.injEq, List.not_mem_nil, or_false] at h
      rcases h with ⟨rfl, rfl⟩ | ⟨rfl, rfl⟩ | ⟨rfl, rfl⟩ | ⟨rfl, rfl⟩ | ⟨rfl, rfl⟩ <;> rfl
    | @dec s _ h h0 =>
      unfold resolve
      split
      · rename_i heq; cases heq; exact (not_number10_x h).elim
      · rename_i heq; cases heq; exact (charRef_iff (.inl rfl)).2 ⟨h, h0⟩
      · rename_i hne; exact absurd rfl (hne s)
    | hex h h0 => exact (charRef_iff (.inr rfl)).2 ⟨h, h0⟩

theorem normalize_open {r : Str} : ∀ {e0 v : Str}, normalize (some e0) r = some v →
    ∃ e c s v', ';' ∉ e ∧ r = e ++ ';' :: s ∧ resolve (e0 ++ e) = some c ∧ normalize none s = some v' ∧ v = c :: v' := by
  induction r with
  | nil => intro e0 v h; cases h
  | cons x r ih =>
    intro e0 v h
    rw [normalize] at h
    by_cases hx : x = ';'
    · subst hx
      rw [if_pos rfl] at h
      cases hr : resolve e0 with
      | none => rw [hr] at h; cases h
      | some c =>
        rw [hr] at h
        obtain ⟨v', h1, rfl⟩ := Option.map_eq_some_iff.1 h
        exact ⟨[], c, r, v', by simp, rfl, by simpa using hr, h1, rfl⟩
    · rw [if_neg hx] at h
      obtain ⟨e, c, s, v', h1, rfl, h2, h3, h4⟩ := ih h
      exact ⟨x :: e, c, s, v', by simp [h1, Ne.symm hx], rfl, by simpa using h2, h3, h4⟩

theorem normalize_closed {e0 e s : Str} {c : Char} (he : ';' ∉ e) (h : resolve (e0 ++ e) = some c) :
    normalize (some e0) (e ++ ';' :: s) = (normalize none s).map (c :: ·) := by
  induction e generalizing e0 with
  | nil => rw [List.append_nil] at h; simp [normalize, h]
  | cons x e ih =>
    have hx : x ≠ ';' := fun hx => he (by simp [hx])
    rw [List.cons_append, normalize, if_neg hx, ih (fun hm => he (List.mem_cons_of_mem _ hm)) (by simpa using h)]

theorem normalize_char {c : Char} {r : Str} (h : c = '\r' → r.head? ≠ some '\n') : normalize none (c :: r) =
    if c = '&' then normalize (some []) r
    else if c = '\t' ∨ c = '\n' ∨ c = '\r' then (normalize none r).map (' ' :: ·)
    else (normalize none r).map (c :: ·) := by
  rw [normalize]
  rintro r' rfl rfl
  exact h rfl rfl

theorem means_of (n : Nat) : ∀ {s v : Str}, s.length ≤ n → normalize none s = some v → Means s v := by
  induction n with
  | zero =>
    intro s v hl h
    have : s = [] := List.length_eq_zero_iff.1 (by omega)
    subst this
    cases h
    exact .nil
  | succ n ih =>
    intro s v hl h
    cases s with
    | nil => cases h; exact .nil
    | cons c r =>
      simp only [List.length_cons] at hl
      by_cases hcr : c = '\r' ∧ ∃ t, r = '\n' :: t
      · obtain ⟨rfl, t, rfl⟩ := hcr
        rw [normalize] at h
        obtain ⟨v', h1, rfl⟩ := Option.map_eq_some_iff.1 h
        exact .crlf (ih (by simp only [List.length_cons] at hl; omega) h1)
      have hcr' : c = '\r' → r.head? ≠ some '\n' := by
        intro hc hr
        cases r with
        | nil => cases hr
        | cons d t =>
          simp only [List.head?_cons, Option.some.injEq] at hr
          exact hcr ⟨hc, t, by rw [hr]⟩
      rw [normalize_char hcr'] at h
      by_cases hc : c = '&'
      · rw [if_pos hc] at h
        obtain ⟨e, x, s, v', h1, rfl, h2, h3, rfl⟩ := normalize_open h
        rw [hc]
        exact .ref h1 (resolve_iff.1 (by simpa using h2)) (ih (by simp at hl; omega) h3)
      rw [if_neg hc] at h
      by_cases hw : c = '\t' ∨ c = '\n' ∨ c = '\r'
      · rw [if_pos hw] at h
        obtain ⟨v', h1, rfl⟩ := Option.map_eq_some_iff.1 h
        have hm := ih (by omega) h1
        rcases hw with hw | hw | hw
        · exact .blank (.inl hw) hm
        · exact .blank (.inr hw) hm
        · rw [hw]; exact .cr (hcr' hw) hm
      · rw [if_neg hw] at h
        obtain ⟨v', h1, rfl⟩ := Option.map_eq_some_iff.1 h
        push Not at hw
        exact .plain hc hw.1 hw.2.1 hw.2.2 (ih (by omega) h1)

theorem normalize_iff {s v : Str} : normalize none s = some v ↔ Means s v := by
  refine ⟨means_of _ le_rfl, fun h => ?_⟩
  induction h with
  | nil => rfl
  | plain h1 h2 h3 h4 _ ih => rw [normalize_char fun h => absurd h h4, if_neg h1, if_neg (by simp [h2, h3, h4]), ih]; rfl
  | @blank c s v h _ ih =>
    have hc : c ≠ '&' := by rcases h with rfl | rfl <;> decide
    have hr : c ≠ '\r' := by rcases h with rfl | rfl <;> decide
    rw [normalize_char fun h => absurd h hr, if_neg hc, if_pos (by rcases h with h | h <;> simp [h]), ih]; rfl
  | cr h _ ih => rw [normalize_char fun _ => h, if_neg (by decide), if_pos (by simp), ih]; rfl
  | crlf _ ih => rw [normalize, ih]; rfl
  | ref h1 h2 _ ih =>
    rw [normalize_char (fun h => absurd h (by decide)), if_pos rfl, normalize_closed h1 (by simpa using resolve_iff.2 h2), ih]
    rfl

theorem normalizedValue_iff {a : Attr} {v : Str} : a.normalizedValue = some v ↔ Bytes a.value v := by
  unfold Attr.normalizedValue Bytes
  constructor
  · intro h
    split at h
    · rename_i s hs
      exact ⟨s, Utf8.decode_iff.1 hs, normalize_iff.1 h⟩
    · cases h
  · rintro ⟨s, h1, h2⟩
    rw [h1, Utf8.decode_encode]
    exact normalize_iff.2 h2

theorem dropWhile_colon {p : List UInt8} (h : 58 ∉ p) (l : List UInt8) : (p ++ 58 :: l).dropWhile (· != 58) = 58 :: l := by
  induction p with
  | nil => rfl
  | cons x p ih =>
    have hx : (x != 58) = true := by simpa using fun e : x = 58 => h (by simp [e])
    rw [List.cons_append, List.dropWhile_cons, if_pos hx, ih fun m => h (by simp [m])]

theorem localName_iff {q l : List UInt8} : localName q = l ↔ Local q l := by
  unfold localName Local
  by_cases h : 58 ∈ q
  · rw [if_pos h]
    obtain ⟨p, r, rfl, hp⟩ := List.eq_append_cons_of_mem h
    rw [dropWhile_colon hp]
    constructor
    · intro e
      have e : r = l := e
      exact .inr ⟨p, hp, by rw [e]⟩
    · rintro (⟨_, h'⟩ | ⟨p', hp', e⟩)
      · exact absurd h h'
      · have := congrArg (List.drop 1 ∘ List.dropWhile (· != 58)) e
        simp only [Function.comp, dropWhile_colon hp, dropWhile_colon hp'] at this
        exact this
  · rw [if_neg h]
    constructor
    · intro e; exact .inl ⟨e, h⟩
    · rintro (⟨e, _⟩ | ⟨p, _, e⟩)
      · exact e
      · exact absurd (by rw [e]; simp) h

end Osmio.QuickXml
