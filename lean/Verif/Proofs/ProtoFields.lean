import Verif.Spec.WireFields
import Verif.Proofs.Proto
/-! # Lemmas: which bytes are fields -/

namespace Osmio.Proto
open Spec.Wire

theorem base128_ne {p : Bytes} {n : Nat} (h : Base128 p n) : 1 ≤ p.length := by
  cases h <;> simp

theorem readVarintAt_sound (bs : Bytes) : ∀ {i n : Nat} {r : Bytes}, i ≤ 9 → readVarintAt i bs = some (n, r) →
    ∃ p, bs = p ++ r ∧ Base128 p n ∧ i + p.length ≤ 10 ∧ n < 2 ^ (64 - 7 * i) := by
  induction bs with
  | nil => intro i n r _ h; cases h
  | cons b bs ih =>
    intro i n r hi h
    rw [readVarintAt] at h
    have pw : ∀ j, j ≤ 9 → (2 : Nat) ^ 1 ≤ 2 ^ (64 - 7 * j) := fun j hj => Nat.pow_le_pow_right (by decide) (by omega)
    by_cases h9 : i = 9
    · rw [if_pos h9] at h
      split at h
      · rename_i hb
        cases h
        exact ⟨[b], rfl, .last (by omega), by simp; omega, by have := pw i hi; omega⟩
      · cases h
    · rw [if_neg h9] at h
      have e : 64 - 7 * i = 7 + (64 - 7 * (i + 1)) := by omega
      have e2 : (2 : Nat) ^ (64 - 7 * i) = 128 * 2 ^ (64 - 7 * (i + 1)) := by rw [e, Nat.pow_add]
      have := pw (i + 1) (by omega)
      split at h
      · rename_i hb
        cases h
        exact ⟨[b], rfl, .last hb, by simp; omega, by omega⟩
      · rename_i hb
        obtain ⟨⟨m, r'⟩, h1, h2⟩ := Option.map_eq_some_iff.1 h
        cases h2
        obtain ⟨p, rfl, h3, h4, h5⟩ := ih (by omega) h1
        have hb2 : b.toNat < 256 := b.toNat_lt
        refine ⟨b :: p, rfl, .more (by omega) h3, by simp; omega, ?_⟩
        show b.toNat - 128 + 128 * m < _
        omega

theorem readVarintAt_complete {p : Bytes} {n : Nat} (h : Base128 p n) : ∀ {i : Nat} (r : Bytes), i + p.length ≤ 10 →
    n < 2 ^ (64 - 7 * i) → readVarintAt i (p ++ r) = some (n, r) := by
  induction h with
  | @last b hb =>
    intro i r hi hn
    simp only [List.length_singleton] at hi
    rw [List.singleton_append, readVarintAt]
    by_cases h9 : i = 9
    · rw [if_pos h9, if_pos]
      subst h9
      simpa using Nat.lt_succ_iff.1 hn
    · rw [if_neg h9, if_pos hb]
  | @more b bs n hb h ih =>
    intro i r hi hn
    have := base128_ne h
    simp only [List.length_cons] at hi
    have e : 64 - 7 * i = 7 + (64 - 7 * (i + 1)) := by omega
    have e2 : (2 : Nat) ^ (64 - 7 * i) = 128 * 2 ^ (64 - 7 * (i + 1)) := by rw [e, Nat.pow_add]
    rw [List.cons_append, readVarintAt, if_neg (by omega), if_neg (by omega), ih r (by omega) (by omega)]
    rfl

theorem readVarint_iff {bs r : Bytes} {n : Nat} : readVarint bs = some (n, r) ↔ ∃ p, bs = p ++ r ∧ Varint p n := by
  constructor
  · intro h
    obtain ⟨p, h1, h2, h3, h4⟩ := readVarintAt_sound bs (by decide) h
    exact ⟨p, h1, h2, by omega, h4⟩
  · rintro ⟨p, rfl, h1, h2, h3⟩
    exact readVarintAt_complete h1 r (by omega) h3

theorem narrow_iff {n m : Nat} : narrow n = some m ↔ As32 n m := by
  unfold narrow As32
  split
  · rename_i h
    constructor
    · intro e; cases e; exact .inl ⟨h, rfl⟩
    · rintro (⟨_, rfl⟩ | ⟨h', _⟩)
      · rfl
      · omega
  · rename_i h
    constructor
    · intro e; exact .inr ⟨by omega, e⟩
    · rintro (⟨h', _⟩ | ⟨_, e⟩)
      · exact absurd h' h
      · exact e

theorem readVarint32_iff {bs r : Bytes} {n : Nat} : readVarint32 bs = some (n, r) ↔ ∃ p, bs = p ++ r ∧ Length p n := by
  unfold readVarint32 Length
  constructor
  · intro h
    obtain ⟨⟨m, r'⟩, h1, h2⟩ := Option.bind_eq_some_iff.1 h
    obtain ⟨k, h5, h6⟩ := Option.map_eq_some_iff.1 h2
    cases h6
    obtain ⟨p, h3, h4⟩ := readVarint_iff.1 h1
    exact ⟨p, h3, m, h4, narrow_iff.1 h5⟩
  · rintro ⟨p, h1, m, h2, h3⟩
    rw [readVarint_iff.2 ⟨p, h1, h2⟩, Option.bind_some, narrow_iff.2 h3]
    rfl

theorem readRaw_iff {n : Nat} {bs v r : Bytes} : readRaw n bs = some (v, r) ↔ bs = v ++ r ∧ v.length = n := by
  unfold readRaw
  constructor
  · intro h
    split at h
    · cases h
      exact ⟨(List.take_append_drop n bs).symm, by simp; omega⟩
    · cases h
  · rintro ⟨rfl, rfl⟩
    rw [if_pos (by simp)]
    simp

/-- The value after a tag, if it is not a group. -/
theorem plain_iff {type : Nat} {bs r : Bytes} {x : Val} (h3 : type ≠ 3) (tag : Nat) (ht : tag % 8 = type) (h0 : tag / 8 ≠ 0) :
    readVal tag bs = some (x, r) ↔ ∃ v, bs = v ++ r ∧ Plain type v x := by
  unfold readVal
  rw [if_neg h0]
  constructor
  · intro h
    split at h
    · rename_i h1
      obtain ⟨⟨n, r'⟩, h4, h5⟩ := Option.map_eq_some_iff.1 h
      cases h5
      obtain ⟨p, h6, h7⟩ := readVarint_iff.1 h4
      exact ⟨p, h6, by rw [← ht, h1]; exact .varint h7⟩
    split at h
    · rename_i h1
      obtain ⟨⟨n, r'⟩, h4, h5⟩ := Option.map_eq_some_iff.1 h
      cases h5
      obtain ⟨h6, h7⟩ := readRaw_iff.1 h4
      exact ⟨n, h6, by rw [← ht, h1]; exact .fixed64 h7⟩
    split at h
    · rename_i h1
      obtain ⟨⟨n, r'⟩, h4, h5⟩ := Option.bind_eq_some_iff.1 h
      obtain ⟨⟨w, r2⟩, h6, h7⟩ := Option.map_eq_some_iff.1 h5
      cases h7
      obtain ⟨p, h8, h9⟩ := readVarint32_iff.1 h4
      obtain ⟨h10, h11⟩ := readRaw_iff.1 h6
      simp only at h10 h11
      refine ⟨p ++ w, by rw [h8, h10, List.append_assoc], ?_⟩
      rw [← ht, h1]
      exact .len (by rw [h11]; exact h9)
    split at h
    · omega
    split at h
    · rename_i h1
      obtain ⟨⟨n, r'⟩, h4, h5⟩ := Option.map_eq_some_iff.1 h
      cases h5
      obtain ⟨h6, h7⟩ := readRaw_iff.1 h4
      exact ⟨n, h6, by rw [← ht, h1]; exact .fixed32 h7⟩
    · cases h
  · rintro ⟨v, rfl, h⟩
    cases h with
    | varint h => rw [if_pos ht, readVarint_iff.2 ⟨_, rfl, h⟩]; rfl
    | fixed64 h => rw [if_neg (by omega), if_pos ht, readRaw_iff.2 ⟨rfl, h⟩]; rfl
    | @len l b h =>
      rw [if_neg (by omega), if_neg (by omega), if_pos ht, readVarint32_iff.2 ⟨l, by rw [List.append_assoc], h⟩]
      simp only [Option.bind_some]
      rw [readRaw_iff.2 ⟨rfl, rfl⟩]; rfl
    | fixed32 h =>
      rw [if_neg (by omega), if_neg (by omega), if_neg (by omega), if_neg (by omega), if_pos ht, readRaw_iff.2 ⟨rfl, h⟩]; rfl

theorem key_of {p : Bytes} {tag : Nat} (h : Length p tag) (h0 : tag / 8 ≠ 0) : Key p (tag / 8) (tag % 8) := by
  obtain ⟨m, h1, h2⟩ := h
  exact ⟨m, h1, by rwa [Nat.div_add_mod], by omega, h0⟩

theorem of_key {p : Bytes} {field type : Nat} (h : Key p field type) :
    Length p (8 * field + type) ∧ (8 * field + type) / 8 = field ∧ (8 * field + type) % 8 = type ∧ field ≠ 0 := by
  obtain ⟨m, h1, h2, h3, h4⟩ := h
  exact ⟨⟨m, h1, h2⟩, by omega, by omega, h4⟩

/-- `skip_group`, in terms of the reading of values. -/
theorem skipGroup_succ (n : Nat) (bs : Bytes) {tag : Nat} {r : Bytes} (h : readVarint32 bs = some (tag, r)) (h0 : tag / 8 ≠ 0) :
    skipGroup (n + 1) bs =
      if tag % 8 = 3 then (skipGroup n r).bind (skipGroup n)
      else if tag % 8 = 4 then some r
      else (readVal tag r).bind fun p => skipGroup n p.2 := by
  rw [skipGroup, h]
  simp only
  unfold readVal
  rw [if_neg h0, if_neg h0]
  have : tag % 8 < 8 := Nat.mod_lt _ (by decide)
  by_cases c0 : tag % 8 = 0
  · simp only [c0, if_true]; rw [if_neg (by decide), if_neg (by decide)]
    cases readVarint r <;> rfl
  by_cases c1 : tag % 8 = 1
  · simp only [c1, if_true]; rw [if_neg (by decide), if_neg (by decide), if_neg (by decide), if_neg (by decide)]
    cases readRaw 8 r <;> rfl
  by_cases c2 : tag % 8 = 2
  · simp only [c2, if_true]
    rw [if_neg (by decide), if_neg (by decide), if_neg (by decide), if_neg (by decide), if_neg (by decide), if_neg (by decide)]
    cases readVarint32 r with
    | none => rfl
    | some p => simp only [Option.bind_some]; cases readRaw p.1 p.2 <;> rfl
  by_cases c3 : tag % 8 = 3
  · simp only [c3, if_true]
    rw [if_neg (by decide), if_neg (by decide), if_neg (by decide)]
  by_cases c4 : tag % 8 = 4
  · simp only [c4, if_true]
    rw [if_neg (by decide), if_neg (by decide), if_neg (by decide), if_neg (by decide)]
  simp only [c0, c1, c2, c3, c4, if_false]
  by_cases c5 : tag % 8 = 5
  · simp only [c5, if_true]
    cases readRaw 4 r <;> rfl
  · simp only [c5, if_false]; rfl

theorem skipGroup_sound (n : Nat) : ∀ {bs r : Bytes}, skipGroup n bs = some r → ∃ g, bs = g ++ r ∧ Group g := by
  induction n with
  | zero => intro bs r h; cases h
  | succ n ih =>
    intro bs r h
    cases hk : readVarint32 bs with
    | none => rw [skipGroup, hk] at h; cases h
    | some p =>
      obtain ⟨tag, r1⟩ := p
      obtain ⟨k, rfl, hl⟩ := readVarint32_iff.1 hk
      by_cases h0 : tag / 8 = 0
      · rw [skipGroup, hk] at h
        simp only [h0, if_true] at h
        cases h
      rw [skipGroup_succ n _ hk h0] at h
      have hkey := key_of hl h0
      by_cases c3 : tag % 8 = 3
      · rw [if_pos c3] at h
        obtain ⟨r2, h1, h2⟩ := Option.bind_eq_some_iff.1 h
        obtain ⟨g, rfl, hg⟩ := ih h1
        obtain ⟨g', rfl, hg'⟩ := ih h2
        rw [c3] at hkey
        exact ⟨k ++ (g ++ g'), by simp, .group hkey hg hg'⟩
      rw [if_neg c3] at h
      by_cases c4 : tag % 8 = 4
      · rw [if_pos c4] at h
        cases h
        rw [c4] at hkey
        exact ⟨k, rfl, .stop hkey⟩
      rw [if_neg c4] at h
      obtain ⟨⟨x, r2⟩, h1, h2⟩ := Option.bind_eq_some_iff.1 h
      obtain ⟨v, rfl, hv⟩ := (plain_iff c3 tag rfl h0).1 h1
      obtain ⟨g, rfl, hg⟩ := ih h2
      exact ⟨k ++ (v ++ g), by simp, .plain hkey hv hg⟩

theorem skipGroup_mono {n m : Nat} {bs r : Bytes} (h : skipGroup n bs = some r) (hm : n ≤ m) : skipGroup m bs = some r := by
  have := (skipGroup_append n m bs r [] h hm).1
  simpa using this

theorem key_length {p : Bytes} {field type : Nat} (h : Key p field type) : 1 ≤ p.length := by
  obtain ⟨_, ⟨h, _⟩, _⟩ := h
  exact base128_ne h

theorem skipGroup_complete {g : Bytes} (h : Group g) : ∀ r, skipGroup (g.length + 1) (g ++ r) = some r := by
  induction h with
  | @stop k field hk =>
    intro r
    obtain ⟨h1, h2, h3, h4⟩ := of_key hk
    rw [skipGroup_succ _ _ (readVarint32_iff.2 ⟨k, rfl, h1⟩) (by omega), if_neg (by omega), if_pos h3]
  | @plain k field type v x g hk hv hg ih =>
    intro r
    obtain ⟨h1, h2, h3, h4⟩ := of_key hk
    have hl := key_length hk
    have c : type ≠ 3 ∧ type ≠ 4 := by cases hv <;> decide
    rw [skipGroup_succ _ _ (readVarint32_iff.2 ⟨k, by rw [List.append_assoc, List.append_assoc], h1⟩) (by omega), if_neg (by omega),
      if_neg (by omega), (plain_iff c.1 _ h3 (by omega)).2 ⟨v, rfl, hv⟩]
    exact skipGroup_mono (ih r) (by simp; omega)
  | @group k field g g' hk hg hg' ih ih' =>
    intro r
    obtain ⟨h1, h2, h3, h4⟩ := of_key hk
    have hl := key_length hk
    rw [skipGroup_succ _ _ (readVarint32_iff.2 ⟨k, by rw [List.append_assoc, List.append_assoc], h1⟩) (by omega), if_pos h3,
      skipGroup_mono (ih (g' ++ r)) (by simp; omega)]
    exact skipGroup_mono (ih' r) (by simp; omega)

theorem readField_iff {bs r : Bytes} {f : Field} : readField bs = some (f, r) ↔
    ∃ p field type, bs = p ++ r ∧ f.tag = 8 * field + type ∧ OneField p field type f.val := by
  unfold readField
  constructor
  · intro h
    obtain ⟨⟨tag, r1⟩, h1, h2⟩ := Option.bind_eq_some_iff.1 h
    obtain ⟨⟨x, r2⟩, h3, h4⟩ := Option.map_eq_some_iff.1 h2
    cases h4
    obtain ⟨k, rfl, hl⟩ := readVarint32_iff.1 h1
    simp only at h3
    by_cases h0 : tag / 8 = 0
    · unfold readVal at h3; rw [if_pos h0] at h3; cases h3
    have hkey := key_of hl h0
    by_cases c3 : tag % 8 = 3
    · unfold readVal at h3
      rw [if_neg h0, if_neg (by omega), if_neg (by omega), if_neg (by omega), if_pos c3] at h3
      obtain ⟨r3, h5, h6⟩ := Option.map_eq_some_iff.1 h3
      cases h6
      obtain ⟨g, rfl, hg⟩ := skipGroup_sound _ h5
      rw [c3] at hkey
      exact ⟨k ++ g, tag / 8, 3, by simp, by show tag = _; omega, .group hkey hg⟩
    · obtain ⟨v, rfl, hv⟩ := (plain_iff c3 tag rfl h0).1 h3
      exact ⟨k ++ v, tag / 8, tag % 8, by simp, by show tag = _; omega, .plain hkey hv⟩
  · rintro ⟨p, field, type, rfl, ht, hp⟩
    obtain ⟨tag, x⟩ := f
    simp only at ht hp
    subst ht
    cases hp with
    | @plain k _ _ v _ hk hv =>
      obtain ⟨h1, h2, h3, h4⟩ := of_key hk
      have c : type ≠ 3 := by cases hv <;> decide
      rw [readVarint32_iff.2 ⟨k, by rw [List.append_assoc], h1⟩]
      simp only [Option.bind_some]
      rw [(plain_iff c _ h3 (by omega)).2 ⟨v, rfl, hv⟩]
      rfl
    | @group k _ g hk hg =>
      obtain ⟨h1, h2, h3, h4⟩ := of_key hk
      rw [readVarint32_iff.2 ⟨k, by rw [List.append_assoc], h1⟩]
      simp only [Option.bind_some]
      unfold readVal
      rw [if_neg (by omega), if_neg (by omega), if_neg (by omega), if_neg (by omega), if_pos h3,
        skipGroup_mono (skipGroup_complete hg r) (by simp)]
      rfl

theorem oneField_length {p : Bytes} {field type : Nat} {x : Val} (h : OneField p field type x) : 1 ≤ p.length := by
  cases h with
  | plain hk _ => have := key_length hk; simp; omega
  | group hk _ => have := key_length hk; simp; omega

theorem readFieldsAux_sound (n : Nat) : ∀ {bs : Bytes} {fs : List Field}, readFieldsAux n bs = some fs → Fields bs fs := by
  induction n with
  | zero =>
    intro bs fs h
    cases bs with
    | nil => cases h; exact .nil
    | cons b r => cases h
  | succ n ih =>
    intro bs fs h
    cases bs with
    | nil => cases h; exact .nil
    | cons b r =>
      rw [readFieldsAux] at h
      obtain ⟨⟨f, r2⟩, h1, h2⟩ := Option.bind_eq_some_iff.1 h
      obtain ⟨gs, h3, rfl⟩ := Option.map_eq_some_iff.1 h2
      obtain ⟨p, field, type, h4, h5, h6⟩ := readField_iff.1 h1
      obtain ⟨tag, x⟩ := f
      simp only at h5 h6
      subst h5
      rw [h4]
      exact .cons h6 (ih h3)

theorem readFieldsAux_complete {bs : Bytes} {fs : List Field} (h : Fields bs fs) : ∀ {n : Nat}, bs.length ≤ n →
    readFieldsAux n bs = some fs := by
  induction h with
  | nil => intro n _; cases n <;> rfl
  | @cons b field type x r fs hb _ ih =>
    intro n hn
    have hl := oneField_length hb
    simp only [List.length_append] at hn
    obtain ⟨n, rfl⟩ : ∃ k, n = k + 1 := ⟨n - 1, by omega⟩
    have hf : readField (b ++ r) = some (⟨8 * field + type, x⟩, r) := readField_iff.2 ⟨b, field, type, rfl, rfl, hb⟩
    cases hbr : b ++ r with
    | nil => simp at hbr; rw [hbr.1] at hl; simp at hl
    | cons c t =>
      rw [readFieldsAux, ← hbr, hf]
      simp only [Option.bind_some]
      rw [ih (by omega)]
      rfl

theorem readFields_iff {bs : Bytes} {fs : List Field} : readFields bs = some fs ↔ Fields bs fs :=
  ⟨readFieldsAux_sound _, fun h => readFieldsAux_complete h le_rfl⟩

theorem readPackedAux_iff {α : Type} (dec : Nat → Option α) (n : Nat) : ∀ {bs : Bytes} {l : List α}, bs.length ≤ n →
    (readPackedAux dec n bs = some l ↔ ∃ ns, Numbers bs ns ∧ List.Forall₂ (fun n a => dec n = some a) ns l) := by
  induction n with
  | zero =>
    intro bs l hn
    have : bs = [] := List.length_eq_zero_iff.1 (by omega)
    subst this
    constructor
    · intro h; cases h; exact ⟨[], .nil, .nil⟩
    · rintro ⟨ns, h, hd⟩
      cases hb : ([] : Bytes) with
      | nil =>
        cases ns with
        | nil => cases hd; rfl
        | cons m ns =>
          generalize he : ([] : Bytes) = e at h
          cases h with
          | cons h1 _ => have := base128_ne h1.1; rw [(List.append_eq_nil_iff.1 he.symm).1] at this; simp at this
      | cons c t => cases hb
  | succ n ih =>
    intro bs l hn
    cases bs with
    | nil =>
      constructor
      · intro h; cases h; exact ⟨[], .nil, .nil⟩
      · rintro ⟨ns, h, hd⟩
        generalize he : ([] : Bytes) = e at h
        cases h with
        | nil => cases hd; rfl
        | cons h1 _ => have := base128_ne h1.1; rw [(List.append_eq_nil_iff.1 he.symm).1] at this; simp at this
    | cons b r =>
      rw [readPackedAux]
      constructor
      · intro h
        obtain ⟨⟨m, r2⟩, h1, h2⟩ := Option.bind_eq_some_iff.1 h
        obtain ⟨a, h7, h2⟩ := Option.bind_eq_some_iff.1 h2
        obtain ⟨l', h3, rfl⟩ := Option.map_eq_some_iff.1 h2
        obtain ⟨p, h4, h5⟩ := readVarint_iff.1 h1
        have hl := base128_ne h5.1
        have hlen := congrArg List.length h4
        simp only [List.length_append, List.length_cons] at hlen hn
        obtain ⟨ns, h6, h8⟩ := (ih (bs := r2) (by omega)).1 h3
        exact ⟨m :: ns, by rw [h4]; exact .cons h5 h6, .cons h7 h8⟩
      · rintro ⟨ns, h, hd⟩
        generalize he : b :: r = e at h
        cases h with
        | nil => cases he
        | @cons p m r2 ns h1 h2 =>
          have hl := base128_ne h1.1
          have hlen := congrArg List.length he
          simp only [List.length_append, List.length_cons] at hlen hn
          rw [readVarint_iff.2 ⟨p, rfl, h1⟩]
          cases hd with
          | cons ha hd =>
            rw [Option.bind_some, ha, Option.bind_some, (ih (bs := r2) (by omega)).2 ⟨ns, h2, hd⟩]
            rfl

end Osmio.Proto
