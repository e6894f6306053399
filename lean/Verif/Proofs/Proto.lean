import Verif.Model.Proto
import Verif.Proofs.Utf8
import Mathlib.Tactic.Ring
/-! # Lemmas about the wire format -/

namespace Osmio.Proto

/-! ## Numbers -/

theorem readVarintAt_write (k : Nat) : ∀ (i n : Nat) (t : Bytes), k + i = 9 → n < 2 ^ (7 * k + 1) →
    readVarintAt i (writeVarintAux k n ++ t) = some (n, t) := by
  induction k with
  | zero =>
    intro i n t hi hn
    have h2 : n < 2 := by simpa using hn
    have : i = 9 := by omega
    subst this
    simp only [writeVarintAux, List.singleton_append, readVarintAt, if_true]
    have hb : (UInt8.ofNat n).toNat = n := by
      rw [UInt8.toNat_ofNat']; omega
    rw [hb, if_pos (by omega)]
  | succ k ih =>
    intro i n t hi hn
    have h9 : i ≠ 9 := by omega
    unfold writeVarintAux
    split
    · rename_i h
      have hb : (UInt8.ofNat n).toNat = n := by
        rw [UInt8.toNat_ofNat']; omega
      simp only [List.singleton_append, readVarintAt, h9, if_false, hb, h, if_true]
    · rename_i h
      have hb : (UInt8.ofNat (n % 128 + 128)).toNat = n % 128 + 128 := by
        rw [UInt8.toNat_ofNat']; omega
      have hn' : n / 128 < 2 ^ (7 * k + 1) := by
        rw [Nat.div_lt_iff_lt_mul (by decide)]
        have : (2 : Nat) ^ (7 * (k + 1) + 1) = 2 ^ (7 * k + 1) * 128 := by
          rw [show 7 * (k + 1) + 1 = (7 * k + 1) + 7 by ring, Nat.pow_add]
        omega
      rw [List.cons_append]
      simp only [readVarintAt, h9, if_false, hb]
      rw [if_neg (by omega), ih (i + 1) (n / 128) t (by omega) hn']
      simp only [Option.map_some, Option.some.injEq, Prod.mk.injEq, and_true]
      omega

theorem readVarint_write {n : Nat} (h : n < 2 ^ 64) (t : Bytes) : readVarint (writeVarint n ++ t) = some (n, t) :=
  readVarintAt_write 9 0 n t rfl h

theorem narrow_of_lt {n : Nat} (h : n < 2 ^ 32) : narrow n = some n := if_pos h

theorem readVarint32_write {n : Nat} (h : n < 2 ^ 32) (t : Bytes) : readVarint32 (writeVarint n ++ t) = some (n, t) := by
  unfold readVarint32
  rw [readVarint_write (by omega), Option.bind_some, narrow_of_lt h]
  rfl

theorem writeVarint_ne (n : Nat) : writeVarint n ≠ [] := by
  unfold writeVarint writeVarintAux
  split <;> simp

theorem readVarintAt_append (bs : Bytes) : ∀ (i : Nat) (v : Nat) (r t : Bytes), readVarintAt i bs = some (v, r) →
    readVarintAt i (bs ++ t) = some (v, r ++ t) ∧ r.length < bs.length := by
  induction bs with
  | nil => intro i v r t h; cases h
  | cons b bs ih =>
    intro i v r t h
    rw [List.cons_append]
    unfold readVarintAt at h ⊢
    split_ifs at h ⊢ with h1 h2 h3
    · cases h; exact ⟨rfl, by simp⟩
    · cases h; exact ⟨rfl, by simp⟩
    · obtain ⟨p, hp, he⟩ := Option.map_eq_some_iff.1 h
      obtain ⟨v', r'⟩ := p
      cases he
      obtain ⟨a, b⟩ := ih _ _ _ t hp
      rw [a]
      exact ⟨rfl, by simp only [List.length_cons]; omega⟩

theorem readVarint_append {bs : Bytes} {v : Nat} {r : Bytes} (t : Bytes) (h : readVarint bs = some (v, r)) :
    readVarint (bs ++ t) = some (v, r ++ t) ∧ r.length < bs.length := readVarintAt_append bs 0 v r t h

theorem readVarint32_append {bs : Bytes} {v : Nat} {r : Bytes} (t : Bytes) (h : readVarint32 bs = some (v, r)) :
    readVarint32 (bs ++ t) = some (v, r ++ t) ∧ r.length < bs.length := by
  unfold readVarint32 at h ⊢
  obtain ⟨p, hp, he⟩ := Option.bind_eq_some_iff.1 h
  obtain ⟨v', r'⟩ := p
  obtain ⟨w, hw, he⟩ := Option.map_eq_some_iff.1 he
  cases he
  obtain ⟨a, b⟩ := readVarint_append t hp
  rw [a, Option.bind_some, hw]
  exact ⟨rfl, b⟩

theorem readRaw_append {n : Nat} {bs : Bytes} {v r : Bytes} (t : Bytes) (h : readRaw n bs = some (v, r)) :
    readRaw n (bs ++ t) = some (v, r ++ t) ∧ r.length ≤ bs.length := by
  unfold readRaw at h ⊢
  split at h
  · rename_i hn
    cases h
    rw [if_pos (by simp; omega), List.take_append_of_le_length hn, List.drop_append_of_le_length hn]
    exact ⟨rfl, by simp⟩
  · cases h

theorem readRaw_write (bs t : Bytes) : readRaw bs.length (bs ++ t) = some (bs, t) := by
  unfold readRaw
  rw [if_pos (by simp)]
  simp

theorem skipGroup_append (n : Nat) : ∀ (k : Nat) (bs r t : Bytes), skipGroup n bs = some r → n ≤ k →
    skipGroup k (bs ++ t) = some (r ++ t) ∧ r.length < bs.length := by
  induction n with
  | zero => intro k bs r t h; cases h
  | succ n ih =>
    intro k bs r t h hk
    obtain ⟨k, rfl⟩ : ∃ j, k = j + 1 := ⟨k - 1, by omega⟩
    have hk : n ≤ k := by omega
    unfold skipGroup at h ⊢
    cases hv : readVarint32 bs with
    | none => rw [hv] at h; cases h
    | some p =>
      obtain ⟨tag, r1⟩ := p
      obtain ⟨a1, l1⟩ := readVarint32_append t hv
      simp only [hv] at h
      simp only [a1]
      split_ifs at h ⊢ with h1 h2 h3 h4 h5 h6 h7
      · obtain ⟨⟨v, r2⟩, e1, e2⟩ := Option.bind_eq_some_iff.1 h
        obtain ⟨a2, l2⟩ := readVarint_append t e1
        obtain ⟨a3, l3⟩ := ih k r2 r t e2 hk
        rw [a2]; exact ⟨a3, by omega⟩
      · obtain ⟨⟨v, r2⟩, e1, e2⟩ := Option.bind_eq_some_iff.1 h
        obtain ⟨a2, l2⟩ := readRaw_append t e1
        obtain ⟨a3, l3⟩ := ih k r2 r t e2 hk
        rw [a2]; exact ⟨a3, by omega⟩
      · obtain ⟨⟨v, r2⟩, e1, e2⟩ := Option.bind_eq_some_iff.1 h
        obtain ⟨⟨w, r3⟩, e3, e4⟩ := Option.bind_eq_some_iff.1 e2
        obtain ⟨a2, l2⟩ := readVarint32_append t e1
        obtain ⟨a3, l3⟩ := readRaw_append t e3
        obtain ⟨a4, l4⟩ := ih k r3 r t e4 hk
        rw [a2]; simp only [Option.bind_some]; rw [a3]; simp only at l3; exact ⟨a4, by omega⟩
      · obtain ⟨r2, e1, e2⟩ := Option.bind_eq_some_iff.1 h
        obtain ⟨a2, l2⟩ := ih k r1 r2 t e1 hk
        obtain ⟨a3, l3⟩ := ih k r2 r t e2 hk
        rw [a2]; exact ⟨a3, by omega⟩
      · cases h; exact ⟨rfl, l1⟩
      · obtain ⟨⟨v, r2⟩, e1, e2⟩ := Option.bind_eq_some_iff.1 h
        obtain ⟨a2, l2⟩ := readRaw_append t e1
        obtain ⟨a3, l3⟩ := ih k r2 r t e2 hk
        rw [a2]; exact ⟨a3, by omega⟩

theorem readVal_append {tag : Nat} {bs : Bytes} {v : Val} {r : Bytes} (t : Bytes) (h : readVal tag bs = some (v, r)) :
    readVal tag (bs ++ t) = some (v, r ++ t) ∧ r.length ≤ bs.length := by
  unfold readVal at h ⊢
  split_ifs at h ⊢ with h1 h2 h3 h4 h5 h6
  · obtain ⟨⟨v, r2⟩, e1, e2⟩ := Option.map_eq_some_iff.1 h
    cases e2
    obtain ⟨a, l⟩ := readVarint_append t e1
    rw [a]; exact ⟨rfl, le_of_lt l⟩
  · obtain ⟨⟨v, r2⟩, e1, e2⟩ := Option.map_eq_some_iff.1 h
    cases e2
    obtain ⟨a, l⟩ := readRaw_append t e1
    rw [a]; exact ⟨rfl, l⟩
  · obtain ⟨⟨v, r2⟩, e1, e2⟩ := Option.bind_eq_some_iff.1 h
    obtain ⟨⟨w, r3⟩, e3, e4⟩ := Option.map_eq_some_iff.1 e2
    cases e4
    obtain ⟨a, l⟩ := readVarint32_append t e1
    obtain ⟨a2, l2⟩ := readRaw_append t e3
    rw [a]; simp only [Option.bind_some]; rw [a2]
    simp only at l2
    exact ⟨rfl, by omega⟩
  · obtain ⟨r2, e1, e2⟩ := Option.map_eq_some_iff.1 h
    cases e2
    obtain ⟨a, l⟩ := skipGroup_append _ ((bs ++ t).length + 1) _ _ t e1 (by simp)
    rw [a]; exact ⟨rfl, by omega⟩
  · obtain ⟨⟨v, r2⟩, e1, e2⟩ := Option.map_eq_some_iff.1 h
    cases e2
    obtain ⟨a, l⟩ := readRaw_append t e1
    rw [a]; exact ⟨rfl, l⟩

theorem readField_append {bs : Bytes} {f : Field} {r : Bytes} (t : Bytes) (h : readField bs = some (f, r)) :
    readField (bs ++ t) = some (f, r ++ t) ∧ r.length < bs.length := by
  unfold readField at h ⊢
  obtain ⟨⟨v, r2⟩, e1, e2⟩ := Option.bind_eq_some_iff.1 h
  obtain ⟨⟨w, r3⟩, e3, e4⟩ := Option.map_eq_some_iff.1 e2
  cases e4
  obtain ⟨a, l⟩ := readVarint32_append t e1
  obtain ⟨a2, l2⟩ := readVal_append t e3
  rw [a]; simp only [Option.bind_some]; rw [a2]
  simp only at l2
  exact ⟨rfl, by omega⟩

/-! ## Fields -/

theorem readFieldsAux_fuel (n : Nat) : ∀ (m : Nat) (bs : Bytes), bs.length ≤ n → bs.length ≤ m →
    readFieldsAux n bs = readFieldsAux m bs := by
  induction n with
  | zero =>
    intro m bs h _
    obtain rfl : bs = [] := List.length_eq_zero_iff.1 (by omega)
    cases m <;> rfl
  | succ n ih =>
    intro m bs h hm
    cases bs with
    | nil => cases m <;> rfl
    | cons b bs =>
      obtain ⟨m, rfl⟩ : ∃ j, m = j + 1 := ⟨m - 1, by simp at hm; omega⟩
      unfold readFieldsAux
      cases hf : readField (b :: bs) with
      | none => rfl
      | some p =>
        obtain ⟨f, r⟩ := p
        obtain ⟨_, l⟩ := readField_append [] hf
        simp only [List.length_cons] at l h hm
        simp only [Option.bind_some]
        rw [ih m r (by omega) (by omega)]

theorem readFields_cons {bs : Bytes} {f : Field} {r : Bytes} (h : readField bs = some (f, r)) :
    readFields bs = (readFields r).map (f :: ·) := by
  obtain ⟨_, l⟩ := readField_append [] h
  unfold readFields
  cases bs with
  | nil => simp at l
  | cons b bs =>
    simp only [List.length_cons, readFieldsAux, h, Option.bind_some]
    rw [readFieldsAux_fuel bs.length r.length r (by simp at l; omega) (le_refl _)]

theorem readFields_nil : readFields [] = some [] := rfl

/-- A complete message can be followed by more fields. -/
theorem readFields_append (n : Nat) : ∀ (bs t : Bytes) (fs : List Field), bs.length ≤ n → readFields bs = some fs →
    readFields (bs ++ t) = (readFields t).map (fs ++ ·) := by
  induction n with
  | zero =>
    intro bs t fs hn h
    obtain rfl : bs = [] := List.length_eq_zero_iff.1 (by omega)
    cases h
    simp
  | succ n ih =>
    intro bs t fs hn h
    cases bs with
    | nil => cases h; simp
    | cons b bs =>
      cases hf : readField (b :: bs) with
      | none => simp only [readFields, List.length_cons, readFieldsAux, hf] at h; cases h
      | some p =>
        obtain ⟨f, r⟩ := p
        rw [readFields_cons hf] at h
        obtain ⟨fs', e1, e2⟩ := Option.map_eq_some_iff.1 h
        obtain ⟨a, l⟩ := readField_append t hf
        rw [readFields_cons a, ih r t fs' (by simp at l hn; omega) e1, ← e2, Option.map_map]
        rfl

variable {M : Type} {merge : M → Field → Option M}

/-- The rest of `merge_from`, from a message read so far. -/
def parseFrom (merge : M → Field → Option M) (m : M) (bs : Bytes) : Option M := (readFields bs).bind (mergeAll merge m)

/-- Reading some bytes takes one message to another. -/
def Steps (merge : M → Field → Option M) (m : M) (bs : Bytes) (m' : M) : Prop :=
  ∀ t, parseFrom merge m (bs ++ t) = parseFrom merge m' t

theorem Steps.refl (m : M) : Steps merge m [] m := fun _ => rfl

theorem Steps.trans {m m' m'' : M} {a b : Bytes} (h1 : Steps merge m a m') (h2 : Steps merge m' b m'') :
    Steps merge m (a ++ b) m'' := fun t => by rw [List.append_assoc, h1, h2]

theorem Steps.parse {m m' : M} {bs : Bytes} (h : Steps merge m bs m') : parse merge m bs = some m' := by
  have := h []
  rw [List.append_nil] at this
  exact this

theorem Steps.field {m m' : M} {bs : Bytes} {f : Field} (h : ∀ t, readField (bs ++ t) = some (f, t))
    (hm : merge m f = some m') : Steps merge m bs m' := by
  intro t
  unfold parseFrom
  rw [readFields_cons (h t)]
  cases readFields t with
  | none => rfl
  | some fs => simp only [Option.map_some, Option.bind_some, mergeAll, hm]

theorem Steps.num {m m' : M} {k n : Nat} (h : merge m ⟨8 * k, .varint n⟩ = some m') (hk : 0 < k ∧ k < 2 ^ 28)
    (hn : n < 2 ^ 64) : Steps merge m (writeNum k n) m' := by
  refine Steps.field (f := ⟨8 * k, .varint n⟩) (fun t => ?_) h
  unfold writeNum readField
  rw [List.append_assoc, readVarint32_write (by omega)]
  simp only [Option.bind_some, readVal]
  rw [if_neg (by omega), if_pos (by omega), readVarint_write hn]
  rfl

theorem Steps.len {m m' : M} {k : Nat} {bs : Bytes} (h : merge m ⟨8 * k + 2, .len bs⟩ = some m') (hk : 0 < k ∧ k < 2 ^ 28)
    (hl : bs.length ≤ 2147483647) : Steps merge m (writeLen k bs) m' := by
  refine Steps.field (f := ⟨8 * k + 2, .len bs⟩) (fun t => ?_) h
  unfold writeLen readField
  rw [List.append_assoc, List.append_assoc, readVarint32_write (by omega)]
  simp only [Option.bind_some, readVal]
  rw [if_neg (by omega), if_neg (by omega), if_neg (by omega), if_pos (by omega), readVarint32_write (Nat.mod_lt _ (by decide))]
  simp only [Option.bind_some]
  rw [Nat.mod_eq_of_lt (by omega), readRaw_write]
  rfl

theorem Steps.opt {α : Type} {m m' : M} {o : Option α} {w : α → Bytes} (h0 : o = none → m = m')
    (h1 : ∀ a, o = some a → Steps merge m (w a) m') : Steps merge m (writeOpt o w) m' := by
  cases o with
  | none => rw [h0 rfl]; exact Steps.refl _
  | some a => exact h1 a rfl

/-- A repeated field: `put l` is the message with the list `l` so far. -/
theorem Steps.rep {α : Type} {put : List α → M} {w : α → Bytes} {l : List α}
    (h : ∀ l' a, a ∈ l → Steps merge (put l') (w a) (put (l' ++ [a]))) : Steps merge (put []) (l.flatMap w) (put l) := by
  have : ∀ (l2 l1 : List α), (∀ a ∈ l2, a ∈ l) → Steps merge (put l1) (l2.flatMap w) (put (l1 ++ l2)) := by
    intro l2
    induction l2 with
    | nil => intro l1 _; rw [List.append_nil]; exact Steps.refl _
    | cons a l2 ih =>
      intro l1 hm
      rw [List.flatMap_cons]
      refine Steps.trans (h l1 a (hm a (by simp))) ?_
      have := ih (l1 ++ [a]) (fun b hb => hm b (by simp [hb]))
      rwa [List.append_assoc] at this
  exact this l [] (fun _ h => h)

theorem readPackedAux_write {α : Type} {dec : Nat → Option α} {enc : α → Nat} {l : List α} (h1 : ∀ a ∈ l, dec (enc a) = some a)
    (h2 : ∀ a ∈ l, enc a < 2 ^ 64) (n : Nat) (hn : l.length ≤ n) :
    readPackedAux dec n (l.flatMap fun a => writeVarint (enc a)) = some l := by
  induction l generalizing n with
  | nil => cases n <;> rfl
  | cons a l ih =>
    obtain ⟨n, rfl⟩ : ∃ j, n = j + 1 := ⟨n - 1, by simp at hn; omega⟩
    rw [List.flatMap_cons]
    have hr := readVarint_write (h2 a (by simp)) (l.flatMap fun a => writeVarint (enc a))
    have hne := writeVarint_ne (enc a)
    generalize writeVarint (enc a) = w at hr hne ⊢
    cases w with
    | nil => exact absurd rfl hne
    | cons b w =>
      rw [List.cons_append] at hr ⊢
      simp only [readPackedAux, hr, Option.bind_some]
      rw [h1 a (by simp), Option.bind_some, ih (fun a h => h1 a (by simp [h])) (fun a h => h2 a (by simp [h])) n (by simp at hn; omega)]
      rfl

theorem length_le_packed {α : Type} (enc : α → Nat) (l : List α) :
    l.length ≤ (l.flatMap fun a => writeVarint (enc a)).length := by
  induction l with
  | nil => simp
  | cons a l ih =>
    have : 0 < (writeVarint (enc a)).length := List.length_pos_iff.2 (writeVarint_ne _)
    simp only [List.flatMap_cons, List.length_append, List.length_cons]
    omega

theorem readPacked_write {α : Type} {dec : Nat → Option α} {enc : α → Nat} (h1 : ∀ a, dec (enc a) = some a)
    (h2 : ∀ a, enc a < 2 ^ 64) (l : List α) : readPacked dec (l.flatMap fun a => writeVarint (enc a)) = some l :=
  readPackedAux_write (fun a _ => h1 a) (fun a _ => h2 a) _ (length_le_packed enc l)

theorem Steps.packed {α : Type} {m m' : M} {k : Nat} {dec : Nat → Option α} {enc : α → Nat} {l : List α}
    (h1 : ∀ a, dec (enc a) = some a) (h2 : ∀ a, enc a < 2 ^ 64) (h0 : l = [] → m = m')
    (h : ∀ bs, readPacked dec bs = some l → merge m ⟨8 * k + 2, .len bs⟩ = some m') (hk : 0 < k ∧ k < 2 ^ 28)
    (hl : (writePacked k enc l).length ≤ 2147483647) : Steps merge m (writePacked k enc l) m' := by
  unfold writePacked at hl ⊢
  split
  · rename_i he
    rw [h0 (by simpa using he)]
    exact Steps.refl _
  · rename_i he
    rw [if_neg he] at hl
    refine Steps.len (h _ (readPacked_write h1 h2 l)) hk ?_
    simp only [writeLen, List.length_append] at hl
    omega

/-! ## Number encodings -/

theorem unsigned64_lt (x : Int) : unsigned64 x < 2 ^ 64 := by unfold unsigned64; omega

theorem asInt32_enc (x : Int32) : asInt32 (encInt32 x) = some x := by
  have h1 : -2147483648 ≤ x.toInt := x.le_toInt
  have h2 : x.toInt < 2147483648 := x.toInt_lt
  unfold asInt32 encInt32 unsigned64
  rw [if_pos (by omega)]
  refine congrArg some ?_
  apply Int32.toInt_inj.1
  simp only [Int32.toInt_ofInt]
  have h1' : -2147483648 ≤ x.toInt := x.le_toInt
  have h2' : x.toInt < 2147483648 := x.toInt_lt
  rw [Int.toNat_of_nonneg (by omega)]
  have : Int.bmod (x.toInt % 2 ^ 64) (2 ^ 32) = Int.bmod x.toInt (2 ^ 32) := by
    rw [Int.bmod_def, Int.bmod_def]
    have : x.toInt % 2 ^ 64 % ((2 ^ 32 : Nat) : Int) = x.toInt % ((2 ^ 32 : Nat) : Int) := by omega
    rw [this]
  show Int.bmod (x.toInt % 2 ^ 64) (2 ^ 32) = x.toInt
  rw [this, Int.bmod_def]
  omega

theorem asInt64_enc (x : Int64) : asInt64 (encInt64 x) = some x := by
  unfold asInt64 encInt64 unsigned64
  refine congrArg some ?_
  apply Int64.toInt_inj.1
  simp only [Int64.toInt_ofInt]
  have h1' : -9223372036854775808 ≤ x.toInt := x.le_toInt
  have h2' : x.toInt < 9223372036854775808 := x.toInt_lt
  rw [Int.toNat_of_nonneg (by omega)]
  show Int.bmod (x.toInt % 2 ^ 64) (2 ^ 64) = x.toInt
  rw [Int.bmod_def]
  omega

theorem asUInt32_enc (x : UInt32) : asUInt32 (encUInt32 x) = some x := by
  unfold asUInt32 encUInt32
  rw [narrow_of_lt x.toNat_lt]
  exact congrArg some UInt32.ofNat_toNat

theorem asBool_enc (x : Bool) : asBool (encBool x) = some x := by cases x <;> rfl

theorem encUInt32_lt (x : UInt32) : encUInt32 x < 2 ^ 64 := by
  have := x.toNat_lt
  unfold encUInt32; omega

theorem encBool_lt (x : Bool) : encBool x < 2 ^ 64 := by cases x <;> decide

theorem zigZag_lt32 (x : Int32) : encSint32 x < 2 ^ 32 := by
  have h1' : -2147483648 ≤ x.toInt := x.le_toInt
  have h2' : x.toInt < 2147483648 := x.toInt_lt
  unfold encSint32 zigZag
  split <;> omega

theorem encSint32_lt (x : Int32) : encSint32 x < 2 ^ 64 := by
  have := zigZag_lt32 x; omega

theorem encSint64_lt (x : Int64) : encSint64 x < 2 ^ 64 := by
  have h1' : -9223372036854775808 ≤ x.toInt := x.le_toInt
  have h2' : x.toInt < 9223372036854775808 := x.toInt_lt
  unfold encSint64 zigZag
  split <;> omega

theorem unzig (x : Int) : unZigZag (zigZag x) = x := by
  unfold unZigZag zigZag
  split <;> split <;> omega

theorem zigZag32_enc (x : Int32) : zigZag32 (encSint32 x) = some x := by
  unfold zigZag32
  rw [narrow_of_lt (zigZag_lt32 x)]
  unfold encSint32
  rw [Option.map_some, unzig]
  exact congrArg some (Int32.ofInt_toInt x)

theorem zigZag64_enc (x : Int64) : zigZag64 (encSint64 x) = some x := by
  unfold zigZag64 encSint64
  rw [unzig]
  exact congrArg some (Int64.ofInt_toInt x)

theorem encInt32_lt (x : Int32) : encInt32 x < 2 ^ 64 := unsigned64_lt _
theorem encInt64_lt (x : Int64) : encInt64 x < 2 ^ 64 := unsigned64_lt _

/-- The bytes of an element are no longer than those of the whole list. -/
theorem flatMap_length_le {α : Type} {w : α → Bytes} {l : List α} {a : α} (h : a ∈ l) : (w a).length ≤ (l.flatMap w).length := by
  induction l with
  | nil => cases h
  | cons b l ih =>
    rw [List.flatMap_cons, List.length_append]
    rcases List.mem_cons.1 h with rfl | h
    · omega
    · have := ih h; omega

theorem writeLen_length (k : Nat) (bs : Bytes) : bs.length ≤ (writeLen k bs).length := by
  unfold writeLen
  simp only [List.length_append]
  omega

end Osmio.Proto
