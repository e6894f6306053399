import Verif.Lib.Utf8
/-! UTF-8 round trip. -/

namespace Osmio.Utf8

theorem encode_append (a b : Str) : encode (a ++ b) = encode a ++ encode b := by
  simp [encode]

theorem encode_nil : encode [] = [] := rfl
theorem encode_cons (c : Char) (s : Str) : encode (c :: s) = encodeChar c ++ encode s := by
  simp [encode]

theorem byte_toNat {n : Nat} (h : n < 256) : (byte n).toNat = n := by
  unfold byte; simp [UInt8.toNat_ofNat']; omega

theorem char_lt (c : Char) : c.toNat < 0x110000 := by
  have := c.valid
  unfold UInt32.isValidChar Nat.isValidChar at this
  have : c.toNat = c.val.toNat := rfl
  omega

theorem cont_byte {n : Nat} (h : n < 64) : cont (byte (0x80 + n)) = some n := by
  unfold cont
  rw [byte_toNat (by omega)]
  rw [if_pos (by omega)]
  exact congrArg some (Nat.add_sub_cancel_left ..)

theorem scalar_char (c : Char) (lo n : Nat) (hn : n = c.toNat) (h : lo ≤ c.toNat) :
    scalar lo n = some c := by
  subst hn
  unfold scalar
  have : c.toNat.isValidChar := c.valid
  rw [if_pos ⟨h, this⟩, Char.ofNat_toNat]

theorem decodeFirst_encode (c : Char) (r : List UInt8) :
    ∃ b t, encodeChar c = b :: t ∧ decodeFirst b (t ++ r) = some (c, t.length + 1) := by
  have hc := char_lt c
  unfold encodeChar
  simp only
  split
  · rename_i h
    refine ⟨_, [], rfl, ?_⟩
    unfold decodeFirst
    simp only
    rw [byte_toNat (by omega), if_pos h, Char.ofNat_toNat]; rfl
  · split
    · rename_i h1 h2
      refine ⟨_, [_], rfl, ?_⟩
      unfold decodeFirst
      simp only [List.cons_append, List.nil_append]
      rw [byte_toNat (by omega), if_neg (by omega), if_neg (by omega), if_pos (by omega)]
      rw [cont_byte (by omega)]
      simp only
      rw [scalar_char c _ _ (by omega) (by omega)]; rfl
    · split
      · rename_i h1 h2 h3
        refine ⟨_, [_, _], rfl, ?_⟩
        unfold decodeFirst
        simp only [List.cons_append, List.nil_append]
        rw [byte_toNat (by omega), if_neg (by omega), if_neg (by omega), if_neg (by omega), if_pos (by omega)]
        rw [cont_byte (by omega), cont_byte (by omega)]
        simp only
        rw [scalar_char c _ _ (by omega) (by omega)]; rfl
      · rename_i h1 h2 h3
        refine ⟨_, [_, _, _], rfl, ?_⟩
        unfold decodeFirst
        simp only [List.cons_append, List.nil_append]
        rw [byte_toNat (by omega), if_neg (by omega), if_neg (by omega), if_neg (by omega), if_neg (by omega),
          if_pos (by omega)]
        rw [cont_byte (by omega), cont_byte (by omega), cont_byte (by omega)]
        simp only
        rw [scalar_char c _ _ (by omega) (by omega)]; rfl

theorem decodeAux_encode (s : Str) (n : Nat) (h : s.length ≤ n) : decodeAux n (encode s) = some s := by
  induction s generalizing n with
  | nil => cases n <;> rfl
  | cons c s ih =>
    rw [encode_cons]
    obtain ⟨b, t, e, hd⟩ := decodeFirst_encode c (encode s)
    rw [e]
    cases n with
    | zero => simp at h
    | succ n =>
      simp only [List.cons_append, decodeAux, hd]
      have : (t ++ encode s).drop (t.length + 1 - 1) = encode s := by simp
      rw [this, ih n (by simpa using h)]; rfl

theorem encode_length (s : Str) : s.length ≤ (encode s).length := by
  induction s with
  | nil => simp
  | cons c s ih =>
    rw [encode_cons]
    obtain ⟨b, t, e, _⟩ := decodeFirst_encode c []
    rw [e]
    simp only [List.length_cons, List.length_append]
    omega

theorem decode_encode (s : Str) : decode (encode s) = some s :=
  decodeAux_encode s _ (encode_length s)

theorem encode_injective {a b : Str} (h : encode a = encode b) : a = b := by
  have := congrArg decode h
  rw [decode_encode, decode_encode] at this
  exact Option.some.inj this

theorem decodePrefixAux_of_decode (n : Nat) : ∀ (bs : List UInt8) (s : Str), decodeAux n bs = some s →
    decodePrefixAux n bs = (s, true) := by
  induction n with
  | zero =>
    intro bs s h
    cases bs with
    | nil => cases h; rfl
    | cons b r => cases h
  | succ n ih =>
    intro bs s h
    cases bs with
    | nil => cases h; rfl
    | cons b r =>
      unfold decodeAux at h
      unfold decodePrefixAux
      cases hd : decodeFirst b r with
      | none => rw [hd] at h; cases h
      | some ck =>
        obtain ⟨c, k⟩ := ck
        rw [hd] at h
        simp only at h
        cases hr : decodeAux n (r.drop (k - 1)) with
        | none => rw [hr] at h; cases h
        | some t =>
          rw [hr] at h
          cases h
          simp only [ih _ _ hr]

theorem decodePrefix_encode (s : Str) : decodePrefix (encode s) = (s, true) :=
  decodePrefixAux_of_decode _ _ _ (decode_encode s)

end Osmio.Utf8
