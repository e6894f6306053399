import Verif.Proofs.Utf8
/-! # Lemmas: UTF-8 is decoded strictly -/

namespace Osmio.Utf8

theorem byte_toNat_eq (b : UInt8) : byte b.toNat = b := by
  simp [byte]

theorem toNat_ofNat {n : Nat} (h : n.isValidChar) : (Char.ofNat n).toNat = n := by
  have hn : n < 4294967296 := by rcases h with h | h <;> omega
  rw [Char.ofNat, dif_pos h]
  show (UInt32.ofNatLT n _).toNat = n
  rw [UInt32.toNat_ofNatLT]

/-- The encoding is the one of Lean's own strings. -/
theorem encodeChar_core (c : Char) : encodeChar c = String.utf8EncodeChar c := by
  have hc := char_lt c
  unfold encodeChar String.utf8EncodeChar
  change (if c.toNat < 0x80 then _ else _) = if c.toNat ≤ 127 then _ else _
  by_cases h1 : c.toNat < 0x80
  · rw [if_pos h1, if_pos (by omega)]; rfl
  have g1 : ¬ c.toNat ≤ 127 := by omega
  rw [if_neg h1, if_neg g1]
  change _ = if c.toNat ≤ 2047 then [UInt8.ofNat (c.toNat / 64 % 32 + 192), UInt8.ofNat (c.toNat % 64 + 128)] else
    if c.toNat ≤ 65535 then [UInt8.ofNat (c.toNat / 4096 % 16 + 224), UInt8.ofNat (c.toNat / 64 % 64 + 128),
      UInt8.ofNat (c.toNat % 64 + 128)] else
    [UInt8.ofNat (c.toNat / 262144 % 8 + 240), UInt8.ofNat (c.toNat / 4096 % 64 + 128),
      UInt8.ofNat (c.toNat / 64 % 64 + 128), UInt8.ofNat (c.toNat % 64 + 128)]
  have e0 : 0x80 + c.toNat % 64 = c.toNat % 64 + 128 := by omega
  have e1 : 0x80 + c.toNat / 64 % 64 = c.toNat / 64 % 64 + 128 := by omega
  have e2 : 0x80 + c.toNat / 4096 % 64 = c.toNat / 4096 % 64 + 128 := by omega
  unfold byte
  by_cases h2 : c.toNat < 0x800
  · have g2 : c.toNat ≤ 2047 := by omega
    rw [if_pos h2, if_pos g2, e0, show 0xC0 + c.toNat / 64 = c.toNat / 64 % 32 + 192 by omega]
  have g2 : ¬ c.toNat ≤ 2047 := by omega
  rw [if_neg h2, if_neg g2]
  by_cases h3 : c.toNat < 0x10000
  · have g3 : c.toNat ≤ 65535 := by omega
    rw [if_pos h3, if_pos g3, e0, e1, show 0xE0 + c.toNat / 4096 = c.toNat / 4096 % 16 + 224 by omega]
  · have g3 : ¬ c.toNat ≤ 65535 := by omega
    rw [if_neg h3, if_neg g3, e0, e1, e2, show 0xF0 + c.toNat / 262144 = c.toNat / 262144 % 8 + 240 by omega]

theorem encode_core (s : Str) : encode s = (String.ofList s).toByteArray.data.toList := by
  have h : encodeChar = String.utf8EncodeChar := funext encodeChar_core
  rw [String.toByteArray_ofList, List.utf8Encode, List.data_toByteArray, encode, h]

theorem cont_eq {b : UInt8} {x : Nat} (h : cont b = some x) : x < 64 ∧ b = byte (0x80 + x) := by
  unfold cont at h
  split at h
  · rename_i hb
    have hx : b.toNat - 0x80 = x := Option.some.inj h
    refine ⟨by omega, ?_⟩
    rw [← hx, show 0x80 + (b.toNat - 0x80) = b.toNat by omega, byte_toNat_eq]
  · cases h

theorem scalar_eq {lo n : Nat} {c : Char} (h : scalar lo n = some c) : lo ≤ n ∧ c.toNat = n := by
  unfold scalar at h
  split at h
  · rename_i hb
    cases h
    exact ⟨hb.1, toNat_ofNat hb.2⟩
  · cases h

/-- The decoder accepts only what the encoder makes. -/
theorem decodeFirst_eq {b : UInt8} {r : List UInt8} {c : Char} {k : Nat} (h : decodeFirst b r = some (c, k)) :
    b :: r = encodeChar c ++ r.drop (k - 1) := by
  have hb : b.toNat < 256 := b.toNat_lt
  unfold decodeFirst at h
  simp only at h
  split at h
  · rename_i h1
    cases h
    have : (Char.ofNat b.toNat).toNat = b.toNat := toNat_ofNat (by left; omega)
    simp [encodeChar, this, h1, byte_toNat_eq]
  split at h
  · cases h
  split at h
  · rename_i h1 h2 h3
    split at h
    · rename_i b1 t
      split at h
      · rename_i x hx
        obtain ⟨c', hc, he⟩ := Option.map_eq_some_iff.1 h
        cases he
        obtain ⟨hl, hn⟩ := scalar_eq hc
        obtain ⟨hx, rfl⟩ := cont_eq hx
        have e1 : 0xC0 + c.toNat / 64 = b.toNat := by omega
        have e2 : 0x80 + c.toNat % 64 = 0x80 + x := by omega
        unfold encodeChar
        simp only
        rw [if_neg (by omega), if_pos (by omega), e1, e2, byte_toNat_eq]
        rfl
      · cases h
    · cases h
  split at h
  · rename_i h1 h2 h3 h4
    split at h
    · rename_i b1 b2 t
      split at h
      · rename_i x y hx hy
        obtain ⟨c', hc, he⟩ := Option.map_eq_some_iff.1 h
        cases he
        obtain ⟨hl, hn⟩ := scalar_eq hc
        obtain ⟨hx, rfl⟩ := cont_eq hx
        obtain ⟨hy, rfl⟩ := cont_eq hy
        have e1 : 0xE0 + c.toNat / 4096 = b.toNat := by omega
        have e2 : 0x80 + c.toNat / 64 % 64 = 0x80 + x := by omega
        have e3 : 0x80 + c.toNat % 64 = 0x80 + y := by omega
        unfold encodeChar
        simp only
        rw [if_neg (by omega), if_neg (by omega), if_pos (by omega), e1, e2, e3, byte_toNat_eq]
        rfl
      · cases h
    · cases h
  split at h
  · rename_i h1 h2 h3 h4 h5
    split at h
    · rename_i b1 b2 b3 t
      split at h
      · rename_i x y z hx hy hz
        obtain ⟨c', hc, he⟩ := Option.map_eq_some_iff.1 h
        cases he
        obtain ⟨hl, hn⟩ := scalar_eq hc
        obtain ⟨hx, rfl⟩ := cont_eq hx
        obtain ⟨hy, rfl⟩ := cont_eq hy
        obtain ⟨hz, rfl⟩ := cont_eq hz
        have e1 : 0xF0 + c.toNat / 262144 = b.toNat := by omega
        have e2 : 0x80 + c.toNat / 4096 % 64 = 0x80 + x := by omega
        have e3 : 0x80 + c.toNat / 64 % 64 = 0x80 + y := by omega
        have e4 : 0x80 + c.toNat % 64 = 0x80 + z := by omega
        unfold encodeChar
        simp only
        rw [if_neg (by omega), if_neg (by omega), if_neg (by omega), e1, e2, e3, e4, byte_toNat_eq]
        rfl
      · cases h
    · cases h
  · cases h

theorem decodeAux_eq (n : Nat) : ∀ (bs : List UInt8) (s : Str), decodeAux n bs = some s → bs = encode s := by
  induction n with
  | zero =>
    intro bs s h
    cases bs with
    | nil => simp only [decodeAux, Option.some.injEq] at h; subst h; rfl
    | cons b r => cases h
  | succ n ih =>
    intro bs s h
    cases bs with
    | nil => simp only [decodeAux, Option.some.injEq] at h; subst h; rfl
    | cons b r =>
      rw [decodeAux] at h
      cases hd : decodeFirst b r with
      | none => rw [hd] at h; cases h
      | some p =>
        obtain ⟨c, k⟩ := p
        rw [hd] at h
        obtain ⟨t, ht, rfl⟩ := Option.map_eq_some_iff.1 h
        rw [decodeFirst_eq hd, encode_cons, ih _ _ ht]

/-- A byte string is read as the text of which it is the encoding, and as nothing if there is none. -/
theorem decode_iff {bs : List UInt8} {s : Str} : decode bs = some s ↔ bs = encode s :=
  ⟨decodeAux_eq _ _ _, fun h => by rw [h, decode_encode]⟩

theorem decodeAux_of_prefix (n : Nat) : ∀ bs : List UInt8, (decodePrefixAux n bs).2 = true → decodeAux n bs = some (decodePrefixAux n bs).1 := by
  induction n with
  | zero =>
    intro bs h
    cases bs with
    | nil => rfl
    | cons b r => cases h
  | succ n ih =>
    intro bs h
    cases bs with
    | nil => rfl
    | cons b r =>
      unfold decodePrefixAux at h
      unfold decodeAux decodePrefixAux
      cases hd : decodeFirst b r with
      | none => rw [hd] at h; cases h
      | some ck =>
        rw [hd] at h
        simp only [ih _ h]
        rfl

/-- Decoding piece by piece sees an error unless the bytes are an encoding. -/
theorem eq_encode_of_prefix {bs : List UInt8} (h : (decodePrefix bs).2 = true) : bs = encode (decodePrefix bs).1 :=
  decode_iff.1 (decodeAux_of_prefix _ bs h)

/-- Of two texts one is a prefix of the other if that is so of their encodings. -/
theorem prefix_of_encode {a t : Str} (h : encode a <+: encode t) : a <+: t := by
  induction a generalizing t with
  | nil => exact List.nil_prefix
  | cons c a ih =>
    obtain ⟨r, hr⟩ := h
    obtain ⟨b, x, e, hd⟩ := decodeFirst_encode c (encode a ++ r)
    cases t with
    | nil => rw [encode_cons, e] at hr; cases hr
    | cons d t =>
      obtain ⟨b', x', e', hd'⟩ := decodeFirst_encode d (encode t)
      rw [encode_cons, encode_cons, e, e'] at hr
      simp only [List.cons_append, List.append_assoc, List.cons.injEq] at hr
      obtain ⟨rfl, hr⟩ := hr
      rw [hr, hd'] at hd
      obtain ⟨rfl, hl⟩ := Prod.mk.inj (Option.some.inj hd)
      obtain ⟨-, hr'⟩ := List.append_inj hr (by omega)
      obtain ⟨y, rfl⟩ := ih ⟨r, hr'⟩
      exact ⟨y, rfl⟩

end Osmio.Utf8
