import Verif.Model.NodeChain
import Verif.Spec.Uncompiled
/-! # Lemmas: node chains -/

namespace Osmio.NodeChain
open Spec

theorem be64_length (x : UInt64) : (be64 x).length = 8 := rfl

theorem fromBe_be64 (x : UInt64) : UInt64.ofNat (fromBe (be64 x)) = x := by
  have h : fromBe (be64 x) = x.toNat := by
    have := x.toNat_lt
    simp only [be64, fromBe, List.foldl, UInt8.toNat_ofNat']
    omega
  rw [h, UInt64.ofNat_toNat]

theorem readU64_be64 (x : UInt64) (r : List UInt8) : readU64 (be64 x ++ r) = .ok (x, r) := by
  rw [readU64, if_neg (by simp only [List.length_append, be64_length]; omega), List.take_left' (be64_length x), fromBe_be64,
    List.drop_left' (be64_length x)]

theorem asI64_small {x : UInt64} (h : x.toNat < 2 ^ 63) : asI64 x = x.toNat := by
  rw [asI64, ← Int64.toInt_toBitVec, UInt64.toBitVec_toInt64, BitVec.toInt_eq_toNat_of_lt]
  · rfl
  · show 2 * x.toNat < 2 ^ 64
    omega

theorem i64_ok (b : Build) {x : Int} (h : -9223372036854775808 ≤ x ∧ x ≤ 9223372036854775807) : b.i64 x = .ok (Int64.ofInt x) := by
  unfold Build.i64; exact if_pos h

theorem toInt_ofInt {x : Int} (h : -9223372036854775808 ≤ x ∧ x ≤ 9223372036854775807) : (Int64.ofInt x).toInt = x :=
  Int64.toInt_ofInt_of_le (by exact h.1) (by have := h.2; show x < 2 ^ 63; omega)

theorem toUInt64_ofInt {n : UInt64} (h : n.toNat < 2 ^ 63) : (Int64.ofInt (n.toNat : Int)).toUInt64 = n := by
  apply UInt64.toNat_inj.mp
  show (Int64.ofInt (n.toNat : Int)).toBitVec.toNat = _
  rw [Int64.toBitVec_ofInt, BitVec.toNat_ofInt]
  have := n.toNat_lt
  omega

/-- The bytes for `n` after `e`, if the identifiers are small. -/
theorem encodeStep_eq (b : Build) (first e n : UInt64) (he : e.toNat < 2 ^ 63) (hn : n.toNat < 2 ^ 63) :
    encodeStep b first e n =
      if n = first then .ok [0x81]
      else if n = e then .ok [0]
      else if (n.toNat : Int) - e.toNat > -126 ∧ (n.toNat : Int) - e.toNat < 125 then .ok [UInt8.ofInt ((n.toNat : Int) - e.toNat)]
      else .ok (0xFF :: be64 n) := by
  have hr : -9223372036854775808 ≤ (n.toNat : Int) - e.toNat ∧ (n.toNat : Int) - e.toNat ≤ 9223372036854775807 := by omega
  rw [encodeStep, asI64_small he, asI64_small hn, i64_ok b hr]
  show (if n = first then _ else if (Int64.ofInt _).toInt = 0 then _ else if _ then _ else _) = _
  rw [toInt_ofInt hr]
  by_cases h : n = e
  · subst h; simp
  · have : (n.toNat : Int) - e.toNat ≠ 0 := fun hz => h (UInt64.toNat_inj.mp (by omega))
    rw [if_neg this, if_neg h]

theorem toNat_ofInt8 (x : Int) : (UInt8.ofInt x).toNat = (x % 256).toNat := by
  rw [UInt8.ofInt, UInt8.toNat_ofNat']
  have : 0 ≤ x % 256 := Int.emod_nonneg _ (by decide)
  omega

theorem byte_offset {x : Int} (h : x > -126) (h' : x < 125) (h0 : x ≠ 0) (h1 : x ≠ -1) :
    UInt8.ofInt x ≠ 0x81 ∧ UInt8.ofInt x ≠ 0xFF ∧ UInt8.ofInt x ≠ 0 ∧ asI8 (UInt8.ofInt x) = x := by
  have e : ∀ y : Nat, y < 256 → UInt8.ofInt x = UInt8.ofNat y → (x % 256 : Int) = y := by
    intro y hy e
    have := congrArg UInt8.toNat e
    rw [toNat_ofInt8, UInt8.toNat_ofNat'] at this
    omega
  refine ⟨fun he => ?_, fun he => ?_, fun he => ?_, ?_⟩
  · have := e 0x81 (by omega) he; omega
  · have := e 0xFF (by omega) he; omega
  · have := e 0 (by omega) he; omega
  · rw [asI8, ← Int8.toInt_toBitVec, UInt8.toBitVec_toInt8, BitVec.toInt_eq_toNat_bmod]
    show ((UInt8.ofInt x).toNat : Int).bmod (2 ^ 8) = x
    rw [toNat_ofInt8, Int.bmod]
    omega

/-- Enough rounds are enough. -/
theorem decode_encodeFrom (b : Build) {first : UInt64} {ns : List UInt64} (before : List UInt64) (e d : UInt64)
    (hsmall : ∀ n ∈ first :: e :: d :: ns, n.toNat < 2 ^ 63)
    (hd : d = e ∨ (e = first ∧ ∃ z ∈ before, z ≠ first))
    (hstep : ∀ pre x y, Follows (before ++ e :: ns) pre x y → y = first ∨
      ((y.toNat : Int) ≠ x.toNat - 1 ∧ (x = first → (∀ z ∈ pre, z = first) ∨ Far x y))) :
    ∃ bytes, encodeFrom b first e ns = .ok bytes ∧ ∀ fuel, bytes.length < fuel → decodeFrom b first fuel d bytes = .ok ns := by
  induction ns generalizing before e d with
  | nil =>
    refine ⟨[], rfl, fun fuel hf => ?_⟩
    cases fuel with
    | zero => rfl
    | succ fuel => rfl
  | cons n ns ih =>
    have hn := hsmall n (by simp)
    have he := hsmall e (by simp)
    have hds := hsmall d (by simp)
    have step := hstep before e n ⟨ns, rfl⟩
    have hnext : ∀ d', d'.toNat < 2 ^ 63 → (d' = n ∨ (n = first ∧ ∃ z ∈ before ++ [e], z ≠ first)) →
        ∃ bytes, encodeFrom b first n ns = .ok bytes ∧ ∀ fuel, bytes.length < fuel → decodeFrom b first fuel d' bytes = .ok ns := by
      intro d' hd's hd'
      refine ih (before ++ [e]) n d' ?_ hd' ?_
      · intro m hm
        simp only [List.mem_cons] at hm
        rcases hm with rfl | rfl | rfl | hm
        · exact hsmall _ (by simp)
        · exact hn
        · exact hd's
        · exact hsmall _ (by simp [hm])
      · intro pre x y hf
        refine hstep pre x y ?_
        rw [List.append_assoc] at hf
        exact hf
    rw [encodeFrom, encodeStep_eq b first e n he hn]
    by_cases h1 : n = first
    · obtain ⟨bytes, hb, hdec⟩ := hnext d hds (by
        rcases hd with rfl | ⟨rfl, z, hz, hzf⟩
        · by_cases hdf : d = first
          · exact Or.inl (hdf.trans h1.symm)
          · exact Or.inr ⟨h1, d, by simp, hdf⟩
        · exact Or.inr ⟨h1, z, by simp [hz], hzf⟩)
      refine ⟨0x81 :: bytes, by rw [if_pos h1, hb]; rfl, fun fuel hf => ?_⟩
      cases fuel with
      | zero => simp at hf
      | succ fuel =>
        show (if (0x81 : UInt8) = 0x81 then _ else _) = _
        rw [if_pos rfl, hdec fuel (by simpa using hf), h1]
        rfl
    · rcases step with step | ⟨hm1, hfar⟩
      · exact absurd step h1
      have hdn : d = e ∨ Far e n := by
        rcases hd with hd | ⟨hef, z, hz, hzf⟩
        · exact Or.inl hd
        · rcases hfar hef with hall | hfar
          · exact absurd (hall z hz) hzf
          · exact Or.inr hfar
      obtain ⟨bytes, hb, hdec⟩ := hnext n hn (Or.inl rfl)
      rw [if_neg h1]
      by_cases h2 : n = e
      · have hde : d = e := by
          rcases hdn with h | h
          · exact h
          · subst h2; rcases h with h | h <;> omega
        refine ⟨0 :: bytes, by rw [if_pos h2, hb]; rfl, fun fuel hf => ?_⟩
        cases fuel with
        | zero => simp at hf
        | succ fuel =>
          show (if (0 : UInt8) = 0x81 then _ else if (0 : UInt8) = 0xFF then _ else if (0 : UInt8) = 0 then _ else _) = _
          rw [if_neg (by decide), if_neg (by decide), if_pos rfl, hde, ← h2, hdec fuel (by simpa using hf)]
          rfl
      · rw [if_neg h2]
        by_cases h3 : (n.toNat : Int) - e.toNat > -126 ∧ (n.toNat : Int) - e.toNat < 125
        · have hde : d = e := by
            rcases hdn with h | h
            · exact h
            · rcases h with h | h <;> omega
          have hne : (n.toNat : Int) - e.toNat ≠ 0 := fun hz => h2 (UInt64.toNat_inj.mp (by omega))
          obtain ⟨b1, b2, b3, b4⟩ := byte_offset h3.1 h3.2 hne (by omega)
          refine ⟨UInt8.ofInt ((n.toNat : Int) - e.toNat) :: bytes, by rw [if_pos h3, hb]; rfl, fun fuel hf => ?_⟩
          cases fuel with
          | zero => simp at hf
          | succ fuel =>
            have hsum : asI64 d + asI8 (UInt8.ofInt ((n.toNat : Int) - e.toNat)) = n.toNat := by
              rw [b4, hde, asI64_small he]; omega
            rw [decodeFrom, if_neg b1, if_neg b2, if_neg b3, hsum, i64_ok b (by omega)]
            show (do
              let ns ← decodeFrom b first fuel (Int64.ofInt (n.toNat : Int)).toUInt64 bytes
              Except.ok ((Int64.ofInt (n.toNat : Int)).toUInt64 :: ns)) = _
            rw [toUInt64_ofInt hn, hdec fuel (by simpa using hf)]
            rfl
        · refine ⟨0xFF :: be64 n ++ bytes, by rw [if_neg h3, hb]; rfl, fun fuel hf => ?_⟩
          cases fuel with
          | zero => simp at hf
          | succ fuel =>
            show (if (0xFF : UInt8) = 0x81 then _ else if (0xFF : UInt8) = 0xFF then (do
              let (next, r) ← readU64 (be64 n ++ bytes)
              let ns ← decodeFrom b first fuel next r
              Except.ok (next :: ns)) else _) = _
            rw [if_neg (by decide), if_pos rfl, readU64_be64]
            show (do
              let ns ← decodeFrom b first fuel n bytes
              Except.ok (n :: ns)) = _
            rw [hdec fuel (by simp only [List.cons_append, List.length_cons, List.length_append] at hf; omega)]
            rfl

theorem decode_encode (b : Build) {first : UInt64} {ns : List UInt64} (hsmall : ∀ n ∈ first :: ns, n.toNat < 2 ^ 63)
    (hstep : ∀ pre x y, Follows (first :: ns) pre x y → y = first ∨
      ((y.toNat : Int) ≠ x.toNat - 1 ∧ (x = first → (∀ z ∈ pre, z = first) ∨ Far x y))) :
    (encode b (first :: ns)).bind (decode b) = .ok (first :: ns) := by
  obtain ⟨bytes, hb, hdec⟩ := decode_encodeFrom b [] first first (ns := ns) (by
    intro n hn
    simp only [List.mem_cons] at hn
    rcases hn with rfl | rfl | rfl | hn
    · exact hsmall _ (by simp)
    · exact hsmall _ (by simp)
    · exact hsmall _ (by simp)
    · exact hsmall _ (by simp [hn])) (Or.inl rfl) hstep
  rw [encode, hb]
  show decode b (be64 first ++ bytes) = _
  rw [decode, if_neg (by simp [be64]), readU64_be64]
  show (do
    let ns ← decodeFrom b first (bytes.length + 1) first bytes
    Except.ok (first :: ns)) = _
  rw [hdec _ (by omega)]
  rfl

/-- What the decoder makes of a small step that the encoder took from another node is not the node. -/
theorem small_step_wrong (b : Build) {d e n : UInt64} {x : Int64} (hd : d.toNat < 2 ^ 63) (he : e.toNat < 2 ^ 63) (hde : d ≠ e)
    (hx : b.i64 (asI64 d + ((n.toNat : Int) - e.toNat)) = .ok x) : x.toUInt64 ≠ n := by
  have hne : d.toNat ≠ e.toNat := fun h => hde (UInt64.toNat_inj.1 h)
  have hxe : x = Int64.ofInt (asI64 d + ((n.toNat : Int) - e.toNat)) := by
    unfold Build.i64 at hx
    split at hx
    · exact (Except.ok.inj hx).symm
    · cases b with
      | debug => cases hx
      | release => exact (Except.ok.inj hx).symm
  rw [asI64_small hd] at hxe
  intro hc
  have h1 : x.toUInt64.toNat = n.toNat := congrArg UInt64.toNat hc
  rw [hxe] at h1
  have h2 : (Int64.ofInt ((d.toNat : Int) + ((n.toNat : Int) - e.toNat))).toBitVec.toNat = n.toNat := h1
  rw [Int64.toBitVec_ofInt, BitVec.toNat_ofInt] at h2
  omega

/-- If the chain comes back, there was no small step from the first node after a return to it. -/
theorem decode_encodeFrom_only (b : Build) {first : UInt64} {ns : List UInt64} (before : List UInt64) (e d : UInt64)
    (hsmall : ∀ n ∈ first :: e :: d :: ns, n.toNat < 2 ^ 63)
    (hd : (d = e ∧ (e = first → ∀ z ∈ before, z = first)) ∨ (e = first ∧ d ≠ first ∧ ∃ z ∈ before, z ≠ first))
    (hone : ∀ pre x y, Follows (before ++ e :: ns) pre x y → y = first ∨ (y.toNat : Int) ≠ x.toNat - 1)
    {bytes : List UInt8} (hb : encodeFrom b first e ns = .ok bytes) {fuel : Nat} (hf : bytes.length < fuel)
    (hdec : decodeFrom b first fuel d bytes = .ok ns) :
    ∀ pre x y after, before ++ e :: ns = pre ++ x :: y :: after → before.length ≤ pre.length →
      y = first ∨ (x = first → (∀ z ∈ pre, z = first) ∨ Far x y) := by
  induction ns generalizing before e d bytes fuel with
  | nil =>
    intro pre x y after he hl
    have := congrArg List.length he
    simp only [List.length_append, List.length_cons, List.length_nil] at this
    omega
  | cons n ns ih =>
    have hn := hsmall n (by simp)
    have he := hsmall e (by simp)
    have hds := hsmall d (by simp)
    have hfi := hsmall first (by simp)
    have step := hone before e n ⟨ns, rfl⟩
    -- what the first step says, and what is left for the others
    suffices key : (n = first ∨ (e = first → (∀ z ∈ before, z = first) ∨ Far e n)) ∧
        ∃ d' bytes' fuel', d'.toNat < 2 ^ 63 ∧
          ((d' = n ∧ (n = first → ∀ z ∈ before ++ [e], z = first)) ∨ (n = first ∧ d' ≠ first ∧ ∃ z ∈ before ++ [e], z ≠ first)) ∧
          encodeFrom b first n ns = .ok bytes' ∧ bytes'.length < fuel' ∧ decodeFrom b first fuel' d' bytes' = .ok ns by
      obtain ⟨k1, d', bytes', fuel', k2, k3, k4, k5, k6⟩ := key
      intro pre x y after heq hl
      by_cases hl' : pre.length = before.length
      · obtain ⟨e1, e2⟩ := List.append_inj heq hl'.symm
        injection e2 with e2 e3
        injection e3 with e3 e4
        subst e1 e2 e3
        exact k1
      · refine ih (before ++ [e]) n d' ?_ k3 ?_ k4 k5 k6 pre x y after (by rw [← heq]; simp) (by
          simp only [List.length_append, List.length_cons, List.length_nil]; omega)
        · intro m hm
          simp only [List.mem_cons] at hm
          rcases hm with rfl | rfl | rfl | hm
          · exact hfi
          · exact hn
          · exact k2
          · exact hsmall _ (by simp [hm])
        · intro pre x y hf
          refine hone pre x y ?_
          rw [List.append_assoc] at hf
          exact hf
    rw [encodeFrom, encodeStep_eq b first e n he hn] at hb
    by_cases h1 : n = first
    · rw [if_pos h1] at hb
      rcases hb' : encodeFrom b first n ns with p | r
      · rw [hb'] at hb; cases hb
      rw [hb'] at hb
      cases hb
      refine ⟨Or.inl h1, d, r, fuel - 1, hds, ?_, rfl, ?_, ?_⟩
      · rcases hd with ⟨rfl, hall⟩ | ⟨rfl, hdf, z, hz, hzf⟩
        · by_cases hdf : d = first
          · exact Or.inl ⟨hdf.trans h1.symm, fun _ z hz => by
              rcases List.mem_append.1 hz with hz | hz
              · exact hall hdf z hz
              · rw [List.mem_singleton.1 hz, hdf]⟩
          · exact Or.inr ⟨h1, hdf, d, by simp, hdf⟩
        · exact Or.inr ⟨h1, hdf, z, by simp [hz], hzf⟩
      · simp only [List.cons_append, List.nil_append, List.length_cons] at hf; omega
      · cases fuel with
        | zero => simp at hf
        | succ fuel =>
          rw [List.cons_append, List.nil_append, decodeFrom, if_pos rfl] at hdec
          rcases hx : decodeFrom b first fuel d r with p | xs
          · rw [hx] at hdec; cases hdec
          · rw [hx] at hdec
            have := Except.ok.inj hdec
            injection this with _ this
            rw [Nat.add_sub_cancel, hx, this]
    rcases step with step | hm1
    · exact absurd step h1
    rw [if_neg h1] at hb
    -- the step goes on from `n` on both sides, if it was understood
    have fin : ∀ (r : List UInt8) (k : Nat), encodeFrom b first n ns = .ok r → r.length < k → decodeFrom b first k n r = .ok ns →
        (n = first ∨ (e = first → (∀ z ∈ before, z = first) ∨ Far e n)) →
        (n = first ∨ (e = first → (∀ z ∈ before, z = first) ∨ Far e n)) ∧
        ∃ d' bytes' fuel', d'.toNat < 2 ^ 63 ∧
          ((d' = n ∧ (n = first → ∀ z ∈ before ++ [e], z = first)) ∨ (n = first ∧ d' ≠ first ∧ ∃ z ∈ before ++ [e], z ≠ first)) ∧
          encodeFrom b first n ns = .ok bytes' ∧ bytes'.length < fuel' ∧ decodeFrom b first fuel' d' bytes' = .ok ns :=
      fun r k h2 h3 h4 h5 => ⟨h5, n, r, k, hn, Or.inl ⟨rfl, fun h => absurd h h1⟩, h2, h3, h4⟩
    have same : d = e → (n = first ∨ (e = first → (∀ z ∈ before, z = first) ∨ Far e n)) := by
      intro hde
      refine Or.inr fun hef => Or.inl ?_
      rcases hd with ⟨_, hall⟩ | ⟨hef', hdf, _⟩
      · exact hall hef
      · exact absurd (hde.trans hef) hdf
    by_cases h2 : n = e
    · rw [if_pos h2] at hb
      rcases hb' : encodeFrom b first n ns with p | r
      · rw [hb'] at hb; cases hb
      rw [hb'] at hb
      cases hb
      have hde : d = e := by
        rcases hd with ⟨h, _⟩ | ⟨hef, _⟩
        · exact h
        · exact absurd (h2.trans hef) h1
      cases fuel with
      | zero => simp at hf
      | succ fuel =>
        rw [List.cons_append, List.nil_append, decodeFrom, if_neg (by decide), if_neg (by decide), if_pos rfl] at hdec
        rcases hx : decodeFrom b first fuel d r with p | xs
        · rw [hx] at hdec; cases hdec
        · rw [hx] at hdec
          have := Except.ok.inj hdec
          injection this with _ this
          refine hb' ▸ fin r fuel hb' (by simp only [List.cons_append, List.nil_append, List.length_cons] at hf; omega) ?_ (same hde)
          rw [h2, ← hde, hx, this]
    rw [if_neg h2] at hb
    by_cases h3 : (n.toNat : Int) - e.toNat > -126 ∧ (n.toNat : Int) - e.toNat < 125
    · rw [if_pos h3] at hb
      rcases hb' : encodeFrom b first n ns with p | r
      · rw [hb'] at hb; cases hb
      rw [hb'] at hb
      cases hb
      have hne : (n.toNat : Int) - e.toNat ≠ 0 := fun hz => h2 (UInt64.toNat_inj.mp (by omega))
      obtain ⟨b1, b2, b3, b4⟩ := byte_offset h3.1 h3.2 hne (by omega)
      cases fuel with
      | zero => simp at hf
      | succ fuel =>
        rw [List.cons_append, List.nil_append, decodeFrom, if_neg b1, if_neg b2, if_neg b3, b4] at hdec
        rcases hi : b.i64 (asI64 d + ((n.toNat : Int) - e.toNat)) with p | x
        · rw [hi] at hdec; cases hdec
        · rw [hi] at hdec
          rcases hx : decodeFrom b first fuel x.toUInt64 r with p | xs
          · have : (Except.error p : Res (List UInt64)) = .ok (n :: ns) := by
              rw [← hdec]
              show _ = (do
                let ns ← decodeFrom b first fuel x.toUInt64 r
                Except.ok (x.toUInt64 :: ns))
              rw [hx]; rfl
            cases this
          · have this : (Except.ok (x.toUInt64 :: xs) : Res (List UInt64)) = .ok (n :: ns) := by
              rw [← hdec]
              show _ = (do
                let ns ← decodeFrom b first fuel x.toUInt64 r
                Except.ok (x.toUInt64 :: ns))
              rw [hx]; rfl
            have := Except.ok.inj this
            injection this with hxn this
            have hde : d = e := by
              by_contra hde
              exact small_step_wrong b hds he hde hi hxn
            refine hb' ▸ fin r fuel hb' (by simp only [List.cons_append, List.nil_append, List.length_cons] at hf; omega) ?_ (same hde)
            rw [← hxn, hx, this]
    · rw [if_neg h3] at hb
      rcases hb' : encodeFrom b first n ns with p | r
      · rw [hb'] at hb; cases hb
      rw [hb'] at hb
      cases hb
      cases fuel with
      | zero => simp at hf
      | succ fuel =>
        rw [List.cons_append, decodeFrom, if_neg (by decide), if_pos rfl, readU64_be64] at hdec
        rcases hx : decodeFrom b first fuel n r with p | xs
        · have : (Except.error p : Res (List UInt64)) = .ok (n :: ns) := by
            rw [← hdec]
            show _ = (do
              let ns ← decodeFrom b first fuel n r
              Except.ok (n :: ns))
            rw [hx]; rfl
          cases this
        · have this : (Except.ok (n :: xs) : Res (List UInt64)) = .ok (n :: ns) := by
            rw [← hdec]
            show _ = (do
              let ns ← decodeFrom b first fuel n r
              Except.ok (n :: ns))
            rw [hx]; rfl
          have := Except.ok.inj this
          injection this with _ this
          refine hb' ▸ fin r fuel hb' (by simp only [List.cons_append, List.length_cons, List.length_append] at hf; omega) (this ▸ hx) ?_
          refine Or.inr fun _ => Or.inr ?_
          unfold Far
          omega

theorem decode_encode_only (b : Build) {first : UInt64} {ns : List UInt64} (hsmall : ∀ n ∈ first :: ns, n.toNat < 2 ^ 63)
    (hone : ∀ pre x y, Follows (first :: ns) pre x y → y = first ∨ (y.toNat : Int) ≠ x.toNat - 1)
    (h : (encode b (first :: ns)).bind (decode b) = .ok (first :: ns)) :
    ∀ pre x y, Follows (first :: ns) pre x y → y = first ∨ (x = first → (∀ z ∈ pre, z = first) ∨ Far x y) := by
  rw [encode] at h
  rcases hb : encodeFrom b first first ns with p | bytes
  · rw [hb] at h; cases h
  rw [hb] at h
  have h : decode b (be64 first ++ bytes) = .ok (first :: ns) := h
  rw [decode, if_neg (by simp [be64]), readU64_be64] at h
  have h : (do
    let ns ← decodeFrom b first (bytes.length + 1) first bytes
    Except.ok (first :: ns)) = .ok (first :: ns) := h
  rcases hx : decodeFrom b first (bytes.length + 1) first bytes with p | xs
  · rw [hx] at h; cases h
  rw [hx] at h
  have h := Except.ok.inj h
  injection h with _ h
  rintro pre x y ⟨after, e⟩
  refine decode_encodeFrom_only b [] first first (ns := ns) ?_ (Or.inl ⟨rfl, fun _ z hz => by cases hz⟩) hone hb (Nat.lt_succ_self _)
    (h ▸ hx) pre x y after e (Nat.zero_le _)
  intro n hn
  simp only [List.mem_cons] at hn
  rcases hn with rfl | rfl | rfl | hn
  · exact hsmall _ (by simp)
  · exact hsmall _ (by simp)
  · exact hsmall _ (by simp)
  · exact hsmall _ (by simp [hn])

end Osmio.NodeChain
