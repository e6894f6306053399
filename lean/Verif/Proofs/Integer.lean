import Verif.Spec.Integer
import Verif.Proofs.XmlValue
import Verif.Proofs.RustNum
/-! # Lemmas: integer text -/

namespace Osmio
open Spec.Value

theorem digitVal_quick (c : Char) : digitVal? c = QuickXml.digit 10 c := by
  unfold digitVal? QuickXml.digit
  simp

theorem digitsVal_quick (s : Str) (acc : Nat) : digitsVal acc s = QuickXml.number 10 acc s := by
  induction s generalizing acc with
  | nil => rfl
  | cons c s ih =>
    simp only [digitsVal, QuickXml.number, digitVal_quick]
    cases QuickXml.digit 10 c with
    | none => rfl
    | some d => exact ih _

theorem parseDigits_number (s : Str) (n : Nat) : parseDigits s = some n ↔ Number 10 s n := by
  rw [← QuickXml.number_iff (.inl rfl)]
  cases s with
  | nil => simp [parseDigits]
  | cons c s => simp [parseDigits, digitsVal_quick]

theorem number_first {s : Str} {n : Nat} (h : Number 10 s n) : ∃ c r, s = c :: r ∧ c ≠ '+' ∧ c ≠ '-' := by
  have hd : ∀ {c d}, Digit 10 c d → c ≠ '+' ∧ c ≠ '-' := by
    intro c d h
    have h := (QuickXml.digit_iff (.inl rfl)).2 h
    constructor <;> (rintro rfl; cases h)
  induction h with
  | digit h => exact ⟨_, [], rfl, hd h⟩
  | more _ _ ih =>
    obtain ⟨c, r, rfl, h⟩ := ih
    exact ⟨c, r ++ [_], rfl, h⟩

theorem parseUnsigned_iff (max : Nat) (s : Str) (n : Nat) :
    parseUnsigned max s = some n ↔ Spec.IsNatural s n ∧ n ≤ max := by
  have key : parseUnsigned max s = some n ↔ Number 10 (stripPlus s) n ∧ n ≤ max := by
    unfold parseUnsigned
    cases h : parseDigits (stripPlus s) with
    | none =>
      simp only [reduceCtorEq, false_iff]
      rintro ⟨h1, _⟩
      rw [(parseDigits_number _ _).2 h1] at h
      cases h
    | some m =>
      have hm := (parseDigits_number _ _).1 h
      simp only
      constructor
      · intro h2
        split at h2
        · cases h2; exact ⟨hm, by assumption⟩
        · cases h2
      · rintro ⟨h1, h2⟩
        have : m = n := Option.some.inj (h.symm.trans ((parseDigits_number _ _).2 h1))
        subst this
        rw [if_pos h2]
  rw [key]
  refine and_congr_left fun _ => ⟨fun h => ?_, fun h => ?_⟩
  · unfold stripPlus at h
    split at h
    · exact .plus h
    · exact .plain h
  · cases h with
    | plain h =>
      obtain ⟨c, r, rfl, h1, _⟩ := number_first h
      unfold stripPlus
      split
      · rename_i h2; cases h2; exact absurd rfl h1
      · exact h
    | plus h => exact h

theorem signedPart {s : Str} {z : Int} {m : Nat} {f : Nat → Int} :
    (match parseDigits s with
      | some n => if n ≤ m then some (f n) else none
      | none => none) = some z ↔ ∃ n, Number 10 s n ∧ n ≤ m ∧ z = f n := by
  cases h : parseDigits s with
  | none =>
    simp only [reduceCtorEq, false_iff]
    rintro ⟨n, h1, _⟩
    rw [(parseDigits_number _ _).2 h1] at h
    cases h
  | some k =>
    have hk := (parseDigits_number _ _).1 h
    constructor
    · intro h2
      simp only at h2
      split at h2
      · cases h2; exact ⟨k, hk, by assumption, rfl⟩
      · cases h2
    · rintro ⟨n, h1, h2, rfl⟩
      have : k = n := Option.some.inj (h.symm.trans ((parseDigits_number _ _).2 h1))
      subst this
      simp only [if_pos h2]

theorem parseSigned_iff (max : Nat) (s : Str) (z : Int) :
    parseSigned max s = some z ↔ Spec.IsInteger s z ∧ -(max + 1 : Int) ≤ z ∧ z ≤ max := by
  unfold parseSigned
  split
  · rename_i r
    refine Iff.trans (signedPart (f := fun n => -(n : Int))) ?_
    constructor
    · rintro ⟨n, h1, h2, rfl⟩
      exact ⟨.minus h1, by omega, by omega⟩
    · rintro ⟨h, h1, h2⟩
      generalize ht : '-' :: r = t at h
      cases h with
      | plain h => obtain ⟨c, q, rfl, _, h3⟩ := number_first h; cases ht; exact absurd rfl h3
      | plus h => cases ht
      | minus h => cases ht; exact ⟨_, h, by omega, rfl⟩
  · rename_i r
    refine Iff.trans (signedPart (f := fun n => (n : Int))) ?_
    constructor
    · rintro ⟨n, h1, h2, rfl⟩
      exact ⟨.plus h1, by omega, by omega⟩
    · rintro ⟨h, h1, h2⟩
      generalize ht : '+' :: r = t at h
      cases h with
      | plain h => obtain ⟨c, q, rfl, h3, _⟩ := number_first h; cases ht; exact absurd rfl h3
      | plus h => cases ht; exact ⟨_, h, by omega, rfl⟩
      | minus h => cases ht
  · rename_i hm hp
    refine Iff.trans (signedPart (f := fun n => (n : Int))) ?_
    constructor
    · rintro ⟨n, h1, h2, rfl⟩
      exact ⟨.plain h1, by omega, by omega⟩
    · rintro ⟨h, h1, h2⟩
      cases h with
      | plain h => exact ⟨_, h, by omega, rfl⟩
      | plus h => exact absurd rfl (hp _)
      | minus h => exact absurd rfl (hm _)

theorem parseI64_iff (s : Str) (z : Int64) : parseI64 s = some z ↔ Spec.IsInteger s z.toInt := by
  unfold parseI64
  have hlo := Int64.minValue_le_toInt z
  have hhi := Int64.toInt_le z
  rw [Option.map_eq_some_iff]
  constructor
  · rintro ⟨a, h, rfl⟩
    obtain ⟨h1, h2, h3⟩ := (parseSigned_iff _ _ _).1 h
    rw [Int64.toInt_ofInt_of_le (by omega) (by omega)]
    exact h1
  · intro h
    refine ⟨z.toInt, (parseSigned_iff _ _ _).2 ⟨h, ?_, ?_⟩, Int64.ofInt_toInt z⟩
    · have := Int64.le_toInt z; omega
    · have := Int64.toInt_lt z; omega

theorem parseU32_iff (s : Str) (n : UInt32) : parseU32 s = some n ↔ Spec.IsNatural s n.toNat := by
  unfold parseU32
  rw [Option.map_eq_some_iff]
  constructor
  · rintro ⟨a, h, rfl⟩
    obtain ⟨h1, h2⟩ := (parseUnsigned_iff _ _ _).1 h
    rw [UInt32.toNat_ofNat_of_lt' (by simp only [UInt32.size]; omega)]
    exact h1
  · intro h
    refine ⟨n.toNat, (parseUnsigned_iff _ _ _).2 ⟨h, ?_⟩, UInt32.ofNat_toNat⟩
    have := n.toNat_lt; omega

theorem parseU64_iff (s : Str) (n : UInt64) : parseU64 s = some n ↔ Spec.IsNatural s n.toNat := by
  unfold parseU64
  rw [Option.map_eq_some_iff]
  constructor
  · rintro ⟨a, h, rfl⟩
    obtain ⟨h1, h2⟩ := (parseUnsigned_iff _ _ _).1 h
    rw [UInt64.toNat_ofNat_of_lt' (by simp only [UInt64.size]; omega)]
    exact h1
  · intro h
    refine ⟨n.toNat, (parseUnsigned_iff _ _ _).2 ⟨h, ?_⟩, UInt64.ofNat_toNat⟩
    have := n.toNat_lt; omega

theorem natStr_number (n : Nat) : Number 10 (natStr n) n := (parseDigits_number _ _).1 (parseDigits_natStr n)

theorem natStr_head (n : Nat) (h : n ≠ 0) : (natStr n).head? ≠ some '0' := by
  induction n using Nat.strongRecOn with
  | _ n ih =>
    rw [natStr]
    split
    · rename_i h10
      interval_cases n <;> first | exact absurd rfl h | decide
    · have := ih (n / 10) (by omega) (by omega)
      cases hs : natStr (n / 10) with
      | nil => exact absurd hs (natStr_ne_nil _)
      | cons c q => rw [hs] at this; simpa using this

theorem intStr_shortest (z : Int) : Spec.IsShortest (intStr z) z := by
  unfold intStr
  split
  · have := Spec.IsShortest.neg (natStr_number z.natAbs) (natStr_head _ (by omega))
    rwa [show -((z.natAbs : Nat) : Int) = z by omega] at this
  · by_cases h0 : z = 0
    · subst h0
      have : natStr (Int.natAbs 0) = ['0'] := by decide +kernel
      rw [this]; exact .zero
    · have := Spec.IsShortest.pos (natStr_number z.natAbs) (natStr_head _ (by omega))
      rwa [show ((z.natAbs : Nat) : Int) = z by omega] at this

end Osmio
