import Verif.Proofs.FloatShortest
import Verif.Props.CoordError
import Verif.Props.CoordIeee
import Verif.Proofs.Integer
/-!
# The number in the error of a coordinate, digit by digit (C76)

`ShortestFor m q`: of the decimals that are read as the double `m`, `q` is one with the fewest digits, and of these one that is nearest to `m`.
-/

namespace Osmio
open Spec

/-- A whole number is printed as a whole number. -/
theorem shortest_whole {m : ℕ} {d : ℕ} {t : ℤ} (h0 : 0 < m) (hm : roundMag (m : ℚ) = m) (h : shortest (m : ℚ) = some (d, t)) : 0 ≤ t := by
  obtain ⟨k, h1, h2, h3, h4⟩ := findSome_first h
  have ht := (shortestAt_spec h3).1
  have hq : (0 : ℚ) < m := by exact_mod_cast h0
  by_contra hneg
  rw [Int.log_natCast] at ht
  have hj : Nat.log 10 m + 1 < k := by omega
  refine shortestAt_none hq hm (by omega) (h4 _ (by omega) hj) ⟨m, 0, Nat.lt_pow_succ_log_self (by norm_num) m, by simp⟩ hm

theorem display_whole {m : ℕ} (a : Bool) (h0 : 0 < m) (hm : roundMag (m : ℚ) = m) :
    ∃ N : ℕ, dispF64 (.fin a m) = (if a then ['-'] else []) ++ natStr N ∧ ShortestFor m N := by
  have hq : (0 : ℚ) < m := by exact_mod_cast h0
  obtain ⟨d, t, hs, _⟩ := shortest_double hq hm
  have ht := shortest_whole h0 hm hs
  refine ⟨d * 10 ^ t.toNat, ?_, ?_⟩
  · simp only [dispF64, hs]
    rw [if_neg hq.ne']
    unfold decimalStr
    rw [if_pos ht]
  · have := shortest_shortestFor hq hm hs
    have e : ((d * 10 ^ t.toNat : ℕ) : ℚ) = (d : ℚ) * 10 ^ t := by
      push_cast
      rw [← zpow_natCast, Int.toNat_of_nonneg ht]
    rwa [e]

/-- What is said about a number of units that is out of range. -/
def Message (z : ℤ) (number : Str) : Str :=
  number ++ if 0 < z then str% " is too large to represent as a Lat/Lon" else str% " is too small to represent as a Lat/Lon"

/-- **C76**, exactly: the message about a finite number `v` out of range gives `v · 10⁷`, rounded to a double and that to a whole number `z`,
with the fewest digits that tell `z` from other doubles, nearest to `z`, in the usual notation and padded with zeros; or `inf` if the product is too large for a
double. -/
theorem C76_digits {x : F64} (hx : x.Valid) {v : ℚ} (hv : x.val? = some v) {e : ParseLatLonError} (h : innerTryFromF64 x = .error e) :
    ∃ (p : ℚ) (z : ℤ), RoundsTo (v * 10 ^ 7) p ∧ HalfAway p z ∧ (2147483647 < z ∨ z < -2147483648) ∧
      ((|p| < 2 ^ (1024 : ℤ) ∧ ∃ (N : ℤ) (t : Str), ShortestFor |(z : ℚ)| |(N : ℚ)| ∧ (0 < N ↔ 0 < z) ∧ IsShortest t N ∧ e.display = Message z t) ∨
        (2 ^ (1024 : ℤ) ≤ |p| ∧ e.display = Message z (if 0 < z then str% "inf" else str% "-inf"))) := by
  obtain ⟨p, z, h1, h2, h3⟩ := C03_exact x hx v hv
  have hz : 2147483647 < z ∨ z < -2147483648 := by
    rw [h] at h3
    rcases h3 with ⟨_, _, h3⟩ | ⟨h3, _⟩ | ⟨h3, _⟩
    · cases h3
    · exact .inl h3
    · exact .inr h3
  refine ⟨p, z, h1, h2, hz, ?_⟩
  cases x with
  | nan => cases hv
  | inf => cases hv
  | fin a m =>
    obtain ⟨hm, hm1, hm2⟩ := hx
    obtain ⟨hu, y, rfl, hy⟩ := number_in_error ⟨hm, hm1, hm2⟩ h
    have h0 : 0 ≤ m * 10000000 := by positivity
    have hr := roundsTo_signed a h0
    have hf := halfAway_floor (roundMag_nonneg h0)
    have hp : p = if a then -roundMag (m * 10000000) else roundMag (m * 10000000) := by
      cases hv
      rw [show (10 : ℚ) ^ 7 = 10000000 by norm_num] at h1
      refine h1.unique ?_
      cases a
      · exact hr
      · simp only [if_true, neg_mul] at hr ⊢; exact hr
    have habs : |p| = roundMag (m * 10000000) := by
      rw [hp]
      cases a
      · exact abs_of_nonneg (roundMag_nonneg h0)
      · simp only [if_true, abs_neg]; exact abs_of_nonneg (roundMag_nonneg h0)
    have hzz : z = if a then -roundUnits m else roundUnits m := by
      rw [hp] at h2
      cases a
      · exact halfAway_unique h2 hf
      · exact halfAway_unique h2 (halfAway_neg hf)
    rcases hy with rfl | ⟨rfl, hov⟩
    · left
      refine ⟨?_, ?_⟩
      · rw [habs]
        by_contra hov
        have hinf : (innerTryFromF64 (.fin a m)) = .error (if a then .tooSmall (.inf a) else .tooLarge (.inf a)) := by
          have hmul : ((F64.fin a m).mul COORD_SCALE_FACTOR).round = .inf a := by
            simp only [scale_eq, F64.mul, F64.ofMag]
            rw [if_neg hov]
            cases a <;> rfl
          unfold innerTryFromF64
          simp only [hmul]
          cases a <;> simp [i32max_eq, i32min_eq, F64.gt, F64.lt]
        rw [hinf] at h
        cases a <;> cases h
      · obtain ⟨n, hn⟩ := Int.eq_ofNat_of_zero_le (show 0 ≤ roundUnits m by omega)
        have hval : roundMag (n : ℚ) = n := by
          have hx : (F64.fin a m).Valid := ⟨hm, hm1, hm2⟩
          obtain ⟨this, h'⟩ := range_error hx h
          have e : ((F64.fin a m).mul COORD_SCALE_FACTOR).round = .fin a (roundUnits m : ℚ) := by
            rcases h' with h' | h' <;> cases a <;> simp at h' <;> exact h'.symm
          rw [e] at this
          have := this.2.1
          rw [hn] at this
          exact_mod_cast this
        obtain ⟨N, hN1, hN2⟩ := display_whole a (m := n) (by omega) hval
        have hN0 : 0 < N := by
          rcases Nat.eq_zero_or_pos N with rfl | h
          · have := roundsTo_roundMag (by simp) hN2.1
            rw [Nat.cast_zero, roundMag_zero] at this
            have : n = 0 := by exact_mod_cast this
            omega
          · exact h
        have hd : dispF64 (.fin a (roundUnits m : ℚ)) = (if a then ['-'] else []) ++ natStr N := by
          rw [hn]; exact_mod_cast hN1
        cases a with
        | false =>
          simp only [Bool.false_eq_true, if_false] at hzz hd ⊢
          refine ⟨(N : ℤ), natStr N, ?_, ?_, ?_, ?_⟩
          · rw [hzz, hn]
            simpa using hN2
          · constructor <;> intro _ <;> omega
          · have := intStr_shortest (N : ℤ)
            unfold intStr at this
            rw [if_neg (by omega), Int.natAbs_natCast] at this
            exact this
          · unfold Message
            rw [if_pos (by omega)]
            show dispF64 _ ++ _ = _
            rw [hd]; rfl
        | true =>
          simp only [if_true] at hzz hd ⊢
          refine ⟨-(N : ℤ), '-' :: natStr N, ?_, ?_, ?_, ?_⟩
          · rw [hzz, hn]
            simpa using hN2
          · constructor <;> intro _ <;> omega
          · have := intStr_shortest (-(N : ℤ))
            unfold intStr at this
            rw [if_pos (by omega), Int.natAbs_neg, Int.natAbs_natCast] at this
            exact this
          · unfold Message
            rw [if_neg (by omega)]
            show dispF64 _ ++ _ = _
            rw [hd]; rfl
    · right
      rw [habs]
      refine ⟨not_lt.1 hov, ?_⟩
      unfold Message
      cases a with
      | false =>
        simp only [Bool.false_eq_true, if_false] at hzz ⊢
        rw [if_pos (by omega), if_pos (by omega)]
        rfl
      | true =>
        simp only [if_true] at hzz ⊢
        rw [if_neg (by omega), if_neg (by omega)]
        rfl

/-- 600 degrees. -/
example : (innerTryFromF64 (.fin true 600)) = .error (.tooSmall (.fin true 6000000000)) ∧
    ParseLatLonError.display (.tooSmall (.fin true 6000000000)) = str% "-6000000000 is too small to represent as a Lat/Lon" := by
  decide +kernel

/-- 2⁶⁰ · 10⁷ is printed with sixteen digits and zeros. -/
example : dispF64 (.fin false (11529215046068469760000000 : ℚ)) = str% "11529215046068470000000000" := by
  decide +kernel

end Osmio
