import Verif.Proofs.Float64
import Verif.Model.LatLon
/-! Lemmas about the coordinate conversions. -/

namespace Osmio

theorem ofInt_small {i : ℤ} (h : i.natAbs < 2 ^ 53) :
    F64.ofInt i = .fin (decide (i < 0)) (i.natAbs : ℚ) := by
  unfold F64.ofInt F64.ofMag
  rw [roundMag_nat h]
  have h1 : (i.natAbs : ℚ) < 2 ^ (1024 : ℤ) := by
    have : (i.natAbs : ℚ) < 2 ^ (53 : ℤ) := by exact_mod_cast h
    exact this.trans_le (zpow_le_zpow_right₀ (by norm_num) (by norm_num))
  simp only
  rw [if_pos h1]

theorem scale_eq : COORD_SCALE_FACTOR = .fin false 10000000 := by
  unfold COORD_SCALE_FACTOR COORD_PRECISION_NANOS
  rw [ofInt_small (by decide)]; norm_num

theorem small_lt_max {q : ℚ} (h : q ≤ 2 ^ (1023 : ℤ)) : q < 2 ^ (1024 : ℤ) :=
  h.trans_lt (zpow_lt_zpow_right₀ (by norm_num) (by norm_num))

theorem roundMag_lt_max {q : ℚ} (h0 : 0 ≤ q) (h : q ≤ 2 ^ (1023 : ℤ)) :
    roundMag q < 2 ^ (1024 : ℤ) := by
  rcases eq_or_lt_of_le h0 with h1 | h1
  · rw [← h1, roundMag_zero]; exact two_zpow_pos _
  · exact small_lt_max (roundMag_le_zpow h1 (by norm_num) h)

theorem big_le : ((2 : ℚ) ^ 40) ≤ 2 ^ (1023 : ℤ) := by
  have : ((2 : ℚ) ^ 40) = 2 ^ (40 : ℤ) := by norm_num
  rw [this]; exact zpow_le_zpow_right₀ (by norm_num) (by norm_num)

theorem degrees_eq (i : Int32) :
    latLonInnerToDegrees i
      = .fin (decide (i.toInt < 0)) (roundMag ((i.toInt.natAbs : ℚ) / 10000000)) := by
  have h1 := i.toInt_lt; have h2 := i.le_toInt
  have hN : i.toInt.natAbs ≤ 2 ^ 31 := by omega
  have hN' : (i.toInt.natAbs : ℚ) ≤ 2 ^ 31 := by exact_mod_cast hN
  have hN0 : (0 : ℚ) ≤ (i.toInt.natAbs : ℚ) := by positivity
  unfold latLonInnerToDegrees
  rw [ofInt_small (by omega), scale_eq]
  simp only [F64.div]
  rw [if_neg (by norm_num)]
  unfold F64.ofMag
  simp only
  rw [if_pos]
  · simp
  · apply roundMag_lt_max (by positivity)
    refine le_trans ?_ big_le
    rw [div_le_iff₀ (by norm_num)]; linarith

/-- The rounding in the product/round step. -/
def roundUnits (m : ℚ) : ℤ := ⌊roundMag (m * 10000000) + 1 / 2⌋

theorem roundUnits_nonneg {m : ℚ} (hm : 0 ≤ m) : 0 ≤ roundUnits m := by
  unfold roundUnits
  apply Int.floor_nonneg.mpr
  have := roundMag_nonneg (q := m * 10000000) (by positivity)
  linarith

theorem i32max_eq : F64.ofInt 2147483647 = .fin false 2147483647 := by
  rw [ofInt_small (by decide)]; norm_num
theorem i32min_eq : F64.ofInt (-2147483648) = .fin true 2147483648 := by
  rw [ofInt_small (by decide)]; norm_num

theorem roundUnits_big {m : ℚ} (h : ¬ roundMag (m * 10000000) < 2 ^ (1024 : ℤ)) :
    2147483648 < roundUnits m := by
  have h1 : (2 : ℚ) ^ (40 : ℤ) ≤ roundMag (m * 10000000) :=
    (zpow_le_zpow_right₀ (by norm_num) (by norm_num)).trans (not_lt.mp h)
  have h2 : (2147483649 : ℚ) ≤ roundMag (m * 10000000) + 1 / 2 := by
    have h3 : (2 : ℚ) ^ (40 : ℤ) = 1099511627776 := by norm_num
    rw [h3] at h1
    clear h
    linarith
  have : (2147483649 : ℤ) ≤ roundUnits m := Int.le_floor.mpr (by exact_mod_cast h2)
  omega

/-- Complete description of the conversion of a finite double. -/
theorem innerTryFrom_fin {a : Bool} {m : ℚ} (hm : 0 ≤ m) :
    innerTryFromF64 (.fin a m) =
      (if a then
        (if roundUnits m ≤ 2147483648 then .ok (Int32.ofInt (-roundUnits m))
          else .error (.tooSmall ((F64.fin a m).mul COORD_SCALE_FACTOR).round))
      else
        (if roundUnits m ≤ 2147483647 then .ok (Int32.ofInt (roundUnits m))
          else .error (.tooLarge ((F64.fin a m).mul COORD_SCALE_FACTOR).round))) := by
  have hnn := roundUnits_nonneg hm
  unfold innerTryFromF64
  simp only [scale_eq, F64.mul, i32max_eq, i32min_eq, F64.ofMag]
  by_cases hov : roundMag (m * 10000000) < 2 ^ (1024 : ℤ)
  · rw [if_pos hov]
    simp only [F64.round]
    change (if F64.gt (.fin (a != false) (roundUnits m : ℚ)) _ = true then _ else _) = _
    cases a with
    | false =>
      simp only [F64.gt, F64.lt, bne_self_eq_false, Bool.false_eq_true, if_false, if_true,
        decide_eq_true_eq]
      by_cases hr : roundUnits m ≤ 2147483647
      · have hr' : (roundUnits m : ℚ) ≤ 2147483647 := by exact_mod_cast hr
        have hn' : (0 : ℚ) ≤ (roundUnits m : ℚ) := by exact_mod_cast hnn
        rw [if_neg (by linarith)]
        change (if ((roundUnits m : ℚ) < _) then _ else _) = _
        rw [if_neg (by linarith), if_pos hr]
        change Except.ok (F64.toI32 (.fin false (roundUnits m : ℚ))) = _
        simp only [F64.toI32, Int.floor_intCast, Bool.false_eq_true, if_false]
        congr 2; omega
      · have hr' : (2147483647 : ℚ) < (roundUnits m : ℚ) := by exact_mod_cast not_le.mp hr
        rw [if_pos hr', if_neg hr]
    | true =>
      have hn' : (0 : ℚ) ≤ (roundUnits m : ℚ) := by exact_mod_cast hnn
      simp only [F64.gt, F64.lt, Bool.true_bne, Bool.not_false, Bool.false_eq_true, if_false, if_true,
        decide_eq_true_eq]
      rw [if_neg (by linarith)]
      by_cases hr : roundUnits m ≤ 2147483648
      · have hr' : (roundUnits m : ℚ) ≤ 2147483648 := by exact_mod_cast hr
        change (if (-(roundUnits m : ℚ) < _) then _ else _) = _
        rw [if_neg (by linarith), if_pos hr]
        change Except.ok (F64.toI32 (.fin true (roundUnits m : ℚ))) = _
        simp only [F64.toI32, Int.floor_intCast, if_true]
        congr 2; omega
      · have hr' : (2147483648 : ℚ) < (roundUnits m : ℚ) := by exact_mod_cast not_le.mp hr
        change (if (-(roundUnits m : ℚ) < _) then _ else _) = _
        rw [if_pos (by linarith), if_neg hr]
  · have hb := roundUnits_big hov
    rw [if_neg hov]
    cases a with
    | false => simp [F64.round, F64.gt, F64.lt, not_le.mpr (show 2147483647 < roundUnits m by omega)]
    | true => simp [F64.round, F64.gt, F64.lt, not_le.mpr hb]

/-- Accuracy of the product/round step. -/
theorem roundUnits_err {m : ℚ} (hm : 0 ≤ m) :
    |(roundUnits m : ℚ) - m * 10000000|
      ≤ 1 / 2 + max (m * 10000000 * 2 ^ (-53 : ℤ)) (2 ^ (-1075 : ℤ)) := by
  have h := roundMag_err (q := m * 10000000) (by positivity)
  have h1 := Int.floor_le (roundMag (m * 10000000) + 1 / 2)
  have h2 := Int.lt_floor_add_one (roundMag (m * 10000000) + 1 / 2)
  change (roundUnits m : ℚ) ≤ _ at h1
  change _ < (roundUnits m : ℚ) + 1 at h2
  generalize max (m * 10000000 * 2 ^ (-53 : ℤ)) (2 ^ (-1075 : ℤ)) = M at h ⊢
  rw [abs_le] at h ⊢
  constructor <;> linarith [h.1, h.2]

theorem tiny : (2 : ℚ) ^ (-1075 : ℤ) ≤ 2 ^ (-60 : ℤ) :=
  zpow_le_zpow_right₀ (by norm_num) (by norm_num)

theorem pow53 : (2 : ℚ) ^ (-53 : ℤ) = 1 / 9007199254740992 := by norm_num
theorem pow60 : (2 : ℚ) ^ (-60 : ℤ) = 1 / 1152921504606846976 := by norm_num

/-- The round trip on magnitudes. -/
theorem roundUnits_degrees {N : ℕ} (hN : N ≤ 2 ^ 31) :
    roundUnits (roundMag ((N : ℚ) / 10000000)) = N := by
  rcases Nat.eq_zero_or_pos N with h0 | h0
  · subst h0; simp [roundUnits, roundMag_zero]
    norm_num
  have hN' : (N : ℚ) ≤ 2147483648 := by exact_mod_cast hN
  have h1 : (1 : ℚ) ≤ N := by exact_mod_cast h0
  have hnorm : (2 : ℚ) ^ (-1022 : ℤ) ≤ (N : ℚ) / 10000000 := by
    refine le_trans (zpow_le_zpow_right₀ (by norm_num) (by norm_num : (-1022 : ℤ) ≤ -30)) ?_
    rw [le_div_iff₀ (by norm_num)]
    have : (2 : ℚ) ^ (-30 : ℤ) = 1 / 1073741824 := by norm_num
    rw [this]; linarith
  have e1 := roundMag_relErr hnorm
  rw [pow53] at e1
  set d := roundMag ((N : ℚ) / 10000000) with hd
  rw [abs_le] at e1
  have hd0 : 0 ≤ d := roundMag_nonneg (by positivity)
  have e2 := roundMag_err (q := d * 10000000) (by positivity)
  have e3 : max (d * 10000000 * 2 ^ (-53 : ℤ)) (2 ^ (-1075 : ℤ)) ≤ (1 : ℚ) / 1000000 := by
    apply max_le
    · rw [pow53]; linarith [e1.1, e1.2]
    · have := tiny; rw [pow60] at this; linarith
  have e4 := e2.trans e3
  rw [abs_le] at e4
  have key : |roundMag (d * 10000000) - N| < 1 / 2 := by
    rw [abs_lt]; constructor <;> linarith [e1.1, e1.2, e4.1, e4.2]
  rw [abs_lt] at key
  unfold roundUnits
  rw [Int.floor_eq_iff]
  constructor
  · push_cast; linarith [key.1]
  · push_cast; linarith [key.2]

/-- The round trip on the inner value. -/
theorem innerTryFrom_degrees (i : Int32) : innerTryFromF64 (latLonInnerToDegrees i) = .ok i := by
  have h1 := i.toInt_lt; have h2 := i.le_toInt
  have hN : i.toInt.natAbs ≤ 2 ^ 31 := by omega
  rw [degrees_eq, innerTryFrom_fin (roundMag_nonneg (by positivity)), roundUnits_degrees hN]
  by_cases hneg : i.toInt < 0
  · simp only [hneg, decide_true, if_true]
    rw [if_pos (by omega)]
    congr 1
    rw [show (-(i.toInt.natAbs : ℤ)) = i.toInt by omega]; simp
  · simp only [hneg, decide_false, Bool.false_eq_true, if_false]
    rw [if_pos (by omega)]
    congr 1
    rw [show ((i.toInt.natAbs : ℤ)) = i.toInt by omega]; simp

theorem roundUnits_mono {p q : ℚ} (hp : 0 ≤ p) (h : p ≤ q) : roundUnits p ≤ roundUnits q := by
  unfold roundUnits
  apply Int.floor_mono
  have := roundMag_mono (p := p * 10000000) (q := q * 10000000) (by positivity) (by linarith)
  linarith

end Osmio
