import Verif.Proofs.Ieee
import Verif.Props.CoordText
/-!
# Coordinates and doubles, exactly (C01, C03, C67)

`RoundsTo q r`: rounding `q` as IEEE 754 prescribes gives `r`. `HalfAway p z`: `z` is `p` rounded to an integer, half way cases away from zero.
Both are functions (`RoundsTo.unique`, `halfAway_unique`) and total (`roundsTo_exists`, `halfAway_exists`).
-/

namespace Osmio
open Spec

theorem halfAway_iff (p : ℚ) (z : ℤ) : HalfAway p z ↔ NearestUnit (p / 10 ^ 7) z := by
  unfold HalfAway NearestUnit
  rw [div_mul_cancel₀ _ (by norm_num)]

theorem halfAway_unique {p : ℚ} {y z : ℤ} (hy : HalfAway p y) (hz : HalfAway p z) : y = z :=
  nearest_unique ((halfAway_iff _ _).1 hy) ((halfAway_iff _ _).1 hz)

theorem halfAway_neg {p : ℚ} {z : ℤ} (h : HalfAway p z) : HalfAway (-p) (-z) := by
  rw [halfAway_iff] at h ⊢
  rw [neg_div]
  exact nearest_neg h

theorem halfAway_floor {p : ℚ} (hp : 0 ≤ p) : HalfAway p ⌊p + 1 / 2⌋ := by
  have := floor_half_nearest (m := p / 10000000) (by positivity)
  rw [div_mul_cancel₀ _ (by norm_num)] at this
  rw [halfAway_iff]
  rw [show (10 : ℚ) ^ 7 = 10000000 by norm_num]
  exact this

theorem halfAway_exists (p : ℚ) : ∃ z, HalfAway p z := by
  rcases le_total 0 p with hp | hp
  · exact ⟨_, halfAway_floor hp⟩
  · have := halfAway_neg (halfAway_floor (p := -p) (by linarith))
    rw [neg_neg] at this
    exact ⟨_, this⟩

theorem roundsTo_exists (q : ℚ) : ∃ r, RoundsTo q r := by
  rcases le_total 0 q with hq | hq
  · exact ⟨_, roundMag_roundsTo hq⟩
  · have := roundsTo_neg (roundMag_roundsTo (q := -q) (by linarith))
    rw [neg_neg] at this
    exact ⟨_, this⟩

/-- A number of the format is rounded to itself. -/
theorem roundsTo_self {r : ℚ} (h : IsBinary64 r) : RoundsTo r r :=
  ⟨h, fun r' _ => by simp, fun r' _ hne he => absurd (by simpa [sub_eq_zero] using he) hne⟩

/-- The doubles of the model are those of IEEE 754. -/
theorem valid_iff {a : Bool} {m : ℚ} (hm : 0 ≤ m) : (F64.fin a m).Valid ↔ IsBinary64 m ∧ m < 2 ^ (1024 : ℤ) := by
  constructor
  · rintro ⟨_, h1, h2⟩
    refine ⟨?_, h2⟩
    have := (roundMag_roundsTo hm).is
    rwa [h1] at this
  · rintro ⟨h1, h2⟩
    exact ⟨hm, (roundsTo_roundMag hm (roundsTo_self h1)).symm, h2⟩

/-- The signed value. -/
theorem roundsTo_signed (a : Bool) {q : ℚ} (hq : 0 ≤ q) : RoundsTo (if a then -q else q) (if a then -roundMag q else roundMag q) := by
  cases a with
  | false => exact roundMag_roundsTo hq
  | true => exact roundsTo_neg (roundMag_roundsTo hq)

/-- **C01**, exactly: `degrees` is the double that `inner / 10^7` rounds to. -/
theorem C01_degrees_exact (i : Int32) : ∃ v : ℚ, (latLonInnerToDegrees i).val? = some v ∧ RoundsTo ((i.toInt : ℚ) / 10 ^ 7) v := by
  rw [degrees_eq]
  refine ⟨_, rfl, ?_⟩
  rw [show (10 : ℚ) ^ 7 = 10000000 by norm_num]
  have := roundsTo_signed (decide (i.toInt < 0)) (q := (i.toInt.natAbs : ℚ) / 10000000) (by positivity)
  by_cases hneg : i.toInt < 0
  · have hc : (i.toInt : ℚ) = -(i.toInt.natAbs : ℚ) := by
      have : i.toInt = -(i.toInt.natAbs : ℤ) := by omega
      exact_mod_cast this
    simp only [hneg, decide_true, if_true] at this ⊢
    rw [hc, neg_div]
    exact this
  · have hc : (i.toInt : ℚ) = (i.toInt.natAbs : ℚ) := by
      have : i.toInt = (i.toInt.natAbs : ℤ) := by omega
      rw [this]; simp
    simp only [hneg, decide_false, Bool.false_eq_true, if_false] at this ⊢
    rw [hc]
    exact this

/-- What is made of a number of units. -/
def UnitsResult (z : ℤ) (r : Except ParseLatLonError Int32) : Prop :=
  (-2147483648 ≤ z ∧ z ≤ 2147483647 ∧ r = .ok (Int32.ofInt z)) ∨
    (2147483647 < z ∧ ∃ y, r = .error (.tooLarge y)) ∨ (z < -2147483648 ∧ ∃ y, r = .error (.tooSmall y))

theorem convert_fin {a : Bool} {m : ℚ} (hm : 0 ≤ m) : ∃ (p : ℚ) (z : ℤ),
    RoundsTo ((if a then -m else m) * 10 ^ 7) p ∧ HalfAway p z ∧ UnitsResult z (innerTryFromF64 (.fin a m)) := by
  have h0 : 0 ≤ m * 10000000 := by positivity
  have hr := roundsTo_signed a h0
  have hf := halfAway_floor (roundMag_nonneg h0)
  have hnn := roundUnits_nonneg hm
  rw [innerTryFrom_fin hm, show (10 : ℚ) ^ 7 = 10000000 by norm_num]
  cases a with
  | false =>
    simp only [Bool.false_eq_true, if_false] at hr ⊢
    refine ⟨_, roundUnits m, hr, hf, ?_⟩
    by_cases hle : roundUnits m ≤ 2147483647
    · exact .inl ⟨by omega, hle, by rw [if_pos hle]⟩
    · exact .inr (.inl ⟨by omega, _, by rw [if_neg hle]⟩)
  | true =>
    simp only [if_true] at hr ⊢
    rw [neg_mul]
    refine ⟨_, -roundUnits m, hr, halfAway_neg hf, ?_⟩
    by_cases hle : roundUnits m ≤ 2147483648
    · exact .inl ⟨by omega, by omega, by rw [if_pos hle]⟩
    · exact .inr (.inr ⟨by omega, _, by rw [if_neg hle]⟩)

/-- **C03**, exactly: a double of value `v` is multiplied by 10⁷, the product is rounded to a double and that to an integer, half way cases away
from zero. The integer is the coordinate if it is in range, and else the error says on which side it is. -/
theorem C03_exact (x : F64) (hx : x.Valid) (v : ℚ) (hv : x.val? = some v) : ∃ (p : ℚ) (z : ℤ),
    RoundsTo (v * 10 ^ 7) p ∧ HalfAway p z ∧ UnitsResult z (innerTryFromF64 x) := by
  cases x with
  | nan => cases hv
  | inf a => cases hv
  | fin a m =>
    obtain rfl := Option.some.inj hv
    exact convert_fin hx.1

/-- **C67**, exactly: text that stands for the number `v` is read as the double `v` rounds to, which is converted as in C03. -/
theorem C67_rounding (s : Str) (v : ℚ) (h : IsDecimal s v) : ∃ (d p : ℚ) (z : ℤ),
    RoundsTo v d ∧ RoundsTo (d * 10 ^ 7) p ∧ HalfAway p z ∧ UnitsResult z (innerFromStr s) := by
  obtain ⟨neg, q, h0, rfl, hp⟩ := parseF64_decimal h
  rw [fromStr_of_parse hp]
  obtain ⟨p, z, h1, h2, h3⟩ := convert_fin (a := neg) (roundMag_nonneg h0)
  refine ⟨_, p, z, roundsTo_signed neg h0, h1, h2, ?_⟩
  unfold F64.ofMag
  simp only
  by_cases hov : roundMag q < 2 ^ (1024 : ℤ)
  · rw [if_pos hov]; exact h3
  · rw [if_neg hov]
    -- the number is so large that the finite computation is out of range too
    have hbig : (2147483649 : ℚ) ≤ roundMag q := by
      refine le_trans ?_ (not_lt.1 hov)
      refine le_trans ?_ (zpow_le_zpow_right₀ (by norm_num) (by norm_num : (40 : ℤ) ≤ 1024))
      norm_num
    have hz : 2147483648 < roundUnits (roundMag q) := by
      have hm : roundMag (2147483649 : ℚ) ≤ roundMag (roundMag q * 10000000) :=
        roundMag_mono (by norm_num) (by clear hov; linarith)
      have e : roundMag (2147483649 : ℚ) = 2147483649 := by
        have := roundMag_nat (n := 2147483649) (by norm_num)
        exact_mod_cast this
      rw [e] at hm
      have : (2147483649 : ℤ) ≤ roundUnits (roundMag q) := Int.le_floor.mpr (by push_cast; linarith)
      omega
    have hnn := roundMag_nonneg h0
    have hfl := halfAway_floor (roundMag_nonneg (q := roundMag q * 10000000) (by positivity))
    have hrs := roundsTo_signed neg (q := roundMag q * 10000000) (by positivity)
    rw [show (10 : ℚ) ^ 7 = 10000000 by norm_num] at h1
    cases neg with
    | false =>
      simp only [Bool.false_eq_true, if_false] at h1 hrs
      rw [h1.unique hrs] at h2
      have hzz : z = roundUnits (roundMag q) := halfAway_unique h2 hfl
      refine .inr (.inl ⟨by omega, .inf false, ?_⟩)
      simp [innerTryFromF64, scale_eq, F64.mul, i32max_eq, F64.round, F64.gt, F64.lt]
    | true =>
      simp only [if_true, neg_mul] at h1 hrs
      rw [h1.unique hrs] at h2
      have hzz : z = -roundUnits (roundMag q) := halfAway_unique h2 (halfAway_neg hfl)
      refine .inr (.inr ⟨by omega, .inf true, ?_⟩)
      simp [innerTryFromF64, scale_eq, F64.mul, i32max_eq, i32min_eq, F64.round, F64.gt, F64.lt]

/-! ### Ties occur -/

/-- 2⁵³ + 1 is half way between two doubles and goes to the one with the even significand. -/
example : RoundsTo (2 ^ 53 + 1) (2 ^ 53) := by
  have h : (2 : ℚ) ^ 53 = roundMag (2 ^ 53 + 1) := by
    have hl : Int.log 2 ((2 : ℚ) ^ 53 + 1) = 53 := by
      have h0 : (2 : ℚ) ^ 53 + 1 = ((2 ^ 53 + 1 : ℕ) : ℚ) := by norm_num
      rw [h0, Int.log_natCast]
      have : Nat.log 2 (2 ^ 53 + 1) = 53 := by
        rw [Nat.log_eq_iff (by norm_num)]; norm_num
      rw [this]; rfl
    have hu : ulpExp ((2 : ℚ) ^ 53 + 1) = 1 := by unfold ulpExp; rw [hl]; norm_num
    unfold roundMag
    rw [if_neg (by positivity), hu]
    have : roundHalfEven (((2 : ℚ) ^ 53 + 1) / 2 ^ (1 : ℤ)) = 2 ^ 52 := by
      have hf : ⌊((2 : ℚ) ^ 53 + 1) / 2 ^ (1 : ℤ)⌋ = 2 ^ 52 := by
        rw [Int.floor_eq_iff]; norm_num
      unfold roundHalfEven
      simp only [hf]
      norm_num
    rw [this]; norm_num
  have key := roundMag_roundsTo (q := 2 ^ 53 + 1) (by positivity)
  rw [← h] at key
  exact key

/-- Text with a number that is no double: two roundings and then the unit. -/
example : ∃ (d p : ℚ) (z : ℤ), RoundsTo (1 / 10) d ∧ RoundsTo (d * 10 ^ 7) p ∧ HalfAway p z ∧ UnitsResult z (innerFromStr ['0', '.', '1']) :=
  C67_rounding _ _ ⟨[], ['0'], ['.'], ['1'], [], 0, rfl, .inl rfl, .inl rfl, .inl (by simp), by decide, by decide, .none, by
    rw [show number (['0'] ++ ['1']) = 1 by decide]; norm_num⟩

end Osmio
