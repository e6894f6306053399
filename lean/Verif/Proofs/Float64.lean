import Verif.Lib.Float64
import Mathlib.Tactic.Linarith
import Mathlib.Tactic.Ring
import Mathlib.Tactic.NormNum
import Mathlib.Tactic.Positivity
import Mathlib.Tactic.FieldSimp
/-! Error bounds and monotonicity of the rounding function of the `f64` model. -/

namespace Osmio

theorem roundHalfEven_err (q : ℚ) : |(roundHalfEven q : ℚ) - q| ≤ 1 / 2 := by
  have h1 := Int.floor_le q
  have h2 := Int.lt_floor_add_one q
  unfold roundHalfEven
  simp only
  split_ifs with h h' h'' <;> rw [abs_le] <;> push_cast <;> constructor <;> linarith

theorem roundHalfEven_int (n : ℤ) : roundHalfEven (n : ℚ) = n := by
  unfold roundHalfEven; simp

theorem roundHalfEven_mono {p q : ℚ} (h : p ≤ q) : roundHalfEven p ≤ roundHalfEven q := by
  have hf : ⌊p⌋ ≤ ⌊q⌋ := Int.floor_mono h
  have h1 := Int.floor_le p
  have h2 := Int.lt_floor_add_one q
  rcases lt_or_eq_of_le hf with hlt | heq
  · have : ⌊p⌋ + 1 ≤ ⌊q⌋ := hlt
    unfold roundHalfEven; simp only
    split_ifs <;> omega
  · unfold roundHalfEven; simp only [← heq]
    split_ifs <;> first | omega | linarith

theorem two_zpow_pos (e : ℤ) : (0 : ℚ) < 2 ^ e := zpow_pos (by norm_num) e

theorem roundMag_zero : roundMag 0 = 0 := by simp [roundMag]

/-- General absolute error: half a unit in the last place. -/
theorem roundMag_err_ulp {q : ℚ} (hq : 0 < q) : |roundMag q - q| ≤ 2 ^ ulpExp q / 2 := by
  unfold roundMag
  rw [if_neg hq.ne']
  have hp := two_zpow_pos (ulpExp q)
  have he := roundHalfEven_err (q / 2 ^ ulpExp q)
  have : (roundHalfEven (q / 2 ^ ulpExp q) : ℚ) * 2 ^ ulpExp q - q
      = ((roundHalfEven (q / 2 ^ ulpExp q) : ℚ) - q / 2 ^ ulpExp q) * 2 ^ ulpExp q := by
    field_simp
  rw [this, abs_mul, abs_of_pos hp]
  nlinarith

theorem zpow_log_le {q : ℚ} (hq : 0 < q) : (2 : ℚ) ^ Int.log 2 q ≤ q := by
  have := Int.zpow_log_le_self (b := 2) (r := q) (by norm_num) hq
  exact_mod_cast this

theorem lt_zpow_log (q : ℚ) : q < (2 : ℚ) ^ (Int.log 2 q + 1) := by
  have := Int.lt_zpow_succ_log_self (b := 2) (by norm_num) q
  exact_mod_cast this

theorem ulp_le {q : ℚ} (hq : 0 < q) :
    (2 : ℚ) ^ ulpExp q / 2 ≤ max (q * 2 ^ (-53 : ℤ)) (2 ^ (-1075 : ℤ)) := by
  unfold ulpExp
  rcases le_total (Int.log 2 q - 52) (-1074) with h | h
  · rw [max_eq_right h]
    apply le_max_of_le_right
    have : (2 : ℚ) ^ (-1075 : ℤ) = 2 ^ (-1074 : ℤ) / 2 := by
      rw [show (-1075 : ℤ) = -1074 - 1 by norm_num, zpow_sub₀ (by norm_num)]; norm_num
    rw [this]
  · rw [max_eq_left h]
    apply le_max_of_le_left
    have h1 := zpow_log_le hq
    have : (2 : ℚ) ^ (Int.log 2 q - 52) / 2 = 2 ^ Int.log 2 q * 2 ^ (-53 : ℤ) := by
      rw [← zpow_add₀ (by norm_num), show Int.log 2 q + -53 = Int.log 2 q - 52 - 1 by ring,
        zpow_sub₀ (by norm_num) _ 1]; norm_num
    rw [this]
    exact mul_le_mul_of_nonneg_right h1 (two_zpow_pos _).le

/-- Absolute error bound for every magnitude. -/
theorem roundMag_err {q : ℚ} (hq : 0 ≤ q) :
    |roundMag q - q| ≤ max (q * 2 ^ (-53 : ℤ)) (2 ^ (-1075 : ℤ)) := by
  rcases eq_or_lt_of_le hq with h | h
  · subst h; simp [roundMag_zero]
  · exact (roundMag_err_ulp h).trans (ulp_le h)

/-- Relative error bound in the normal range. -/
theorem roundMag_relErr {q : ℚ} (hq : 2 ^ (-1022 : ℤ) ≤ q) :
    |roundMag q - q| ≤ q * 2 ^ (-53 : ℤ) := by
  have hpos : 0 < q := lt_of_lt_of_le (two_zpow_pos _) hq
  have h := roundMag_err hpos.le
  have hm : (2 : ℚ) ^ (-1075 : ℤ) ≤ q * 2 ^ (-53 : ℤ) := by
    have : (2 : ℚ) ^ (-1075 : ℤ) = 2 ^ (-1022 : ℤ) * 2 ^ (-53 : ℤ) := by
      rw [← zpow_add₀ (by norm_num)]; norm_num
    rw [this]
    exact mul_le_mul_of_nonneg_right hq (two_zpow_pos _).le
  rwa [max_eq_left hm] at h

theorem roundMag_nonneg {q : ℚ} (hq : 0 ≤ q) : 0 ≤ roundMag q := by
  unfold roundMag
  split_ifs
  · exact le_rfl
  · have h0 : (0 : ℤ) = roundHalfEven ((0 : ℤ) : ℚ) := (roundHalfEven_int 0).symm
    have hp := two_zpow_pos (ulpExp q)
    have : (0 : ℤ) ≤ roundHalfEven (q / 2 ^ ulpExp q) := by
      rw [h0]; apply roundHalfEven_mono; push_cast; positivity
    have : (0 : ℚ) ≤ (roundHalfEven (q / 2 ^ ulpExp q) : ℚ) := by exact_mod_cast this
    positivity

/-- A magnitude that is a multiple of its unit in the last place is representable. -/
theorem roundMag_of_mul {q : ℚ} (n : ℤ) (h : q = n * 2 ^ ulpExp q) : roundMag q = q := by
  unfold roundMag
  split_ifs with h0
  · exact h0.symm
  · have hp := two_zpow_pos (ulpExp q)
    have : q / 2 ^ ulpExp q = n := by rw [div_eq_iff hp.ne']; exact h
    rw [this, roundHalfEven_int]; exact h.symm

/-- Natural numbers below 2^53 are representable. -/
theorem roundMag_nat {n : ℕ} (h : n < 2 ^ 53) : roundMag (n : ℚ) = n := by
  rcases Nat.eq_zero_or_pos n with h0 | h0
  · subst h0; simp [roundMag_zero]
  have hq : (0 : ℚ) < n := by exact_mod_cast h0
  have hlog : Int.log 2 (n : ℚ) < 53 := by
    have h1 := zpow_log_le hq
    have h2 : (n : ℚ) < 2 ^ (53 : ℤ) := by exact_mod_cast h
    exact (zpow_lt_zpow_iff_right₀ (by norm_num : (1 : ℚ) < 2)).mp (lt_of_le_of_lt h1 h2)
  have hu : ulpExp (n : ℚ) ≤ 0 := by unfold ulpExp; omega
  obtain ⟨k, hk⟩ : ∃ k : ℕ, ulpExp (n : ℚ) = -(k : ℤ) := ⟨(-(ulpExp (n : ℚ))).toNat, by omega⟩
  apply roundMag_of_mul ((n : ℤ) * 2 ^ k)
  rw [hk]; push_cast
  rw [zpow_neg, zpow_natCast]; field_simp

/-- Values of `roundMag` stay within the binade. -/
theorem roundMag_le_zpow {q : ℚ} (hq : 0 < q) {e : ℤ} (he : -1074 ≤ e) (h : q ≤ 2 ^ e) :
    roundMag q ≤ 2 ^ e := by
  unfold roundMag
  rw [if_neg hq.ne']
  have hlog : Int.log 2 q ≤ e := by
    have h1 := zpow_log_le hq
    exact (zpow_le_zpow_iff_right₀ (by norm_num : (1 : ℚ) < 2)).mp (h1.trans h)
  have hu : ulpExp q ≤ e := by unfold ulpExp; omega
  obtain ⟨k, hk⟩ : ∃ k : ℕ, e = ulpExp q + k := ⟨(e - ulpExp q).toNat, by omega⟩
  have hp := two_zpow_pos (ulpExp q)
  have hle : q / 2 ^ ulpExp q ≤ ((2 ^ k : ℤ) : ℚ) := by
    rw [div_le_iff₀ hp]; push_cast
    rw [← zpow_natCast, ← zpow_add₀ (by norm_num), add_comm, ← hk]; exact h
  have := roundHalfEven_mono hle
  rw [roundHalfEven_int] at this
  have h3 : (roundHalfEven (q / 2 ^ ulpExp q) : ℚ) ≤ 2 ^ k := by exact_mod_cast this
  calc (roundHalfEven (q / 2 ^ ulpExp q) : ℚ) * 2 ^ ulpExp q ≤ 2 ^ k * 2 ^ ulpExp q :=
        mul_le_mul_of_nonneg_right h3 hp.le
    _ = 2 ^ e := by rw [← zpow_natCast, ← zpow_add₀ (by norm_num), add_comm, ← hk]

theorem zpow_log_le_roundMag {q : ℚ} (hq : 0 < q) (h : -1074 ≤ Int.log 2 q) :
    (2 : ℚ) ^ Int.log 2 q ≤ roundMag q := by
  unfold roundMag
  rw [if_neg hq.ne']
  have hu : ulpExp q ≤ Int.log 2 q := by unfold ulpExp; omega
  obtain ⟨k, hk⟩ : ∃ k : ℕ, Int.log 2 q = ulpExp q + k := ⟨(Int.log 2 q - ulpExp q).toNat, by omega⟩
  have hp := two_zpow_pos (ulpExp q)
  have hle : ((2 ^ k : ℤ) : ℚ) ≤ q / 2 ^ ulpExp q := by
    rw [le_div_iff₀ hp]; push_cast
    rw [← zpow_natCast, ← zpow_add₀ (by norm_num), add_comm, ← hk]; exact zpow_log_le hq
  have := roundHalfEven_mono hle
  rw [roundHalfEven_int] at this
  have h3 : (2 : ℚ) ^ k ≤ (roundHalfEven (q / 2 ^ ulpExp q) : ℚ) := by exact_mod_cast this
  calc (2 : ℚ) ^ Int.log 2 q = 2 ^ k * 2 ^ ulpExp q := by
        rw [← zpow_natCast, ← zpow_add₀ (by norm_num), add_comm, ← hk]
    _ ≤ _ := mul_le_mul_of_nonneg_right h3 hp.le

/-- Rounding is monotone. -/
theorem roundMag_mono {p q : ℚ} (hp : 0 ≤ p) (h : p ≤ q) : roundMag p ≤ roundMag q := by
  rcases eq_or_lt_of_le hp with h0 | hp
  · rw [← h0, roundMag_zero]; exact roundMag_nonneg (hp.trans h)
  have hq : 0 < q := lt_of_lt_of_le hp h
  have hlog : Int.log 2 p ≤ Int.log 2 q := Int.log_mono_right hp h
  by_cases hu : ulpExp p = ulpExp q
  · unfold roundMag
    rw [if_neg hp.ne', if_neg hq.ne', hu]
    have hpos := two_zpow_pos (ulpExp q)
    have : roundHalfEven (p / 2 ^ ulpExp q) ≤ roundHalfEven (q / 2 ^ ulpExp q) :=
      roundHalfEven_mono (div_le_div_of_nonneg_right h hpos.le)
    exact mul_le_mul_of_nonneg_right (by exact_mod_cast this) hpos.le
  · have hlt : Int.log 2 p + 1 ≤ Int.log 2 q ∧ -1074 ≤ Int.log 2 q - 53 := by
      unfold ulpExp at hu; omega
    have h1 : p ≤ (2 : ℚ) ^ Int.log 2 q :=
      (lt_zpow_log p).le.trans (zpow_le_zpow_right₀ (by norm_num) hlt.1)
    exact (roundMag_le_zpow hp (by omega) h1).trans (zpow_log_le_roundMag hq (by omega))

end Osmio
