import Verif.Spec.Ieee
import Verif.Proofs.Float64
/-! # Proofs: the rounding of the `f64` model is the one of IEEE 754 -/

namespace Osmio
open Spec

theorem roundHalfEven_nearest (x : ℚ) (k : ℤ) : |(roundHalfEven x : ℚ) - x| ≤ |(k : ℚ) - x| ∧
    (k ≠ roundHalfEven x → |(k : ℚ) - x| = |(roundHalfEven x : ℚ) - x| → roundHalfEven x % 2 = 0) := by
  have h1 := Int.floor_le x
  have h2 := Int.lt_floor_add_one x
  have hk : k ≤ ⌊x⌋ ∨ ⌊x⌋ + 1 ≤ k := by omega
  have lower : k ≤ ⌊x⌋ → |(k : ℚ) - x| = x - k ∧ x - ⌊x⌋ ≤ x - k := by
    intro h
    have h : (k : ℚ) ≤ ⌊x⌋ := by exact_mod_cast h
    refine ⟨?_, by linarith⟩
    rw [abs_of_nonpos (by linarith)]; ring
  have upper : ⌊x⌋ + 1 ≤ k → |(k : ℚ) - x| = k - x ∧ ⌊x⌋ + 1 - x ≤ k - x := by
    intro h
    have h : (⌊x⌋ : ℚ) + 1 ≤ k := by exact_mod_cast h
    exact ⟨abs_of_nonneg (by linarith), by linarith⟩
  have e1 : |((⌊x⌋ : ℤ) : ℚ) - x| = x - ⌊x⌋ := by rw [abs_of_nonpos (by linarith)]; ring
  have e2 : |((⌊x⌋ + 1 : ℤ) : ℚ) - x| = ⌊x⌋ + 1 - x := by push_cast; exact abs_of_nonneg (by linarith)
  unfold roundHalfEven
  simp only
  split_ifs with c1 c2 c3
  · rw [e1]
    rcases hk with h | h
    · obtain ⟨a, b⟩ := lower h
      rw [a]
      refine ⟨b, fun hne he => ?_⟩
      exact absurd (by exact_mod_cast (by linarith : (k : ℚ) = ⌊x⌋)) hne
    · obtain ⟨a, b⟩ := upper h
      rw [a]
      exact ⟨by linarith, fun hne he => by exfalso; linarith⟩
  · rw [e2]
    rcases hk with h | h
    · obtain ⟨a, b⟩ := lower h
      rw [a]
      exact ⟨by linarith, fun hne he => by exfalso; linarith⟩
    · obtain ⟨a, b⟩ := upper h
      rw [a]
      refine ⟨b, fun hne he => ?_⟩
      exact absurd (by exact_mod_cast (by linarith : (k : ℚ) = ⌊x⌋ + 1)) hne
  · rw [e1]
    rcases hk with h | h
    · obtain ⟨a, b⟩ := lower h
      rw [a]
      exact ⟨b, fun _ _ => c3⟩
    · obtain ⟨a, b⟩ := upper h
      rw [a]
      exact ⟨by linarith, fun _ _ => c3⟩
  · rw [e2]
    rcases hk with h | h
    · obtain ⟨a, b⟩ := lower h
      rw [a]
      exact ⟨by linarith, fun _ _ => by omega⟩
    · obtain ⟨a, b⟩ := upper h
      rw [a]
      exact ⟨b, fun _ _ => by omega⟩

theorem binary64_neg {r : ℚ} {m e : ℤ} (h : Binary64 r m e) : Binary64 (-r) (-m) e := by
  obtain ⟨h1, h2, h3, h4⟩ := h
  refine ⟨by rw [h1]; push_cast; ring, by rwa [abs_neg], h3, by rwa [abs_neg]⟩

theorem roundsTo_neg {q r : ℚ} (h : RoundsTo q r) : RoundsTo (-q) (-r) := by
  have key : ∀ a : ℚ, |-a - -q| = |a - q| := fun a => by rw [← abs_neg]; congr 1; ring
  have key' : ∀ a : ℚ, |a - -q| = |-a - q| := fun a => by rw [← abs_neg]; congr 1; ring
  obtain ⟨⟨m, e, hm⟩, h2, h3⟩ := h
  refine ⟨⟨_, _, binary64_neg hm⟩, fun r' ⟨m', e', hr⟩ => ?_, fun r' ⟨m', e', hr⟩ hne he => ?_⟩
  · rw [key, key']
    exact h2 _ ⟨_, _, binary64_neg hr⟩
  · rw [key, key'] at he
    obtain ⟨m1, e1, h⟩ := h3 _ ⟨_, _, binary64_neg hr⟩ (fun h => hne (by rw [← h, neg_neg])) he
    refine ⟨-m1, e1, ?_⟩
    rw [mul_neg]
    exact binary64_neg h

/-- The unit of a positive number. -/
theorem ulp_facts {q : ℚ} (hq : 0 < q) : q / 2 ^ ulpExp q < 2 ^ 53 ∧ -1074 ≤ ulpExp q ∧
    (ulpExp q ≠ -1074 → 2 ^ 52 ≤ q / 2 ^ ulpExp q) := by
  have hp := two_zpow_pos (ulpExp q)
  have h1 := lt_zpow_log q
  have h2 := zpow_log_le hq
  refine ⟨?_, le_max_right _ _, fun hne => ?_⟩
  · rw [div_lt_iff₀ hp]
    refine lt_of_lt_of_le h1 ?_
    rw [← zpow_natCast, ← zpow_add₀ (by norm_num : (2 : ℚ) ≠ 0)]
    apply zpow_le_zpow_right₀ (by norm_num)
    unfold ulpExp
    push_cast
    omega
  · rw [le_div_iff₀ hp]
    refine le_trans ?_ h2
    rw [← zpow_natCast, ← zpow_add₀ (by norm_num : (2 : ℚ) ≠ 0)]
    apply zpow_le_zpow_right₀ (by norm_num)
    unfold ulpExp at hne ⊢
    push_cast
    omega

/-- A number of the format is a whole number of units of `q`, or well below `q`. -/
theorem binary64_units {q : ℚ} (hq : 0 < q) {r : ℚ} {m e : ℤ} (h : Binary64 r m e) :
    (∃ k : ℤ, r = k * 2 ^ ulpExp q ∧ (ulpExp q ≤ e) ∧ (m % 2 = 0 → k % 2 = 0)) ∨
      (|r| < 2 ^ 52 * 2 ^ ulpExp q ∧ 2 ^ 52 * 2 ^ ulpExp q ≤ q) := by
  obtain ⟨h1, h2, h3, h4⟩ := h
  rcases le_or_gt (ulpExp q) e with hle | hlt
  · left
    obtain ⟨d, hd⟩ := Int.eq_ofNat_of_zero_le (sub_nonneg.2 hle)
    have he : e = ulpExp q + d := by omega
    refine ⟨m * 2 ^ d, ?_, hle, fun hm => ?_⟩
    · rw [h1, he, zpow_add₀ (by norm_num : (2 : ℚ) ≠ 0), zpow_natCast]
      push_cast
      ring
    · rw [Int.mul_emod, hm]; simp
  · right
    have hne : ulpExp q ≠ -1074 := by omega
    obtain ⟨_, _, h52⟩ := ulp_facts hq
    have hp := two_zpow_pos (ulpExp q)
    have h52 := h52 hne
    rw [le_div_iff₀ hp] at h52
    refine ⟨?_, h52⟩
    have hpe := two_zpow_pos e
    rw [h1, abs_mul, abs_of_pos hpe]
    have hm : |(m : ℚ)| < 2 ^ 53 := by
      have : ((|m| : ℤ) : ℚ) < ((2 ^ 53 : ℤ) : ℚ) := by exact_mod_cast h2
      push_cast at this
      exact this
    calc |(m : ℚ)| * 2 ^ e < 2 ^ 53 * 2 ^ e := by nlinarith
      _ = 2 ^ 52 * 2 ^ (e + 1) := by rw [zpow_add₀ (by norm_num : (2 : ℚ) ≠ 0)]; ring
      _ ≤ 2 ^ 52 * 2 ^ ulpExp q := by
        apply mul_le_mul_of_nonneg_left _ (by positivity)
        exact zpow_le_zpow_right₀ (by norm_num) (by omega)

theorem units_bounds {q : ℚ} (hq : 0 < q) : 0 ≤ roundHalfEven (q / 2 ^ ulpExp q) ∧ roundHalfEven (q / 2 ^ ulpExp q) ≤ 2 ^ 53 ∧
    (ulpExp q ≠ -1074 → 2 ^ 52 ≤ roundHalfEven (q / 2 ^ ulpExp q)) := by
  obtain ⟨h1, _, h3⟩ := ulp_facts hq
  have hp := two_zpow_pos (ulpExp q)
  refine ⟨?_, ?_, fun h => ?_⟩
  · have h := roundHalfEven_int 0
    rw [← h]; apply roundHalfEven_mono; push_cast; positivity
  · have h := roundHalfEven_int (2 ^ 53)
    rw [← h]; apply roundHalfEven_mono; push_cast; exact h1.le
  · have h' := roundHalfEven_int (2 ^ 52)
    rw [← h']; apply roundHalfEven_mono; push_cast; exact h3 h

/-- The result is a number of the format, with an even significand if it is an even number of units. -/
theorem binary64_rounded {q : ℚ} (hq : 0 < q) : IsBinary64 (roundMag q) ∧
    (roundHalfEven (q / 2 ^ ulpExp q) % 2 = 0 → ∃ m e, Binary64 (roundMag q) (2 * m) e) := by
  obtain ⟨b1, b2, b3⟩ := units_bounds hq
  have hu := (ulp_facts hq).2.1
  unfold roundMag
  rw [if_neg hq.ne']
  generalize roundHalfEven (q / 2 ^ ulpExp q) = n at *
  rcases lt_or_eq_of_le b2 with hlt | heq
  · have hb : Binary64 (n * 2 ^ ulpExp q) n (ulpExp q) := by
      refine ⟨rfl, by rwa [abs_of_nonneg b1], hu, ?_⟩
      by_cases h : ulpExp q = -1074
      · exact .inr h
      · left; rw [abs_of_nonneg b1]; exact b3 h
    refine ⟨⟨_, _, hb⟩, fun he => ⟨n / 2, ulpExp q, ?_⟩⟩
    have : 2 * (n / 2) = n := by omega
    rw [this]
    exact hb
  · have hb : Binary64 (n * 2 ^ ulpExp q) (2 * 2 ^ 51) (ulpExp q + 1) := by
      refine ⟨?_, by norm_num, by omega, .inl (by norm_num)⟩
      rw [heq, zpow_add₀ (by norm_num : (2 : ℚ) ≠ 0)]
      push_cast
      ring
    exact ⟨⟨_, _, hb⟩, fun _ => ⟨_, _, hb⟩⟩

theorem roundMag_zero_roundsTo : RoundsTo 0 (roundMag 0) := by
  rw [roundMag_zero]
  refine ⟨⟨0, -1074, by simp, by norm_num, le_refl _, .inr rfl⟩, fun r' _ => by simp, fun r' _ hne he => ?_⟩
  simp at he
  exact absurd he hne

/-- How far a number of the format is from `q`. -/
theorem roundMag_dist {q : ℚ} (hq : 0 < q) {r' : ℚ} {m e : ℤ} (h : Binary64 r' m e) : |roundMag q - q| ≤ |r' - q| ∧
    (r' ≠ roundMag q → |r' - q| = |roundMag q - q| → roundHalfEven (q / 2 ^ ulpExp q) % 2 = 0 ∧
      ∃ k : ℤ, r' = k * 2 ^ ulpExp q ∧ (m % 2 = 0 → k % 2 = 0)) := by
  have hp := two_zpow_pos (ulpExp q)
  have hr : roundMag q = (roundHalfEven (q / 2 ^ ulpExp q) : ℚ) * 2 ^ ulpExp q := by unfold roundMag; rw [if_neg hq.ne']
  have scale : ∀ k : ℚ, |k * 2 ^ ulpExp q - q| = |k - q / 2 ^ ulpExp q| * 2 ^ ulpExp q := by
    intro k
    have : k * 2 ^ ulpExp q - q = (k - q / 2 ^ ulpExp q) * 2 ^ ulpExp q := by field_simp
    rw [this, abs_mul, abs_of_pos hp]
  rcases binary64_units hq h with ⟨k, hk, _, hpar⟩ | ⟨hlt, hle⟩
  · obtain ⟨n1, n2⟩ := roundHalfEven_nearest (q / 2 ^ ulpExp q) k
    rw [hr, hk, scale, scale]
    refine ⟨mul_le_mul_of_nonneg_right n1 hp.le, fun hne he => ⟨n2 ?_ (mul_right_cancel₀ hp.ne' he), k, rfl, hpar⟩⟩
    intro hkk
    exact hne (by rw [hkk])
  · have n1 := (roundHalfEven_nearest (q / 2 ^ ulpExp q) (2 ^ 52)).1
    have n2 : |roundMag q - q| ≤ q - 2 ^ 52 * 2 ^ ulpExp q := by
      have := mul_le_mul_of_nonneg_right n1 hp.le
      rw [← scale, ← scale, ← hr] at this
      refine this.trans (le_of_eq ?_)
      push_cast
      rw [abs_of_nonpos (by linarith)]
      ring
    have n3 : q - 2 ^ 52 * 2 ^ ulpExp q < |r' - q| := by
      have := le_abs_self r'
      have h5 := neg_abs_le (r' - q)
      linarith
    exact ⟨by linarith, fun _ he => absurd he (by linarith : |roundMag q - q| < |r' - q|).ne'⟩

/-- The rounding of the model is the rounding of IEEE 754. -/
theorem roundMag_roundsTo {q : ℚ} (hq : 0 ≤ q) : RoundsTo q (roundMag q) := by
  rcases hq.lt_or_eq with hq | rfl
  · obtain ⟨h1, h2⟩ := binary64_rounded hq
    exact ⟨h1, fun r' ⟨m, e, hr⟩ => (roundMag_dist hq hr).1, fun r' ⟨m, e, hr⟩ hne he => h2 ((roundMag_dist hq hr).2 hne he).1⟩
  · exact roundMag_zero_roundsTo

theorem roundsTo_roundMag {q r : ℚ} (hq : 0 ≤ q) (h : RoundsTo q r) : r = roundMag q := by
  by_contra hne
  rcases hq.lt_or_eq with hq | rfl
  · have h0 := roundMag_roundsTo hq.le
    have hd : |r - q| = |roundMag q - q| := le_antisymm (h.nearest _ h0.is) (h0.nearest _ h.is)
    obtain ⟨m, e, hm⟩ := h.even _ h0.is (fun h => hne h.symm) hd.symm
    obtain ⟨_, h2⟩ := roundMag_dist hq hm
    obtain ⟨e1, k, hk, hpar⟩ := h2 hne hd
    have e2 := hpar (by omega)
    have hp := two_zpow_pos (ulpExp q)
    have hr : roundMag q = (roundHalfEven (q / 2 ^ ulpExp q) : ℚ) * 2 ^ ulpExp q := by unfold roundMag; rw [if_neg hq.ne']
    have scale : ∀ k : ℚ, |k * 2 ^ ulpExp q - q| = |k - q / 2 ^ ulpExp q| * 2 ^ ulpExp q := by
      intro k
      have : k * 2 ^ ulpExp q - q = (k - q / 2 ^ ulpExp q) * 2 ^ ulpExp q := by field_simp
      rw [this, abs_mul, abs_of_pos hp]
    have hd' := hd
    rw [hk, hr, scale, scale] at hd'
    have hd' := mul_right_cancel₀ hp.ne' hd'
    have hlast := roundHalfEven_err (q / 2 ^ ulpExp q)
    have hkn : k ≠ roundHalfEven (q / 2 ^ ulpExp q) := fun h' => hne (by rw [hk, hr, h'])
    rw [← hd'] at hlast
    have b1 := abs_le.1 hlast
    have b2 := abs_le.1 (roundHalfEven_err (q / 2 ^ ulpExp q))
    have c1 : (k : ℚ) ≤ roundHalfEven (q / 2 ^ ulpExp q) + 1 := by linarith [b1.2, b2.1]
    have c2 : (roundHalfEven (q / 2 ^ ulpExp q) : ℚ) ≤ k + 1 := by linarith [b1.1, b2.2]
    have c1 : k ≤ roundHalfEven (q / 2 ^ ulpExp q) + 1 := by exact_mod_cast c1
    have c2 : roundHalfEven (q / 2 ^ ulpExp q) ≤ k + 1 := by exact_mod_cast c2
    omega
  · have := h.nearest _ roundMag_zero_roundsTo.is
    rw [roundMag_zero] at this hne
    simp at this
    exact hne this

/-- Rounding is a function. -/
theorem Spec.RoundsTo.unique {q r r' : ℚ} (h : RoundsTo q r) (h' : RoundsTo q r') : r = r' := by
  rcases le_total 0 q with hq | hq
  · rw [roundsTo_roundMag hq h, roundsTo_roundMag hq h']
  · have a := roundsTo_roundMag (by linarith) (roundsTo_neg h)
    have b := roundsTo_roundMag (by linarith) (roundsTo_neg h')
    linarith

end Osmio
