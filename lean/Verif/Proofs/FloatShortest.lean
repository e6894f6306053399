import Verif.Spec.Shortest
import Verif.Proofs.FloatDisplay
import Verif.Proofs.Ieee
/-! # Lemmas: the printed decimal is the shortest, and of the shortest ones the nearest -/

namespace Osmio
open Spec

/-- Decimals of `k` digits do not lie between the two that are tried. -/
theorem digits_grid {m q : ℚ} {k : ℕ} (h0 : 0 < m) (hk : 1 ≤ k) (hq : Digits k q) :
    let t : ℤ := Int.log 10 m - k + 1
    let lo : ℕ := ⌊m / 10 ^ t⌋.toNat
    (q ≤ m → q ≤ lo * 10 ^ t) ∧ (m < q → ((lo + 1 : ℕ) : ℚ) * 10 ^ t ≤ q) := by
  intro t lo
  have htp := ten_zpow_pos t
  have hfl : (0 : ℤ) ≤ ⌊m / 10 ^ t⌋ := Int.floor_nonneg.2 (by positivity)
  have hcast : ((lo : ℕ) : ℤ) = ⌊m / 10 ^ t⌋ := Int.toNat_of_nonneg hfl
  have hlog : (10 : ℚ) ^ Int.log 10 m = ((10 ^ (k - 1) : ℕ) : ℚ) * 10 ^ t := by
    push_cast
    rw [← zpow_natCast, ← zpow_add₀ (by norm_num)]
    congr 1
    have : ((k - 1 : ℕ) : ℤ) = k - 1 := by omega
    rw [this]; ring
  have hpow : ((10 ^ (k - 1) : ℕ) : ℤ) ≤ ⌊m / 10 ^ t⌋ := by
    rw [Int.le_floor, le_div_iff₀ htp]
    have := ten_log_le h0
    rw [hlog] at this
    exact_mod_cast this
  obtain ⟨d, s, hd, rfl⟩ := hq
  -- at least the power of ten below `m`: a multiple of the grid
  have mult : (10 : ℚ) ^ Int.log 10 m ≤ d * 10 ^ s → ∃ n : ℕ, (d : ℚ) * 10 ^ s = n * 10 ^ t := by
    intro h
    have hlt : (10 : ℚ) ^ Int.log 10 m < 10 ^ ((k : ℤ) + s) := by
      refine lt_of_le_of_lt h ?_
      rw [zpow_add₀ (by norm_num), zpow_natCast]
      exact mul_lt_mul_of_pos_right (by exact_mod_cast hd) (ten_zpow_pos s)
    have := (zpow_lt_zpow_iff_right₀ (by norm_num : (1 : ℚ) < 10)).1 hlt
    obtain ⟨j, hj⟩ : ∃ j : ℕ, s = j + t := ⟨(s - t).toNat, by omega⟩
    refine ⟨d * 10 ^ j, ?_⟩
    rw [hj, zpow_add₀ (by norm_num), zpow_natCast]
    push_cast; ring
  constructor
  · intro hle
    rcases lt_or_ge ((d : ℚ) * 10 ^ s) (10 ^ Int.log 10 m) with h | h
    · refine le_trans h.le ?_
      rw [hlog]
      refine mul_le_mul_of_nonneg_right ?_ htp.le
      rw [← hcast] at hpow
      exact_mod_cast hpow
    · obtain ⟨n, hn⟩ := mult h
      rw [hn] at hle ⊢
      refine mul_le_mul_of_nonneg_right ?_ htp.le
      have : ((n : ℕ) : ℤ) ≤ ⌊m / 10 ^ t⌋ := by
        rw [Int.le_floor, le_div_iff₀ htp]; exact_mod_cast hle
      rw [← hcast] at this
      exact_mod_cast this
  · intro hlt
    obtain ⟨n, hn⟩ := mult (le_trans (ten_log_le h0) hlt.le)
    rw [hn] at hlt ⊢
    refine mul_le_mul_of_nonneg_right ?_ htp.le
    have : ⌊m / 10 ^ t⌋ < (n : ℤ) := by
      rw [Int.floor_lt, div_lt_iff₀ htp]; exact_mod_cast hlt
    rw [← hcast] at this
    have h2 : lo + 1 ≤ n := by omega
    exact_mod_cast h2

/-- The two decimals around `m`. -/
theorem around {m : ℚ} (h0 : 0 < m) (k : ℕ) :
    let t : ℤ := Int.log 10 m - k + 1
    let lo : ℕ := ⌊m / 10 ^ t⌋.toNat
    (lo : ℚ) * 10 ^ t ≤ m ∧ m < ((lo + 1 : ℕ) : ℚ) * 10 ^ t := by
  intro t lo
  have htp := ten_zpow_pos t
  have hfl : (0 : ℤ) ≤ ⌊m / 10 ^ t⌋ := Int.floor_nonneg.2 (by positivity)
  have hcast : ((lo : ℕ) : ℤ) = ⌊m / 10 ^ t⌋ := Int.toNat_of_nonneg hfl
  have hc : (lo : ℚ) = (⌊m / 10 ^ t⌋ : ℚ) := by exact_mod_cast hcast
  constructor
  · rw [← le_div_iff₀ htp, hc]; exact Int.floor_le _
  · rw [← div_lt_iff₀ htp]; push_cast; rw [hc]; exact Int.lt_floor_add_one _

/-- If a decimal of `k` digits is read as `m`, so is one of the two that are tried, on the same side of `m` and no farther. -/
theorem tried {m q : ℚ} {k : ℕ} (h0 : 0 < m) (hm : roundMag m = m) (hk : 1 ≤ k) (hq : Digits k q) (hr : roundMag q = m) :
    let t : ℤ := Int.log 10 m - k + 1
    let lo : ℕ := ⌊m / 10 ^ t⌋.toNat
    (q ≤ lo * 10 ^ t ∧ roundMag (lo * 10 ^ t) = m) ∨
      (((lo + 1 : ℕ) : ℚ) * 10 ^ t ≤ q ∧ roundMag (((lo + 1 : ℕ) : ℚ) * 10 ^ t) = m) := by
  intro t lo
  have hqn : 0 ≤ q := by
    obtain ⟨d, s, _, rfl⟩ := hq
    exact mul_nonneg (Nat.cast_nonneg _) (ten_zpow_pos s).le
  obtain ⟨g1, g2⟩ := digits_grid h0 hk hq
  obtain ⟨a1, a2⟩ := around h0 k
  rcases le_or_gt q m with h | h
  · left
    have g := g1 h
    refine ⟨g, le_antisymm ?_ ?_⟩
    · have := roundMag_mono (le_trans hqn g) a1; rwa [hm] at this
    · have := roundMag_mono hqn g; rwa [hr] at this
  · right
    have g := g2 h
    refine ⟨g, le_antisymm ?_ ?_⟩
    · have := roundMag_mono (le_trans h0.le a2.le) g; rwa [hr] at this
    · have := roundMag_mono h0.le a2.le; rwa [hm] at this

theorem shortestAt_none {m q : ℚ} {k : ℕ} (h0 : 0 < m) (hm : roundMag m = m) (hk : 1 ≤ k) (h : shortestAt m k = none)
    (hq : Digits k q) : roundMag q ≠ m := by
  intro hr
  unfold shortestAt at h
  simp only at h
  rcases tried h0 hm hk hq hr with ⟨_, h1⟩ | ⟨_, h1⟩
  · simp only [h1, decide_true] at h
    split at h
    · split at h <;> cases h
    · cases h
    · rename_i h2 _; cases h2
    · rename_i h2 _; cases h2
  · simp only [h1, decide_true] at h
    split at h
    · split at h <;> cases h
    · rename_i _ h2; cases h2
    · cases h
    · rename_i _ h2; cases h2

theorem shortestAt_nearest {m q : ℚ} {k d : ℕ} {t : ℤ} (h0 : 0 < m) (hm : roundMag m = m) (hk : 1 ≤ k)
    (h : shortestAt m k = some (d, t)) (hq : Digits k q) (hr : roundMag q = m) : |(d : ℚ) * 10 ^ t - m| ≤ |q - m| := by
  obtain ⟨a1, a2⟩ := around h0 k
  have c := tried h0 hm hk hq hr
  unfold shortestAt at h
  simp only at h c a1 a2
  set t' : ℤ := Int.log 10 m - k + 1 with ht
  set lo := ⌊m / 10 ^ t'⌋.toNat with hlo
  have htp := ten_zpow_pos t'
  have e : m / 10 ^ t' * 10 ^ t' = m := by field_simp
  have near : (q ≤ lo * 10 ^ t' → |(lo : ℚ) * 10 ^ t' - m| ≤ |q - m|) ∧
      (((lo + 1 : ℕ) : ℚ) * 10 ^ t' ≤ q → |((lo + 1 : ℕ) : ℚ) * 10 ^ t' - m| ≤ |q - m|) := by
    constructor
    · intro h1
      rw [abs_of_nonpos (by linarith), abs_of_nonpos (by linarith)]; linarith
    · intro h1
      rw [abs_of_nonneg (by linarith), abs_of_nonneg (by linarith)]; linarith
  split at h
  · split at h
    · rename_i hc
      simp only [Option.some.injEq, Prod.mk.injEq] at h; rw [← h.1, ← h.2]
      rcases c with ⟨c1, _⟩ | ⟨c1, _⟩
      · exact near.1 c1
      · refine le_trans ?_ (near.2 c1)
        rw [abs_of_nonpos (by linarith), abs_of_nonneg (by linarith)]
        push_cast
        have := mul_le_mul_of_nonneg_right hc.le htp.le
        rw [sub_mul, e] at this
        linarith
    · rename_i hc
      simp only [Option.some.injEq, Prod.mk.injEq] at h; rw [← h.1, ← h.2]
      rcases c with ⟨c1, _⟩ | ⟨c1, _⟩
      · refine le_trans ?_ (near.1 c1)
        rw [abs_of_nonpos (show (lo : ℚ) * 10 ^ t' - m ≤ 0 by linarith), abs_of_nonneg (by linarith)]
        push_cast
        have := mul_le_mul_of_nonneg_right (not_lt.1 hc) htp.le
        rw [sub_mul, e] at this
        linarith
      · exact near.2 c1
  · rename_i h1 h2
    simp only [Option.some.injEq, Prod.mk.injEq] at h; rw [← h.1, ← h.2]
    rcases c with ⟨c1, _⟩ | ⟨_, c2⟩
    · exact near.1 c1
    · exact absurd c2 (of_decide_eq_false h2)
  · rename_i h1 h2
    simp only [Option.some.injEq, Prod.mk.injEq] at h; rw [← h.1, ← h.2]
    rcases c with ⟨_, c2⟩ | ⟨c1, _⟩
    · exact absurd c2 (of_decide_eq_false h1)
    · exact near.2 c1
  · cases h

theorem shortestAt_digits {m : ℚ} {k d : ℕ} {t : ℤ} (hk : 1 ≤ k) (h : shortestAt m k = some (d, t)) :
    Digits k ((d : ℚ) * 10 ^ t) := by
  have ht := (shortestAt_spec h).1
  have hlt : ⌊m / 10 ^ t⌋.toNat < 10 ^ k := by
    have htp := ten_zpow_pos t
    have : ⌊m / 10 ^ t⌋ < ((10 ^ k : ℕ) : ℤ) := by
      rw [Int.floor_lt, div_lt_iff₀ htp]
      refine lt_of_lt_of_le (lt_ten_log m) (le_of_eq ?_)
      push_cast
      rw [← zpow_natCast, ← zpow_add₀ (by norm_num)]
      congr 1
      rw [ht]; ring
    have h10 : 0 < 10 ^ k := Nat.pow_pos (by norm_num)
    omega
  have hd : d ≤ ⌊m / 10 ^ t⌋.toNat + 1 := by
    rw [ht]
    unfold shortestAt at h
    simp only at h
    split at h
    · split at h <;> (cases h; simp)
    · cases h; simp
    · cases h; simp
    · cases h
  rcases Nat.lt_or_ge d (10 ^ k) with hlt' | hge
  · exact ⟨d, t, hlt', rfl⟩
  · have : d = 10 ^ k := by omega
    refine ⟨1, t + k, Nat.one_lt_pow (by omega) (by norm_num), ?_⟩
    rw [this, zpow_add₀ (by norm_num), zpow_natCast]
    push_cast; ring

/-- The first success of the search is at the least number. -/
theorem findSome_first {α : Type} {f : ℕ → Option α} {b : α} (h : (List.range' 1 17).findSome? f = some b) :
    ∃ k, 1 ≤ k ∧ k ≤ 17 ∧ f k = some b ∧ ∀ j, 1 ≤ j → j < k → f j = none := by
  obtain ⟨l₁, a, l₂, hl, ha, hl₁⟩ := List.findSome?_eq_some_iff.mp h
  have hmem : a ∈ List.range' 1 17 := by rw [hl]; simp
  rw [List.mem_range'_1] at hmem
  refine ⟨a, hmem.1, by omega, ha, fun j h1 h2 => hl₁ j ?_⟩
  have hj : j ∈ l₁ ++ a :: l₂ := by rw [← hl, List.mem_range'_1]; omega
  have hsorted : (l₁ ++ a :: l₂).Pairwise (· < ·) := by rw [← hl]; exact List.pairwise_lt_range'
  rw [List.pairwise_append] at hsorted
  rcases List.mem_append.1 hj with h | h
  · exact h
  · rcases List.mem_cons.1 h with h | h
    · omega
    · have := (List.pairwise_cons.mp hsorted.2.1).1 j h; omega

theorem digits_mono {j k : ℕ} (h : j ≤ k) {q : ℚ} (hq : Digits j q) : Digits k q := by
  obtain ⟨d, t, h1, h2⟩ := hq
  exact ⟨d, t, lt_of_lt_of_le h1 (Nat.pow_le_pow_right (by norm_num) h), h2⟩

theorem shortest_shortestFor {m : ℚ} {d : ℕ} {t : ℤ} (h0 : 0 < m) (hm : roundMag m = m) (h : shortest m = some (d, t)) :
    ShortestFor m ((d : ℚ) * 10 ^ t) := by
  obtain ⟨k, h1, h2, h3, h4⟩ := findSome_first h
  have hnn : (0 : ℚ) ≤ (d : ℚ) * 10 ^ t := mul_nonneg (Nat.cast_nonneg _) (ten_zpow_pos t).le
  have dn : ∀ {j : ℕ} {q : ℚ}, Digits j q → 0 ≤ q := by
    rintro j q ⟨d, s, _, rfl⟩
    exact mul_nonneg (Nat.cast_nonneg _) (ten_zpow_pos s).le
  refine ⟨?_, k, shortestAt_digits h1 h3, ?_, ?_⟩
  · have := roundMag_roundsTo hnn
    rwa [(shortestAt_spec h3).2] at this
  · intro j q' hj hr
    have hq := dn hj
    by_contra hlt
    have hr' := roundsTo_roundMag hq hr
    rcases Nat.eq_zero_or_pos j with hj0 | hj0
    · subst hj0
      obtain ⟨d', s, hd, rfl⟩ := hj
      have : d' = 0 := by simpa using hd
      subst this
      rw [Nat.cast_zero, zero_mul, roundMag_zero] at hr'
      linarith
    · exact shortestAt_none h0 hm hj0 (h4 j hj0 (by omega)) hj hr'.symm
  · intro q' hq hr
    exact shortestAt_nearest h0 hm h1 h3 hq (roundsTo_roundMag (dn hq) hr).symm

end Osmio
