import Verif.Proofs.CoordText
/-! # Proofs: every double is printed so that it is read back -/

namespace Osmio

/-- A number nearer than half a unit in the last place to a whole number of such units is rounded to that. -/
theorem roundMag_near_mul {q m : ℚ} (hq : 0 < q) {n : ℤ} (hm : m = n * 2 ^ ulpExp q) (h : |q - m| < 2 ^ ulpExp q / 2) : roundMag q = m := by
  have hp := two_zpow_pos (ulpExp q)
  have h1 : |q / 2 ^ ulpExp q - n| < 1 / 2 := by
    have : q / 2 ^ ulpExp q - n = (q - m) / 2 ^ ulpExp q := by
      rw [hm]; field_simp
    rw [this, abs_div, abs_of_pos hp, div_lt_iff₀ hp]
    linarith
  have h2 : roundHalfEven (q / 2 ^ ulpExp q) = n := by
    have h3 := roundHalfEven_err (q / 2 ^ ulpExp q)
    rw [abs_lt] at h1
    rw [abs_le] at h3
    have a : ((roundHalfEven (q / 2 ^ ulpExp q) : ℤ) : ℚ) < n + 1 := by linarith
    have b : ((n : ℤ) : ℚ) < roundHalfEven (q / 2 ^ ulpExp q) + 1 := by linarith
    have a' : roundHalfEven (q / 2 ^ ulpExp q) < n + 1 := by exact_mod_cast a
    have b' : n < roundHalfEven (q / 2 ^ ulpExp q) + 1 := by exact_mod_cast b
    omega
  unfold roundMag
  rw [if_neg hq.ne', h2, hm]

/-- A double is a whole number of units in its last place. -/
theorem double_mul {m : ℚ} (h0 : 0 < m) (h : roundMag m = m) : ∃ n : ℤ, 0 < n ∧ m = n * 2 ^ ulpExp m := by
  refine ⟨roundHalfEven (m / 2 ^ ulpExp m), ?_, ?_⟩
  · have : 0 < (roundHalfEven (m / 2 ^ ulpExp m) : ℚ) * 2 ^ ulpExp m := by
      unfold roundMag at h
      rw [if_neg h0.ne'] at h
      rw [h]; exact h0
    have := (mul_pos_iff_of_pos_right (two_zpow_pos _)).1 this
    exact_mod_cast this
  · conv_lhs => rw [← h]
    unfold roundMag
    rw [if_neg h0.ne']

theorem log_eq {q : ℚ} {e : ℤ} (h1 : (2 : ℚ) ^ e ≤ q) (h2 : q < 2 ^ (e + 1)) : Int.log 2 q = e := by
  have hq : 0 < q := lt_of_lt_of_le (two_zpow_pos e) h1
  have a := zpow_log_le hq
  have b := lt_zpow_log q
  have c : (2 : ℚ) ^ Int.log 2 q < 2 ^ (e + 1) := lt_of_le_of_lt a h2
  have d : (2 : ℚ) ^ e < 2 ^ (Int.log 2 q + 1) := lt_of_le_of_lt h1 b
  have c' := (zpow_lt_zpow_iff_right₀ (by norm_num : (1 : ℚ) < 2)).1 c
  have d' := (zpow_lt_zpow_iff_right₀ (by norm_num : (1 : ℚ) < 2)).1 d
  omega

theorem zpow_mul_le {u e : ℤ} (h : u ≤ e) : ∃ k : ℕ, (2 : ℚ) ^ e = (2 ^ k : ℕ) * 2 ^ u := by
  refine ⟨(e - u).toNat, ?_⟩
  push_cast
  rw [← zpow_natCast, ← zpow_add₀ (by norm_num)]
  congr 1
  omega

/-- Numbers near a double are rounded to it. -/
theorem roundMag_near {m q : ℚ} (h0 : 0 < m) (hm : roundMag m = m) (h : |q - m| < m * 2 ^ (-54 : ℤ)) : roundMag q = m := by
  obtain ⟨n, hn, hmn⟩ := double_mul h0 hm
  have e1 := zpow_log_le h0
  have e2 := lt_zpow_log m
  set e := Int.log 2 m with he
  have hu : ulpExp m = max (e - 52) (-1074) := rfl
  have hup := two_zpow_pos (ulpExp m)
  have p54 : (2 : ℚ) ^ (-54 : ℤ) = 1 / 18014398509481984 := by norm_num
  have hb : |q - m| < 2 ^ (e - 53) := by
    refine lt_trans h ?_
    have : (2 : ℚ) ^ (e - 53) = 2 ^ (e + 1) * 2 ^ (-54 : ℤ) := by
      rw [← zpow_add₀ (by norm_num)]; congr 1; ring
    rw [this]
    exact mul_lt_mul_of_pos_right e2 (two_zpow_pos _)
  have hhalf : (2 : ℚ) ^ (e - 53) ≤ 2 ^ ulpExp m / 2 := by
    have : (2 : ℚ) ^ ulpExp m / 2 = 2 ^ (ulpExp m - 1) := by rw [zpow_sub_one₀ (by norm_num)]; rfl
    rw [this]
    exact zpow_le_zpow_right₀ (by norm_num) (by rw [hu]; omega)
  have hq0 : 0 < q := by
    rw [abs_lt] at h
    rw [p54] at h
    linarith
  -- the least a double is: its own last place
  have heu : ulpExp m ≤ e := by
    rw [hu]
    refine max_le (by omega) ?_
    by_contra hlt
    push Not at hlt
    have : ulpExp m = -1074 := by rw [hu]; omega
    have h1 : (2 : ℚ) ^ ulpExp m ≤ m := by
      have : (1 : ℚ) ≤ n := by exact_mod_cast hn
      calc (2 : ℚ) ^ ulpExp m = 1 * 2 ^ ulpExp m := by ring
        _ ≤ n * 2 ^ ulpExp m := mul_le_mul_of_nonneg_right this hup.le
        _ = m := hmn.symm
    have h2 : (2 : ℚ) ^ ulpExp m < 2 ^ (e + 1) := lt_of_le_of_lt h1 e2
    have := (zpow_lt_zpow_iff_right₀ (by norm_num : (1 : ℚ) < 2)).1 h2
    omega
  -- not up to the next power of two
  have hhi : q < 2 ^ (e + 1) := by
    obtain ⟨k, hk⟩ := zpow_mul_le (u := ulpExp m) (e := e + 1) (by omega)
    have h1 : n < (2 ^ k : ℕ) := by
      rw [hmn, hk] at e2
      exact_mod_cast lt_of_mul_lt_mul_right e2 hup.le
    have h2 : m + 2 ^ ulpExp m ≤ 2 ^ (e + 1) := by
      rw [hk]
      have : (n : ℚ) + 1 ≤ ((2 ^ k : ℕ) : ℚ) := by exact_mod_cast h1
      have := mul_le_mul_of_nonneg_right this hup.le
      rw [add_mul, one_mul, ← hmn] at this
      exact this
    rw [abs_lt] at hb
    linarith
  by_cases hlo : (2 : ℚ) ^ e ≤ q
  · have hl : ulpExp q = ulpExp m := by
      unfold ulpExp
      rw [log_eq hlo hhi]
    exact roundMag_near_mul hq0 (n := n) (by rw [hl]; exact hmn) (by rw [hl]; exact lt_of_lt_of_le hb hhalf)
  · push Not at hlo
    have hme : m = 2 ^ e := by
      by_contra hne
      obtain ⟨k, hk⟩ := zpow_mul_le heu
      have hlt : (2 : ℚ) ^ e < m := lt_of_le_of_ne e1 (Ne.symm hne)
      have h1 : ((2 ^ k : ℕ) : ℤ) < n := by
        rw [hmn, hk] at hlt
        exact_mod_cast lt_of_mul_lt_mul_right hlt hup.le
      have h2 : (2 : ℚ) ^ e + 2 ^ ulpExp m ≤ m := by
        rw [hk]
        have : ((2 ^ k : ℕ) : ℚ) + 1 ≤ n := by exact_mod_cast h1
        have := mul_le_mul_of_nonneg_right this hup.le
        rw [add_mul, one_mul, ← hmn] at this
        exact this
      rw [abs_lt] at hb
      linarith
    have hlo' : (2 : ℚ) ^ (e - 1) ≤ q := by
      rw [abs_lt] at h
      rw [hme] at h
      have : (2 : ℚ) ^ e = 2 ^ (e - 1) * 2 := by rw [← zpow_add_one₀ (by norm_num)]; congr 1; ring
      rw [p54] at h
      have hp := two_zpow_pos (e - 1)
      rw [this] at h
      linarith
    have hl : ulpExp q = max (e - 1 - 52) (-1074) := by
      unfold ulpExp
      rw [log_eq hlo' (by rw [sub_add_cancel]; exact hlo)]
    obtain ⟨k, hk⟩ := zpow_mul_le (u := ulpExp q) (e := e) (by rw [hl]; omega)
    refine roundMag_near_mul hq0 (n := (2 ^ k : ℕ)) (by rw [hme, hk]; push_cast; rfl) ?_
    refine lt_of_lt_of_le h ?_
    rw [hme, ← zpow_add₀ (by norm_num)]
    have : (2 : ℚ) ^ ulpExp q / 2 = 2 ^ (ulpExp q - 1) := by rw [zpow_sub_one₀ (by norm_num)]; rfl
    rw [this]
    exact zpow_le_zpow_right₀ (by norm_num) (by rw [hl]; omega)

/-- Seventeen digits are enough. -/
theorem shortest_double {m : ℚ} (h0 : 0 < m) (hm : roundMag m = m) :
    ∃ d t, shortest m = some (d, t) ∧ roundMag ((d : ℚ) * 10 ^ t) = m := by
  set t : ℤ := Int.log 10 m - (17 : ℕ) + 1 with ht
  have htp := ten_zpow_pos t
  have hbig : (10 : ℚ) ^ t * 10 ^ 16 ≤ m := by
    refine le_trans (le_of_eq ?_) (ten_log_le h0)
    rw [← zpow_natCast, ← zpow_add₀ (by norm_num)]
    congr 1
    rw [ht]; push_cast; ring
  have hnear : ∀ Q : ℕ, |m / 10 ^ t - Q| ≤ 1 / 2 → roundMag ((Q : ℚ) * 10 ^ t) = m := by
    intro Q hQ
    refine roundMag_near h0 hm ?_
    have h1 : (Q : ℚ) * 10 ^ t - m = -((m / 10 ^ t - Q) * 10 ^ t) := by field_simp; ring
    rw [h1, abs_neg, abs_mul, abs_of_pos htp]
    have h2 : |m / 10 ^ t - Q| * 10 ^ t ≤ 1 / 2 * 10 ^ t := mul_le_mul_of_nonneg_right hQ htp.le
    have p54 : (2 : ℚ) ^ (-54 : ℤ) = 1 / 18014398509481984 := by norm_num
    rw [p54]
    norm_num at hbig
    linarith
  have hfl : (0 : ℤ) ≤ ⌊m / 10 ^ t⌋ := Int.floor_nonneg.2 (by positivity)
  have hcast : ((⌊m / 10 ^ t⌋.toNat : ℕ) : ℚ) = (⌊m / 10 ^ t⌋ : ℚ) := by
    have : ((⌊m / 10 ^ t⌋.toNat : ℕ) : ℤ) = ⌊m / 10 ^ t⌋ := Int.toNat_of_nonneg hfl
    exact_mod_cast this
  have f1 := Int.floor_le (m / 10 ^ t)
  have f2 := Int.lt_floor_add_one (m / 10 ^ t)
  have hs : (shortestAt m 17).isSome := by
    by_cases hc : m / 10 ^ t - ⌊m / 10 ^ t⌋ ≤ 1 / 2
    · have : |m / 10 ^ t - (⌊m / 10 ^ t⌋.toNat : ℕ)| ≤ 1 / 2 := by
        rw [hcast, abs_le]; constructor <;> linarith
      exact shortestAt_isSome (hnear _ this) (lt_of_le_of_lt this (by norm_num))
    · have : |m / 10 ^ t - ((⌊m / 10 ^ t⌋.toNat + 1 : ℕ) : ℚ)| ≤ 1 / 2 := by
        push_cast
        rw [hcast, abs_le]; constructor <;> linarith
      exact shortestAt_isSome (hnear _ this) (lt_of_le_of_lt this (by norm_num))
  obtain ⟨j, ⟨d, t'⟩, _, _, h1, h2⟩ := findSome_range' (by norm_num) (le_refl 17) hs
  exact ⟨d, t', h2, (shortestAt_spec h1).2⟩

theorem number_natStr (n : Nat) : Spec.number (natStr n) = n := by
  rw [← digitsNat_number (natStr_isDigit n)]
  unfold digitsNat
  rw [digitsVal_natStr]
  rfl

/-- What is printed for `d * 10^t` is that number. -/
theorem decimalStr_unsigned (d : Nat) (t : ℤ) : Unsigned (decimalStr d t) ((d : ℚ) * 10 ^ t) := by
  unfold decimalStr
  by_cases h0 : 0 ≤ t
  · rw [if_pos h0]
    refine ⟨natStr (d * 10 ^ t.toNat), [], [], [], 0, by simp, .inr ⟨rfl, rfl⟩, .inl (natStr_ne_nil _), natStr_isDigit _, by simp, .none, ?_⟩
    rw [List.append_nil, number_natStr]
    push_cast
    obtain ⟨k, rfl⟩ := Int.eq_ofNat_of_zero_le h0
    simp
  · rw [if_neg h0]
    simp only
    obtain ⟨w, hw, rfl⟩ : ∃ w : ℕ, (-t).toNat = w ∧ t = -(w : ℤ) := ⟨(-t).toNat, rfl, by omega⟩
    rw [hw]
    set F := stripZeros (padNat w (d % 10 ^ w)) with hF
    obtain ⟨j, hj⟩ := stripZeros_decomp (padNat w (d % 10 ^ w))
    rw [← hF] at hj
    have hFd : ∀ c ∈ F, isDigit c = true := fun c hc => padNat_isDigit _ _ c (stripZeros_mem hc)
    have hlen : F.length + j = w := by
      have := congrArg List.length hj
      rw [padNat_length] at this; simp at this; omega
    obtain ⟨n, hn⟩ := digitsVal_isSome hFd (d / 10 ^ w)
    have hnd : n * 10 ^ j = d := by
      have h := digitsVal_padNat (d / 10 ^ w) w (d % 10 ^ w)
      rw [hj, digitsVal_append, hn] at h
      simp only [Option.bind_some, digitsVal_zeros, Option.some.injEq] at h
      rw [h, Nat.mod_mod, Nat.mul_comm]
      exact Nat.div_add_mod d (10 ^ w)
    have hnum : Spec.number (natStr (d / 10 ^ w) ++ F) = n := by
      rw [← digitsNat_number (by
        intro c hc
        rcases List.mem_append.1 hc with h | h
        · exact natStr_isDigit _ c h
        · exact hFd c h)]
      unfold digitsNat
      rw [digitsVal_append, digitsVal_natStr]
      simp only [Option.bind_some]
      rw [hn]; rfl
    have hval : (d : ℚ) * 10 ^ (-(w : ℤ)) = (n : ℚ) * 10 ^ (0 - (F.length : ℤ)) := by
      rw [← hnd, ← hlen, zero_sub]
      push_cast
      rw [neg_add, zpow_add₀ (by norm_num), zpow_neg _ (j : ℤ), zpow_natCast]
      field_simp
    by_cases he : F = []
    · rw [if_pos he, List.append_nil]
      refine ⟨natStr (d / 10 ^ w), [], [], [], 0, by simp, .inr ⟨rfl, rfl⟩, .inl (natStr_ne_nil _), natStr_isDigit _, by simp, .none, ?_⟩
      rw [hval, ← hnum, he]
    · rw [if_neg he]
      exact ⟨natStr (d / 10 ^ w), ['.'], F, [], 0, by simp, .inl rfl, .inl (natStr_ne_nil _), natStr_isDigit _, hFd, .none, by rw [hval, hnum]⟩

/-- Every double is printed so that it is read back. -/
theorem parseF64_dispF64 {x : F64} (hx : x.Valid) : parseF64 (dispF64 x) = some x := by
  cases x with
  | nan => decide +kernel
  | inf a => cases a <;> decide +kernel
  | fin a m =>
    obtain ⟨h0, h1, h2⟩ := hx
    have key : ∃ s q, dispF64 (.fin a m) = (if a then ['-'] else []) ++ s ∧ Unsigned s q ∧ roundMag q = m := by
      rcases h0.eq_or_lt with h | h
      · subst h
        exact ⟨['0'], 0, by simp [dispF64], ⟨['0'], [], [], [], 0, rfl, .inr ⟨rfl, rfl⟩, .inl (by simp), by decide, by simp, .none,
          by simp [Spec.number, Spec.digit]⟩, h1⟩
      · obtain ⟨d, t, h3, h4⟩ := shortest_double h h1
        refine ⟨decimalStr d t, _, ?_, decimalStr_unsigned d t, h4⟩
        simp only [dispF64]
        rw [if_neg h.ne', h3]
    obtain ⟨s, q, e1, hu, hq⟩ := key
    have hm : F64.ofMag a q = .fin a m := by
      unfold F64.ofMag
      simp only
      rw [hq, if_pos h2]
    rw [e1]
    cases a with
    | true =>
      simp only [if_true, List.cons_append, List.nil_append, parseF64]
      rw [parseUnsigned_unsigned true hu, hm]
    | false =>
      simp only [Bool.false_eq_true, if_false, List.nil_append]
      rw [parseF64_sign, parseUnsigned_unsigned false hu, hm]
      intro c cs hc
      obtain ⟨c', cs', hc', hd'⟩ := unsigned_head hu
      rw [hc'] at hc; simp only [List.cons.injEq] at hc
      rw [← hc.1]
      constructor
      · rintro rfl; rcases hd' with h | h <;> exact absurd h (by decide)
      · rintro rfl; rcases hd' with h | h <;> exact absurd h (by decide)

end Osmio
