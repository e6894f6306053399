import Verif.Model.ProgramText
import Verif.Spec.ProgramText
import Verif.Proofs.Decimal
import Verif.Proofs.FloatDisplay
import Verif.Proofs.Chrono
import Verif.Props.Coord
/-! The text of numbers with commas, of seconds and of rates. -/

namespace Osmio
open Spec.Programs

/-! ## Commas -/

theorem separateFrom_true : ∀ (k : Nat) (t : Str), t.length = 3 * k →
    ∃ gs : List Str, separateFrom true t = gs.flatMap (',' :: ·) ∧ gs.flatten = t ∧ ∀ x ∈ gs, x.length = 3 := by
  intro k
  induction k with
  | zero =>
    intro t h
    obtain rfl := List.eq_nil_of_length_eq_zero (by omega)
    exact ⟨[], rfl, rfl, by simp⟩
  | succ k ih =>
    intro t h
    match t, h with
    | [], h => simp at h
    | [a], h => simp at h; omega
    | [a, b], h => simp at h; omega
    | a :: b :: c :: t, h =>
      simp only [List.length_cons] at h
      have hl : t.length = 3 * k := by omega
      obtain ⟨gs, h1, h2, h3⟩ := ih t hl
      refine ⟨[a, b, c] :: gs, ?_, by simp [h2], by simpa using h3⟩
      have e1 : (t.length + 1 + 1 + 1) % 3 = 0 := by omega
      have e2 : (t.length + 1 + 1) % 3 = 2 := by omega
      have e3 : (t.length + 1) % 3 = 1 := by omega
      simp [separateFrom, h1, e1, e2, e3]

theorem separateFrom_false (g t : Str) (h0 : g ≠ []) (h3 : g.length ≤ 3) (k : Nat) (ht : t.length = 3 * k) :
    separateFrom false (g ++ t) = g ++ separateFrom true t := by
  match g, h0, h3 with
  | [a], _, _ => simp [separateFrom]
  | [a, b], _, _ =>
    have e3 : (t.length + 1) % 3 = 1 := by omega
    simp [separateFrom, e3]
  | [a, b, c], _, _ =>
    have e2 : (t.length + 1 + 1) % 3 = 2 := by omega
    have e3 : (t.length + 1) % 3 = 1 := by omega
    simp [separateFrom, e2, e3]
  | _ :: _ :: _ :: _ :: _, _, h => simp at h

theorem separatedString_grouped (n : Nat) : IsGrouped (separatedString n) n := by
  have hne := natStr_ne_nil n
  have hl : 0 < (natStr n).length := List.length_pos_iff.2 hne
  set s := natStr n with hs
  set j := (s.length - 1) % 3 + 1 with hj
  have hjl : j ≤ s.length := by omega
  have hst : s = s.take j ++ s.drop j := (List.take_append_drop j s).symm
  have hlt : (s.take j).length = j := by rw [List.length_take]; omega
  have h0 : s.take j ≠ [] := by intro h; rw [h] at hlt; simp at hlt
  obtain ⟨k, hk⟩ : ∃ k, (s.drop j).length = 3 * k := ⟨(s.length - 1) / 3, by rw [List.length_drop]; omega⟩
  obtain ⟨gs, h1, h2, h3⟩ := separateFrom_true k _ hk
  have hsep : separatedString n = s.take j ++ gs.flatMap (',' :: ·) := by
    unfold separatedString
    rw [← hs]
    conv_lhs => rw [hst, separateFrom_false _ _ h0 (by omega) k hk, h1]
  refine ⟨s.take j, gs, hsep, h0, by omega, h3, ?_, ?_, ?_⟩
  · rw [h2, ← hst]; exact natStr_isDigit n
  · intro hz
    have hh : s.head? = some '0' := by
      cases hs' : s.take j with
      | nil => exact absurd hs' h0
      | cons a r => rw [hs'] at hz; rw [hst, hs']; simpa using hz
    have := natStr_head_zero n hh
    unfold separatedString
    rw [this]; rfl
  · rw [h2, ← hst]; exact number_natStr n

/-! ## Seconds -/

theorem ofInt_thousand : F64.ofInt 1000 = .fin false 1000 := by
  rw [ofInt_small (by decide)]; norm_num

theorem durationSec_eq {N : ℕ} (hN : N ≤ 10 ^ 14) : Programs.durationSec N = .fin false (roundMag ((N : ℚ) / 1000)) := by
  unfold Programs.durationSec
  rw [ofInt_small (by simp; omega), ofInt_thousand]
  simp only [F64.div]
  rw [if_neg (by norm_num)]
  unfold F64.ofMag
  have hN' : (N : ℚ) ≤ 10 ^ 14 := by exact_mod_cast hN
  simp only [Int.natAbs_natCast]
  rw [if_pos]
  · simp
  · apply roundMag_lt_max (by positivity)
    refine le_trans ?_ big_le
    rw [div_le_iff₀ (by norm_num)]; linarith

theorem seconds_facts {N : ℕ} (h0 : 0 < N) (hN : N ≤ 10 ^ 14) :
    let q : ℚ := (N : ℚ) / 1000
    let m := roundMag q
    |m - q| ≤ 1 / 50000 ∧ 1 / 10 ^ 4 ≤ m ∧ m < 10 ^ 12 ∧ (1 : ℚ) / 10 ^ 3 ≤ q := by
  have hN' : (N : ℚ) ≤ 10 ^ 14 := by exact_mod_cast hN
  have h1 : (1 : ℚ) ≤ N := by exact_mod_cast h0
  have hq7 : (1 : ℚ) / 10 ^ 3 ≤ (N : ℚ) / 1000 := by
    rw [le_div_iff₀ (by norm_num)]; norm_num; exact h0
  have hqhi : (N : ℚ) / 1000 ≤ 10 ^ 11 := by
    rw [div_le_iff₀ (by norm_num)]; linarith
  have hnorm : (2 : ℚ) ^ (-1022 : ℤ) ≤ (N : ℚ) / 1000 := by
    refine le_trans (zpow_le_zpow_right₀ (by norm_num) (by norm_num : (-1022 : ℤ) ≤ -30)) ?_
    refine le_trans ?_ hq7
    norm_num
  have e1 := roundMag_relErr hnorm
  rw [pow53] at e1
  intro q m
  change |m - q| ≤ q * _ at e1
  change (1 : ℚ) / 10 ^ 3 ≤ q at hq7
  change q ≤ 10 ^ 11 at hqhi
  have hb := abs_le.mp e1
  refine ⟨?_, ?_, ?_, hq7⟩
  · refine e1.trans ?_
    norm_num at hqhi ⊢; linarith
  · norm_num at hq7 ⊢; linarith [hb.1]
  · norm_num at hqhi ⊢; linarith [hb.2]

/-- A decimal with at most four decimals that parses to the same double is the number of seconds itself. -/
theorem seconds_unique {N d : ℕ} {t : ℤ} (h0 : 0 < N) (hN : N ≤ 10 ^ 14) (ht : -4 ≤ t)
    (h : roundMag ((d : ℚ) * 10 ^ t) = roundMag ((N : ℚ) / 1000)) :
    (d : ℚ) * 10 ^ t = (N : ℚ) / 1000 := by
  obtain ⟨f1, f2, f3, f4⟩ := seconds_facts h0 hN
  rw [← h] at f1 f2 f3
  set v := (d : ℚ) * 10 ^ t with hv
  have hv0 : 0 ≤ v := by have := ten_zpow_pos t; positivity
  obtain ⟨j, hj⟩ : ∃ j : ℕ, t = -4 + j := ⟨(t + 4).toNat, by omega⟩
  have hvmul : v = ((d * 10 ^ j : ℕ) : ℚ) * (1 / 10 ^ 4) := by
    rw [hv, hj, zpow_add₀ (by norm_num)]; push_cast
    rw [zpow_natCast]; norm_num; ring
  have hqmul : (N : ℚ) / 1000 = ((N * 10 : ℕ) : ℚ) * (1 / 10 ^ 4) := by push_cast; ring
  have hdj : d * 10 ^ j ≠ 0 := by
    intro hz
    rw [hvmul, hz] at f2; simp [roundMag_zero] at f2
    norm_num at f2
  have hdj1 : (1 : ℚ) ≤ ((d * 10 ^ j : ℕ) : ℚ) := by
    exact_mod_cast Nat.one_le_iff_ne_zero.mpr hdj
  have hvlow : (1 : ℚ) / 10 ^ 4 ≤ v := by rw [hvmul]; linarith
  have hnorm : (2 : ℚ) ^ (-1022 : ℤ) ≤ v := by
    refine le_trans (zpow_le_zpow_right₀ (by norm_num) (by norm_num : (-1022 : ℤ) ≤ -30)) ?_
    refine le_trans ?_ hvlow
    norm_num
  have e1 := roundMag_relErr hnorm
  rw [pow53] at e1
  rw [abs_le] at e1 f1
  have hqhi : (N : ℚ) / 1000 ≤ 10 ^ 11 := by
    have hN' : (N : ℚ) ≤ 10 ^ 14 := by exact_mod_cast hN
    rw [div_le_iff₀ (by norm_num)]; linarith
  have hclose : |v - (N : ℚ) / 1000| < 1 / 10 ^ 4 := by
    norm_num at f1 hqhi
    have hvhi : v ≤ 100000000001 := by linarith [e1.1]
    rw [abs_lt]
    norm_num
    constructor <;> linarith [e1.1, e1.2, f1.1, f1.2]
  rw [hvmul, hqmul] at hclose ⊢
  rw [← sub_mul, abs_mul, abs_of_pos (by norm_num : (0:ℚ) < 1 / 10 ^ 4)] at hclose
  have h5 : |((d * 10 ^ j : ℕ) : ℚ) - ((N * 10 : ℕ) : ℚ)| < 1 := by
    have hp : (0 : ℚ) < 1 / 10 ^ 4 := by norm_num
    nlinarith
  have h6 : |((d * 10 ^ j : ℕ) : ℤ) - ((N * 10 : ℕ) : ℤ)| < 1 := by exact_mod_cast h5
  rw [abs_lt] at h6
  have : d * 10 ^ j = N * 10 := by omega
  rw [this]

theorem shortest_seconds {N : ℕ} (h0 : 0 < N) (hN : N ≤ 10 ^ 14) :
    ∃ d t, shortest (roundMag ((N : ℚ) / 1000)) = some (d, t) ∧ -4 ≤ t ∧ (d : ℚ) * 10 ^ t = (N : ℚ) / 1000 := by
  obtain ⟨f1, f2, f3, f4⟩ := seconds_facts h0 hN
  set m := roundMag ((N : ℚ) / 1000) with hm
  have hmpos : 0 < m := lt_of_lt_of_le (by norm_num) f2
  set L := Int.log 10 m with hL
  have hL1 : -4 ≤ L := by
    have h1 : (10 : ℚ) ^ (-4 : ℤ) < 10 ^ (L + 1) :=
      lt_of_le_of_lt (by norm_num at f2 ⊢; exact f2) (lt_ten_log m)
    have := (zpow_lt_zpow_iff_right₀ (by norm_num : (1 : ℚ) < 10)).mp h1
    omega
  have hL2 : L ≤ 11 := by
    have h1 : (10 : ℚ) ^ L < 10 ^ (12 : ℤ) :=
      lt_of_le_of_lt (ten_log_le hmpos) (by norm_num at f3 ⊢; exact f3)
    have := (zpow_lt_zpow_iff_right₀ (by norm_num : (1 : ℚ) < 10)).mp h1
    omega
  obtain ⟨k, hk1, hk2, hk3⟩ : ∃ k : ℕ, 1 ≤ k ∧ k ≤ 17 ∧
      (L - k + 1 = -3 ∨ L - k + 1 = -4) := by
    by_cases h : L = -4
    · exact ⟨1, by omega, by omega, by omega⟩
    · exact ⟨(L + 4).toNat, by omega, by omega, by omega⟩
  have hsome : (shortestAt m k).isSome := by
    rw [abs_le] at f1
    rcases hk3 with hk3 | hk3
    · apply shortestAt_isSome (Q := N)
      · rw [← hL, hk3, hm]; congr 1
      · rw [← hL, hk3, zpow_neg, div_inv_eq_mul, abs_lt]; norm_num at f1 ⊢
        have e : (N : ℚ) = (N : ℚ) / 1000 * 1000 := by ring
        constructor <;> nlinarith [f1.1, f1.2]
    · apply shortestAt_isSome (Q := N * 10)
      · rw [← hL, hk3, hm]; congr 1; rw [zpow_neg]; push_cast; norm_num; ring
      · rw [← hL, hk3, zpow_neg, div_inv_eq_mul, abs_lt]; push_cast; norm_num at f1 ⊢
        have e : (N : ℚ) = (N : ℚ) / 1000 * 1000 := by ring
        constructor <;> nlinarith [f1.1, f1.2]
  obtain ⟨j, ⟨d, t⟩, hj1, hj2, hj3, hj4⟩ := findSome_range' hk1 hk2 hsome
  obtain ⟨ht, hr⟩ := shortestAt_spec hj3
  have ht8 : -4 ≤ t := by rw [ht, ← hL]; omega
  exact ⟨d, t, hj4, ht8, seconds_unique h0 hN ht8 (by rw [hr])⟩

theorem decimalStr_seconds {N d : ℕ} {t : ℤ} (ht : -4 ≤ t) (h : (d : ℚ) * 10 ^ t = (N : ℚ) / 1000) :
    decimalStr d t = coordText (N * 10000) :=
  decimalStr_coord (by omega) (by rw [h]; push_cast; ring)

theorem disp_seconds {N : ℕ} (hN : N ≤ 10 ^ 14) : dispF64 (Programs.durationSec N) = coordText (N * 10000) := by
  rw [durationSec_eq hN]
  simp only [dispF64]
  rcases Nat.eq_zero_or_pos N with h0 | h0
  · subst h0
    simp only [Nat.cast_zero, zero_div, roundMag_zero, if_true]
    decide +kernel
  · obtain ⟨f1, f2, f3, f4⟩ := seconds_facts h0 hN
    have hne : roundMag ((N : ℚ) / 1000) ≠ 0 := by
      intro h; rw [h] at f2; norm_num at f2
    rw [if_neg hne]
    obtain ⟨d, t, hs, ht, hv⟩ := shortest_seconds h0 hN
    rw [hs]
    simpa using decimalStr_seconds ht hv

theorem disp_isSeconds {N : ℕ} (hN : N ≤ 10 ^ 14) : IsSeconds (dispF64 (Programs.durationSec N)) N := by
  rw [disp_seconds hN]
  have e1 : N * 10000 / 10 ^ 7 = N / 1000 := by omega
  have e2 : N * 10000 % 10 ^ 7 = N % 1000 * 10 ^ 4 := by omega
  have e3 : stripZeros (padNat 7 (N % 1000 * 10 ^ 4)) = stripZeros (padNat 3 (N % 1000)) := by
    rw [padNat_mul_pow 3 4, stripZeros_replicate]
  unfold coordText
  rw [e1, e2, e3]
  set F := stripZeros (padNat 3 (N % 1000)) with hF
  obtain ⟨j, hj⟩ := stripZeros_decomp (padNat 3 (N % 1000))
  rw [← hF] at hj
  have hFd : ∀ c ∈ F, isDigit c = true := fun c hc => padNat_isDigit _ _ c (stripZeros_mem hc)
  have hlen : F.length + j = 3 := by
    have := congrArg List.length hj
    rw [padNat_length] at this; simp at this; omega
  obtain ⟨n, hn⟩ := digitsVal_isSome hFd 0
  have hval : n * 10 ^ j = N % 1000 := by
    have h := digitsVal_padNat 0 3 (N % 1000)
    rw [hj, digitsVal_append, hn] at h
    simp only [Option.bind_some, digitsVal_zeros, Option.some.injEq] at h
    rw [h]; simp
  refine ⟨natStr (N / 1000), F, rfl, natStr_ne_nil _, ?_, natStr_head_zero _, by omega, ?_, ?_⟩
  · intro c hc
    rcases List.mem_append.1 hc with hc | hc
    · exact natStr_isDigit _ c hc
    · exact hFd c hc
  · intro h; exact stripZeros_getLast _ _ h rfl
  · have h1 : Spec.number (natStr (N / 1000)) = N / 1000 := number_natStr _
    have h2 : Spec.number F = n := number_of_digitsVal hn
    have h3 : 3 - F.length = j := by omega
    rw [h1, h2, h3, hval]; omega

/-! ## Rates -/

theorem small_le {e : ℤ} (h : -1022 ≤ e) : (2 : ℚ) ^ (-1022 : ℤ) ≤ 2 ^ e := zpow_le_zpow_right₀ (by norm_num) h

/-- Three roundings, of the count, of the seconds and of the quotient. -/
theorem rate_err {n N : ℕ} (h0 : 0 < n) (hn : n < 2 ^ 64) (hN0 : 0 < N) (hN : N ≤ 10 ^ 14) :
    let a := roundMag n
    let d := roundMag ((N : ℚ) / 1000)
    let R : ℚ := (n : ℚ) * 1000 / N
    d ≠ 0 ∧ 0 ≤ a / d ∧ a / d ≤ 2 ^ 80 ∧ |roundMag (a / d) - R| ≤ R / 2 ^ 51 := by
  intro a d R
  have hn1 : (1 : ℚ) ≤ n := by exact_mod_cast h0
  have hnhi : (n : ℚ) ≤ 2 ^ 64 := by exact_mod_cast hn.le
  have hNq0 : (1 : ℚ) ≤ N := by exact_mod_cast hN0
  have hNq : (N : ℚ) ≤ 10 ^ 14 := by exact_mod_cast hN
  obtain ⟨D, hD⟩ : ∃ D : ℚ, D = (N : ℚ) / 1000 := ⟨_, rfl⟩
  have hD0 : 1 / 1000 ≤ D := by rw [hD]; linarith
  have hDhi : D ≤ 10 ^ 11 := by rw [hD]; linarith
  have hDpos : 0 < D := by linarith
  have e1 : |a - n| ≤ n * (1 / 9007199254740992) := by
    have := roundMag_relErr (q := (n : ℚ)) (le_trans (small_le (e := 0) (by norm_num)) (by simpa using hn1))
    rwa [pow53] at this
  have e2 : |d - D| ≤ D * (1 / 9007199254740992) := by
    have := roundMag_relErr (q := D) (le_trans (small_le (e := -10) (by norm_num)) (by norm_num; linarith))
    rw [pow53] at this
    rwa [hD] at this ⊢
  have hR : R * D = n := by
    change (n : ℚ) * 1000 / N * D = n
    rw [hD]; field_simp
  have hR0 : 1 / 10 ^ 11 ≤ R := by
    change 1 / 10 ^ 11 ≤ (n : ℚ) * 1000 / N
    rw [le_div_iff₀ (by linarith)]; linarith
  have hRhi : R ≤ 2 ^ 64 * 1000 := by
    change (n : ℚ) * 1000 / N ≤ _
    rw [div_le_iff₀ (by linarith)]; nlinarith
  have hRpos : 0 < R := by linarith
  clear_value a d R
  rw [abs_le] at e1 e2
  have hd : 0 < d := by linarith [e2.1]
  have f1 : R * d ≤ n * (1 + 1 / 9007199254740992) := by
    have : R * d ≤ R * (D * (1 + 1 / 9007199254740992)) := mul_le_mul_of_nonneg_left (by linarith [e2.2]) hRpos.le
    rw [← mul_assoc, hR] at this; exact this
  have f2 : n * (1 - 1 / 9007199254740992) ≤ R * d := by
    have : R * (D * (1 - 1 / 9007199254740992)) ≤ R * d := mul_le_mul_of_nonneg_left (by linarith [e2.1]) hRpos.le
    rw [← mul_assoc, hR] at this; exact this
  have g1 : a / d ≤ R * (1 + 5 / 2 / 9007199254740992) := by
    rw [div_le_iff₀ hd, mul_right_comm]
    nlinarith [e1.2, f2]
  have g2 : R * (1 - 5 / 2 / 9007199254740992) ≤ a / d := by
    rw [le_div_iff₀ hd, mul_right_comm]
    nlinarith [e1.1, f1]
  have hlow : (2 : ℚ) ^ (-1022 : ℤ) ≤ a / d := le_trans (small_le (e := -100) (by norm_num)) (by norm_num at hR0 ⊢; linarith)
  have e3 := roundMag_relErr hlow
  rw [pow53] at e3
  generalize a / d = x at *
  refine ⟨hd.ne', by linarith, by norm_num at hRhi ⊢; linarith, ?_⟩
  rw [abs_le] at e3 ⊢
  norm_num
  constructor <;> linarith [e3.1, e3.2]

theorem takeWhile_point {s t : Str} (h : ∀ c ∈ s, isDigit c = true) :
    (s ++ '.' :: t).takeWhile (· != '.') = s ∧ (s ++ '.' :: t).dropWhile (· != '.') = '.' :: t := by
  induction s with
  | nil => simp
  | cons c s ih =>
    have hc : c ≠ '.' := by
      rintro rfl
      exact absurd (h '.' (by simp)) (by decide)
    obtain ⟨h1, h2⟩ := ih fun c hc => h c (by simp [hc])
    simp [hc, h1, h2]

theorem separatedFixed_fin (m : ℚ) : IsThousandths (separatedFixed 3 (.fin false m)) (roundHalfEven (m * 1000)).toNat := by
  have e : (m * 10 ^ 3 : ℚ) = m * 1000 := by norm_num
  set z := (roundHalfEven (m * 1000)).toNat with hz
  have hf : fixedF64 3 (.fin false m) = natStr (z / 1000) ++ '.' :: padNat 3 (z % 1000) := by
    simp only [fixedF64, e, ← hz]; simp
  unfold separatedFixed
  obtain ⟨h1, h2⟩ := takeWhile_point (t := padNat 3 (z % 1000)) (natStr_isDigit (z / 1000))
  rw [hf, h1, h2]
  exact ⟨_, _, rfl, separatedString_grouped _, padNat_length _ _, padNat_isDigit _ _, number_padNat _ _ (by omega)⟩

theorem ofInt_nat {n : ℕ} (hn : n < 2 ^ 64) : F64.ofInt (n : ℤ) = .fin false (roundMag n) := by
  unfold F64.ofInt F64.ofMag
  have hnhi : (n : ℚ) ≤ 2 ^ 64 := by exact_mod_cast hn.le
  simp only [Int.natAbs_natCast]
  rw [if_pos]
  · simp
  · apply roundMag_lt_max (by positivity)
    refine hnhi.trans ?_
    have : ((2 : ℚ) ^ 64) = 2 ^ (64 : ℤ) := by norm_num
    rw [this]; exact zpow_le_zpow_right₀ (by norm_num) (by norm_num)

theorem rate_isRate {n N : ℕ} (hn : n < 2 ^ 64) (hN : N ≤ 10 ^ 14) :
    IsRate (separatedFixed 3 ((F64.ofInt (n : ℤ)).div (Programs.durationSec N))) n N := by
  rw [durationSec_eq hN, ofInt_nat hn]
  rcases Nat.eq_zero_or_pos N with rfl | hN0
  · simp only [Nat.cast_zero, zero_div, roundMag_zero, F64.div, if_true]
    rcases Nat.eq_zero_or_pos n with rfl | h0
    · left
      simp only [Nat.cast_zero, roundMag_zero, if_true]
      exact ⟨trivial, trivial, by decide +kernel⟩
    · right; left
      have hne : roundMag (n : ℚ) ≠ 0 := by
        have := roundMag_relErr (q := (n : ℚ)) (le_trans (small_le (e := 0) (by norm_num)) (by simp; omega))
        rw [pow53, abs_le] at this
        have h1 : (1 : ℚ) ≤ n := by exact_mod_cast h0
        intro h; rw [h] at this; linarith [this.1]
      rw [if_neg hne]
      exact ⟨rfl, by omega, by decide +kernel⟩
  · right; right
    refine ⟨by omega, ?_⟩
    obtain ⟨f1, f2, f3, f4⟩ := seconds_facts hN0 hN
    have hd : roundMag ((N : ℚ) / 1000) ≠ 0 := by intro h; rw [h] at f2; norm_num at f2
    simp only [F64.div]
    rw [if_neg hd]
    rcases Nat.eq_zero_or_pos n with rfl | h0
    · simp only [Nat.cast_zero, roundMag_zero, zero_div, F64.ofMag]
      rw [if_pos (two_zpow_pos _)]
      refine ⟨_, separatedFixed_fin 0, ?_⟩
      have : roundHalfEven (0 * 1000) = 0 := by
        have := roundHalfEven_int 0; simpa using this
      rw [this]; norm_num
    · obtain ⟨-, g1, g2, g3⟩ := rate_err h0 hn hN0 hN
      set x := roundMag (n : ℚ) / roundMag ((N : ℚ) / 1000) with hx
      unfold F64.ofMag
      rw [if_pos]
      swap
      · apply roundMag_lt_max g1
        refine g2.trans ?_
        have : ((2 : ℚ) ^ 80) = 2 ^ (80 : ℤ) := by norm_num
        rw [this]; exact zpow_le_zpow_right₀ (by norm_num) (by norm_num)
      refine ⟨_, separatedFixed_fin _, ?_⟩
      have hy := roundMag_nonneg g1
      set y := roundMag x with hyd
      have hr := roundHalfEven_err (y * 1000)
      have hz : 0 ≤ roundHalfEven (y * 1000) := by
        have : (0 : ℤ) = roundHalfEven ((0 : ℤ) : ℚ) := (roundHalfEven_int 0).symm
        rw [this]; apply roundHalfEven_mono; push_cast; positivity
      have hc : (((roundHalfEven (y * 1000)).toNat : ℕ) : ℚ) = (roundHalfEven (y * 1000) : ℚ) := by
        exact_mod_cast congrArg (Int.cast : ℤ → ℚ) (Int.toNat_of_nonneg hz)
      rw [hc]
      rw [abs_le] at hr g3 ⊢
      constructor <;> linarith [hr.1, hr.2, g3.1, g3.2]

/-! ## Lines -/

theorem line_isLine (p : Programs.Progress) (hN : p.millis ≤ 10 ^ 14) : IsLine p.line p.objects.toNat p.millis :=
  ⟨_, _, _, separatedString_grouped _, disp_isSeconds hN, rate_isRate p.objects.toNat_lt hN, by
    simp [Programs.Progress.line, Programs.rate]⟩

theorem lastLine_isLastLine (p : Programs.Progress) (hN : p.millis ≤ 10 ^ 14) : IsLastLine p.lastLine p.objects.toNat p.millis :=
  ⟨_, _, _, separatedString_grouped _, disp_isSeconds hN, rate_isRate p.objects.toNat_lt hN, by
    simp [Programs.Progress.lastLine, Programs.rate]⟩

end Osmio
