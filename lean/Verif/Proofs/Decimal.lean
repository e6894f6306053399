import Verif.Proofs.LatLon
import Verif.Proofs.RustNum
import Mathlib.Data.List.TakeWhile
/-! Shortest decimal printing of coordinates. -/

namespace Osmio

theorem ten_zpow_pos (e : ℤ) : (0 : ℚ) < 10 ^ e := zpow_pos (by norm_num) e

theorem ten_log_le {q : ℚ} (hq : 0 < q) : (10 : ℚ) ^ Int.log 10 q ≤ q := by
  have := Int.zpow_log_le_self (b := 10) (r := q) (by norm_num) hq
  exact_mod_cast this

theorem lt_ten_log (q : ℚ) : q < (10 : ℚ) ^ (Int.log 10 q + 1) := by
  have := Int.lt_zpow_succ_log_self (b := 10) (by norm_num) q
  exact_mod_cast this

theorem shortestAt_spec {m : ℚ} {k d : Nat} {t : ℤ} (h : shortestAt m k = some (d, t)) :
    t = Int.log 10 m - k + 1 ∧ roundMag ((d : ℚ) * 10 ^ t) = m := by
  unfold shortestAt at h
  simp only at h
  split at h
  · rename_i h1 h2
    split at h <;> (simp only [Option.some.injEq, Prod.mk.injEq] at h; obtain ⟨rfl, rfl⟩ := h)
    · exact ⟨rfl, by simpa using h1⟩
    · exact ⟨rfl, by simpa using h2⟩
  · rename_i h1 h2
    simp only [Option.some.injEq, Prod.mk.injEq] at h; obtain ⟨rfl, rfl⟩ := h
    exact ⟨rfl, by simpa using h1⟩
  · rename_i h1 h2
    simp only [Option.some.injEq, Prod.mk.injEq] at h; obtain ⟨rfl, rfl⟩ := h
    exact ⟨rfl, by simpa using h2⟩
  · simp at h

theorem shortestAt_isSome {m : ℚ} {k : Nat} {Q : Nat}
    (hQ : roundMag ((Q : ℚ) * 10 ^ (Int.log 10 m - k + 1)) = m)
    (hc : |m / 10 ^ (Int.log 10 m - k + 1) - Q| < 1) :
    (shortestAt m k).isSome := by
  rw [abs_lt] at hc
  have hlo : ⌊m / 10 ^ (Int.log 10 m - k + 1)⌋.toNat = Q ∨
      ⌊m / 10 ^ (Int.log 10 m - k + 1)⌋.toNat + 1 = Q := by
    rcases le_or_gt (Q : ℚ) (m / 10 ^ (Int.log 10 m - k + 1)) with h | h
    · left
      have : ⌊m / 10 ^ (Int.log 10 m - k + 1)⌋ = (Q : ℤ) := by
        rw [Int.floor_eq_iff]; push_cast; exact ⟨h, by linarith [hc.2]⟩
      omega
    · right
      have : ⌊m / 10 ^ (Int.log 10 m - k + 1)⌋ = (Q : ℤ) - 1 := by
        rw [Int.floor_eq_iff]; push_cast; exact ⟨by linarith [hc.1], by linarith⟩
      have hQ0 : 0 < Q := by
        rcases Nat.eq_zero_or_pos Q with h0 | h0
        · exfalso; subst h0
          simp only [Nat.cast_zero, zero_mul, roundMag_zero] at hQ
          subst hQ; simp at h
        · exact h0
      omega
  unfold shortestAt
  simp only
  split
  · split <;> simp
  · simp
  · simp
  · rename_i h1 h2
    exfalso
    rcases hlo with h | h
    · rw [h] at h1; simp [hQ] at h1
    · rw [h] at h2; simp [hQ] at h2

/-- The first success of a search over an initial segment. -/
theorem findSome_range' {α : Type} {f : Nat → Option α} {k : Nat} (hk : 1 ≤ k) (hk' : k ≤ 17)
    (hs : (f k).isSome) :
    ∃ j b, 1 ≤ j ∧ j ≤ k ∧ f j = some b ∧ (List.range' 1 17).findSome? f = some b := by
  have hmem : k ∈ List.range' 1 17 := by simp [List.mem_range'_1]; omega
  obtain ⟨v, hv⟩ := Option.isSome_iff_exists.mp hs
  have hne : (List.range' 1 17).findSome? f ≠ none := by
    intro h
    rw [List.findSome?_eq_none_iff] at h
    rw [h k hmem] at hv; simp at hv
  obtain ⟨b, hb⟩ := Option.ne_none_iff_exists'.mp hne
  obtain ⟨l₁, a, l₂, hl, ha, hl₁⟩ := List.findSome?_eq_some_iff.mp hb
  refine ⟨a, b, ?_, ?_, ha, hb⟩
  · have : a ∈ List.range' 1 17 := by rw [hl]; simp
    simp [List.mem_range'_1] at this; omega
  · by_contra hlt
    push Not at hlt
    have hk1 : k ∈ l₁ ++ a :: l₂ := by rw [← hl]; exact hmem
    have hsorted : (l₁ ++ a :: l₂).Pairwise (· < ·) := by rw [← hl]; exact List.pairwise_lt_range'
    rw [List.pairwise_append] at hsorted
    rw [List.mem_append] at hk1
    rcases hk1 with h | h
    · rw [hl₁ k h] at hv; simp at hv
    · rcases List.mem_cons.mp h with h | h
      · omega
      · have := (List.pairwise_cons.mp hsorted.2.1).1 k h
        omega

theorem coord_facts {N : ℕ} (h0 : 0 < N) (hN : N ≤ 2 ^ 31) :
    let q := (N : ℚ) / 10000000
    let m := roundMag q
    |m - q| ≤ 1 / 10 ^ 12 ∧ 1 / 10 ^ 8 ≤ m ∧ m < 1000 ∧ (1 : ℚ) / 10 ^ 7 ≤ q := by
  have hN' : (N : ℚ) ≤ 2147483648 := by exact_mod_cast hN
  have h1 : (1 : ℚ) ≤ N := by exact_mod_cast h0
  have hq7 : (1 : ℚ) / 10 ^ 7 ≤ (N : ℚ) / 10000000 := by
    rw [le_div_iff₀ (by norm_num)]; norm_num; exact h0
  have hqhi : (N : ℚ) / 10000000 ≤ 215 := by
    rw [div_le_iff₀ (by norm_num)]; linarith
  have hnorm : (2 : ℚ) ^ (-1022 : ℤ) ≤ (N : ℚ) / 10000000 := by
    refine le_trans (zpow_le_zpow_right₀ (by norm_num) (by norm_num : (-1022 : ℤ) ≤ -30)) ?_
    refine le_trans ?_ hq7
    norm_num
  have e1 := roundMag_relErr hnorm
  rw [pow53] at e1
  intro q m
  change |m - q| ≤ q * _ at e1
  change (1 : ℚ) / 10 ^ 7 ≤ q at hq7
  change q ≤ 215 at hqhi
  have hb := abs_le.mp e1
  refine ⟨?_, ?_, ?_, hq7⟩
  · refine e1.trans ?_
    norm_num; linarith
  · norm_num at hq7 ⊢; linarith [hb.1]
  · linarith [hb.2]

/-- A decimal with at most eight decimals that parses to the same double is the coordinate itself. -/
theorem decimal_unique {N d : ℕ} {t : ℤ} (h0 : 0 < N) (hN : N ≤ 2 ^ 31) (ht : -8 ≤ t)
    (h : roundMag ((d : ℚ) * 10 ^ t) = roundMag ((N : ℚ) / 10000000)) :
    (d : ℚ) * 10 ^ t = (N : ℚ) / 10000000 := by
  obtain ⟨f1, f2, f3, f4⟩ := coord_facts h0 hN
  rw [← h] at f1 f2 f3
  set v := (d : ℚ) * 10 ^ t with hv
  have hv0 : 0 ≤ v := by have := ten_zpow_pos t; positivity
  -- v is a multiple of 10^-8
  obtain ⟨j, hj⟩ : ∃ j : ℕ, t = -8 + j := ⟨(t + 8).toNat, by omega⟩
  have hvmul : v = ((d * 10 ^ j : ℕ) : ℚ) * (1 / 10 ^ 8) := by
    rw [hv, hj, zpow_add₀ (by norm_num)]; push_cast
    rw [zpow_natCast]; norm_num; ring
  have hqmul : (N : ℚ) / 10000000 = ((N * 10 : ℕ) : ℚ) * (1 / 10 ^ 8) := by push_cast; ring
  -- v is in the normal range
  have hdj : d * 10 ^ j ≠ 0 := by
    intro hz
    rw [hvmul, hz] at f2; simp [roundMag_zero] at f2
    norm_num at f2
  have hdj1 : (1 : ℚ) ≤ ((d * 10 ^ j : ℕ) : ℚ) := by
    exact_mod_cast Nat.one_le_iff_ne_zero.mpr hdj
  have hvlow : (1 : ℚ) / 10 ^ 8 ≤ v := by rw [hvmul]; linarith
  have hnorm : (2 : ℚ) ^ (-1022 : ℤ) ≤ v := by
    refine le_trans (zpow_le_zpow_right₀ (by norm_num) (by norm_num : (-1022 : ℤ) ≤ -30)) ?_
    refine le_trans ?_ hvlow
    norm_num
  have e1 := roundMag_relErr hnorm
  rw [pow53] at e1
  rw [abs_le] at e1 f1
  have hclose : |v - (N : ℚ) / 10000000| < 1 / 10 ^ 8 := by
    have hvhi : v ≤ 2000 := by linarith [e1.1]
    rw [abs_lt]
    norm_num at f1 ⊢
    constructor <;> linarith [e1.1, e1.2, f1.1, f1.2]
  rw [hvmul, hqmul] at hclose ⊢
  rw [← sub_mul, abs_mul, abs_of_pos (by norm_num : (0:ℚ) < 1 / 10 ^ 8)] at hclose
  have h5 : |((d * 10 ^ j : ℕ) : ℚ) - ((N * 10 : ℕ) : ℚ)| < 1 := by
    have hp : (0 : ℚ) < 1 / 10 ^ 8 := by norm_num
    nlinarith
  have h6 : |((d * 10 ^ j : ℕ) : ℤ) - ((N * 10 : ℕ) : ℤ)| < 1 := by exact_mod_cast h5
  rw [abs_lt] at h6
  have : d * 10 ^ j = N * 10 := by omega
  rw [this]

/-- The shortest digits of a coordinate are exactly the coordinate. -/
theorem shortest_coord {N : ℕ} (h0 : 0 < N) (hN : N ≤ 2 ^ 31) :
    ∃ d t, shortest (roundMag ((N : ℚ) / 10000000)) = some (d, t) ∧ -8 ≤ t ∧
      (d : ℚ) * 10 ^ t = (N : ℚ) / 10000000 := by
  obtain ⟨f1, f2, f3, f4⟩ := coord_facts h0 hN
  set m := roundMag ((N : ℚ) / 10000000) with hm
  have hmpos : 0 < m := lt_of_lt_of_le (by norm_num) f2
  set L := Int.log 10 m with hL
  have hL1 : -8 ≤ L := by
    have h1 : (10 : ℚ) ^ (-8 : ℤ) < 10 ^ (L + 1) :=
      lt_of_le_of_lt (by norm_num at f2 ⊢; exact f2) (lt_ten_log m)
    have := (zpow_lt_zpow_iff_right₀ (by norm_num : (1 : ℚ) < 10)).mp h1
    omega
  have hL2 : L ≤ 2 := by
    have h1 : (10 : ℚ) ^ L < 10 ^ (3 : ℤ) :=
      lt_of_le_of_lt (ten_log_le hmpos) (by norm_num; exact f3)
    have := (zpow_lt_zpow_iff_right₀ (by norm_num : (1 : ℚ) < 10)).mp h1
    omega
  -- the digit count at which the coordinate is certainly found
  obtain ⟨k, hk1, hk2, hk3⟩ : ∃ k : ℕ, 1 ≤ k ∧ k ≤ 17 ∧
      (L - k + 1 = -7 ∨ L - k + 1 = -8) := by
    by_cases h : L = -8
    · exact ⟨1, by omega, by omega, by omega⟩
    · exact ⟨(L + 8).toNat, by omega, by omega, by omega⟩
  have hsome : (shortestAt m k).isSome := by
    rw [abs_le] at f1
    rcases hk3 with hk3 | hk3
    · apply shortestAt_isSome (Q := N)
      · rw [← hL, hk3, hm]; congr 1
      · rw [← hL, hk3, zpow_neg, div_inv_eq_mul, abs_lt]; norm_num at f1 ⊢
        have e : (N : ℚ) = (N : ℚ) / 10000000 * 10000000 := by ring
        constructor <;> nlinarith [f1.1, f1.2]
    · apply shortestAt_isSome (Q := N * 10)
      · rw [← hL, hk3, hm]; congr 1; rw [zpow_neg]; push_cast; norm_num; ring
      · rw [← hL, hk3, zpow_neg, div_inv_eq_mul, abs_lt]; push_cast; norm_num at f1 ⊢
        have e : (N : ℚ) = (N : ℚ) / 10000000 * 10000000 := by ring
        constructor <;> nlinarith [f1.1, f1.2]
  obtain ⟨j, ⟨d, t⟩, hj1, hj2, hj3, hj4⟩ := findSome_range' hk1 hk2 hsome
  obtain ⟨ht, hr⟩ := shortestAt_spec hj3
  have ht8 : -8 ≤ t := by rw [ht, ← hL]; omega
  exact ⟨d, t, hj4, ht8, decimal_unique h0 hN ht8 (by rw [hr])⟩

/-! ## Digit strings -/

theorem padNat_length (w n : Nat) : (padNat w n).length = w := by
  induction w generalizing n with
  | zero => rfl
  | succ w ih => simp [padNat, ih]

theorem padNat_isDigit (w n : Nat) : ∀ c ∈ padNat w n, isDigit c = true := by
  induction w generalizing n with
  | zero => simp [padNat]
  | succ w ih =>
    intro c hc
    simp only [padNat, List.mem_append, List.mem_singleton] at hc
    rcases hc with h | h
    · exact ih _ c h
    · subst h; exact isDigit_digitChar (by omega)

theorem digitsVal_padNat (acc w n : Nat) :
    digitsVal acc (padNat w n) = some (acc * 10 ^ w + n % 10 ^ w) := by
  induction w generalizing n with
  | zero => simp [padNat, digitsVal, Nat.mod_one]
  | succ w ih =>
    rw [padNat, digitsVal_append, ih]
    simp only [Option.bind_some, digitsVal, digitVal_digitChar (Nat.mod_lt n (by omega : 10 > 0))]
    congr 1
    have h1 : n % 10 ^ (w + 1) = 10 * (n / 10 % 10 ^ w) + n % 10 := by
      rw [pow_succ, mul_comm (10 ^ w) 10, Nat.mod_mul]; ring
    rw [h1]; ring

theorem padNat_mul_ten (w n : Nat) : padNat (w + 1) (n * 10) = padNat w n ++ ['0'] := by
  rw [padNat]
  have h1 : n * 10 / 10 = n := by omega
  have h2 : n * 10 % 10 = 0 := by omega
  rw [h1, h2]; rfl

theorem padNat_mul_pow (w j n : Nat) :
    padNat (w + j) (n * 10 ^ j) = padNat w n ++ List.replicate j '0' := by
  induction j with
  | zero => simp
  | succ j ih =>
    rw [← Nat.add_assoc, pow_succ, ← mul_assoc, padNat_mul_ten, ih, List.append_assoc,
      List.replicate_succ']

theorem stripZeros_replicate (s : Str) (j : Nat) :
    stripZeros (s ++ List.replicate j '0') = stripZeros s := by
  unfold stripZeros
  rw [List.reverse_append, List.reverse_replicate]
  congr 1
  induction j with
  | zero => simp
  | succ j ih => simp [List.replicate_succ, ih]

theorem stripZeros_decomp (s : Str) : ∃ j, s = stripZeros s ++ List.replicate j '0' := by
  unfold stripZeros
  refine ⟨(s.reverse.takeWhile (· == '0')).length, ?_⟩
  have h := List.takeWhile_append_dropWhile (p := (· == '0')) (l := s.reverse)
  have h1 : s.reverse.takeWhile (· == '0')
      = List.replicate (s.reverse.takeWhile (· == '0')).length '0' := by
    rw [List.eq_replicate_iff]
    refine ⟨rfl, ?_⟩
    intro b hb
    have := List.mem_takeWhile_imp hb
    simpa using this
  have h2 := congrArg List.reverse h
  rw [List.reverse_append, List.reverse_reverse] at h2
  rw [h1, List.reverse_replicate] at h2
  exact h2.symm

theorem stripZeros_getLast (s : Str) (c : Char) (h : (stripZeros s).getLast? = some c) : c ≠ '0' := by
  unfold stripZeros at h
  rw [List.getLast?_reverse] at h
  intro hc
  subst hc
  have := List.head?_dropWhile_not (p := (· == '0')) s.reverse
  rw [h] at this
  simp at this

theorem stripZeros_mem {s : Str} {c : Char} (h : c ∈ stripZeros s) : c ∈ s := by
  obtain ⟨j, hj⟩ := stripZeros_decomp s
  rw [hj]; simp [h]

theorem digitsVal_zeros (acc j : Nat) :
    digitsVal acc (List.replicate j '0') = some (acc * 10 ^ j) := by
  induction j generalizing acc with
  | zero => simp [digitsVal]
  | succ j ih =>
    rw [List.replicate_succ, digitsVal]
    have : digitVal? '0' = some 0 := by decide
    rw [this]; simp only; rw [ih]; congr 1; ring

/-- The decimal text of `N / 10^7`. -/
def coordText (N : Nat) : Str :=
  natStr (N / 10 ^ 7) ++
    (if stripZeros (padNat 7 (N % 10 ^ 7)) = [] then [] else '.' :: stripZeros (padNat 7 (N % 10 ^ 7)))

theorem decimalStr_coord {N d : ℕ} {t : ℤ} (ht : -8 ≤ t)
    (h : (d : ℚ) * 10 ^ t = (N : ℚ) / 10000000) : decimalStr d t = coordText N := by
  unfold decimalStr coordText
  by_cases h0 : 0 ≤ t
  · rw [if_pos h0]
    obtain ⟨j, rfl⟩ : ∃ j : ℕ, t = j := ⟨t.toNat, by omega⟩
    have hN : N = d * 10 ^ j * 10 ^ 7 := by
      rw [zpow_natCast, eq_div_iff (by norm_num)] at h
      have : ((d * 10 ^ j * 10 ^ 7 : ℕ) : ℚ) = N := by push_cast; rw [← h]
      exact_mod_cast this.symm
    have h1 : N / 10 ^ 7 = d * 10 ^ j := by rw [hN, Nat.mul_div_cancel _ (by norm_num)]
    have h2 : N % 10 ^ 7 = 0 := by rw [hN, Nat.mul_mod_left]
    rw [h1, h2]
    have h3 : stripZeros (padNat 7 0) = [] := by decide
    simp [h3]
  · rw [if_neg h0]
    obtain ⟨w, rfl⟩ : ∃ w : ℕ, t = -(w : ℤ) := ⟨(-t).toNat, by omega⟩
    have hw : (- -(w : ℤ)).toNat = w := by omega
    simp only [hw]
    have hdN : d * 10 ^ 7 = N * 10 ^ w := by
      rw [zpow_neg, zpow_natCast] at h
      have hp : (10 : ℚ) ^ w ≠ 0 := by positivity
      field_simp at h
      have h' : (d : ℚ) * 10 ^ 7 = N * 10 ^ w := by norm_num; linarith
      exact_mod_cast h'
    by_cases hw8 : w = 8
    · subst hw8
      have hd : d = N * 10 := by omega
      have h1 : d / 10 ^ 8 = N / 10 ^ 7 := by omega
      have h2 : d % 10 ^ 8 = (N % 10 ^ 7) * 10 := by omega
      rw [h1, h2, padNat_mul_ten 7]
      have := stripZeros_replicate (padNat 7 (N % 10 ^ 7)) 1
      simp only [List.replicate_one] at this
      rw [this]
    · obtain ⟨j, hj⟩ : ∃ j, w + j = 7 := ⟨7 - w, by omega⟩
      have hN : N = d * 10 ^ j := by
        have : d * 10 ^ j * 10 ^ w = N * 10 ^ w := by
          rw [mul_assoc, ← pow_add, add_comm j w, hj]; exact hdN
        exact (Nat.eq_of_mul_eq_mul_right (by positivity) this).symm
      have h7 : (10 : ℕ) ^ 7 = 10 ^ j * 10 ^ w := by rw [← pow_add, add_comm, hj]
      have h1 : N / 10 ^ 7 = d / 10 ^ w := by
        rw [h7, ← Nat.div_div_eq_div_mul, hN, Nat.mul_div_cancel _ (by positivity)]
      have h2 : N % 10 ^ 7 = (d % 10 ^ w) * 10 ^ j := by
        rw [h7, hN, mul_comm (10 ^ j), Nat.mul_mod_mul_right]
      rw [h1, h2]
      have h3 := padNat_mul_pow w j (d % 10 ^ w)
      rw [hj] at h3
      rw [h3, stripZeros_replicate]

/-- The printed form of every coordinate. -/
theorem display_coord (i : Int32) :
    dispF64 (latLonInnerToDegrees i)
      = (if i.toInt < 0 then ['-'] else []) ++ coordText i.toInt.natAbs := by
  have h1 := i.toInt_lt; have h2 := i.le_toInt
  have hN : i.toInt.natAbs ≤ 2 ^ 31 := by omega
  rw [degrees_eq]
  simp only [dispF64]
  congr 1
  · by_cases h : i.toInt < 0 <;> simp [h]
  · rcases Nat.eq_zero_or_pos i.toInt.natAbs with h0 | h0
    · rw [h0]; simp only [Nat.cast_zero, zero_div, roundMag_zero, if_true]
      unfold coordText
      have h3 : stripZeros (padNat 7 0) = [] := by decide
      simp only [Nat.zero_div, Nat.zero_mod, h3, if_true]
      unfold natStr; rfl
    · obtain ⟨f1, f2, f3, f4⟩ := coord_facts h0 hN
      have hne : roundMag ((i.toInt.natAbs : ℚ) / 10000000) ≠ 0 := by
        intro h; rw [h] at f2; norm_num at f2
      rw [if_neg hne]
      obtain ⟨d, t, hs, ht, hv⟩ := shortest_coord h0 hN
      rw [hs]
      exact decimalStr_coord ht hv

/-! ## Parsing the text back -/

theorem spanDigits_append {a b : Str} (ha : ∀ c ∈ a, isDigit c = true)
    (hb : ∀ c cs, b = c :: cs → isDigit c = false) : spanDigits (a ++ b) = (a, b) := by
  induction a with
  | nil =>
    cases b with
    | nil => rfl
    | cons c cs => simp [spanDigits, hb c cs rfl]
  | cons c cs ih =>
    have hc := ha c (by simp)
    simp [spanDigits, hc, ih (fun x hx => ha x (by simp [hx]))]

theorem digitsVal_isSome {s : Str} (h : ∀ c ∈ s, isDigit c = true) (acc : Nat) :
    ∃ n, digitsVal acc s = some n := by
  induction s generalizing acc with
  | nil => exact ⟨acc, rfl⟩
  | cons c cs ih =>
    have hc := h c (by simp)
    unfold isDigit at hc
    simp only [decide_eq_true_eq] at hc
    simp only [digitsVal, digitVal?, if_pos hc]
    exact ih (fun x hx => h x (by simp [hx])) _

theorem parseDecimal_coordText (N : Nat) :
    parseDecimal (coordText N) = some ((N : ℚ) / 10000000) := by
  set F := stripZeros (padNat 7 (N % 10 ^ 7)) with hF
  obtain ⟨j, hj⟩ := stripZeros_decomp (padNat 7 (N % 10 ^ 7))
  rw [← hF] at hj
  have hFd : ∀ c ∈ F, isDigit c = true := fun c hc => padNat_isDigit _ _ c (stripZeros_mem hc)
  have hlen : F.length + j = 7 := by
    have := congrArg List.length hj
    rw [padNat_length] at this; simp at this; omega
  have hval : ∃ n, digitsVal (N / 10 ^ 7) F = some n ∧ n * 10 ^ j = N := by
    obtain ⟨n, hn⟩ := digitsVal_isSome hFd (N / 10 ^ 7)
    refine ⟨n, hn, ?_⟩
    have h := digitsVal_padNat (N / 10 ^ 7) 7 (N % 10 ^ 7)
    rw [hj, digitsVal_append, hn] at h
    simp only [Option.bind_some, digitsVal_zeros, Option.some.injEq] at h
    rw [h]; have := Nat.div_add_mod N (10 ^ 7); omega
  obtain ⟨n, hn, hnN⟩ := hval
  have hnum : (digitsNat (natStr (N / 10 ^ 7) ++ F) : ℚ) * 10 ^ (0 - (F.length : ℤ))
      = (N : ℚ) / 10000000 := by
    have h1 : digitsNat (natStr (N / 10 ^ 7) ++ F) = n := by
      unfold digitsNat
      rw [digitsVal_append, digitsVal_natStr]; simp only [Option.bind_some]; rw [hn]; rfl
    rw [h1, zero_sub, zpow_neg, zpow_natCast, ← div_eq_mul_inv, div_eq_div_iff (by positivity) (by norm_num)]
    have h2 : (10000000 : ℚ) = 10 ^ F.length * 10 ^ j := by rw [← pow_add, hlen]; norm_num
    rw [h2, ← hnN]; push_cast; ring
  unfold parseDecimal coordText
  rw [← hF]
  by_cases he : F = []
  · simp only [he, if_true, List.append_nil]
    rw [show natStr (N / 10 ^ 7) = natStr (N / 10 ^ 7) ++ [] by simp,
      spanDigits_append (natStr_isDigit _) (by simp)]
    simp only [parseFrac, List.append_nil, natStr_ne_nil, false_and, if_false, parseExp, Option.map_some]
    rw [he] at hnum
    simpa using hnum
  · simp only [he, if_false]
    rw [spanDigits_append (natStr_isDigit _) (by
      intro c cs h; simp only [List.cons.injEq] at h; rw [← h.1]; decide)]
    simp only [parseFrac]
    have := spanDigits_append (a := F) (b := []) hFd (by simp)
    rw [List.append_nil] at this
    rw [this]
    simp only [natStr_ne_nil, false_and, if_false, parseExp, Option.map_some]
    rw [hnum]

theorem coordText_head (N : Nat) : ∃ c cs, coordText N = c :: cs ∧ isDigit c = true := by
  unfold coordText
  cases h : natStr (N / 10 ^ 7) with
  | nil => exact absurd h (natStr_ne_nil _)
  | cons c cs => exact ⟨c, _, rfl, natStr_head_isDigit h⟩

theorem digit_not_special {c : Char} (h : isDigit c = true) : toLowerAscii c = c := by
  unfold isDigit at h; simp only [decide_eq_true_eq] at h
  unfold toLowerAscii; rw [if_neg (by omega)]

theorem parseUnsigned_coordText (neg : Bool) (N : Nat) :
    parseUnsignedF64 neg (coordText N) = some (F64.ofMag neg ((N : ℚ) / 10000000)) := by
  have hp := parseDecimal_coordText N
  obtain ⟨c, cs, hc, hd⟩ := coordText_head N
  have hi : c ≠ 'i' := by intro h; subst h; revert hd; decide
  have hn : c ≠ 'n' := by intro h; subst h; revert hd; decide
  unfold parseUnsignedF64
  simp only [hp]
  rw [hc]
  simp [digit_not_special hd, hi, hn]

theorem parseF64_display (i : Int32) :
    parseF64 (dispF64 (latLonInnerToDegrees i)) = some (latLonInnerToDegrees i) := by
  rw [display_coord, degrees_eq]
  have h1 := i.toInt_lt; have h2 := i.le_toInt
  have hN : i.toInt.natAbs ≤ 2 ^ 31 := by omega
  have hof : ∀ neg, F64.ofMag neg ((i.toInt.natAbs : ℚ) / 10000000)
      = .fin neg (roundMag ((i.toInt.natAbs : ℚ) / 10000000)) := by
    intro neg
    have hN' : (i.toInt.natAbs : ℚ) ≤ 2 ^ 31 := by exact_mod_cast hN
    unfold F64.ofMag
    simp only
    rw [if_pos]
    apply roundMag_lt_max (by positivity)
    refine le_trans ?_ big_le
    rw [div_le_iff₀ (by norm_num)]; linarith
  by_cases hneg : i.toInt < 0
  · simp only [hneg, if_true, decide_true, List.cons_append, List.nil_append, parseF64]
    rw [parseUnsigned_coordText, hof]
  · simp only [hneg, if_false, decide_false, List.nil_append]
    obtain ⟨c, cs, hc, hd⟩ := coordText_head i.toInt.natAbs
    unfold parseF64
    split
    · rename_i r hr; rw [hc] at hr; simp only [List.cons.injEq] at hr
      rw [hr.1] at hd; exact absurd hd (by decide)
    · rename_i r hr; rw [hc] at hr; simp only [List.cons.injEq] at hr
      rw [hr.1] at hd; exact absurd hd (by decide)
    · rw [parseUnsigned_coordText, hof]

theorem innerFromStr_display (i : Int32) :
    innerFromStr (dispF64 (latLonInnerToDegrees i)) = .ok i := by
  have h := innerTryFrom_degrees i
  unfold innerFromStr
  rw [parseF64_display]
  exact h

end Osmio
