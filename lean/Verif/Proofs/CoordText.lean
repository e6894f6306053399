import Verif.Proofs.Decimal
import Verif.Proofs.Chrono
import Verif.Spec.Coord
import Mathlib.Tactic.IntervalCases
/-! Coordinates from `f32` and from text. -/

namespace Osmio

/-- Products of a 53 bit number and a power of two are representable. -/
theorem roundMag_scaled {n : ℕ} {e : ℤ} (hn : n < 2 ^ 53) (he : -1074 ≤ e) :
    roundMag ((n : ℚ) * 2 ^ e) = (n : ℚ) * 2 ^ e := by
  rcases Nat.eq_zero_or_pos n with h0 | h0
  · subst h0; simp [roundMag_zero]
  have hq : (0 : ℚ) < (n : ℚ) * 2 ^ e := by
    have : (0 : ℚ) < n := by exact_mod_cast h0
    have := two_zpow_pos e; positivity
  have hlog : Int.log 2 ((n : ℚ) * 2 ^ e) < 53 + e := by
    have h1 := zpow_log_le hq
    have h2 : (n : ℚ) * 2 ^ e < 2 ^ (53 + e) := by
      rw [zpow_add₀ (by norm_num)]
      have : (n : ℚ) < 2 ^ (53 : ℤ) := by exact_mod_cast hn
      exact mul_lt_mul_of_pos_right this (two_zpow_pos e)
    exact (zpow_lt_zpow_iff_right₀ (by norm_num : (1 : ℚ) < 2)).mp (lt_of_le_of_lt h1 h2)
  have hu : ulpExp ((n : ℚ) * 2 ^ e) ≤ e := by unfold ulpExp; omega
  obtain ⟨k, hk⟩ : ∃ k : ℕ, e = ulpExp ((n : ℚ) * 2 ^ e) + k :=
    ⟨(e - ulpExp ((n : ℚ) * 2 ^ e)).toNat, by omega⟩
  apply roundMag_of_mul ((n : ℤ) * 2 ^ k)
  generalize ulpExp ((n : ℚ) * 2 ^ e) = u at hk
  subst hk
  rw [zpow_add₀ (by norm_num), zpow_natCast]; push_cast; ring

theorem F32.signif_lt (x : F32) : x.signif < 2 ^ 24 := by
  unfold signif
  have : x.frac < 2 ^ 23 := Nat.mod_lt _ (by norm_num)
  split <;> omega

theorem F32.lastExp_ge (x : F32) : -149 ≤ x.lastExp := by
  unfold lastExp; split <;> omega

/-- The product with 10^7 is exact for a widened `f32`. -/
theorem F32.prod_exact (x : F32) :
    roundMag ((x.signif : ℚ) * 2 ^ x.lastExp * 10000000) = (x.signif : ℚ) * 2 ^ x.lastExp * 10000000 := by
  have h : (x.signif : ℚ) * 2 ^ x.lastExp * 10000000
      = ((x.signif * 78125 : ℕ) : ℚ) * 2 ^ (x.lastExp + 7) := by
    rw [zpow_add₀ (by norm_num)]; push_cast; ring
  rw [h]
  have h1 := x.signif_lt; have h2 := x.lastExp_ge
  exact roundMag_scaled (by omega) (by omega)

/-- Widening gives a double. -/
theorem F32.toF64_valid (x : F32) : x.toF64.Valid := by
  unfold toF64
  have h1 := x.signif_lt; have h2 := x.lastExp_ge
  split
  · split <;> trivial
  · refine ⟨?_, roundMag_scaled (by omega) (by omega), ?_⟩
    · have := two_zpow_pos x.lastExp; positivity
    · have h3 : x.lastExp ≤ 105 := by
        unfold lastExp
        have : x.expo < 2 ^ 8 := Nat.mod_lt _ (by norm_num)
        split <;> omega
      have h4 : (x.signif : ℚ) < 2 ^ (24 : ℤ) := by exact_mod_cast h1
      calc (x.signif : ℚ) * 2 ^ x.lastExp < 2 ^ (24 : ℤ) * 2 ^ x.lastExp :=
            mul_lt_mul_of_pos_right h4 (two_zpow_pos _)
        _ = 2 ^ (24 + x.lastExp) := (zpow_add₀ (by norm_num) _ _).symm
        _ ≤ 2 ^ (1024 : ℤ) := zpow_le_zpow_right₀ (by norm_num) (by omega)

/-- Widening keeps the number. -/
theorem F32.toF64_val (x : F32) : x.toF64.val? = Spec.binary32 x.bits.toNat := by
  have hb : x.bits.toNat < 2 ^ 32 := x.bits.toNat_lt
  have hs : (x.bits.toNat / 2 ^ 31 = 1) ↔ 2 ^ 31 ≤ x.bits.toNat := by omega
  have hsg : (if x.neg = true then (-1 : ℚ) else 1) = if x.bits.toNat / 2 ^ 31 = 1 then -1 else 1 := by
    unfold neg; simp only [decide_eq_true_eq]
    by_cases h : 2 ^ 31 ≤ x.bits.toNat
    · rw [if_pos h, if_pos (hs.mpr h)]
    · rw [if_neg h, if_neg (fun h' => h (hs.mp h'))]
  have key : ∀ (b : Bool) (m : ℚ), (if b = true then -m else m) = (if b = true then -1 else 1) * m := by
    intro b m; cases b <;> simp
  have he : x.bits.toNat / 2 ^ 23 % 256 = x.expo := rfl
  have hf : x.bits.toNat % 2 ^ 23 = x.frac := rfl
  unfold Spec.binary32 toF64
  simp only [← hsg, he, hf]
  by_cases h255 : x.expo = 255
  · rw [if_pos h255, if_pos h255]; split <;> rfl
  · rw [if_neg h255, if_neg h255]
    rw [F64.val?, key]
    unfold signif lastExp
    by_cases h0 : x.expo = 0
    · simp only [h0, if_true]
      rw [show (-126 : ℤ) = -149 + 23 by norm_num, zpow_add₀ (by norm_num)]
      congr 1; field_simp
    · simp only [h0, if_false]
      rw [show ((x.expo : ℤ) - 127) = (x.expo : ℤ) - 150 + 23 by ring, zpow_add₀ (by norm_num)]
      congr 1; push_cast; field_simp; norm_num; ring

theorem floor_half_nearest {m : ℚ} (hm : 0 ≤ m) : Spec.NearestUnit m ⌊m * 10000000 + 1 / 2⌋ := by
  have h1 := Int.floor_le (m * 10000000 + 1 / 2)
  have h2 := Int.lt_floor_add_one (m * 10000000 + 1 / 2)
  have h0 : 0 ≤ ⌊m * 10000000 + 1 / 2⌋ := Int.floor_nonneg.mpr (by positivity)
  unfold Spec.NearestUnit
  rw [show (10 : ℚ) ^ 7 = 10000000 by norm_num]
  generalize ⌊m * 10000000 + 1 / 2⌋ = z at *
  have h0' : (0 : ℚ) ≤ z := by exact_mod_cast h0
  refine ⟨?_, ?_⟩
  · rw [abs_le]; constructor <;> linarith
  · intro ht
    rw [abs_of_nonneg h0', abs_of_nonneg (by positivity : (0 : ℚ) ≤ m * 10000000)]
    rcases abs_eq (by norm_num : (0 : ℚ) ≤ 1 / 2) |>.mp ht with h | h <;> linarith

theorem nearest_neg {v : ℚ} {z : ℤ} (h : Spec.NearestUnit v z) : Spec.NearestUnit (-v) (-z) := by
  obtain ⟨h1, h2⟩ := h
  have e : |(((-z : ℤ)) : ℚ) - -v * 10 ^ 7| = |(z : ℚ) - v * 10 ^ 7| := by
    rw [← abs_neg]; congr 1; push_cast; ring
  have e1 : |-v * 10 ^ 7| = |v * 10 ^ 7| := by rw [neg_mul, abs_neg]
  have e2 : |((-z : ℤ) : ℚ)| = |(z : ℚ)| := by push_cast; rw [abs_neg]
  unfold Spec.NearestUnit
  rw [e, e1, e2]; exact ⟨h1, h2⟩

/-- There is only one nearest unit. -/
theorem nearest_unique {v : ℚ} {y z : ℤ} (hy : Spec.NearestUnit v y) (hz : Spec.NearestUnit v z) : y = z := by
  obtain ⟨y1, y2⟩ := hy
  obtain ⟨z1, z2⟩ := hz
  generalize v * 10 ^ 7 = w at *
  have hyz : |(y : ℚ) - z| ≤ 1 := by
    rw [abs_le] at *; constructor <;> linarith
  have hyz' : |y - z| ≤ 1 := by exact_mod_cast hyz
  rw [abs_le] at hyz'
  by_contra hne
  have hor : y = z + 1 ∨ z = y + 1 := by omega
  have main : ∀ a b : ℤ, b = a + 1 → |(a : ℚ) - w| ≤ 1 / 2 → |(b : ℚ) - w| ≤ 1 / 2 →
      (|(a : ℚ) - w| = 1 / 2 → |w| < |(a : ℚ)|) → (|(b : ℚ) - w| = 1 / 2 → |w| < |(b : ℚ)|) → False := by
    intro a b hb a1 b1 a2 b2
    subst hb
    push_cast at *
    rw [abs_le] at a1 b1
    have hw : w = a + 1 / 2 := by linarith
    subst hw
    have t1 := a2 (by rw [show (a : ℚ) - (a + 1 / 2) = -(1 / 2) by ring, abs_neg]; norm_num)
    have t2 := b2 (by rw [show (a : ℚ) + 1 - (a + 1 / 2) = 1 / 2 by ring]; norm_num)
    rcases le_or_gt 0 a with h | h
    · have h' : (0 : ℚ) ≤ a := by exact_mod_cast h
      rw [abs_of_nonneg h', abs_of_nonneg (by linarith)] at t1; linarith
    · have h' : (a : ℚ) + 1 ≤ 0 := by exact_mod_cast h
      rw [abs_of_nonpos h', abs_of_nonpos (by linarith)] at t2; linarith
  rcases hor with h | h
  · exact main z y h z1 y1 z2 y2
  · exact main y z h y1 z1 y2 z2

/-! ## Text -/

theorem number_of_digitsVal {s : Str} {acc n : Nat} (h : digitsVal acc s = some n) :
    s.foldl (fun a c => 10 * a + Spec.digit c) acc = n := by
  induction s generalizing acc with
  | nil => simpa [digitsVal] using h
  | cons c cs ih =>
    simp only [digitsVal] at h
    cases hd : digitVal? c with
    | none => rw [hd] at h; simp at h
    | some d =>
      rw [hd] at h
      have : Spec.digit c = d := by
        unfold digitVal? at hd; unfold Spec.digit
        split at hd <;> simp_all
      rw [List.foldl_cons, this]; exact ih h

theorem digitsVal_spec_number {s : Str} (h : ∀ c ∈ s, isDigit c = true) :
    digitsVal 0 s = some (Spec.number s) := by
  obtain ⟨n, hn⟩ := digitsVal_isSome h 0
  rw [hn]; congr 1; exact (number_of_digitsVal hn).symm

theorem digitsVal_digits {s : Str} {acc n : Nat} (h : digitsVal acc s = some n) :
    ∀ c ∈ s, isDigit c = true := by
  induction s generalizing acc with
  | nil => simp
  | cons c cs ih =>
    simp only [digitsVal] at h
    cases hd : digitVal? c with
    | none => rw [hd] at h; simp at h
    | some d =>
      rw [hd] at h
      intro x hx
      rcases List.mem_cons.mp hx with rfl | hx
      · unfold digitVal? at hd; unfold isDigit
        split at hd
        · rename_i hc; simpa using hc
        · cases hd
      · exact ih h x hx

theorem parseDigits_iff (s : Str) (n : Nat) :
    parseDigits s = some n ↔ s ≠ [] ∧ (∀ c ∈ s, isDigit c = true) ∧ n = Spec.number s := by
  cases s with
  | nil => simp [parseDigits]
  | cons c cs =>
    constructor
    · intro h
      have hd := digitsVal_digits h
      refine ⟨by simp, hd, ?_⟩
      have := digitsVal_spec_number hd
      rw [parseDigits] at h
      rw [h] at this; exact Option.some.inj this
    · rintro ⟨-, hd, rfl⟩
      exact digitsVal_spec_number hd

theorem parseExp_iff (s : Str) (e : ℤ) : parseExp s = some e ↔ Spec.ExpText s e := by
  constructor
  · intro h
    cases s with
    | nil => cases h; exact .none
    | cons c cs =>
      unfold parseExp at h
      simp only at h
      split at h
      · rename_i hc
        split at h
        · rename_i r
          rw [Option.map_eq_some_iff] at h
          obtain ⟨n, hn, rfl⟩ := h
          obtain ⟨h1, h2, rfl⟩ := (parseDigits_iff _ _).mp hn
          exact .some c ['-'] r hc (by simp) h1 h2
        · rename_i r
          rw [Option.map_eq_some_iff] at h
          obtain ⟨n, hn, rfl⟩ := h
          obtain ⟨h1, h2, rfl⟩ := (parseDigits_iff _ _).mp hn
          exact .some c ['+'] r hc (by simp) h1 h2
        · rw [Option.map_eq_some_iff] at h
          obtain ⟨n, hn, rfl⟩ := h
          obtain ⟨h1, h2, rfl⟩ := (parseDigits_iff _ _).mp hn
          exact .some c [] cs hc (by simp) h1 h2
      · cases h
  · intro h
    cases h with
    | none => rfl
    | some mark sign ds hm hs h1 h2 =>
      have hp := (parseDigits_iff ds _).mpr ⟨h1, h2, rfl⟩
      unfold parseExp
      simp only
      rw [if_pos hm]
      rcases hs with rfl | rfl | rfl
      · cases ds with
        | nil => exact absurd rfl h1
        | cons d ds' =>
          have hd := h2 d (by simp)
          simp only [List.nil_append]
          split
          · rename_i heq; simp only [List.cons.injEq] at heq; rw [heq.1] at hd; exact absurd hd (by decide)
          · rename_i heq; simp only [List.cons.injEq] at heq; rw [heq.1] at hd; exact absurd hd (by decide)
          · rw [hp]; rfl
      · simp only [List.cons_append, List.nil_append]; rw [hp]; rfl
      · simp only [List.cons_append, List.nil_append]; rw [hp]; rfl

theorem expText_head {ex : Str} {e : ℤ} (h : Spec.ExpText ex e) :
    ∀ c cs, ex = c :: cs → isDigit c = false ∧ c ≠ '.' := by
  cases h with
  | none => simp
  | some mark sign ds hm hs h1 h2 =>
    intro c cs hc
    simp only [List.cons.injEq] at hc
    rw [← hc.1]
    rcases hm with rfl | rfl <;> decide

/-- Unsigned decimal text. -/
def Unsigned (s : Str) (q : ℚ) : Prop := ∃ (ip point fp ex : Str) (e : ℤ),
    s = ip ++ point ++ fp ++ ex ∧ (point = ['.'] ∨ (point = [] ∧ fp = [])) ∧
    (ip ≠ [] ∨ fp ≠ []) ∧ (∀ c ∈ ip, isDigit c = true) ∧ (∀ c ∈ fp, isDigit c = true) ∧
    Spec.ExpText ex e ∧ q = (Spec.number (ip ++ fp) : ℚ) * 10 ^ (e - (fp.length : ℤ))

theorem digitsNat_number {s : Str} (h : ∀ c ∈ s, isDigit c = true) : digitsNat s = Spec.number s := by
  unfold digitsNat; rw [digitsVal_spec_number h]; rfl

theorem parseDecimal_iff (s : Str) (q : ℚ) : parseDecimal s = some q ↔ Unsigned s q := by
  constructor
  · intro h
    obtain ⟨hs, hd⟩ := spanDigits_spec s
    unfold parseDecimal at h
    generalize hsp : spanDigits s = sp at h hs hd
    obtain ⟨ip, r1⟩ := sp
    simp only at h hs hd
    have hfrac : ∃ point : Str, r1 = point ++ (parseFrac r1).1 ++ (parseFrac r1).2 ∧
        (point = ['.'] ∨ (point = [] ∧ (parseFrac r1).1 = [])) ∧
        (∀ c ∈ (parseFrac r1).1, isDigit c = true) := by
      unfold parseFrac
      split
      · rename_i r
        obtain ⟨h1, h2⟩ := spanDigits_spec r
        exact ⟨['.'], by rw [List.append_assoc, ← h1]; rfl, Or.inl rfl, h2⟩
      · exact ⟨[], by simp, Or.inr ⟨rfl, rfl⟩, by simp⟩
    generalize parseFrac r1 = pf at h hfrac
    obtain ⟨fp, r2⟩ := pf
    obtain ⟨point, hr1, hpt, hfd⟩ := hfrac
    simp only at h hr1 hpt hfd
    split at h
    · cases h
    · rename_i hne
      rw [Option.map_eq_some_iff] at h
      obtain ⟨e, he, rfl⟩ := h
      have hall : ∀ c ∈ ip ++ fp, isDigit c = true := by
        intro c hc; rcases List.mem_append.mp hc with h | h
        · exact hd c h
        · exact hfd c h
      refine ⟨ip, point, fp, r2, e, ?_, hpt, ?_, hd, hfd, (parseExp_iff _ _).mp he, ?_⟩
      · rw [hs, hr1]; simp
      · by_contra hc; push Not at hc; exact hne hc
      · rw [digitsNat_number hall]
  · rintro ⟨ip, point, fp, ex, e, rfl, hpt, hne, hd, hfd, hex, rfl⟩
    have hh := expText_head hex
    have hall : ∀ c ∈ ip ++ fp, isDigit c = true := by
      intro c hc; rcases List.mem_append.mp hc with h | h
      · exact hd c h
      · exact hfd c h
    have h1 : spanDigits (ip ++ point ++ fp ++ ex) = (ip, point ++ fp ++ ex) := by
      rw [List.append_assoc, List.append_assoc, ← List.append_assoc point]
      apply spanDigits_append hd
      intro c cs hc
      rcases hpt with rfl | ⟨rfl, rfl⟩
      · simp only [List.cons_append, List.cons.injEq] at hc; rw [← hc.1]; decide
      · simp only [List.nil_append] at hc; exact (hh c cs hc).1
    have h2 : parseFrac (point ++ fp ++ ex) = (fp, ex) := by
      rcases hpt with rfl | ⟨rfl, rfl⟩
      · simp only [List.cons_append, List.nil_append, parseFrac]
        exact spanDigits_append hfd (fun c cs hc => (hh c cs hc).1)
      · simp only [List.nil_append]
        unfold parseFrac
        split
        · rename_i r; exact absurd rfl (hh '.' r rfl).2
        · rfl
    unfold parseDecimal
    rw [h1]; simp only; rw [h2]; simp only
    rw [if_neg (by rintro ⟨a, b⟩; rcases hne with h | h <;> contradiction),
      (parseExp_iff _ _).mpr hex, digitsNat_number hall]
    rfl

/-- Unsigned text does not begin with a letter or a sign. -/
theorem unsigned_head {s : Str} {q : ℚ} (h : Unsigned s q) :
    ∃ c cs, s = c :: cs ∧ (isDigit c = true ∨ c = '.') := by
  obtain ⟨ip, point, fp, ex, e, rfl, hpt, hne, hd, hfd, -, -⟩ := h
  cases ip with
  | cons c cs => exact ⟨c, _, rfl, Or.inl (hd c (by simp))⟩
  | nil =>
    rcases hpt with rfl | ⟨-, rfl⟩
    · exact ⟨'.', _, rfl, Or.inr rfl⟩
    · rcases hne with h | h <;> exact absurd rfl h

theorem toLower_eq (c : Char) : toLowerAscii c = c.toLower := by
  by_cases h : 65 ≤ c.toNat ∧ c.toNat ≤ 90
  · rw [← Char.ofNat_toNat c]
    obtain ⟨h1, h2⟩ := h
    generalize c.toNat = n at h1 h2
    interval_cases n <;> decide
  · have h' : ¬ (c.val ≥ 'A'.val ∧ c.val ≤ 'Z'.val) := by
      rintro ⟨a, b⟩
      apply h
      rw [ge_iff_le, UInt32.le_iff_toNat_le] at a
      rw [UInt32.le_iff_toNat_le] at b
      exact ⟨a, b⟩
    unfold toLowerAscii Char.toLower
    rw [if_neg h, dif_neg h']

/-- Rounding twice is rounding once. -/
theorem roundMag_idem {q : ℚ} (hq : 0 ≤ q) : roundMag (roundMag q) = roundMag q := by
  rcases eq_or_lt_of_le hq with h0 | h0
  · rw [← h0, roundMag_zero, roundMag_zero]
  have hu : -1074 ≤ ulpExp q := le_max_right _ _
  have hlt : q < 2 ^ (53 : ℤ) * 2 ^ ulpExp q := by
    rw [← zpow_add₀ (by norm_num)]
    refine lt_of_lt_of_le (lt_zpow_log q) (zpow_le_zpow_right₀ (by norm_num) ?_)
    unfold ulpExp; omega
  have hr : roundMag q = (roundHalfEven (q / 2 ^ ulpExp q) : ℚ) * 2 ^ ulpExp q := by
    unfold roundMag; rw [if_neg (ne_of_gt h0)]
  have hp := two_zpow_pos (ulpExp q)
  have hn0 : 0 ≤ roundHalfEven (q / 2 ^ ulpExp q) := by
    have h := roundHalfEven_int 0
    rw [← h]; apply roundHalfEven_mono; push_cast; positivity
  have hn1 : roundHalfEven (q / 2 ^ ulpExp q) ≤ 2 ^ 53 := by
    have h := roundHalfEven_int (2 ^ 53)
    rw [← h]; apply roundHalfEven_mono
    rw [div_le_iff₀ hp]; push_cast; exact_mod_cast hlt.le
  rw [hr]
  obtain ⟨n, hn⟩ : ∃ n : ℕ, roundHalfEven (q / 2 ^ ulpExp q) = n :=
    ⟨(roundHalfEven (q / 2 ^ ulpExp q)).toNat, by omega⟩
  rw [hn] at hn1 ⊢
  have hn1' : n ≤ 2 ^ 53 := by exact_mod_cast hn1
  rw [Int.cast_natCast]
  rcases Nat.lt_or_eq_of_le hn1' with h | h
  · exact roundMag_scaled h hu
  · have e : (n : ℚ) * 2 ^ ulpExp q = ((1 : ℕ) : ℚ) * 2 ^ (53 + ulpExp q) := by
      rw [h, zpow_add₀ (by norm_num)]; push_cast; norm_num
    rw [e]
    exact roundMag_scaled (by norm_num) (by omega)

/-- Rounding always gives a double. -/
theorem ofMag_valid (neg : Bool) {q : ℚ} (hq : 0 ≤ q) : (F64.ofMag neg q).Valid := by
  unfold F64.ofMag
  simp only
  split
  · rename_i h; exact ⟨roundMag_nonneg hq, roundMag_idem hq, h⟩
  · trivial

theorem unsigned_nonneg {s : Str} {q : ℚ} (h : Unsigned s q) : 0 ≤ q := by
  obtain ⟨ip, point, fp, ex, e, -, -, -, -, -, -, rfl⟩ := h
  have := ten_zpow_pos (e - (fp.length : ℤ)); positivity

theorem parseUnsigned_unsigned {s : Str} {q : ℚ} (neg : Bool) (h : Unsigned s q) :
    parseUnsignedF64 neg s = some (F64.ofMag neg q) := by
  have hp := (parseDecimal_iff s q).mpr h
  obtain ⟨c, cs, hc, hd⟩ := unsigned_head h
  have hl : toLowerAscii c = c := by
    rcases hd with hd | rfl
    · exact digit_not_special hd
    · decide
  have hi : c ≠ 'i' := by
    rintro rfl; rcases hd with hd | hd <;> exact absurd hd (by decide)
  have hn : c ≠ 'n' := by
    rintro rfl; rcases hd with hd | hd <;> exact absurd hd (by decide)
  unfold parseUnsignedF64
  simp only [hp]
  rw [hc]
  simp [hl, hi, hn]

theorem parseF64_sign {r : Str} (h : ∀ c cs, r = c :: cs → c ≠ '-' ∧ c ≠ '+') :
    parseF64 r = parseUnsignedF64 false r := by
  unfold parseF64
  split
  · rename_i r'; exact absurd rfl (h '-' r' rfl).1
  · rename_i r'; exact absurd rfl (h '+' r' rfl).2
  · rfl

/-- Decimal text is read as the double nearest to the number. -/
theorem parseF64_decimal {s : Str} {v : ℚ} (h : Spec.IsDecimal s v) :
    ∃ (neg : Bool) (q : ℚ), 0 ≤ q ∧ v = (if neg then -q else q) ∧
      parseF64 s = some (F64.ofMag neg q) := by
  obtain ⟨sign, ip, point, fp, ex, e, rfl, hs, hpt, hne, hd, hfd, hex, hv⟩ := h.exists_parts
  have hu : Unsigned (ip ++ point ++ fp ++ ex) ((Spec.number (ip ++ fp) : ℚ) * 10 ^ (e - (fp.length : ℤ))) :=
    ⟨ip, point, fp, ex, e, rfl, hpt, hne, hd, hfd, hex, rfl⟩
  have h0 := unsigned_nonneg hu
  rcases hs with rfl | rfl | rfl
  · refine ⟨false, _, h0, by rw [hv]; simp, ?_⟩
    simp only [List.nil_append]
    rw [parseF64_sign]
    · exact parseUnsigned_unsigned false hu
    · intro c cs hc
      obtain ⟨c', cs', hc', hd'⟩ := unsigned_head hu
      rw [hc'] at hc; simp only [List.cons.injEq] at hc
      rw [← hc.1]
      constructor
      · rintro rfl; rcases hd' with h | h <;> exact absurd h (by decide)
      · rintro rfl; rcases hd' with h | h <;> exact absurd h (by decide)
  · refine ⟨false, _, h0, by rw [hv]; simp, ?_⟩
    simp only [List.cons_append, List.nil_append, parseF64]
    exact parseUnsigned_unsigned false hu
  · refine ⟨true, _, h0, by rw [hv]; simp, ?_⟩
    simp only [List.cons_append, List.nil_append, parseF64]
    exact parseUnsigned_unsigned true hu

theorem map_lower (s : Str) : s.map toLowerAscii = s.map Char.toLower := by
  apply List.map_congr_left; intro c _; exact toLower_eq c

theorem parseUnsigned_dest {neg : Bool} {r : Str} {x : F64} (h : parseUnsignedF64 neg r = some x) :
    (r.map Char.toLower = "inf".toList ∨ r.map Char.toLower = "infinity".toList ∨
      r.map Char.toLower = "nan".toList) ∨ ∃ q, Unsigned r q ∧ x = F64.ofMag neg q := by
  unfold parseUnsignedF64 at h
  simp only [map_lower] at h
  split at h
  · rename_i hw
    left
    rcases hw with hw | hw
    · left; rw [hw]; rfl
    · right; left; rw [hw]; rfl
  · split at h
    · rename_i hw; left; right; right; rw [hw]; rfl
    · rw [Option.map_eq_some_iff] at h
      obtain ⟨q, hq, rfl⟩ := h
      exact Or.inr ⟨q, (parseDecimal_iff _ _).mp hq, rfl⟩

theorem parseUnsigned_word {neg : Bool} {w : Str}
    (h : w.map Char.toLower = "inf".toList ∨ w.map Char.toLower = "infinity".toList ∨
      w.map Char.toLower = "nan".toList) : (parseUnsignedF64 neg w).isSome = true := by
  unfold parseUnsignedF64
  simp only [map_lower]
  rcases h with h | h | h <;> rw [h] <;> rfl

/-- What text is accepted as a double. -/
theorem parseF64_isSome_iff (s : Str) :
    (parseF64 s).isSome = true ↔ (∃ v, Spec.IsDecimal s v) ∨ Spec.IsFloatWord s := by
  constructor
  · intro h
    obtain ⟨x, hx⟩ := Option.isSome_iff_exists.mp h
    have main : ∀ (neg : Bool) (sign r : Str), (sign = [] ∨ sign = ['+'] ∨ sign = ['-']) →
        parseUnsignedF64 neg r = some x → (∃ v, Spec.IsDecimal (sign ++ r) v) ∨ Spec.IsFloatWord (sign ++ r) := by
      intro neg sign r hs hr
      rcases parseUnsigned_dest hr with hw | ⟨q, ⟨ip, point, fp, ex, e, h1, h2, h3, h4, h5, h6, h7⟩, -⟩
      · exact Or.inr ⟨sign, r, rfl, hs, hw⟩
      · left
        refine ⟨_, ⟨sign, ip, point, fp, ex, e, ?_, hs, h2, h3, h4, h5, h6, rfl⟩⟩
        rw [h1]; simp
    unfold parseF64 at hx
    split at hx
    · exact main true ['-'] _ (by simp) hx
    · exact main false ['+'] _ (by simp) hx
    · have := main false [] s (by simp) hx
      simpa using this
  · rintro (⟨v, hv⟩ | ⟨sign, w, rfl, hs, hw⟩)
    · obtain ⟨neg, q, -, -, h⟩ := parseF64_decimal hv
      rw [h]; rfl
    · rcases hs with rfl | rfl | rfl
      · simp only [List.nil_append]
        rw [parseF64_sign]
        · exact parseUnsigned_word hw
        · rintro c cs rfl
          simp only [List.map_cons] at hw
          constructor
          · rintro rfl
            rcases hw with hw | hw | hw <;> exact absurd (List.cons.inj hw).1 (by decide)
          · rintro rfl
            rcases hw with hw | hw | hw <;> exact absurd (List.cons.inj hw).1 (by decide)
      · exact parseUnsigned_word hw
      · exact parseUnsigned_word hw

end Osmio
