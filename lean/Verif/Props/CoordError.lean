import Verif.Proofs.FloatDisplay
import Verif.Lib.StrLit
import Verif.Props.CoordText
/-!
# Properties of the errors of coordinates (C76)

The conversions of both types are the same on the inner number (`Lat.fromStr s = (innerFromStr s).map Lat.mk`, and so on).
-/

namespace Osmio

theorem round_valid {x : F64} (hx : x.Valid) : x.round.Valid := by
  cases x with
  | nan => trivial
  | inf => trivial
  | fin a r =>
    obtain ⟨h0, h1, h2⟩ := hx
    have hnn : (0 : ℤ) ≤ ⌊r + 1 / 2⌋ := Int.floor_nonneg.2 (by linarith)
    have hnn' : (0 : ℚ) ≤ (⌊r + 1 / 2⌋ : ℚ) := by exact_mod_cast hnn
    show 0 ≤ (⌊r + 1 / 2⌋ : ℚ) ∧ roundMag (⌊r + 1 / 2⌋ : ℚ) = (⌊r + 1 / 2⌋ : ℚ) ∧ (⌊r + 1 / 2⌋ : ℚ) < 2 ^ (1024 : ℤ)
    by_cases hs : r < 2 ^ 52
    · have hle : ⌊r + 1 / 2⌋ < 2 ^ 52 + 1 := Int.floor_lt.2 (by push_cast; linarith)
      obtain ⟨n, hn⟩ := Int.eq_ofNat_of_zero_le hnn
      have hn' : n < 2 ^ 53 := by omega
      have e : (⌊r + 1 / 2⌋ : ℚ) = (n : ℚ) := by rw [hn]; rfl
      rw [e]
      refine ⟨Nat.cast_nonneg n, roundMag_nat hn', ?_⟩
      have : (n : ℚ) < 2 ^ 53 := by exact_mod_cast hn'
      have h53 : (2 : ℚ) ^ 53 = 2 ^ (53 : ℤ) := (zpow_natCast _ _).symm
      rw [h53] at this
      exact lt_trans this (zpow_lt_zpow_right₀ (by norm_num) (by norm_num))
    · push Not at hs
      have hpos : 0 < r := lt_of_lt_of_le (by norm_num) hs
      obtain ⟨n, _, hr⟩ := double_mul hpos h1
      have hu : 0 ≤ ulpExp r := by
        have : (2 : ℚ) ^ (52 : ℤ) < 2 ^ (Int.log 2 r + 1) := lt_of_le_of_lt (by exact_mod_cast hs) (lt_zpow_log r)
        have := (zpow_lt_zpow_iff_right₀ (by norm_num : (1 : ℚ) < 2)).1 this
        unfold ulpExp
        omega
      obtain ⟨k, hk⟩ := Int.eq_ofNat_of_zero_le hu
      have hz : r = ((n * 2 ^ k : ℤ) : ℚ) := by
        conv_lhs => rw [hr, hk]
        push_cast
        rw [zpow_natCast]
      have e : (⌊r + 1 / 2⌋ : ℚ) = r := by
        have : ⌊r + 1 / 2⌋ = n * 2 ^ k := by
          rw [hz, Int.floor_eq_iff]
          constructor <;> linarith
        rw [this]
        exact hz.symm
      rw [e]
      exact ⟨h0, h1, h2⟩

theorem mul_scale_valid {x : F64} : (x.mul COORD_SCALE_FACTOR).Valid ∨ ∃ a m, x = .fin a m ∧ m < 0 := by
  cases x with
  | nan => exact .inl trivial
  | inf a =>
    left
    rw [scale_eq]
    simp [F64.mul, F64.Valid]
  | fin a m =>
    rcases lt_or_ge m 0 with h | h
    · exact .inr ⟨a, m, rfl, h⟩
    · left
      rw [scale_eq]
      exact ofMag_valid _ (by positivity)

theorem parseF64_valid {s : Str} {x : F64} (h : parseF64 s = some x) : x.Valid := by
  have main : ∀ neg r, parseUnsignedF64 neg r = some x → x.Valid := by
    intro neg r h
    unfold parseUnsignedF64 at h
    simp only at h
    split at h
    · cases h; trivial
    · split at h
      · cases h; trivial
      · rw [Option.map_eq_some_iff] at h
        obtain ⟨q, hq, rfl⟩ := h
        exact ofMag_valid _ (unsigned_nonneg ((parseDecimal_iff _ _).1 hq))
  unfold parseF64 at h
  split at h <;> exact main _ _ h

/-- The number in a range error. -/
theorem range_error {x : F64} (hx : x.Valid) {e : ParseLatLonError} (h : innerTryFromF64 x = .error e) :
    let y := (x.mul COORD_SCALE_FACTOR).round
    y.Valid ∧ (e = .tooLarge y ∨ e = .tooSmall y) := by
  refine ⟨?_, ?_⟩
  · refine round_valid ?_
    rcases mul_scale_valid (x := x) with h | ⟨a, m, rfl, h⟩
    · exact h
    · exact absurd hx.1 (by linarith)
  · unfold innerTryFromF64 at h
    simp only at h
    split at h
    · exact .inl (Except.error.inj h).symm
    · split at h
      · exact .inr (Except.error.inj h).symm
      · cases h

/-- **C76.** What the error of `from_str` says, of whatever text: empty text and text that is no number have messages of their own (that of the
standard library, which is also the `source`); for a number out of range the message gives a number and the side, and that number is read back as the one in the
error. -/
theorem C76_message {s : Str} {e : ParseLatLonError} (h : innerFromStr s = .error e) :
    (s = [] ∧ e.source = some .empty ∧ e.display = str% "cannot parse float from empty string") ∨
    (s ≠ [] ∧ ¬ ((∃ v, Spec.IsDecimal s v) ∨ Spec.IsFloatWord s) ∧ e.source = some .invalid ∧ e.display = str% "invalid float literal") ∨
    ((∃ v, Spec.IsDecimal s v) ∨ Spec.IsFloatWord s) ∧ e.source = none ∧ ∃ t y, parseF64 t = some y ∧
      (e = .tooLarge y ∧ e.display = t ++ str% " is too large to represent as a Lat/Lon" ∨
        e = .tooSmall y ∧ e.display = t ++ str% " is too small to represent as a Lat/Lon") := by
  by_cases hs : (∃ v, Spec.IsDecimal s v) ∨ Spec.IsFloatWord s
  · right; right
    have hp := (parseF64_isSome_iff s).2 hs
    obtain ⟨x, hx⟩ := Option.isSome_iff_exists.1 hp
    rw [fromStr_of_parse hx] at h
    have hv := parseF64_valid hx
    obtain ⟨h1, h2⟩ := range_error hv h
    refine ⟨hs, ?_, _, _, parseF64_dispF64 h1, ?_⟩
    · rcases h2 with h2 | h2 <;> (rw [h2]; rfl)
    · rcases h2 with h2 | h2
      · exact .inl ⟨h2, by rw [h2]; rfl⟩
      · exact .inr ⟨h2, by rw [h2]; rfl⟩
  · have hp := (C67_syntax s).2 hs
    rw [C03_fromStr] at h hp
    cases hf : parseF64 s with
    | some x =>
      have := (parseF64_isSome_iff s).1 (by rw [hf]; rfl)
      exact absurd this hs
    | none =>
      rw [hf] at h
      cases h
      by_cases h0 : s = []
      · refine .inl ⟨h0, ?_, ?_⟩ <;> (rw [parseFloatError, if_pos h0]; rfl)
      · refine .inr (.inl ⟨h0, hs, ?_, ?_⟩) <;> (rw [parseFloatError, if_neg h0]; rfl)

/-- All three cases arise. -/
example : innerFromStr [] = .error (.parseFloat .empty) ∧ innerFromStr (str% "1°") = .error (.parseFloat .invalid) ∧
    innerFromStr (str% "-600") = .error (.tooSmall (.fin true 6000000000)) := by decide +kernel

/-- The number in the error of a finite number, whose magnitude is `m`. -/
theorem number_in_error {a : Bool} {m : ℚ} (hx : (F64.fin a m).Valid) {e : ParseLatLonError} (h : innerTryFromF64 (.fin a m) = .error e) :
    2147483647 < roundUnits m ∧ ∃ y, (e = if a then .tooSmall y else .tooLarge y) ∧
      (y = .fin a (roundUnits m : ℚ) ∨ y = .inf a ∧ ¬ roundMag (m * 10000000) < 2 ^ (1024 : ℤ)) := by
  obtain ⟨hm, -, -⟩ := hx
  have hy : ((F64.fin a m).mul COORD_SCALE_FACTOR).round = .fin a (roundUnits m : ℚ) ∨
      ((F64.fin a m).mul COORD_SCALE_FACTOR).round = .inf a ∧ ¬ roundMag (m * 10000000) < 2 ^ (1024 : ℤ) := by
    simp only [scale_eq, F64.mul, F64.ofMag]
    by_cases hov : roundMag (m * 10000000) < 2 ^ (1024 : ℤ)
    · left
      rw [if_pos hov]
      cases a <;> rfl
    · right
      rw [if_neg hov]
      refine ⟨?_, hov⟩
      cases a <;> rfl
  rw [innerTryFrom_fin hm] at h
  cases a with
  | false =>
    simp only [Bool.false_eq_true, if_false] at h ⊢
    by_cases hr : roundUnits m ≤ 2147483647
    · rw [if_pos hr] at h; cases h
    · rw [if_neg hr] at h
      exact ⟨by omega, _, (Except.error.inj h).symm, hy⟩
  | true =>
    simp only [if_true] at h ⊢
    by_cases hr : roundUnits m ≤ 2147483648
    · rw [if_pos hr] at h; cases h
    · rw [if_neg hr] at h
      exact ⟨by omega, _, (Except.error.inj h).symm, hy⟩

/-- The number of units is given up to the rounding of the product. -/
theorem units_of_error {m : ℚ} (hm : 0 ≤ m) (h : 2147483647 < roundUnits m) :
    |(roundUnits m : ℚ) - m * 10000000| ≤ 1 / 2 + m * 10000000 * 2 ^ (-53 : ℤ) ∧ 1 < m := by
  have herr := roundUnits_err hm
  have h1 : (2147483648 : ℚ) ≤ (roundUnits m : ℚ) := by exact_mod_cast (by omega : (2147483648 : ℤ) ≤ roundUnits m)
  have hbig : 1 < m := by
    by_contra hle
    push Not at hle
    have hmax : max (m * 10000000 * 2 ^ (-53 : ℤ)) (2 ^ (-1075 : ℤ)) ≤ 1 := by
      refine max_le ?_ (tiny.trans (by rw [pow60]; norm_num))
      rw [pow53]; linarith
    have := (abs_le.1 (herr.trans (add_le_add_right hmax _))).2
    linarith
  refine ⟨?_, hbig⟩
  have hmax : max (m * 10000000 * 2 ^ (-53 : ℤ)) (2 ^ (-1075 : ℤ)) = m * 10000000 * 2 ^ (-53 : ℤ) := by
    refine max_eq_left (tiny.trans ?_)
    rw [pow60, pow53]
    linarith
  rw [hmax] at herr
  exact herr

/-- The number in the error is the number of units of 10⁻⁷ degrees: the whole number nearest to 10⁷ times the given one, up to the
rounding of that product to a double (or infinite, if the product is too large for a double). -/
theorem C76_number_partial {x : F64} (hx : x.Valid) {v : ℚ} (hv : x.val? = some v) {e : ParseLatLonError} (h : innerTryFromF64 x = .error e) :
    ∃ y, (e = .tooLarge y ∧ 0 < v ∨ e = .tooSmall y ∧ v < 0) ∧
      ((∃ z : ℤ, y.val? = some (z : ℚ) ∧ |(z : ℚ) - v * 10 ^ 7| ≤ 1 / 2 + |v * 10 ^ 7| * 2 ^ (-53 : ℤ)) ∨
        y = .inf (decide (v < 0)) ∧ 2 ^ (1023 : ℤ) < |v * 10 ^ 7|) := by
  have he : (10 : ℚ) ^ 7 = 10000000 := by norm_num
  rw [he]
  cases x with
  | nan => cases hv
  | inf => cases hv
  | fin a m =>
    have hm := hx.1
    obtain ⟨h1, y, rfl, h2⟩ := number_in_error hx h
    obtain ⟨h3, h4⟩ := units_of_error hm h1
    have hov : ¬ roundMag (m * 10000000) < 2 ^ (1024 : ℤ) → 2 ^ (1023 : ℤ) < m * 10000000 := by
      intro hn
      by_contra hle
      push Not at hle
      exact hn (roundMag_lt_max (by positivity) hle)
    have hpos : (0 : ℚ) ≤ m * 10000000 := by positivity
    cases a with
    | false =>
      simp only [F64.val?, Bool.false_eq_true, if_false, Option.some.injEq] at hv
      subst hv
      refine ⟨y, .inl ⟨rfl, by linarith⟩, ?_⟩
      rw [abs_of_nonneg hpos]
      rcases h2 with rfl | ⟨rfl, h2⟩
      · exact .inl ⟨roundUnits m, rfl, h3⟩
      · exact .inr ⟨by rw [decide_eq_false (by linarith)], hov h2⟩
    | true =>
      simp only [F64.val?, if_true, Option.some.injEq] at hv
      subst hv
      refine ⟨y, .inr ⟨rfl, by linarith⟩, ?_⟩
      rw [neg_mul, abs_neg, abs_of_nonneg hpos]
      rcases h2 with rfl | ⟨rfl, h2⟩
      · refine .inl ⟨-roundUnits m, by simp [F64.val?], ?_⟩
        push_cast
        rw [show -(roundUnits m : ℚ) - -(m * 10000000) = -((roundUnits m : ℚ) - m * 10000000) by ring, abs_neg]
        exact h3
      · exact .inr ⟨by rw [decide_eq_true (by linarith)], hov h2⟩

/-- **C76 fails** in what number that is. The error should carry the number that was given; of a finite number it never does. -/
theorem C76_number_fails {x : F64} (hx : x.Valid) {v : ℚ} (hv : x.val? = some v) {e : ParseLatLonError} (h : innerTryFromF64 x = .error e) :
    e ≠ .tooLarge x ∧ e ≠ .tooSmall x := by
  cases x with
  | nan => cases hv
  | inf => cases hv
  | fin a m =>
    have hm := hx.1
    obtain ⟨h1, y, rfl, h2⟩ := number_in_error hx h
    obtain ⟨h3, h4⟩ := units_of_error hm h1
    have hne : y ≠ .fin a m := by
      rcases h2 with rfl | ⟨rfl, _⟩
      · intro hc
        simp only [F64.fin.injEq, true_and] at hc
        rw [hc, pow53] at h3
        have := (abs_le.1 h3).1
        linarith
      · intro hc; cases hc
    cases a <;> simp [hne]

/-- Six hundred degrees are refused as six thousand millions. -/
theorem C76_number_fails_witness :
    (Lat.fromStr (str% "600")).toOption = none ∧
      innerFromStr (str% "600") = .error (.tooLarge (.fin false 6000000000)) ∧
      (ParseLatLonError.tooLarge (.fin false 6000000000)).display = str% "6000000000 is too large to represent as a Lat/Lon" ∧
      (F64.fin false 600).Valid ∧ innerTryFromF64 (.fin false 600) = .error (.tooLarge (.fin false 6000000000)) := by
  refine ⟨by decide +kernel, by decide +kernel, by decide +kernel, ⟨by norm_num, ?_, ?_⟩, by decide +kernel⟩
  · decide +kernel
  · decide +kernel

end Osmio
