import Verif.Proofs.CoordText
import Verif.Props.Coord
/-!
# Properties C66 and C67: coordinates from single precision numbers and from text
-/

namespace Osmio

/-! ## C66 -/

/-- Converting a widened `f32` involves no rounding but the one to units. -/
theorem f32_units (x : F32) :
    roundUnits ((x.signif : ℚ) * 2 ^ x.lastExp) = ⌊(x.signif : ℚ) * 2 ^ x.lastExp * 10000000 + 1 / 2⌋ := by
  unfold roundUnits; rw [x.prod_exact]

/-- **C66.** Every finite `f32` converts to exactly the nearest unit (half way cases away from zero), or
is rejected as too large or too small exactly when that unit does not fit an `i32`. Unlike the
conversion of doubles (C03) there is no tolerance. -/
theorem C66_f32_exact (x : F32) (v : ℚ) (hv : Spec.binary32 x.bits.toNat = some v) :
    ∃ z : ℤ, Spec.NearestUnit v z ∧
      (z < -2147483648 → ∃ y : F64, y.val? = some (z : ℚ) ∧ innerTryFromF32 x = .error (.tooSmall y)) ∧
      (2147483647 < z → ∃ y : F64, y.val? = some (z : ℚ) ∧ innerTryFromF32 x = .error (.tooLarge y)) ∧
      (-2147483648 ≤ z ∧ z ≤ 2147483647 → ∃ c : Int32, c.toInt = z ∧ innerTryFromF32 x = .ok c) := by
  rw [← x.toF64_val] at hv
  unfold innerTryFromF32
  unfold F32.toF64 at hv ⊢
  by_cases h255 : x.expo = 255
  · rw [if_pos h255] at hv; split at hv <;> cases hv
  rw [if_neg h255] at hv ⊢
  simp only [F64.val?, Option.some.injEq] at hv
  have h0 : 0 ≤ (x.signif : ℚ) * 2 ^ x.lastExp := by have := two_zpow_pos x.lastExp; positivity
  have hn := floor_half_nearest h0
  rw [← f32_units] at hn
  have hnn := roundUnits_nonneg h0
  -- the number carried by the range errors
  have hcarry : ∀ a : Bool, 2147483647 < roundUnits ((x.signif : ℚ) * 2 ^ x.lastExp) →
      ((F64.fin a ((x.signif : ℚ) * 2 ^ x.lastExp)).mul COORD_SCALE_FACTOR).round.val?
        = some (if a then -((roundUnits ((x.signif : ℚ) * 2 ^ x.lastExp) : ℤ) : ℚ)
            else ((roundUnits ((x.signif : ℚ) * 2 ^ x.lastExp) : ℤ) : ℚ)) := by
    intro a _
    have hfin : roundMag ((x.signif : ℚ) * 2 ^ x.lastExp * 10000000) < 2 ^ (1024 : ℤ) := by
      rw [x.prod_exact]
      have h1 : (x.signif : ℚ) < 2 ^ (24 : ℤ) := by exact_mod_cast x.signif_lt
      have h3 : x.lastExp ≤ 105 := by
        unfold F32.lastExp
        have : x.expo < 2 ^ 8 := Nat.mod_lt _ (by norm_num)
        split <;> omega
      have h4 : (10000000 : ℚ) ≤ 2 ^ (24 : ℤ) := by norm_num
      have h5 : (2 : ℚ) ^ x.lastExp ≤ 2 ^ (105 : ℤ) := zpow_le_zpow_right₀ (by norm_num) h3
      calc (x.signif : ℚ) * 2 ^ x.lastExp * 10000000
          ≤ 2 ^ (24 : ℤ) * 2 ^ (105 : ℤ) * 2 ^ (24 : ℤ) :=
            mul_le_mul (mul_le_mul h1.le h5 (two_zpow_pos _).le (by norm_num)) h4 (by norm_num) (by norm_num)
        _ = 2 ^ (153 : ℤ) := by norm_num
        _ < 2 ^ (1024 : ℤ) := zpow_lt_zpow_right₀ (by norm_num) (by norm_num)
    rw [scale_eq]
    simp only [F64.mul, F64.ofMag]
    rw [if_pos hfin]
    cases a <;> simp [F64.round, F64.val?, roundUnits]
  generalize hm : (x.signif : ℚ) * 2 ^ x.lastExp = m at *
  rw [innerTryFrom_fin h0]
  cases ha : x.neg with
  | false =>
    rw [ha] at hv
    simp only [Bool.false_eq_true, if_false] at hv ⊢
    subst hv
    refine ⟨roundUnits m, hn, fun h => absurd hnn (by omega), fun h => ?_, fun h => ?_⟩
    · rw [if_neg (by omega)]
      exact ⟨_, by simpa using hcarry false h, rfl⟩
    · rw [if_pos h.2]
      exact ⟨_, ofInt_toInt32 h.1 h.2, rfl⟩
  | true =>
    rw [ha] at hv
    simp only [if_true] at hv ⊢
    subst hv
    refine ⟨-roundUnits m, nearest_neg hn, fun h => ?_, fun h => absurd hnn (by omega), fun h => ?_⟩
    · rw [if_neg (by omega)]
      exact ⟨_, by simpa using hcarry true (by omega), rfl⟩
    · rw [if_pos (by omega)]
      exact ⟨_, ofInt_toInt32 h.1 h.2, rfl⟩

/-- **C66**, said the other way round: a coordinate comes out if and only if it is the nearest unit. -/
theorem C66_f32_iff (x : F32) (v : ℚ) (hv : Spec.binary32 x.bits.toNat = some v) (c : Int32) :
    innerTryFromF32 x = .ok c ↔ Spec.NearestUnit v c.toInt := by
  obtain ⟨z, hz, h1, h2, h3⟩ := C66_f32_exact x v hv
  have b1 := c.toInt_lt; have b2 := c.le_toInt
  constructor
  · intro h
    rcases lt_or_ge z (-2147483648) with hs | hs
    · obtain ⟨y, -, he⟩ := h1 hs; rw [he] at h; cases h
    rcases lt_or_ge 2147483647 z with hl | hl
    · obtain ⟨y, -, he⟩ := h2 hl; rw [he] at h; cases h
    obtain ⟨d, hd, he⟩ := h3 ⟨hs, hl⟩
    rw [he] at h
    rw [← Except.ok.inj h, hd]; exact hz
  · intro h
    have := nearest_unique hz h
    obtain ⟨d, hd, he⟩ := h3 (by omega)
    rw [he]; congr 1
    exact Int32.toInt_inj.mp (by omega)

/-- **C66.** The two infinities are range errors; a NaN becomes coordinate 0, as for doubles (C03). -/
theorem C66_f32_special (x : F32) (hv : Spec.binary32 x.bits.toNat = none) :
    innerTryFromF32 x = .error (.tooLarge (.inf false)) ∨ innerTryFromF32 x = .error (.tooSmall (.inf true)) ∨
      (innerTryFromF32 x = .ok 0 ∧ x.bits.toNat % 2 ^ 23 ≠ 0) := by
  rw [← x.toF64_val] at hv
  unfold innerTryFromF32
  unfold F32.toF64 at hv ⊢
  by_cases h255 : x.expo = 255
  · rw [if_pos h255]
    by_cases hf : x.frac = 0
    · rw [if_pos hf]
      cases x.neg with
      | false =>
        left
        simp [innerTryFromF64, scale_eq, F64.mul, i32max_eq, F64.round, F64.gt, F64.lt]
      | true =>
        right; left
        simp [innerTryFromF64, scale_eq, F64.mul, i32max_eq, i32min_eq, F64.round, F64.gt, F64.lt]
    · rw [if_neg hf]
      right; right
      exact ⟨C03_nan_rejected_fails.1, hf⟩
  · rw [if_neg h255] at hv; simp [F64.val?] at hv

/-- **C66** for the two coordinate types. -/
theorem C66_lat (x : F32) (v : ℚ) (hv : Spec.binary32 x.bits.toNat = some v) (l : Lat) :
    Lat.tryFromF32 x = .ok l ↔ Spec.NearestUnit v l.innerOf.toInt := by
  rw [← C66_f32_iff x v hv]
  unfold Lat.tryFromF32 Lat.innerOf
  cases innerTryFromF32 x with
  | error e => simp [Except.map]
  | ok c => simp only [Except.map, Except.ok.injEq]; exact ⟨fun h => by rw [← h], fun h => by rw [h]⟩

/-- **C66** for the two coordinate types. -/
theorem C66_lon (x : F32) (v : ℚ) (hv : Spec.binary32 x.bits.toNat = some v) (l : Lon) :
    Lon.tryFromF32 x = .ok l ↔ Spec.NearestUnit v l.innerOf.toInt := by
  rw [← C66_f32_iff x v hv]
  unfold Lon.tryFromF32 Lon.innerOf
  cases innerTryFromF32 x with
  | error e => simp [Except.map]
  | ok c => simp only [Except.map, Except.ok.injEq]; exact ⟨fun h => by rw [← h], fun h => by rw [h]⟩

/-- A concrete case: the bits of `1.23_f32` are 0x3F9D70A4, a little more than 1.23, and the
coordinate is 12300000 units. -/
example : Lat.tryFromF32 ⟨0x3F9D70A4⟩ = .ok ⟨12300000⟩ := by
  apply (C66_lat _ (1 * (1 + (1929380 : ℚ) / 2 ^ 23) * 2 ^ ((127 : ℤ) - 127)) _ _).mpr
  · unfold Spec.NearestUnit
    have : (Lat.innerOf ⟨12300000⟩).toInt = 12300000 := by decide
    rw [this]
    constructor
    · rw [abs_le]; constructor <;> norm_num
    · intro h; exfalso; rw [abs_eq (by norm_num)] at h; rcases h with h | h <;> norm_num at h
  · have h : (F32.mk 0x3F9D70A4).bits.toNat = 1067282596 := by decide
    rw [h]; unfold Spec.binary32; norm_num

/-- A concrete half way case: `-1/256` degrees is -39062.5 units and becomes -39063. -/
example : Lon.tryFromF32 ⟨0xBB800000⟩ = .ok ⟨Int32.ofInt (-39063)⟩ := by
  apply (C66_lon _ (-1 * (1 + (0 : ℚ) / 2 ^ 23) * 2 ^ ((119 : ℤ) - 127)) _ _).mpr
  · unfold Spec.NearestUnit
    have : (Lon.innerOf ⟨Int32.ofInt (-39063)⟩).toInt = -39063 := by decide
    rw [this]
    constructor
    · rw [abs_le]; constructor <;> norm_num
    · intro _; norm_num [abs_of_neg]
  · have h : (F32.mk 0xBB800000).bits.toNat = 3145728000 := by decide
    rw [h]; unfold Spec.binary32; norm_num

/-! ## C67 -/

/-- Converting text and converting the double it names are the same. -/
theorem fromStr_of_parse {s : Str} {x : F64} (h : parseF64 s = some x) :
    innerFromStr s = innerTryFromF64 x := by rw [C03_fromStr, h]

/-- **C67.** Which text is a coordinate at all: `from_str` reports a syntax error exactly when the text
is neither a decimal number nor one of the words for infinity and NaN. -/
theorem C67_syntax (s : Str) : (∃ k, innerFromStr s = .error (.parseFloat k)) ↔
    ¬ ((∃ v, Spec.IsDecimal s v) ∨ Spec.IsFloatWord s) := by
  rw [← parseF64_isSome_iff]
  cases h : parseF64 s with
  | none => rw [C03_fromStr, h]; simp
  | some x =>
    rw [fromStr_of_parse h]
    simp only [Option.isSome_some, not_true_eq_false, iff_false]
    unfold innerTryFromF64
    simp only
    split
    · rintro ⟨k, h⟩; cases h
    · split <;> (rintro ⟨k, h⟩; cases h)

theorem ofMag_small (neg : Bool) {q : ℚ} (h0 : 0 ≤ q) (hq : q * 10000000 ≤ 2 ^ 40) :
    F64.ofMag neg q = .fin neg (roundMag q) := by
  unfold F64.ofMag
  simp only
  rw [if_pos]
  apply roundMag_lt_max h0
  refine le_trans ?_ big_le
  linarith

/-- **C67.** Text that stands for a whole number of units in range is read as exactly that coordinate,
however it is written: any number of leading or trailing zeros, with or without an exponent. -/
theorem C67_exact (s : Str) (i : Int32) (h : Spec.IsDecimal s ((i.toInt : ℚ) / 10 ^ 7)) :
    innerFromStr s = .ok i := by
  obtain ⟨neg, q, h0, hv, hp⟩ := parseF64_decimal h
  rw [fromStr_of_parse hp]
  have h1 := i.toInt_lt; have h2 := i.le_toInt
  have hN : i.toInt.natAbs ≤ 2 ^ 31 := by omega
  have hq : q = (i.toInt.natAbs : ℚ) / 10000000 ∧ (i.toInt = if neg then -(i.toInt.natAbs : ℤ) else i.toInt.natAbs) := by
    have e : (10 : ℚ) ^ 7 = 10000000 := by norm_num
    rw [e] at hv
    cases neg with
    | false =>
      simp only [Bool.false_eq_true, if_false] at hv ⊢
      have hi : (0 : ℚ) ≤ i.toInt := by
        have : (0 : ℚ) ≤ (i.toInt : ℚ) / 10000000 := by rw [hv]; exact h0
        by_contra hc; push Not at hc
        have : (i.toInt : ℚ) / 10000000 < 0 := div_neg_of_neg_of_pos hc (by norm_num)
        linarith
      have hi' : 0 ≤ i.toInt := by exact_mod_cast hi
      have e2 : (i.toInt.natAbs : ℤ) = i.toInt := by omega
      refine ⟨?_, e2.symm⟩
      have e3 : (i.toInt : ℚ) = (i.toInt.natAbs : ℚ) := by rw [← Int.cast_natCast, e2]
      rw [← hv, e3]
    | true =>
      simp only [if_true] at hv ⊢
      have hi : (i.toInt : ℚ) ≤ 0 := by
        by_contra hc; push Not at hc
        have : 0 < (i.toInt : ℚ) / 10000000 := div_pos hc (by norm_num)
        linarith
      have hi' : i.toInt ≤ 0 := by exact_mod_cast hi
      have e2 : i.toInt = -(i.toInt.natAbs : ℤ) := by omega
      refine ⟨?_, e2⟩
      have e3 : (i.toInt : ℚ) = -(i.toInt.natAbs : ℚ) := by exact_mod_cast e2
      rw [e3] at hv; rw [neg_div] at hv; linarith
  obtain ⟨hq, hsgn⟩ := hq
  have hN' : (i.toInt.natAbs : ℚ) ≤ 2 ^ 31 := by exact_mod_cast hN
  rw [ofMag_small neg h0 (by rw [hq, div_mul_cancel₀ _ (by norm_num)]; linarith),
    innerTryFrom_fin (roundMag_nonneg h0), hq, roundUnits_degrees hN]
  cases neg with
  | false =>
    simp only [Bool.false_eq_true, if_false] at hsgn ⊢
    rw [if_pos (by omega), ← hsgn]; simp
  | true =>
    simp only [if_true] at hsgn ⊢
    rw [if_pos (by omega), ← hsgn]; simp

/-- How far the two roundings (text to double, product to double) can move a value, in units. -/
def textEps : ℚ := 1 / 2 ^ 20

theorem text_round_err' {q : ℚ} (h0 : 0 ≤ q) (hq : q * 10000000 ≤ 2 ^ 32) :
    |roundMag q * 10000000 - q * 10000000| ≤ 1 / 2 ^ 21 := by
  have h := roundMag_err h0
  have hm : max (q * 2 ^ (-53 : ℤ)) (2 ^ (-1075 : ℤ)) ≤ 1 / 2 ^ 21 / 10000000 := by
    apply max_le
    · rw [pow53]; norm_num at hq ⊢; linarith
    · exact tiny.trans (by rw [pow60]; norm_num)
  have h1 := h.trans hm
  rw [← sub_mul, abs_mul, abs_of_pos (by norm_num : (0 : ℚ) < 10000000)]
  calc |roundMag q - q| * 10000000 ≤ 1 / 2 ^ 21 / 10000000 * 10000000 := by gcongr
    _ = 1 / 2 ^ 21 := by norm_num

/-- A magnitude of more than 2^32 units stays above 2^31 after rounding to a double. -/
theorem text_round_big {q : ℚ} (hq : 2 ^ 32 < q * 10000000) :
    2147483648 + 1 < roundMag q * 10000000 := by
  have hm : roundMag (2 ^ 32 / 10000000) ≤ roundMag q :=
    roundMag_mono (by norm_num) (by rw [div_le_iff₀ (by norm_num)]; exact hq.le)
  have he := text_round_err' (q := 2 ^ 32 / 10000000) (by norm_num) (by norm_num)
  rw [abs_le] at he
  have h1 := he.1
  rw [div_mul_cancel₀ _ (by norm_num)] at h1
  norm_num at h1
  have h2 : roundMag (4294967296 / 10000000) * 10000000 ≤ roundMag q * 10000000 := by
    have : ((2 : ℚ) ^ 32 / 10000000) = 4294967296 / 10000000 := by norm_num
    rw [this] at hm
    exact mul_le_mul_of_nonneg_right hm (by norm_num)
  norm_num at h2
  linarith

/-- **C67.** Accuracy and range for every decimal text: what is accepted is the nearest unit up to
2⁻²⁰ of a unit, and only numbers outside the range of an `i32` (up to the same tolerance) are range
errors. -/
theorem C67_accuracy (s : Str) (v : ℚ) (h : Spec.IsDecimal s v) :
    (∀ c, innerFromStr s = .ok c → |(c.toInt : ℚ) - v * 10 ^ 7| ≤ 1 / 2 + textEps) ∧
    (∀ e, innerFromStr s = .error e →
      (∃ y, e = .tooLarge y ∧ 2147483647 + 1 / 2 - textEps ≤ v * 10 ^ 7) ∨
      (∃ y, e = .tooSmall y ∧ v * 10 ^ 7 ≤ -2147483648 - 1 / 2 + textEps)) := by
  obtain ⟨neg, q, h0, hv, hp⟩ := parseF64_decimal h
  rw [fromStr_of_parse hp]
  have e7 : (10 : ℚ) ^ 7 = 10000000 := by norm_num
  have het : textEps = 1 / 2 ^ 20 := rfl
  have hec : convEps = 1 / 2 ^ 21 := rfl
  by_cases hbig : q * 10000000 ≤ 2 ^ 32
  · -- within range of the error bound
    have hof : F64.ofMag neg q = .fin neg (roundMag q) := ofMag_small neg h0 (by norm_num at hbig ⊢; linarith)
    have hval := ofMag_valid neg h0
    rw [hof] at hval ⊢
    obtain ⟨c1, c2⟩ := C03_conversion_partial _ hval (by simp)
    have herr := text_round_err' h0 hbig
    rw [e7] at *
    rw [abs_le] at herr
    refine ⟨fun c hc => ?_, fun e he => ?_⟩
    · obtain ⟨w, hw, hd⟩ := c1 c hc
      simp only [F64.val?, Option.some.injEq] at hw
      rw [abs_le] at hd ⊢
      rw [hec] at hd; rw [het]
      cases neg <;> simp only [Bool.false_eq_true, if_false, if_true] at hw hv <;> subst hw <;> subst hv <;>
        constructor <;> norm_num at herr hd ⊢ <;> linarith [herr.1, herr.2, hd.1, hd.2]
    · rcases c2 e he with ⟨y, hy, hh⟩ | ⟨y, hy, hh⟩
      · rcases hh with hh | ⟨w, hw, hd⟩
        · cases hh
        left; refine ⟨y, hy, ?_⟩
        simp only [F64.val?, Option.some.injEq] at hw
        rw [hec] at hd; rw [het]
        cases neg <;> simp only [Bool.false_eq_true, if_false, if_true] at hw hv <;> subst hw <;> subst hv <;>
          norm_num at herr hd ⊢ <;> linarith [herr.1, herr.2]
      · rcases hh with hh | ⟨w, hw, hd⟩
        · cases hh
        right; refine ⟨y, hy, ?_⟩
        simp only [F64.val?, Option.some.injEq] at hw
        rw [hec] at hd; rw [het]
        cases neg <;> simp only [Bool.false_eq_true, if_false, if_true] at hw hv <;> subst hw <;> subst hv <;>
          norm_num at herr hd ⊢ <;> linarith [herr.1, herr.2]
  · push Not at hbig
    have hrb := text_round_big hbig
    have hval := ofMag_valid neg h0
    have hnn : F64.ofMag neg q ≠ .nan := by unfold F64.ofMag; simp only; split <;> simp
    obtain ⟨c1, c2⟩ := C03_conversion_partial _ hval hnn
    -- the value of the double, if it is finite
    have hfin : ∀ w, (F64.ofMag neg q).val? = some w → w = if neg then -roundMag q else roundMag q := by
      intro w hw
      unfold F64.ofMag at hw
      simp only at hw
      split at hw
      · simp only [F64.val?, Option.some.injEq] at hw; exact hw.symm
      · cases hw
    rw [e7] at *
    refine ⟨fun c hc => ?_, fun e he => ?_⟩
    · exfalso
      obtain ⟨w, hw, hd⟩ := c1 c hc
      have hw' := hfin w hw
      have b1 := c.toInt_lt; have b2 := c.le_toInt
      have b1' : (c.toInt : ℚ) ≤ 2147483647 := by exact_mod_cast (by omega : c.toInt ≤ 2147483647)
      have b2' : (-2147483648 : ℚ) ≤ c.toInt := by exact_mod_cast (by omega : -2147483648 ≤ c.toInt)
      rw [abs_le, hec] at hd
      cases neg <;> simp only [Bool.false_eq_true, if_false, if_true] at hw' <;> subst hw' <;>
        norm_num at hd <;> linarith [hd.1, hd.2]
    · rcases c2 e he with ⟨y, hy, hh⟩ | ⟨y, hy, hh⟩
      · left; refine ⟨y, hy, ?_⟩
        cases neg with
        | false =>
          simp only [Bool.false_eq_true, if_false] at hv; subst hv; rw [het]
          norm_num at hbig ⊢; linarith
        | true =>
          exfalso
          rcases hh with hh | ⟨w, hw, hd⟩
          · unfold F64.ofMag at hh; simp only at hh; split at hh <;> cases hh
          · have hw' := hfin w hw
            simp only [if_true] at hw'; subst hw'
            rw [hec] at hd; norm_num at hd; linarith
      · right; refine ⟨y, hy, ?_⟩
        cases neg with
        | true =>
          simp only [if_true] at hv; subst hv; rw [het]
          norm_num at hbig ⊢; linarith
        | false =>
          exfalso
          rcases hh with hh | ⟨w, hw, hd⟩
          · unfold F64.ofMag at hh; simp only at hh; split at hh <;> cases hh
          · have hw' := hfin w hw
            simp only [Bool.false_eq_true, if_false] at hw'; subst hw'
            rw [hec] at hd; norm_num at hd; linarith

/-- **C67.** A decimal text that is clearly nearest to one unit is read as that unit. -/
theorem C67_accepts_nearest (s : Str) (v : ℚ) (h : Spec.IsDecimal s v) (c : Int32)
    (hc : |(c.toInt : ℚ) - v * 10 ^ 7| < 1 / 2 - textEps) : innerFromStr s = .ok c := by
  obtain ⟨h1, h2⟩ := C67_accuracy s v h
  have b1 := c.toInt_lt; have b2 := c.le_toInt
  have b1' : (c.toInt : ℚ) ≤ 2147483647 := by exact_mod_cast (by omega : c.toInt ≤ 2147483647)
  have b2' : (-2147483648 : ℚ) ≤ (c.toInt : ℚ) := by exact_mod_cast (by omega : -2147483648 ≤ c.toInt)
  rw [abs_lt] at hc
  cases hr : innerFromStr s with
  | ok d =>
    have hd := h1 d hr
    rw [abs_le] at hd
    have e1 : c.toInt - d.toInt < 1 := by
      have : (c.toInt : ℚ) - d.toInt < 1 := by linarith [hc.2, hd.1]
      exact_mod_cast this
    have e2 : d.toInt - c.toInt < 1 := by
      have : (d.toInt : ℚ) - c.toInt < 1 := by linarith [hc.1, hd.2]
      exact_mod_cast this
    congr 1
    exact Int32.toInt_inj.mp (by omega)
  | error e =>
    exfalso
    rcases h2 e hr with ⟨y, -, hd⟩ | ⟨y, -, hd⟩
    · linarith [hc.1]
    · linarith [hc.2]

/-- **C67.** Text that stands for a larger number is never read as a smaller coordinate. -/
theorem C67_monotone (s t : Str) (v w : ℚ) (hs : Spec.IsDecimal s v) (ht : Spec.IsDecimal t w)
    (hle : v ≤ w) (c d : Int32) (hc : innerFromStr s = .ok c) (hd : innerFromStr t = .ok d) :
    c.toInt ≤ d.toInt := by
  obtain ⟨a, p, p0, hv, hp⟩ := parseF64_decimal hs
  obtain ⟨b, q, q0, hw, hq⟩ := parseF64_decimal ht
  rw [fromStr_of_parse hp] at hc
  rw [fromStr_of_parse hq] at hd
  have fin : ∀ (a : Bool) (p : ℚ) (c : Int32), innerTryFromF64 (F64.ofMag a p) = .ok c →
      F64.ofMag a p = .fin a (roundMag p) := by
    intro a p c h
    unfold F64.ofMag at h ⊢
    simp only at h ⊢
    split at h
    · rename_i hlt; rw [if_pos hlt]
    · exfalso
      cases a
      · simp [innerTryFromF64, scale_eq, F64.mul, i32max_eq, F64.round, F64.gt, F64.lt] at h
      · simp [innerTryFromF64, scale_eq, F64.mul, i32max_eq, i32min_eq, F64.round, F64.gt, F64.lt] at h
  have ha := fin a p c hc
  have hb := fin b q d hd
  refine C04_tryFrom_monotone _ _ (ofMag_valid a p0) (ofMag_valid b q0)
    (if a then -roundMag p else roundMag p) (if b then -roundMag q else roundMag q) ?_ ?_ ?_ c d hc hd
  · rw [ha]; rfl
  · rw [hb]; rfl
  · have n1 := roundMag_nonneg p0; have n2 := roundMag_nonneg q0
    cases a <;> cases b <;> simp only [Bool.false_eq_true, if_false, if_true] at hv hw ⊢
    · exact roundMag_mono p0 (by linarith)
    · have e1 : p = 0 := by linarith
      have e2 : q = 0 := by linarith
      rw [e1, e2, roundMag_zero]; simp
    · linarith
    · have := roundMag_mono q0 (show q ≤ p by linarith)
      linarith

/-- A concrete case: `-0.12300e1` is read as -12300000 units. -/
example : innerFromStr "-0.12300e1".toList = .ok (Int32.ofInt (-12300000)) := by
  apply C67_exact
  refine ⟨['-'], ['0'], ['.'], ['1', '2', '3', '0', '0'], ['e', '1'], 1, by decide, by simp, by simp, by simp,
    by decide, by decide, ?_, ?_⟩
  · exact .some 'e' [] ['1'] (by simp) (by simp) (by simp) (by decide)
  · have h1 : (Int32.ofInt (-12300000)).toInt = -12300000 := by decide
    have h2 : Spec.number (['0'] ++ ['1', '2', '3', '0', '0']) = 12300 := by decide
    rw [h1, h2]; norm_num

/-- Text that is not a number. -/
example : innerFromStr "1.5 N".toList = .error (.parseFloat .invalid) := by
  rw [C03_fromStr]; decide +kernel

end Osmio
