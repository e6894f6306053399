import Verif.Proofs.Decimal
import Verif.Spec.Coord
/-!
# Properties C01–C04: coordinates
-/

namespace Osmio

/-! ## C01 -/

/-- **C01.** For every latitude, `Lat::try_from(lat.degrees())` is `Ok(lat)`. -/
theorem C01_lat_degrees_roundtrip (l : Lat) : Lat.tryFromF64 l.degrees = .ok l := by
  unfold Lat.tryFromF64 Lat.degrees; rw [innerTryFrom_degrees]; rfl

/-- **C01.** For every longitude, `Lon::try_from(lon.degrees())` is `Ok(lon)`. -/
theorem C01_lon_degrees_roundtrip (l : Lon) : Lon.tryFromF64 l.degrees = .ok l := by
  unfold Lon.tryFromF64 Lon.degrees; rw [innerTryFrom_degrees]; rfl

/-- **C01**, the other conversions: `f64::from` gives a number that converts back, and `from_inner` and `inner` are inverse to each other. -/
theorem C01_conversions (l : Lat) (m : Lon) (i : Int32) : Lat.tryFromF64 l.toF64 = .ok l ∧ Lon.tryFromF64 m.toF64 = .ok m ∧
    Lat.tryFromF64 (Lat.fromInner i).degrees = .ok (Lat.fromInner i) ∧ Lon.tryFromF64 (Lon.fromInner i).degrees = .ok (Lon.fromInner i) ∧
    Lat.fromInner l.innerOf = l ∧ (Lat.fromInner i).innerOf = i ∧ Lon.fromInner m.innerOf = m ∧ (Lon.fromInner i).innerOf = i :=
  ⟨C01_lat_degrees_roundtrip l, C01_lon_degrees_roundtrip m, C01_lat_degrees_roundtrip _, C01_lon_degrees_roundtrip _, rfl, rfl, rfl, rfl⟩

/-- **C01**, what `degrees` is: the double nearest to `inner / 10^7`, with relative error at most 2⁻⁵³. -/
theorem C01_degrees_accuracy (i : Int32) (hi : i.toInt ≠ 0) :
    ∃ v : ℚ, (latLonInnerToDegrees i).val? = some v ∧
      |v - (i.toInt : ℚ) / 10 ^ 7| ≤ |(i.toInt : ℚ) / 10 ^ 7| * 2 ^ (-53 : ℤ) := by
  have h1 := i.toInt_lt; have h2 := i.le_toInt
  have h0 : (1 : ℚ) ≤ (i.toInt.natAbs : ℚ) := by
    have : 1 ≤ i.toInt.natAbs := by omega
    exact_mod_cast this
  have hnorm : (2 : ℚ) ^ (-1022 : ℤ) ≤ (i.toInt.natAbs : ℚ) / 10000000 := by
    refine le_trans (zpow_le_zpow_right₀ (by norm_num) (by norm_num : (-1022 : ℤ) ≤ -30)) ?_
    rw [le_div_iff₀ (by norm_num)]
    have : (2 : ℚ) ^ (-30 : ℤ) = 1 / 1073741824 := by norm_num
    rw [this]; linarith
  have e := roundMag_relErr hnorm
  rw [degrees_eq]
  refine ⟨_, rfl, ?_⟩
  rw [show (10 : ℚ) ^ 7 = 10000000 by norm_num]
  by_cases hneg : i.toInt < 0
  · have hc : (i.toInt : ℚ) = -(i.toInt.natAbs : ℚ) := by
      have : i.toInt = -(i.toInt.natAbs : ℤ) := by omega
      exact_mod_cast this
    simp only [hneg, decide_true, if_true]
    rw [hc, neg_div, abs_neg, abs_of_nonneg (by positivity : (0:ℚ) ≤ (i.toInt.natAbs : ℚ) / 10000000)]
    rw [show -roundMag ((i.toInt.natAbs : ℚ) / 10000000) - -((i.toInt.natAbs : ℚ) / 10000000)
      = -(roundMag ((i.toInt.natAbs : ℚ) / 10000000) - (i.toInt.natAbs : ℚ) / 10000000) by ring, abs_neg]
    exact e
  · have hc : (i.toInt : ℚ) = (i.toInt.natAbs : ℚ) := by
      have : i.toInt = (i.toInt.natAbs : ℤ) := by omega
      rw [this]; simp
    simp only [hneg, decide_false, Bool.false_eq_true, if_false]
    rw [hc, abs_of_nonneg (by positivity : (0:ℚ) ≤ (i.toInt.natAbs : ℚ) / 10000000)]
    exact e

/-- C01 is about real coordinates: a concrete one. -/
example : Lat.tryFromF64 (Lat.degrees ⟨Int32.ofInt (-512345678)⟩) = .ok ⟨Int32.ofInt (-512345678)⟩ :=
  C01_lat_degrees_roundtrip _

/-! ## C02 -/

theorem number_eq {s : Str} {acc n : Nat} (h : digitsVal acc s = some n) :
    s.foldl (fun a c => 10 * a + Spec.digit c) acc = n := by
  induction s generalizing acc with
  | nil => simpa [digitsVal] using h
  | cons c cs ih =>
    simp only [digitsVal] at h
    cases hd : digitVal? c with
    | none => rw [hd] at h; simp at h
    | some d =>
      rw [hd] at h
      have : Spec.digit c = d := by
        unfold digitVal? at hd; unfold Spec.digit
        split at hd <;> simp_all
      rw [List.foldl_cons, this]; exact ih h

theorem natStr_head_zero (n : Nat) (h : (natStr n).head? = some '0') : natStr n = ['0'] := by
  induction n using Nat.strongRecOn with
  | _ n ih =>
    by_cases hn : n < 10
    · unfold natStr at h ⊢
      rw [if_pos hn] at h ⊢
      simp at h; rw [h]
    · exfalso
      have h' : (natStr (n / 10)).head? = some '0' := by
        rw [natStr, if_neg hn] at h
        cases hs : natStr (n / 10) with
        | nil => exact absurd hs (natStr_ne_nil _)
        | cons c cs => rw [hs] at h; simpa using h
      have h2 := ih (n / 10) (by omega) h'
      have h3 := digitsVal_natStr (n / 10)
      rw [h2] at h3
      have : digitsVal 0 ['0'] = some 0 := by decide
      rw [this] at h3
      simp at h3; omega

theorem display_isCoordText (i : Int32) :
    Spec.IsCoordText (dispF64 (latLonInnerToDegrees i)) i.toInt := by
  rw [display_coord]
  set N := i.toInt.natAbs with hN
  set F := stripZeros (padNat 7 (N % 10 ^ 7)) with hF
  obtain ⟨j, hj⟩ := stripZeros_decomp (padNat 7 (N % 10 ^ 7))
  rw [← hF] at hj
  have hFd : ∀ c ∈ F, isDigit c = true := fun c hc => padNat_isDigit _ _ c (stripZeros_mem hc)
  have hlen : F.length + j = 7 := by
    have := congrArg List.length hj
    rw [padNat_length] at this; simp at this; omega
  obtain ⟨n, hn⟩ := digitsVal_isSome hFd 0
  have hval : n * 10 ^ j = N % 10 ^ 7 := by
    have h := digitsVal_padNat 0 7 (N % 10 ^ 7)
    rw [hj, digitsVal_append, hn] at h
    simp only [Option.bind_some, digitsVal_zeros, Option.some.injEq] at h
    rw [h]; simp
  refine ⟨natStr (N / 10 ^ 7), F, ?_, natStr_ne_nil _, natStr_isDigit _, hFd,
    natStr_head_zero _, by omega, ?_, ?_⟩
  · unfold coordText; rw [← hF, List.append_assoc]
  · intro h; exact stripZeros_getLast _ _ h rfl
  · have h1 : Spec.number (natStr (N / 10 ^ 7)) = N / 10 ^ 7 := number_eq (digitsVal_natStr _)
    have h2 : Spec.number F = n := number_eq hn
    have h3 : 7 - F.length = j := by omega
    rw [h1, h2, h3, hval]
    have := Nat.div_add_mod N (10 ^ 7); omega

/-- **C02.** The text printed for a latitude is exactly `inner / 10^7` in plain decimal notation. -/
theorem C02_lat_display_exact (l : Lat) : Spec.IsCoordText l.display l.inner.toInt :=
  display_isCoordText l.inner

/-- **C02.** The text printed for a longitude is exactly `inner / 10^7` in plain decimal notation. -/
theorem C02_lon_display_exact (l : Lon) : Spec.IsCoordText l.display l.inner.toInt :=
  display_isCoordText l.inner

/-- **C02.** Parsing the printed text gives the latitude back. -/
theorem C02_lat_text_roundtrip (l : Lat) : Lat.fromStr l.display = .ok l := by
  unfold Lat.fromStr Lat.display Lat.degrees; rw [innerFromStr_display]; rfl

/-- **C02.** Parsing the printed text gives the longitude back. -/
theorem C02_lon_text_roundtrip (l : Lon) : Lon.fromStr l.display = .ok l := by
  unfold Lon.fromStr Lon.display Lon.degrees; rw [innerFromStr_display]; rfl

/-- The specification of C02 pins the text: a concrete coordinate. -/
example : (Lat.display ⟨Int32.ofInt (-12300000)⟩) = ['-', '1', '.', '2', '3'] := by
  rw [Lat.display, Lat.degrees, display_coord]
  decide +kernel

/-! ## C03 -/

/-- Largest deviation from exact half-unit rounding, caused by rounding the product to a double. -/
def convEps : ℚ := 1 / 2 ^ 21

theorem prod_err {m : ℚ} (hb : m * 10000000 ≤ 2 ^ 32) :
    max (m * 10000000 * 2 ^ (-53 : ℤ)) (2 ^ (-1075 : ℤ)) ≤ convEps := by
  unfold convEps
  apply max_le
  · rw [pow53]; norm_num at hb ⊢; linarith
  · exact tiny.trans (by rw [pow60]; norm_num)

/-- If the rounded product is at most 2^31 then so, nearly, was the exact one. -/
theorem prod_bound {m : ℚ} (h : roundUnits m ≤ 2147483648) : m * 10000000 ≤ 2 ^ 32 := by
  by_contra hgt
  push Not at hgt
  have h1 := roundUnits_mono (p := 2 ^ 32 / 10000000) (q := m) (by norm_num) (by
    rw [div_le_iff₀ (by norm_num)]; exact hgt.le)
  have h2 : roundUnits (2 ^ 32 / 10000000) = 2 ^ 32 := by
    unfold roundUnits
    rw [div_mul_cancel₀ _ (by norm_num)]
    have : ((2 : ℚ) ^ 32) = ((2 ^ 32 : ℕ) : ℚ) := by norm_num
    rw [this, roundMag_nat (by norm_num)]
    norm_num
  omega

theorem ofInt_toInt32 {z : ℤ} (h1 : -2147483648 ≤ z) (h2 : z ≤ 2147483647) :
    (Int32.ofInt z).toInt = z := by
  rw [Int32.toInt_ofInt, Int.bmod_def]; simp only [Int32.size]; omega

/-- **C03 (partial).** Accuracy and range of the conversion of every double that is not a NaN:
`Ok(c)` means `c` is within half a unit (plus `2^-21`) of the exact number of units; the two range
errors are returned only for values that really are outside (up to the same tolerance); infinities are
errors. The full property also says that NaN is rejected, which is false, see `C03_nan_rejected_fails`. -/
theorem C03_conversion_partial (x : F64) (hx : x.Valid) (hnan : x ≠ .nan) :
    (∀ c, innerTryFromF64 x = .ok c →
      ∃ v, x.val? = some v ∧ |(c.toInt : ℚ) - v * 10 ^ 7| ≤ 1 / 2 + convEps) ∧
    (∀ e, innerTryFromF64 x = .error e →
      (∃ y, e = .tooLarge y ∧ (x = .inf false ∨ ∃ v, x.val? = some v ∧ 2147483647 + 1 / 2 - convEps ≤ v * 10 ^ 7)) ∨
      (∃ y, e = .tooSmall y ∧ (x = .inf true ∨ ∃ v, x.val? = some v ∧ v * 10 ^ 7 ≤ -2147483648 - 1 / 2 + convEps))) := by
  have he : (10 : ℚ) ^ 7 = 10000000 := by norm_num
  rw [he]
  cases x with
  | nan => exact absurd rfl hnan
  | inf a =>
    cases a with
    | false =>
      have hv : innerTryFromF64 (.inf false) = .error (.tooLarge (.inf false)) := by
        simp [innerTryFromF64, scale_eq, F64.mul, i32max_eq, F64.round, F64.gt, F64.lt]
      rw [hv]
      refine ⟨by simp, ?_⟩
      intro e h
      left; refine ⟨_, (Except.error.inj h).symm, Or.inl rfl⟩
    | true =>
      have hv : innerTryFromF64 (.inf true) = .error (.tooSmall (.inf true)) := by
        simp [innerTryFromF64, scale_eq, F64.mul, i32max_eq, i32min_eq, F64.round, F64.gt, F64.lt]
      rw [hv]
      refine ⟨by simp, ?_⟩
      intro e h
      right; refine ⟨_, (Except.error.inj h).symm, Or.inl rfl⟩
  | fin a m =>
    obtain ⟨hm, -, -⟩ := hx
    have herr := roundUnits_err hm
    have hnn := roundUnits_nonneg hm
    have hbig : ∀ B : ℕ, (B : ℤ) < roundUnits m → B ≤ 2147483648 →
        (B : ℚ) + 1 / 2 - convEps ≤ m * 10000000 := by
      intro B hB hB2
      by_contra hlt
      push Not at hlt
      have hB2' : (B : ℚ) ≤ 2147483648 := by exact_mod_cast hB2
      have hc : (0 : ℚ) < convEps := by norm_num [convEps]
      have hb : m * 10000000 ≤ 2 ^ 32 := by norm_num; linarith
      have hle := herr.trans (add_le_add_right (prod_err hb) _)
      -- use a sharper bound: the rounding error is below convEps, so the rounded product is below B+1/2
      have hr := roundMag_err (q := m * 10000000) (by positivity)
      have hr2 := hr.trans (prod_err hb)
      rw [abs_le] at hr2
      have hlt2 : roundMag (m * 10000000) + 1 / 2 < (B : ℚ) + 1 := by linarith [hr2.2]
      have : roundUnits m < (B : ℤ) + 1 := Int.floor_lt.mpr (by push_cast; exact hlt2)
      omega
    rw [innerTryFrom_fin hm]
    cases a with
    | false =>
      simp only [Bool.false_eq_true, if_false, F64.val?]
      by_cases hr : roundUnits m ≤ 2147483647
      · rw [if_pos hr]
        refine ⟨?_, by simp⟩
        intro c hc
        have hc := Except.ok.inj hc
        refine ⟨m, rfl, ?_⟩
        rw [← hc, ofInt_toInt32 (by omega) hr]
        exact herr.trans (add_le_add_right (prod_err (prod_bound (by omega))) _)
      · rw [if_neg hr]
        refine ⟨by simp, ?_⟩
        intro e h
        left; refine ⟨_, (Except.error.inj h).symm, Or.inr ⟨m, rfl, ?_⟩⟩
        have := hbig 2147483647 (by omega) (by omega)
        push_cast at this; exact this
    | true =>
      simp only [if_true, F64.val?]
      by_cases hr : roundUnits m ≤ 2147483648
      · rw [if_pos hr]
        refine ⟨?_, by simp⟩
        intro c hc
        have hc := Except.ok.inj hc
        refine ⟨-m, rfl, ?_⟩
        rw [← hc, ofInt_toInt32 (by omega) (by omega)]
        push_cast
        rw [show -(roundUnits m : ℚ) - -m * 10000000 = -((roundUnits m : ℚ) - m * 10000000) by ring, abs_neg]
        exact herr.trans (add_le_add_right (prod_err (prod_bound hr)) _)
      · rw [if_neg hr]
        refine ⟨by simp, ?_⟩
        intro e h
        right; refine ⟨_, (Except.error.inj h).symm, Or.inr ⟨-m, rfl, ?_⟩⟩
        have := hbig 2147483648 (by omega) (by omega)
        push_cast at this; linarith

/-- **C03.** Values well inside the range are always accepted, as the nearest unit. -/
theorem C03_accepts_nearest (x : F64) (hx : x.Valid) (v : ℚ) (hv : x.val? = some v) (c : Int32)
    (hc : |(c.toInt : ℚ) - v * 10 ^ 7| < 1 / 2 - convEps) : innerTryFromF64 x = .ok c := by
  have hnan : x ≠ .nan := by intro h; subst h; simp [F64.val?] at hv
  obtain ⟨h1, h2⟩ := C03_conversion_partial x hx hnan
  have b1 := c.toInt_lt; have b2 := c.le_toInt
  have b1' : (c.toInt : ℚ) ≤ 2147483647 := by exact_mod_cast (by omega : c.toInt ≤ 2147483647)
  have b2' : (-2147483648 : ℚ) ≤ (c.toInt : ℚ) := by exact_mod_cast (by omega : -2147483648 ≤ c.toInt)
  have hce : convEps = 1 / 2 ^ 21 := rfl
  rw [abs_lt] at hc
  cases hr : innerTryFromF64 x with
  | ok d =>
    obtain ⟨w, hw, hd⟩ := h1 d hr
    rw [hv] at hw; obtain rfl := Option.some.inj hw
    rw [abs_le] at hd
    have hlt1 : (c.toInt : ℚ) - d.toInt < 1 := by linarith [hc.2, hd.1]
    have hlt2 : (d.toInt : ℚ) - c.toInt < 1 := by linarith [hc.1, hd.2]
    have e1 : c.toInt - d.toInt < 1 := by exact_mod_cast hlt1
    have e2 : d.toInt - c.toInt < 1 := by exact_mod_cast hlt2
    congr 1
    exact Int32.toInt_inj.mp (by omega)
  | error e =>
    exfalso
    rcases h2 e hr with ⟨y, -, h | ⟨w, hw, hd⟩⟩ | ⟨y, -, h | ⟨w, hw, hd⟩⟩
    · subst h; simp [F64.val?] at hv
    · rw [hv] at hw; obtain rfl := Option.some.inj hw
      linarith [hc.1]
    · subst h; simp [F64.val?] at hv
    · rw [hv] at hw; obtain rfl := Option.some.inj hw
      linarith [hc.2]

/-- **C03.** Text that is not a number is rejected, other text is converted like the double it names. -/
theorem C03_fromStr (s : Str) :
    innerFromStr s = match parseF64 s with
      | none => .error (.parseFloat (parseFloatError s))
      | some x => innerTryFromF64 x := by
  unfold innerFromStr innerTryFromF64; rfl

/-- **C03, counterexample.** The full property says a NaN is rejected; it is accepted as coordinate 0,
both as a double and as text. -/
theorem C03_nan_rejected_fails :
    innerTryFromF64 .nan = .ok 0 ∧ innerFromStr ['n', 'a', 'n'] = .ok 0 ∧
    ¬ (∀ x : F64, x.Valid → x.val? = none → ∃ e, innerTryFromF64 x = .error e) := by
  have h : innerTryFromF64 .nan = .ok 0 := by
    simp [innerTryFromF64, F64.mul, F64.round, F64.gt, F64.lt, i32max_eq, F64.toI32]
  refine ⟨h, ?_, ?_⟩
  · rw [C03_fromStr]
    have : parseF64 ['n', 'a', 'n'] = some .nan := by
      have h1 : ['n', 'a', 'n'].map toLowerAscii = ['n', 'a', 'n'] := by decide
      simp [parseF64, parseUnsignedF64, h1]
    rw [this]; exact h
  · intro hall
    obtain ⟨e, he⟩ := hall .nan trivial rfl
    rw [h] at he; cases he

/-- The hypotheses of C03 are met by an ordinary number: 1.5 degrees is 15000000 units. -/
example : innerTryFromF64 (.fin false (3 / 2)) = .ok (Int32.ofInt 15000000) := by
  apply C03_accepts_nearest _ _ (3 / 2) rfl
  · rw [ofInt_toInt32 (by norm_num) (by norm_num)]; norm_num [convEps]
  · refine ⟨by norm_num, by decide +kernel, ?_⟩
    exact lt_of_lt_of_le (by norm_num : (3 / 2 : ℚ) < 2 ^ (1 : ℤ))
      (zpow_le_zpow_right₀ (by norm_num) (by norm_num))

/-! ## C04 -/

theorem signed_ok {a : Bool} {m : ℚ} {c : Int32} (hm : 0 ≤ m)
    (h : innerTryFromF64 (.fin a m) = .ok c) : c.toInt = if a then -roundUnits m else roundUnits m := by
  have hnn := roundUnits_nonneg hm
  rw [innerTryFrom_fin hm] at h
  cases a with
  | false =>
    simp only [Bool.false_eq_true, if_false] at h ⊢
    split at h
    · rw [← Except.ok.inj h, ofInt_toInt32 (by omega) (by omega)]
    · cases h
  | true =>
    simp only [if_true] at h ⊢
    split at h
    · rw [← Except.ok.inj h, ofInt_toInt32 (by omega) (by omega)]
    · cases h

/-- **C04.** Converting a larger number of degrees never gives a smaller coordinate. -/
theorem C04_tryFrom_monotone (x y : F64) (hx : x.Valid) (hy : y.Valid) (v w : ℚ)
    (hv : x.val? = some v) (hw : y.val? = some w) (hle : v ≤ w) (c d : Int32)
    (hc : innerTryFromF64 x = .ok c) (hd : innerTryFromF64 y = .ok d) : c.toInt ≤ d.toInt := by
  cases x with
  | nan => simp [F64.val?] at hv
  | inf a => simp [F64.val?] at hv
  | fin a m =>
    cases y with
    | nan => simp [F64.val?] at hw
    | inf a => simp [F64.val?] at hw
    | fin b n =>
      have hm := hx.1; have hn := hy.1
      rw [signed_ok hm hc, signed_ok hn hd]
      have r1 := roundUnits_nonneg hm; have r2 := roundUnits_nonneg hn
      simp only [F64.val?, Option.some.injEq] at hv hw
      cases a <;> cases b <;> simp only [Bool.false_eq_true, if_false, if_true] at hv hw ⊢
      · exact roundUnits_mono hm (by linarith)
      · have e1 : m = 0 := by linarith
        have e2 : n = 0 := by linarith
        subst e1; subst e2
        have : roundUnits 0 = 0 := by simp [roundUnits, roundMag_zero]; norm_num
        omega
      · omega
      · have := roundUnits_mono hn (show n ≤ m by linarith)
        omega

theorem degrees_val (i : Int32) : (latLonInnerToDegrees i).val? =
    some (if i.toInt < 0 then -roundMag ((i.toInt.natAbs : ℚ) / 10000000)
      else roundMag ((i.toInt.natAbs : ℚ) / 10000000)) := by
  rw [degrees_eq]; simp [F64.val?]

theorem degrees_mono {i j : Int32} (h : i.toInt ≤ j.toInt) (v w : ℚ)
    (hv : (latLonInnerToDegrees i).val? = some v) (hw : (latLonInnerToDegrees j).val? = some w) :
    v ≤ w := by
  rw [degrees_val] at hv hw
  obtain rfl := Option.some.inj hv
  obtain rfl := Option.some.inj hw
  have mono : ∀ a b : ℕ, a ≤ b → roundMag ((a : ℚ) / 10000000) ≤ roundMag ((b : ℚ) / 10000000) := by
    intro a b hab
    apply roundMag_mono (by positivity)
    have : (a : ℚ) ≤ b := by exact_mod_cast hab
    exact div_le_div_of_nonneg_right this (by norm_num)
  have nn : ∀ a : ℕ, 0 ≤ roundMag ((a : ℚ) / 10000000) := fun a => roundMag_nonneg (by positivity)
  by_cases hi : i.toInt < 0 <;> by_cases hj : j.toInt < 0 <;> simp only [hi, hj, if_true, if_false]
  · have := mono j.toInt.natAbs i.toInt.natAbs (by omega); linarith
  · have := nn i.toInt.natAbs; have := nn j.toInt.natAbs; linarith
  · omega
  · exact mono _ _ (by omega)

theorem F64_lt_iff {x y : F64} {v w : ℚ} (hv : x.val? = some v) (hw : y.val? = some w) :
    x.lt y = true ↔ v < w := by
  cases x <;> cases y <;> simp_all [F64.val?, F64.lt]

/-- **C04.** The order of latitudes is the order of their degrees. -/
theorem C04_degrees_order (a b : Lat) : a.lt b = true ↔ a.degrees.lt b.degrees = true := by
  have ha := degrees_val a.inner; have hb := degrees_val b.inner
  unfold Lat.degrees
  rw [F64_lt_iff ha hb]
  simp only [Lat.lt, decide_eq_true_eq]
  constructor
  · intro h
    rcases lt_or_ge
      (if a.inner.toInt < 0 then -roundMag ((a.inner.toInt.natAbs : ℚ) / 10000000)
        else roundMag ((a.inner.toInt.natAbs : ℚ) / 10000000))
      (if b.inner.toInt < 0 then -roundMag ((b.inner.toInt.natAbs : ℚ) / 10000000)
        else roundMag ((b.inner.toInt.natAbs : ℚ) / 10000000)) with h1 | h1
    · exact h1
    · exfalso
      have h2 := degrees_mono h.le _ _ ha hb
      have heq := le_antisymm h1 h2
      -- equal values convert back to equal coordinates
      have ea := innerTryFrom_degrees a.inner
      have eb := innerTryFrom_degrees b.inner
      rw [degrees_eq] at ea eb ha hb
      have va := signed_ok (roundMag_nonneg (by positivity)) ea
      have vb := signed_ok (roundMag_nonneg (by positivity)) eb
      have nna : 0 ≤ roundMag ((a.inner.toInt.natAbs : ℚ) / 10000000) := roundMag_nonneg (by positivity)
      have nnb : 0 ≤ roundMag ((b.inner.toInt.natAbs : ℚ) / 10000000) := roundMag_nonneg (by positivity)
      by_cases hi : a.inner.toInt < 0 <;> by_cases hj : b.inner.toInt < 0 <;>
        simp only [hi, hj, if_true, if_false, decide_true, decide_false, Bool.false_eq_true] at heq va vb
      · have : roundMag ((a.inner.toInt.natAbs : ℚ) / 10000000) = roundMag ((b.inner.toInt.natAbs : ℚ) / 10000000) := by linarith
        rw [this] at va; omega
      · have z1 : roundMag ((a.inner.toInt.natAbs : ℚ) / 10000000) = 0 := by linarith
        rw [z1] at va
        have : roundUnits 0 = 0 := by simp [roundUnits, roundMag_zero]; norm_num
        omega
      · omega
      · rw [← heq] at va; omega
  · intro h
    by_contra hge
    have := degrees_mono (not_lt.mp hge) _ _ hb ha
    linarith

/-- The order claims are not vacuous: two concrete coordinates in order. -/
example : Lat.lt ⟨Int32.ofInt (-5)⟩ ⟨Int32.ofInt 7⟩ = true := by decide

/-- **C04.** The order of longitudes is the order of their degrees. -/
theorem C04_lon_degrees_order (a b : Lon) : a.lt b = true ↔ a.degrees.lt b.degrees = true :=
  C04_degrees_order ⟨a.inner⟩ ⟨b.inner⟩

end Osmio
