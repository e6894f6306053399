import Verif.Props.CoordText
import Verif.Model.LatLonDebug
/-! # Properties: `Debug` of coordinates (C72) -/

namespace Osmio

theorem number_natStr (n : Nat) : Spec.number (natStr n) = n := by
  have h := digitsVal_spec_number (natStr_isDigit n)
  rw [digitsVal_natStr] at h
  exact (Option.some.inj h).symm

theorem number_append (a b : Str) : Spec.number (a ++ b) = Spec.number a * 10 ^ b.length + Spec.number b := by
  unfold Spec.number
  rw [List.foldl_append]
  generalize a.foldl (fun a c => 10 * a + Spec.digit c) 0 = x
  have key : ∀ (b : Str) (x y : Nat), b.foldl (fun a c => 10 * a + Spec.digit c) (x + y) =
      x * 10 ^ b.length + b.foldl (fun a c => 10 * a + Spec.digit c) y := by
    intro b
    induction b with
    | nil => intro x y; simp
    | cons c b ih =>
      intro x y
      rw [List.foldl_cons, List.foldl_cons, show 10 * (x + y) + Spec.digit c = 10 * x + (10 * y + Spec.digit c) by ring, ih]
      rw [List.length_cons, pow_succ]; ring
  exact key b x 0

theorem number_zeros (j : Nat) : Spec.number (List.replicate j '0') = 0 := by
  have h : ∀ c ∈ List.replicate j '0', isDigit c = true := by
    intro c hc; rw [List.eq_of_mem_replicate hc]; decide
  have h1 := digitsVal_spec_number h
  rw [digitsVal_zeros] at h1
  simpa using (Option.some.inj h1).symm

/-- The threshold separates the coordinates of one to three digits from the others. -/
theorem small_iff {N : Nat} (h0 : 0 < N) (hN : N ≤ 2 ^ 31) :
    ((10 : ℚ) ^ 16 ≤ roundMag ((N : ℚ) / 10000000) ∨ roundMag ((N : ℚ) / 10000000) < roundMag (1 / 10000)) ↔ N < 1000 := by
  obtain ⟨f1, f2, f3, f4⟩ := coord_facts h0 hN
  constructor
  · rintro (h | h)
    · exfalso; norm_num at h f3; linarith
    · by_contra hc
      have hc : 1000 ≤ N := by omega
      have hc' : (1000 : ℚ) ≤ N := by exact_mod_cast hc
      have : roundMag (1 / 10000) ≤ roundMag ((N : ℚ) / 10000000) :=
        roundMag_mono (by norm_num) (by rw [div_le_div_iff₀ (by norm_num) (by norm_num)]; linarith)
      linarith
  · intro h
    right
    obtain ⟨g1, _, _, _⟩ := coord_facts (N := 1000) (by norm_num) (by norm_num)
    have e : ((1000 : ℕ) : ℚ) / 10000000 = 1 / 10000 := by norm_num
    simp only [e] at g1
    have h' : (N : ℚ) ≤ 999 := by exact_mod_cast (by omega : N ≤ 999)
    rw [abs_le] at f1 g1
    have : (N : ℚ) / 10000000 ≤ 999 / 10000000 := div_le_div_of_nonneg_right h' (by norm_num)
    norm_num at f1 g1 this ⊢
    linarith [f1.2, g1.1]

theorem debug_zero (i : Int32) (h : i.toInt = 0) : debugF64 (latLonInnerToDegrees i) = ['0', '.', '0'] := by
  rw [degrees_eq, h]
  simp [debugF64, roundMag_zero]

theorem debug_nonzero (i : Int32) (h : i.toInt ≠ 0) : ∃ (d : Nat) (t : ℤ),
    -8 ≤ t ∧ (d : ℚ) * 10 ^ t = (i.toInt.natAbs : ℚ) / 10000000 ∧
    debugF64 (latLonInnerToDegrees i) = (if i.toInt < 0 then ['-'] else []) ++
      if i.toInt.natAbs < 1000 then exponentStr d t else withPoint (coordText i.toInt.natAbs) := by
  have h1 := i.toInt_lt; have h2 := i.le_toInt
  have hN : i.toInt.natAbs ≤ 2 ^ 31 := by omega
  have h0 : 0 < i.toInt.natAbs := by omega
  obtain ⟨d, t, hs, ht, hv⟩ := shortest_coord h0 hN
  obtain ⟨_, f2, _, _⟩ := coord_facts h0 hN
  refine ⟨d, t, ht, hv, ?_⟩
  rw [degrees_eq]
  simp only [debugF64]
  have hne : roundMag ((i.toInt.natAbs : ℚ) / 10000000) ≠ 0 := by
    intro h; rw [h] at f2; norm_num at f2
  rw [if_neg hne, hs]
  simp only [small_iff h0 hN, decimalStr_coord ht hv, decide_eq_true_eq]

theorem stripZeros_head {s : Str} {c : Char} {r : Str} (h : stripZeros s = c :: r) : s.head? = some c := by
  obtain ⟨j, hj⟩ := stripZeros_decomp s
  rw [hj, h]; rfl

/-- Exponent notation of a number of at most three digits of units. -/
theorem exponent_coord {N d : Nat} {t : ℤ} (h0 : 0 < N) (hN : N < 1000) (h : (d : ℚ) * 10 ^ t = (N : ℚ) / 10000000) :
    ∃ (c : Char) (r : Str) (e : Nat),
      exponentStr d t = c :: ((if r = [] then [] else '.' :: r) ++ ['e', '-', Char.ofNat (48 + e)]) ∧
      isDigit c = true ∧ c ≠ '0' ∧ (∀ c ∈ r, isDigit c = true) ∧ r.getLast? ≠ some '0' ∧
      5 ≤ e ∧ e ≤ 7 ∧ e + r.length ≤ 7 ∧ Spec.number (c :: r) * 10 ^ (7 - (e + r.length)) = N := by
  have hd0 : d ≠ 0 := by
    rintro rfl
    have : (0 : ℚ) < (N : ℚ) / 10000000 := by positivity
    rw [← h] at this; simp at this
  obtain ⟨j, hj⟩ := stripZeros_decomp (natStr d)
  have hnum := number_natStr d
  have hdig := natStr_isDigit d
  cases hs : stripZeros (natStr d) with
  | nil =>
    rw [hs] at hj
    rw [hj, List.nil_append, number_zeros] at hnum
    exact absurd hnum.symm hd0
  | cons c r =>
    rw [hs] at hj
    have hlast : (c :: r).getLast? ≠ some '0' := fun hl => stripZeros_getLast (natStr d) '0' (by rw [hs]; exact hl) rfl
    have hcz : c ≠ '0' := by
      rintro rfl
      have hh : (natStr d).head? = some '0' := stripZeros_head hs
      have := natStr_head_zero d hh
      rw [this] at hj
      rw [this] at hnum
      exact hd0 (by rw [← hnum]; decide)
    have hlen : (natStr d).length = r.length + 1 + j := by rw [hj]; simp; omega
    have hcd : ∀ x ∈ c :: r, isDigit x = true := fun x hx => hdig x (by rw [hj]; exact List.mem_append_left _ hx)
    set n := Spec.number (c :: r) with hn
    have hd : d = n * 10 ^ j := by
      rw [← hnum, hj, number_append, number_zeros, List.length_replicate, Nat.add_zero]
    -- size of `n`
    have hc1 : 1 ≤ Spec.digit c ∧ Spec.digit c ≤ 9 := by
      have hc := hcd c (by simp)
      unfold isDigit at hc
      simp only [decide_eq_true_eq] at hc
      unfold Spec.digit
      have : c.toNat ≠ 48 := by
        intro h; apply hcz; rw [← Char.ofNat_toNat c, h]
      omega
    have hlow : 10 ^ r.length ≤ n := by
      rw [hn, show c :: r = [c] ++ r from rfl, number_append]
      have : Spec.number [c] = Spec.digit c := by simp [Spec.number]
      rw [this]; nlinarith [hc1.1, Nat.one_le_pow r.length 10 (by norm_num)]
    have hup : n < 10 ^ (r.length + 1) := by
      have hb : ∀ s : Str, (∀ x ∈ s, isDigit x = true) → Spec.number s < 10 ^ s.length := by
        intro s hs'
        induction s using List.reverseRecOn with
        | nil => simp [Spec.number]
        | append_singleton s x ih =>
          rw [number_append, List.length_append, pow_add]
          have hx := hs' x (by simp)
          unfold isDigit at hx
          simp only [decide_eq_true_eq] at hx
          have h1 : Spec.number [x] = Spec.digit x := by simp [Spec.number]
          have h2 : Spec.digit x ≤ 9 := by unfold Spec.digit; omega
          have := ih (fun y hy => hs' y (by simp [hy]))
          rw [h1]; simp only [List.length_singleton, pow_one]; omega
      have := hb (c :: r) hcd
      simpa using this
    -- the value
    have hval : (n : ℚ) * 10 ^ (t + j + 7) = N := by
      rw [hd] at h
      push_cast at h
      rw [eq_div_iff (by norm_num)] at h
      rw [← h, zpow_add₀ (by norm_num), zpow_add₀ (by norm_num), zpow_natCast]
      norm_num; ring
    -- no digits are lost
    have hu : 0 ≤ t + j + 7 := by
      by_contra hneg
      obtain ⟨k, hk⟩ : ∃ k : ℕ, t + j + 7 = -((k : ℤ) + 1) := ⟨(-(t + j + 7) - 1).toNat, by omega⟩
      rw [hk, zpow_neg, ← div_eq_mul_inv, div_eq_iff (ten_zpow_pos _).ne'] at hval
      have hnat : n = N * 10 ^ (k + 1) := by
        have : (n : ℚ) = ((N * 10 ^ (k + 1) : ℕ) : ℚ) := by
          rw [hval]; push_cast; rw [show ((k : ℤ) + 1) = ((k + 1 : ℕ) : ℤ) by push_cast; rfl, zpow_natCast]
        exact_mod_cast this
      -- then the last digit of `n` is zero
      obtain ⟨s, x, hx⟩ : ∃ s x, c :: r = s ++ [x] := by
        rcases List.eq_nil_or_concat (c :: r) with h | ⟨s, x, h⟩
        · cases h
        · exact ⟨s, x, by simpa using h⟩
      have hxd := hcd x (by rw [hx]; simp)
      unfold isDigit at hxd
      simp only [decide_eq_true_eq] at hxd
      have h1 : Spec.number [x] = Spec.digit x := by simp [Spec.number]
      have h2 : n = Spec.number s * 10 + Spec.digit x := by
        rw [hn, hx, number_append, h1]; simp
      have h3 : Spec.digit x = 0 := by
        have : Spec.digit x ≤ 9 := by unfold Spec.digit; omega
        have h5 : n = N * 10 ^ k * 10 := by rw [hnat, pow_succ]; ring
        generalize N * 10 ^ k = y at h5
        omega
      have h4 : x = '0' := by
        unfold Spec.digit at h3
        have : x.toNat = 48 := by omega
        rw [← Char.ofNat_toNat x, this]
      apply hlast
      rw [hx, h4]; simp
    obtain ⟨u, hu⟩ : ∃ u : ℕ, t + j + 7 = u := ⟨(t + j + 7).toNat, by omega⟩
    have hNn : n * 10 ^ u = N := by
      rw [hu, zpow_natCast] at hval
      exact_mod_cast hval
    have hrl : r.length + u < 3 := by
      by_contra hc
      have h1 : 10 ^ 3 ≤ 10 ^ (r.length + u) := Nat.pow_le_pow_right (by norm_num) (by omega)
      have h2 : 10 ^ r.length * 10 ^ u ≤ n * 10 ^ u := Nat.mul_le_mul_right _ hlow
      rw [← pow_add, hNn] at h2
      omega
    refine ⟨c, r, 7 - (r.length + u), ?_, hcd c (by simp), hcz, fun x hx => hcd x (by simp [hx]), ?_, by omega, by omega,
      by omega, ?_⟩
    · unfold exponentStr
      rw [hs]
      simp only
      have he : t + ((natStr d).length : ℤ) - 1 = -((7 - (r.length + u) : ℕ) : ℤ) := by
        rw [hlen]; push_cast; omega
      rw [he]
      have h3 : ∀ e : ℕ, 5 ≤ e → e ≤ 7 → intStr (-(e : ℤ)) = ['-', Char.ofNat (48 + e)] := by
        intro e h5 h7
        unfold intStr
        rw [if_pos (by omega)]
        have : (-(e : ℤ)).natAbs = e := by omega
        rw [this, natStr, if_pos (by omega)]
        rfl
      rw [h3 _ (by omega) (by omega)]
    · intro hl
      apply hlast
      cases r with
      | nil => simp at hl
      | cons a r => simpa using hl
    · rw [show 7 - (7 - (r.length + u) + r.length) = u by omega]
      exact hNn

/-- Coordinates of less than 10⁻⁴ degrees, other than zero, are shown in exponent notation, exactly. -/
theorem debug_small (i : Int32) (h0 : i.toInt ≠ 0) (h : i.toInt.natAbs < 1000) :
    Spec.IsExponentText (debugF64 (latLonInnerToDegrees i)) i.toInt := by
  obtain ⟨d, t, _, hv, he⟩ := debug_nonzero i h0
  rw [if_pos h] at he
  obtain ⟨c, r, e, h1, h2⟩ := exponent_coord (by omega) h hv
  exact ⟨c, r, e, by rw [he, h1], h2⟩

theorem debug_plain (i : Int32) (h : i.toInt = 0 ∨ 1000 ≤ i.toInt.natAbs) :
    debugF64 (latLonInnerToDegrees i) = dispF64 (latLonInnerToDegrees i) ++
      if '.' ∈ dispF64 (latLonInnerToDegrees i) then [] else ['.', '0'] := by
  rw [display_coord]
  rcases h with h | h
  · rw [debug_zero i h, h]
    decide +kernel
  · obtain ⟨d, t, _, hv, he⟩ := debug_nonzero i (by omega)
    have hbig : ¬ i.toInt.natAbs < 1000 := by omega
    rw [he, if_neg hbig]
    unfold withPoint
    by_cases hn : i.toInt < 0
    · simp only [hn, if_true, List.mem_append, List.mem_singleton, show ¬ '.' = '-' by decide, false_or]
      split <;> simp
    · simp only [hn, if_false, List.nil_append]
      split <;> simp

theorem int_sign (i : Int) : (i : ℚ) = (if i < 0 then -1 else 1) * (i.natAbs : ℚ) := by
  have hc : (i.natAbs : ℚ) = ((i.natAbs : ℤ) : ℚ) := (Int.cast_natCast _).symm
  by_cases h : i < 0
  · rw [if_pos h, hc, Int.ofNat_natAbs_of_nonpos h.le]
    push_cast; ring
  · rw [if_neg h, hc, Int.natAbs_of_nonneg (by omega)]
    ring

theorem isDecimal_of_exponent {s : Str} {i : Int} (h : Spec.IsExponentText s i) :
    Spec.IsDecimal s ((i : ℚ) / 10 ^ 7) := by
  obtain ⟨c, r, e, rfl, hc, _, hr, _, h5, h7, hl, hv⟩ := h
  refine ⟨if i < 0 then ['-'] else [], [c], if r = [] then [] else ['.'], r, ['e', '-', Char.ofNat (48 + e)], -(e : ℤ),
    ?_, ?_, ?_, .inl (by simp), by simpa using hc, hr, ?_, ?_⟩
  · by_cases hr : r = [] <;> simp [hr]
  · by_cases hi : i < 0 <;> simp [hi]
  · by_cases hr : r = [] <;> simp [hr]
  · have hd : ∀ e, 5 ≤ e → e ≤ 7 → isDigit (Char.ofNat (48 + e)) = true ∧ Spec.number [Char.ofNat (48 + e)] = e := by
      intro e h5 h7
      interval_cases e <;> decide
    have := Spec.ExpText.some 'e' ['-'] [Char.ofNat (48 + e)] (.inl rfl) (.inr (.inr rfl)) (by simp)
      (by simpa using (hd e h5 h7).1)
    rw [if_pos rfl, (hd e h5 h7).2] at this
    exact this
  · have hi := int_sign i
    have hs : (if (if i < 0 then ['-'] else []) = ['-'] then (-1 : ℚ) else 1) = if i < 0 then -1 else 1 := by
      by_cases h : i < 0 <;> simp [h]
    rw [hs, hi, ← hv, List.singleton_append]
    push_cast
    have hp : (10 : ℚ) ^ (-(e : ℤ) - (r.length : ℤ)) = 10 ^ (7 - (e + r.length)) / 10 ^ 7 := by
      rw [eq_div_iff (by norm_num), ← zpow_natCast (10 : ℚ) (7 - (e + r.length)), ← zpow_natCast (10 : ℚ) 7,
        ← zpow_add₀ (by norm_num)]
      congr 1
      push_cast [Nat.cast_sub hl]
      ring
    rw [hp]; ring

theorem isDecimal_of_plain {s : Str} {i : Int} (h : Spec.IsCoordText s i) :
    Spec.IsDecimal (s ++ if '.' ∈ s then [] else ['.', '0']) ((i : ℚ) / 10 ^ 7) := by
  obtain ⟨ip, fp, rfl, hip, hid, hfd, _, hl, _, hv⟩ := h
  have hnip : '.' ∉ ip := fun h => absurd (hid _ h) (by decide)
  have hpt : '.' ∈ ((if i < 0 then ['-'] else []) ++ ip ++ if fp = [] then [] else '.' :: fp) ↔ fp ≠ [] := by
    by_cases hf : fp = [] <;> by_cases hi : i < 0 <;> simp [hf, hi, hnip]
  have hi := int_sign i
  have hs : (if (if i < 0 then ['-'] else []) = ['-'] then (-1 : ℚ) else 1) = if i < 0 then -1 else 1 := by
    by_cases h : i < 0 <;> simp [h]
  by_cases hf : fp = []
  · subst hf
    refine ⟨if i < 0 then ['-'] else [], ip, ['.'], ['0'], [], 0, ?_, ?_, .inl rfl, .inl hip, hid, ?_, .none, ?_⟩
    · rw [if_neg (fun h => hpt.1 h rfl)]; simp
    · by_cases hi : i < 0 <;> simp [hi]
    · intro c hc; rw [List.mem_singleton.1 hc]; decide
    · rw [hs, hi, ← hv, number_append]
      have h0 : Spec.number [] = 0 := rfl
      have h1 : Spec.number ['0'] = 0 := by decide
      rw [h0, h1]
      have hz : (10 : ℚ) ^ ((0 : ℤ) - ((['0'] : Str).length : ℤ)) = 1 / 10 := by norm_num
      rw [hz]
      push_cast
      simp only [List.length_singleton]
      ring
  · refine ⟨if i < 0 then ['-'] else [], ip, ['.'], fp, [], 0, ?_, ?_, .inl rfl, .inl hip, hid, hfd, .none, ?_⟩
    · rw [if_pos (hpt.2 hf), if_neg hf]; simp
    · by_cases hi : i < 0 <;> simp [hi]
    · rw [hs, hi, ← hv, number_append]
      push_cast
      have hp : (10 : ℚ) ^ ((0 : ℤ) - (fp.length : ℤ)) = 10 ^ (7 - fp.length) / 10 ^ 7 := by
        rw [eq_div_iff (by norm_num), ← zpow_natCast (10 : ℚ) (7 - fp.length), ← zpow_natCast (10 : ℚ) 7,
          ← zpow_add₀ (by norm_num)]
        congr 1
        push_cast [Nat.cast_sub hl]
        ring
      have hq : (10 : ℚ) ^ fp.length * 10 ^ (7 - fp.length) = 10 ^ 7 := by
        rw [← pow_add]; congr 1; omega
      rw [hp]
      have : ((Spec.number ip : ℚ) * 10 ^ fp.length + Spec.number fp) * (10 ^ (7 - fp.length) / 10 ^ 7) =
          ((Spec.number ip : ℚ) * (10 ^ fp.length * 10 ^ (7 - fp.length)) + Spec.number fp * 10 ^ (7 - fp.length)) / 10 ^ 7 := by
        ring
      rw [mul_assoc, this, hq]; ring

theorem debug_decimal (i : Int32) : Spec.IsDecimal (debugF64 (latLonInnerToDegrees i)) ((i.toInt : ℚ) / 10 ^ 7) := by
  by_cases h : i.toInt = 0 ∨ 1000 ≤ i.toInt.natAbs
  · rw [debug_plain i h]
    exact isDecimal_of_plain (display_isCoordText i)
  · exact isDecimal_of_exponent (debug_small i (by omega) (by omega))

/-! ## C72 -/

/-- **C72.** The debug text of a coordinate is a decimal number, and stands for exactly the coordinate. -/
theorem C72_exact (l : Lat) (m : Lon) : Spec.IsDecimal l.debug ((l.innerOf.toInt : ℚ) / 10 ^ 7) ∧
    Spec.IsDecimal m.debug ((m.innerOf.toInt : ℚ) / 10 ^ 7) := ⟨debug_decimal _, debug_decimal _⟩

/-- It parses back to the same coordinate. -/
theorem C72_parses_back (l : Lat) (m : Lon) : Lat.fromStr l.debug = .ok l ∧ Lon.fromStr m.debug = .ok m := by
  constructor
  · unfold Lat.fromStr; rw [C67_exact _ _ (C72_exact l m).1]; rfl
  · unfold Lon.fromStr; rw [C67_exact _ _ (C72_exact l m).2]; rfl

/-- Different coordinates have different debug texts. -/
theorem C72_injective : (∀ a b : Lat, a.debug = b.debug → a = b) ∧ ∀ a b : Lon, a.debug = b.debug → a = b := by
  constructor
  · intro a b h
    have h1 := (C72_parses_back a ⟨0⟩).1
    rw [h, (C72_parses_back b ⟨0⟩).1] at h1
    exact (Except.ok.inj h1).symm
  · intro a b h
    have h1 := (C72_parses_back ⟨0⟩ a).2
    rw [h, (C72_parses_back ⟨0⟩ b).2] at h1
    exact (Except.ok.inj h1).symm

/-- Its form: the printed text, with `.0` if it has no point, unless the coordinate is not zero and smaller than 10⁻⁴
degrees, when it is in exponent notation. -/
theorem C72_form (l : Lat) (m : Lon) :
    (l.innerOf.toInt = 0 ∨ 1000 ≤ l.innerOf.toInt.natAbs → l.debug = l.display ++ if '.' ∈ l.display then [] else ['.', '0']) ∧
    (l.innerOf.toInt ≠ 0 → l.innerOf.toInt.natAbs < 1000 → Spec.IsExponentText l.debug l.innerOf.toInt) ∧
    (m.innerOf.toInt = 0 ∨ 1000 ≤ m.innerOf.toInt.natAbs → m.debug = m.display ++ if '.' ∈ m.display then [] else ['.', '0']) ∧
    (m.innerOf.toInt ≠ 0 → m.innerOf.toInt.natAbs < 1000 → Spec.IsExponentText m.debug m.innerOf.toInt) :=
  ⟨debug_plain _, debug_small _, debug_plain _, debug_small _⟩

/-- Two coordinates of the first kind and one of the second. -/
example : (Lat.debug ⟨0⟩) = ['0', '.', '0'] := debug_zero 0 rfl
example : (Lon.debug ⟨Int32.ofInt (-20000000)⟩) = ['-', '2', '.', '0'] := by
  rw [(C72_form ⟨0⟩ ⟨Int32.ofInt (-20000000)⟩).2.2.1 (.inr (by decide +kernel)), Lon.display, Lon.degrees, display_coord]
  decide +kernel
example : Spec.IsExponentText (Lat.debug ⟨Int32.ofInt 123⟩) 123 :=
  (C72_form ⟨Int32.ofInt 123⟩ ⟨0⟩).2.1 (by decide +kernel) (by decide +kernel)
example : Spec.IsExponentText ['1', '.', '2', '3', 'e', '-', '5'] 123 :=
  ⟨'1', ['2', '3'], 5, by decide⟩

end Osmio
