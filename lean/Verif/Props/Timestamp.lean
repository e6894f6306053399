import Verif.Proofs.Chrono
/-!
# Properties C06–C10: timestamps
-/

namespace Osmio
open Spec

/-! ## Helper facts -/

theorem foldl_digit_lt {w : Nat} {s : Str} (h : IsNumeral w s) : number s < 10 ^ w := by
  have key : ∀ (s : Str) (acc : Nat), (∀ c ∈ s, isDigit c = true) →
      s.foldl (fun a c => 10 * a + digit c) acc + 1 ≤ (acc + 1) * 10 ^ s.length := by
    intro s
    induction s with
    | nil => intro acc _; simp
    | cons c cs ih =>
      intro acc hd
      have h1 := ih (10 * acc + digit c) (fun x hx => hd x (by simp [hx]))
      have hc := hd c (by simp)
      simp only [isDigit, decide_eq_true_eq] at hc
      have h9 : digit c ≤ 9 := by unfold digit; omega
      simp only [List.foldl_cons, List.length_cons, pow_succ]
      calc _ ≤ (10 * acc + digit c + 1) * 10 ^ cs.length := h1
        _ ≤ (10 * (acc + 1)) * 10 ^ cs.length := Nat.mul_le_mul_right _ (by omega)
        _ = _ := by ring
  have := key s 0 h.2
  rw [h.1] at this
  unfold number; omega

theorem rfc3339_bounds {s : Str} {z : Int} (h : IsRfc3339 s z) :
    -62200000000 ≤ z ∧ z ≤ 253500000000 := by
  obtain ⟨Y, M, D, hh, m, sec, frac, zone, sep, off, nY, nM, nD, nH, nMi, nS, _, _, hz, _, hv, c1, c2, c3, rfl⟩ := h
  have hY := foldl_digit_lt nY
  have hoff := ((Osmio.takeOffset_iff zone [] off).2 ⟨zone, hz, by simp⟩).2
  have hd := month_facts (number Y) (number M) hv.1 hv.2.1
  obtain ⟨v1, v2, v3, v4⟩ := hv
  simp only [epochSeconds, dayNumber, daysBeforeYear] at *
  have hyl : yearLen (number Y) ≤ 366 := by unfold yearLen; split <;> omega
  have hbnd : daysBeforeMonth (number Y) (number M) + number D ≤ yearLen (number Y) := by omega
  omega

theorem parse_epochToIso (e : Int32) : Chrono.parseRfc3339 (epochToIso e) = some e.toInt := by
  have h1 := e.toInt_lt; have h2 := e.le_toInt
  obtain ⟨dt, hdt, he⟩ := toRfc3339_iso e.toInt (by omega) (by omega)
  rw [parseRfc3339_iff]
  rw [← he]
  unfold epochToIso
  rw [he]
  have := hdt.rfc
  rwa [he] at this

theorem isoToEpoch_of_rfc {s : Str} {z : Int} (h : IsRfc3339 s z) :
    ((isoToEpoch s).toNat : Int) = z % 4294967296 := by
  unfold isoToEpoch
  rw [(parseRfc3339_iff s z).2 h]
  simp only [UInt32.ofInt]
  rw [UInt32.toNat_ofNat']
  omega

theorem toInt_ofInt_small {z : Int} (h1 : -9223372036854775808 ≤ z) (h2 : z < 9223372036854775808) :
    (Int64.ofInt z).toInt = z := by
  rw [Int64.toInt_ofInt, Int.bmod_def]; simp only [Int64.size]; omega

theorem toEpochNumber_of_rfc {s : Str} {z : Int} (h : IsRfc3339 s z) :
    (TimestampFormat.toEpochNumber (.iso s)).toInt = z % 4294967296 := by
  simp only [TimestampFormat.toEpochNumber]
  have := isoToEpoch_of_rfc h
  rw [toInt_ofInt_small (by omega) (by omega)]
  exact this

/-! ## C06 -/

/-- **C06**, what happens for *every* `i64`: the number read back is the original modulo 2³². -/
theorem C06_roundtrip_mod (t : Int64) :
    (TimestampFormat.toEpochNumber (.iso (TimestampFormat.toIsoString (.epoch t)))).toInt
      = t.toInt % 2 ^ 32 := by
  have h := parse_epochToIso t.toInt32
  rw [parseRfc3339_iff] at h
  simp only [TimestampFormat.toIsoString]
  rw [toEpochNumber_of_rfc h, Int64.toInt_toInt32, Int.bmod_def]
  norm_num
  omega

/-- **C06** for timestamps made from a number with `into()`: the number is given back; its text is parsed back, if the number is in the range of `i32`. -/
theorem C06_from_partial (t : Int64) : (TimestampFormat.ofI64 t).toEpochNumber = t ∧
    (-2 ^ 31 ≤ t.toInt → t.toInt < 2 ^ 31 → TimestampFormat.fromStr (TimestampFormat.ofI64 t).display = some (TimestampFormat.ofI64 t)) := by
  refine ⟨rfl, fun h0 h1 => ?_⟩
  simp only [TimestampFormat.ofI64, TimestampFormat.display, TimestampFormat.fromStr, TimestampFormat.toIsoString, parse_epochToIso]
  have : t.toInt32.toInt = t.toInt := by
    rw [Int64.toInt_toInt32, Int.bmod_def]; norm_num at *; omega
  rw [this, Int64.ofInt_toInt]

/-- **C06** (partial: only epoch numbers from 0 up to 2³² − 1, that is 1970 to 2106; the claim is for all
`i64`, see `C06_roundtrip_fails`). -/
theorem C06_roundtrip_partial (t : Int64) (h0 : 0 ≤ t.toInt) (h1 : t.toInt < 2 ^ 32) :
    TimestampFormat.toEpochNumber (.iso (TimestampFormat.toIsoString (.epoch t))) = t := by
  rw [← Int64.toInt_inj, C06_roundtrip_mod]
  norm_num at h1 ⊢
  omega

/-- The range of `C06_roundtrip_partial` cannot be enlarged. -/
theorem C06_roundtrip_iff (t : Int64) :
    TimestampFormat.toEpochNumber (.iso (TimestampFormat.toIsoString (.epoch t))) = t ↔
      0 ≤ t.toInt ∧ t.toInt < 2 ^ 32 := by
  rw [← Int64.toInt_inj, C06_roundtrip_mod]
  norm_num
  omega

/-- The full claim C06 is false: one second before the epoch comes back as 2³² − 1. -/
theorem C06_roundtrip_fails :
    ¬ ∀ t : Int64, TimestampFormat.toEpochNumber (.iso (TimestampFormat.toIsoString (.epoch t))) = t := by
  intro h
  have := (C06_roundtrip_iff (-1)).1 (h (-1))
  exact absurd this (by decide)

/-- **C06** for `str::parse` instead of `to_epoch_number` (partial: the `i32` range). -/
theorem C06_parse_roundtrip_partial (t : Int64) (h0 : -2 ^ 31 ≤ t.toInt) (h1 : t.toInt < 2 ^ 31) :
    TimestampFormat.fromStr (TimestampFormat.toIsoString (.epoch t)) = some (.epoch t) := by
  simp only [TimestampFormat.fromStr, TimestampFormat.toIsoString, parse_epochToIso]
  have : t.toInt32.toInt = t.toInt := by
    rw [Int64.toInt_toInt32, Int.bmod_def]; norm_num at *; omega
  rw [this, Int64.ofInt_toInt]

theorem C06_parse_roundtrip_fails :
    ¬ ∀ t : Int64, TimestampFormat.fromStr (TimestampFormat.toIsoString (.epoch t)) = some (.epoch t) := by
  intro h
  have := h 2147483648
  simp only [TimestampFormat.fromStr, TimestampFormat.toIsoString, parse_epochToIso] at this
  simp only [Option.some.injEq, TimestampFormat.epoch.injEq] at this
  exact absurd this (by decide)

example : (0 : Int) ≤ (1500000000 : Int64).toInt ∧ (1500000000 : Int64).toInt < 2 ^ 32 := by decide

/-! ## C07 -/

/-- The calendar specification: day 0 is 1970-01-01 and the day after day `n` is day `n + 1`. -/
theorem C07_calendar_spec : dayNumber ⟨1970, 1, 1⟩ = 0 ∧
    ∀ d : Date, d.Valid → (nextDay d).Valid ∧ dayNumber (nextDay d) = dayNumber d + 1 :=
  ⟨dayNumber_epoch, fun _ h => dayNumber_nextDay h⟩

/-- **C07.** For every epoch number in the `i32` range the ISO string (also what `Display` prints) is the
20 character text of a valid UTC date-time, which lies exactly that many seconds after
1970-01-01T00:00:00Z. -/
theorem C07_iso_names_instant (t : Int64) (h0 : -2 ^ 31 ≤ t.toInt) (h1 : t.toInt < 2 ^ 31) :
    ∃ dt : DateTime, IsIsoText (TimestampFormat.toIsoString (.epoch t)) dt ∧ epochSeconds dt = t.toInt ∧
      (TimestampFormat.toIsoString (.epoch t)).length = 20 ∧
      TimestampFormat.display (.epoch t) = TimestampFormat.toIsoString (.epoch t) := by
  have e : t.toInt32.toInt = t.toInt := by
    rw [Int64.toInt_toInt32, Int.bmod_def]; norm_num at *; omega
  norm_num at h0 h1
  obtain ⟨dt, hdt, he⟩ := toRfc3339_iso t.toInt (by omega) (by omega)
  refine ⟨dt, ?_, he, ?_, rfl⟩
  · simp only [TimestampFormat.toIsoString, epochToIso, e]; exact hdt
  · simp only [TimestampFormat.toIsoString, epochToIso, e]; exact hdt.length

/-- Two different instants never share a text. -/
theorem C07_iso_injective (s : Str) (a b : DateTime) (ha : IsIsoText s a) (hb : IsIsoText s b) :
    epochSeconds a = epochSeconds b := by
  have h1 := (parseRfc3339_iff s _).2 ha.rfc
  have h2 := (parseRfc3339_iff s _).2 hb.rfc
  rw [h1] at h2; exact Option.some.inj h2

/-- A concrete date: 29 February 2016, 23:59:59. -/
example : TimestampFormat.toIsoString (.epoch 1456790399) = "2016-02-29T23:59:59Z".toList := by
  decide +kernel

/-! ## C08 -/

/-- **C08** (reflexivity). -/
theorem C08_eq_refl (a : TimestampFormat) : a.eq a = true := by
  cases a <;> simp [TimestampFormat.eq]

/-- **C08** (symmetry). -/
theorem C08_eq_symm (a b : TimestampFormat) : a.eq b = b.eq a := by
  cases a <;> cases b <;> simp [TimestampFormat.eq, Bool.beq_comm]

/-- The full claim C08 is false: `==` is not transitive. The two ISO strings both equal epoch 0 but
differ from each other. -/
theorem C08_eq_trans_fails :
    ¬ ∀ a b c : TimestampFormat, a.eq b = true → b.eq c = true → a.eq c = true := by
  intro h
  have := h (.iso "1970-01-01T00:00:00Z".toList) (.epoch 0) (.iso "1970-01-01T00:00:00+00:00".toList)
    (by decide +kernel) (by decide +kernel)
  exact absurd this (by decide +kernel)

/-- The instant a timestamp denotes: any epoch number, or a canonical UTC text from 1970 to 2106. -/
inductive Denotes : TimestampFormat → Int → Prop
  | epoch (t : Int64) : Denotes (.epoch t) t.toInt
  | iso {s : Str} {dt : DateTime} : IsIsoText s dt → 0 ≤ epochSeconds dt → epochSeconds dt < 2 ^ 32 →
      Denotes (.iso s) (epochSeconds dt)

theorem Denotes.epochNumber {a : TimestampFormat} {z : Int} (h : Denotes a z) :
    a.toEpochNumber.toInt = z := by
  cases h with
  | epoch t => rfl
  | iso hi h0 h1 =>
    rw [toEpochNumber_of_rfc hi.rfc]
    norm_num at h1
    omega

/-- **C09** (partial: canonical texts within 1970–2106 and all epoch numbers): timestamps are ordered
chronologically, whichever representation they are in. -/
theorem C09_chronological_partial {a b : TimestampFormat} {x y : Int} (ha : Denotes a x) (hb : Denotes b y) :
    a.partialCmp b = some (compare x y) := by
  have ea := ha.epochNumber
  have eb := hb.epochNumber
  cases ha with
  | epoch t => cases hb with
    | epoch u => rfl
    | iso h => simp only [TimestampFormat.partialCmp, ea, eb]
  | iso h => cases hb with
    | epoch u => simp only [TimestampFormat.partialCmp, ea, eb]
    | iso h' => simp only [TimestampFormat.partialCmp, compareStr_iso h h']

/-- **C09.** `partial_cmp` always answers and answers `Equal` exactly when `==`. -/
theorem C09_cmp_total (a b : TimestampFormat) :
    ∃ o, a.partialCmp b = some o ∧ (o = .eq ↔ a.eq b = true) := by
  cases a <;> cases b <;>
    simp [TimestampFormat.partialCmp, TimestampFormat.eq, compareStr_eq_iff, Int64.toInt_inj]

/-- **C09.** Swapping the arguments reverses the answer. -/
theorem C09_cmp_swap (a b : TimestampFormat) :
    b.partialCmp a = (a.partialCmp b).map Ordering.swap := by
  cases a <;> cases b <;> simp [TimestampFormat.partialCmp, Int.compare_swap, ← compareStr_swap]

/-- **C09.** Within one representation the order is transitive for arbitrary strings and numbers. -/
theorem C09_same_repr_trans (a b c : Str) (h1 : compareStr a b = .lt) (h2 : compareStr b c = .lt) :
    TimestampFormat.partialCmp (.iso a) (.iso c) = some .lt := by
  simp only [TimestampFormat.partialCmp, compareStr_trans h1 h2]

/-- The full claim C09 is false: a text from before 1970 is ordered after the epoch number 0. -/
theorem C09_chronological_fails :
    ¬ ∀ (s : Str) (dt : DateTime) (t : Int64), IsIsoText s dt →
      TimestampFormat.partialCmp (.iso s) (.epoch t) = some (compare (epochSeconds dt) t.toInt) := by
  intro h
  obtain ⟨dt, hdt, he⟩ := toRfc3339_iso (-1) (by norm_num) (by norm_num)
  have := h _ dt 0 hdt
  rw [he] at this
  exact absurd this (by decide +kernel)

/-- **C08** (partial: transitivity on canonical texts within 1970–2106 and all epoch numbers; the claim is
for all timestamps, see `C08_eq_trans_fails`). -/
theorem C08_eq_trans_partial {a b c : TimestampFormat} {x y z : Int}
    (ha : Denotes a x) (hb : Denotes b y) (hc : Denotes c z)
    (h1 : a.eq b = true) (h2 : b.eq c = true) : a.eq c = true := by
  have key : ∀ {a b : TimestampFormat} {x y : Int}, Denotes a x → Denotes b y → (a.eq b = true ↔ x = y) := by
    intro a b x y ha hb
    obtain ⟨o, h3, h4⟩ := C09_cmp_total a b
    rw [C09_chronological_partial ha hb] at h3
    rw [← h4, ← Option.some.inj h3, Int.compare_eq_eq]
  rw [key ha hb] at h1
  rw [key hb hc] at h2
  rw [key ha hc]
  omega

/-- Both representations of one instant denote it. -/
example : Denotes (.iso (TimestampFormat.toIsoString (.epoch 1456790399))) 1456790399 ∧
    Denotes (.epoch 1456790399) 1456790399 := by
  obtain ⟨dt, h1, h2, _⟩ := C07_iso_names_instant 1456790399 (by decide) (by decide)
  have h2 : epochSeconds dt = 1456790399 := by rw [h2]; decide
  constructor
  · rw [← h2]; exact .iso h1 (by rw [h2]; decide) (by rw [h2]; decide)
  · exact .epoch 1456790399

/-! ## C10 -/

/-- **C10.** `from_str` accepts exactly the RFC 3339 date-times, and the result is the epoch number of the
instant the text names. -/
theorem C10_fromStr_iff (s : Str) (ts : TimestampFormat) :
    TimestampFormat.fromStr s = some ts ↔ ∃ t : Int64, IsRfc3339 s t.toInt ∧ ts = .epoch t := by
  constructor
  · intro h
    unfold TimestampFormat.fromStr at h
    split at h
    · rename_i z hz
      rw [parseRfc3339_iff] at hz
      have hb := rfc3339_bounds hz
      refine ⟨Int64.ofInt z, ?_, (Option.some.inj h).symm⟩
      rw [toInt_ofInt_small (by omega) (by omega)]
      exact hz
    · cases h
  · rintro ⟨t, ht, rfl⟩
    unfold TimestampFormat.fromStr
    rw [(parseRfc3339_iff s _).2 ht]
    simp [Int64.ofInt_toInt]

/-- **C10.** A text that is not an RFC 3339 date-time is rejected. -/
theorem C10_fromStr_rejects (s : Str) : TimestampFormat.fromStr s = none ↔ ¬ ∃ z, IsRfc3339 s z := by
  unfold TimestampFormat.fromStr
  cases h : Chrono.parseRfc3339 s with
  | none =>
    simp only [true_iff]
    rintro ⟨z, hz⟩
    rw [← parseRfc3339_iff, h] at hz; cases hz
  | some z =>
    simp only [reduceCtorEq, false_iff, not_not]
    exact ⟨z, (parseRfc3339_iff s z).1 h⟩

/-- **C10.** Texts naming the same instant, in whatever zones, give equal timestamps. -/
theorem C10_same_instant (s s' : Str) (z : Int) (h : IsRfc3339 s z) (h' : IsRfc3339 s' z) :
    ∃ ts, TimestampFormat.fromStr s = some ts ∧ TimestampFormat.fromStr s' = some ts ∧
      ts.toEpochNumber.toInt = z := by
  have hb := rfc3339_bounds h
  have e := toInt_ofInt_small (z := z) (by omega) (by omega)
  refine ⟨.epoch (Int64.ofInt z), ?_, ?_, e⟩
  · rw [C10_fromStr_iff]; exact ⟨_, by rw [e]; exact h, rfl⟩
  · rw [C10_fromStr_iff]; exact ⟨_, by rw [e]; exact h', rfl⟩

/-- The same instant in three spellings. -/
example : TimestampFormat.fromStr "2020-01-01T00:30:00+01:00".toList = some (.epoch 1577835000) ∧
    TimestampFormat.fromStr "2019-12-31t23:30:00.999Z".toList = some (.epoch 1577835000) ∧
    TimestampFormat.fromStr "2019-12-31T18:00:00-05:30".toList = some (.epoch 1577835000) := by
  decide +kernel

end Osmio
