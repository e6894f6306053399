import Verif.Props.Timestamp
/-!
# C08 and C09: exactly when timestamps compare as instants
-/

namespace Osmio
open Spec

/-- **C08**, exactly: a chain `a == b == c` without `a == c` is a number between two different texts that
both read as this number. Everywhere else `==` is transitive. -/
theorem C08_eq_trans_iff (a b c : TimestampFormat) (h1 : a.eq b = true) (h2 : b.eq c = true) :
    a.eq c = false ↔ ∃ s s' t, a = .iso s ∧ b = .epoch t ∧ c = .iso s' ∧ s ≠ s' := by
  have e : ∀ x, (TimestampFormat.epoch x).toEpochNumber = x := fun _ => rfl
  rcases a with a | a <;> rcases b with b | b <;> rcases c with c | c <;>
    simp_all [TimestampFormat.eq]

/-- The texts that read as a given number: those that name an instant which is the number modulo 2³², and, for 0, also
those that name no instant. -/
theorem C08_text_eq_number (s : Str) (t : Int64) :
    TimestampFormat.eq (.iso s) (.epoch t) = true ↔
      (∃ z, IsRfc3339 s z ∧ t.toInt = z % 2 ^ 32) ∨ ((¬ ∃ z, IsRfc3339 s z) ∧ t = 0) := by
  simp only [TimestampFormat.eq, beq_iff_eq]
  by_cases h : ∃ z, IsRfc3339 s z
  · obtain ⟨z, hz⟩ := h
    rw [← Int64.toInt_inj, toEpochNumber_of_rfc hz]
    constructor
    · intro e
      exact .inl ⟨z, hz, by norm_num; exact e.symm⟩
    · rintro (⟨z', hz', e⟩ | ⟨hn, _⟩)
      · have := (parseRfc3339_iff s z).2 hz
        rw [(parseRfc3339_iff s z').2 hz'] at this
        cases this
        norm_num at e
        exact e.symm
      · exact absurd ⟨z, hz⟩ hn
  · have e0 : TimestampFormat.toEpochNumber (.iso s) = 0 := by
      have hp : Chrono.parseRfc3339 s = none := by
        cases hp : Chrono.parseRfc3339 s with
        | none => rfl
        | some z => exact absurd ⟨z, (parseRfc3339_iff s z).1 hp⟩ h
      simp only [TimestampFormat.toEpochNumber, isoToEpoch, hp]
      rfl
    rw [e0]
    constructor
    · intro e; exact .inr ⟨h, e.symm⟩
    · rintro (⟨z, hz, _⟩ | ⟨_, e⟩)
      · exact absurd ⟨z, hz⟩ h
      · exact e.symm

/-- **C09**, texts against numbers, for every text that names an instant, in whatever spelling and zone: the answer is the
chronological one for instants from 1970 to 2106. -/
theorem C09_mixed_partial {s : Str} {z : Int} (h : IsRfc3339 s z) (h0 : 0 ≤ z) (h1 : z < 2 ^ 32) (t : Int64) :
    TimestampFormat.partialCmp (.iso s) (.epoch t) = some (compare z t.toInt) ∧
    TimestampFormat.partialCmp (.epoch t) (.iso s) = some (compare t.toInt z) := by
  have e := toEpochNumber_of_rfc h
  norm_num at h1
  have e' : z % 4294967296 = z := by omega
  rw [e'] at e
  constructor <;> simp only [TimestampFormat.partialCmp, e] <;> rfl

/-- **C09**, exactly: a text that names an instant outside this range is compared wrongly with some number. -/
theorem C09_mixed_iff {s : Str} {z : Int} (h : IsRfc3339 s z) :
    (∀ t : Int64, TimestampFormat.partialCmp (.iso s) (.epoch t) = some (compare z t.toInt)) ↔ 0 ≤ z ∧ z < 2 ^ 32 := by
  refine ⟨fun hall => ?_, fun hz t => (C09_mixed_partial h hz.1 hz.2 t).1⟩
  have hb := rfc3339_bounds h
  have e := toInt_ofInt_small (z := z) (by omega) (by omega)
  have ht := hall (Int64.ofInt z)
  rw [e] at ht
  simp only [TimestampFormat.partialCmp, toEpochNumber_of_rfc h, Option.some.injEq] at ht
  have he : (TimestampFormat.epoch (Int64.ofInt z)).toEpochNumber.toInt = z := e
  rw [he] at ht
  have : compare z z = .eq := by rw [Int.compare_eq_eq]
  rw [this, Int.compare_eq_eq] at ht
  norm_num
  omega

/-- **C09.** Two texts are compared as strings, so texts in different zones can be ordered against time: half past midnight
in Paris is before 23:45 in London on the day before. -/
theorem C09_zone_fails :
    ¬ ∀ (s s' : Str) (z z' : Int), IsRfc3339 s z → IsRfc3339 s' z' →
      TimestampFormat.partialCmp (.iso s) (.iso s') = some (compare z z') := by
  intro h
  have h1 : IsRfc3339 "2020-01-01T00:30:00+01:00".toList 1577835000 :=
    (parseRfc3339_iff _ _).1 (by decide +kernel)
  have h2 : IsRfc3339 "2019-12-31T23:45:00Z".toList 1577835900 :=
    (parseRfc3339_iff _ _).1 (by decide +kernel)
  exact absurd (h _ _ _ _ h1 h2) (by decide +kernel)

/-- The hypotheses of `C09_mixed_partial` hold for a text in another zone. -/
example : IsRfc3339 "2020-01-01T00:30:00+01:00".toList 1577835000 ∧ (0 : Int) ≤ 1577835000 ∧ (1577835000 : Int) < 2 ^ 32 :=
  ⟨(parseRfc3339_iff _ _).1 (by decide +kernel), by norm_num, by norm_num⟩

end Osmio
