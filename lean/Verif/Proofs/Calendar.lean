import Verif.Lib.Chrono
import Verif.Spec.Calendar
import Mathlib.Tactic.IntervalCases
/-! The calendar of the chrono model against the calendar specification. -/

namespace Osmio
open Spec

theorem leapYear_iff (y : Int) : Chrono.leapYear y = true ↔ isLeap y := by
  unfold Chrono.leapYear isLeap
  simp [Bool.and_eq_true, Bool.or_eq_true]

/-- Days of a year. -/
def yearLen (y : Int) : Nat := if isLeap y then 366 else 365

theorem daysBeforeYear_succ (y : Int) : daysBeforeYear (y + 1) = daysBeforeYear y + yearLen y := by
  unfold yearLen
  by_cases h : isLeap y <;> simp only [h, if_true, if_false] <;> unfold isLeap at h <;>
    unfold daysBeforeYear <;> push_cast <;> omega

theorem daysBeforeYear_mono {y z : Int} (h : y ≤ z) :
    daysBeforeYear y + 365 * (z - y) ≤ daysBeforeYear z := by
  unfold daysBeforeYear; omega

theorem daysBeforeYear_lt {y z : Int} (h : y < z) :
    daysBeforeYear y + yearLen y ≤ daysBeforeYear z := by
  rw [← daysBeforeYear_succ]
  have := daysBeforeYear_mono (show y + 1 ≤ z by omega)
  omega

/-- Month table, by cases on leap years. -/
theorem month_facts (y : Int) : ∀ m, 1 ≤ m → m ≤ 12 →
    daysBeforeMonth y (m + 1) = daysBeforeMonth y m + daysInMonth y m ∧
    daysBeforeMonth y m + daysInMonth y m ≤ yearLen y ∧ 1 ≤ daysInMonth y m ∧
    daysInMonth y m ≤ 31 ∧
    (m = 12 → daysBeforeMonth y m + daysInMonth y m = yearLen y) := by
  intro m h1 h2
  by_cases hl : isLeap y <;>
  interval_cases m <;> simp [daysBeforeMonth, daysInMonth, yearLen, hl]

theorem daysBeforeMonth_lt (y : Int) {m n : Nat} (h1 : 1 ≤ m) (h : m < n) (h2 : n ≤ 12) :
    daysBeforeMonth y m + daysInMonth y m ≤ daysBeforeMonth y n := by
  induction n with
  | zero => omega
  | succ n ih =>
    rcases Nat.lt_or_ge m n with h' | h'
    · have := ih h' (by omega)
      have := (month_facts y n (by omega) (by omega)).1
      omega
    · have : m = n := by omega
      subst this
      exact (month_facts y m h1 (by omega)).1.ge

/-- The lexicographic order of valid dates is the order of day numbers. -/
theorem dayNumber_lt {a b : Date} (ha : a.Valid) (hb : b.Valid)
    (h : a.year < b.year ∨ a.year = b.year ∧ (a.month < b.month ∨ a.month = b.month ∧ a.day < b.day)) :
    dayNumber a < dayNumber b := by
  obtain ⟨a1, a2, a3, a4⟩ := ha
  obtain ⟨b1, b2, b3, b4⟩ := hb
  have fa := month_facts a.year a.month a1 a2
  unfold dayNumber
  rcases h with h | ⟨h, h' | ⟨h', h''⟩⟩
  · have := daysBeforeYear_lt h
    omega
  · have := daysBeforeMonth_lt a.year a1 h' b2
    rw [← h]; omega
  · rw [← h, ← h']; omega

theorem dayNumber_inj {a b : Date} (ha : a.Valid) (hb : b.Valid) (h : dayNumber a = dayNumber b) :
    a = b := by
  have h1 := fun x => dayNumber_lt ha hb x
  have h2 := fun x => dayNumber_lt hb ha x
  have : a.year = b.year ∧ a.month = b.month ∧ a.day = b.day := by
    by_contra hne
    have : (a.year < b.year ∨ a.year = b.year ∧ (a.month < b.month ∨ a.month = b.month ∧ a.day < b.day)) ∨
      (b.year < a.year ∨ b.year = a.year ∧ (b.month < a.month ∨ b.month = a.month ∧ b.day < a.day)) := by
      omega
    rcases this with h' | h'
    · have := h1 h'; omega
    · have := h2 h'; omega
  cases a; cases b; simp_all

/-- The closed formula agrees with the successor specification. -/
theorem dayNumber_nextDay {d : Date} (hd : d.Valid) :
    (nextDay d).Valid ∧ dayNumber (nextDay d) = dayNumber d + 1 := by
  obtain ⟨h1, h2, h3, h4⟩ := hd
  have f := month_facts d.year d.month h1 h2
  unfold nextDay
  split
  · refine ⟨⟨h1, h2, by simp, by simp; omega⟩, ?_⟩
    simp only [dayNumber]; omega
  · split
    · have f' := month_facts d.year (d.month + 1) (by omega) (by omega)
      refine ⟨⟨by simp, by simp; omega, by simp, by simp; omega⟩, ?_⟩
      simp only [dayNumber]; omega
    · have hm : d.month = 12 := by omega
      have f' := month_facts (d.year + 1) 1 (by omega) (by omega)
      refine ⟨⟨by simp, by simp, by simp, by simp; omega⟩, ?_⟩
      have := daysBeforeYear_succ d.year
      have h12 := f.2.2.2.2 hm
      simp only [dayNumber, daysBeforeMonth]
      simp only [if_true]
      omega

theorem dayNumber_epoch : dayNumber ⟨1970, 1, 1⟩ = 0 := by decide

theorem splitMonth_gen (ls : List Nat) : ∀ (m d : Nat), d < ls.sum →
    let md := Chrono.splitMonth ls m d
    m ≤ md.1 ∧ md.1 < m + ls.length ∧ 1 ≤ md.2 ∧ md.2 ≤ ls.getD (md.1 - m) 0 ∧
      (ls.take (md.1 - m)).sum + md.2 = d + 1 := by
  induction ls with
  | nil => intro m d h; simp at h
  | cons l ls ih =>
    intro m d h
    simp only [Chrono.splitMonth]
    split
    · simp; omega
    · rename_i hl
      have := ih (m + 1) (d - l) (by simp at h; omega)
      simp only at this
      obtain ⟨h1, h2, h3, h4, h5⟩ := this
      generalize Chrono.splitMonth ls (m + 1) (d - l) = md at *
      obtain ⟨k, hk⟩ : ∃ k, md.1 = m + 1 + k := ⟨md.1 - (m + 1), by omega⟩
      have e1 : md.1 - (m + 1) = k := by omega
      have e2 : md.1 - m = k + 1 := by omega
      rw [e1] at h4 h5
      rw [e2]
      simp only [List.length_cons, List.getD_cons_succ, List.take_succ_cons, List.sum_cons]
      refine ⟨by omega, by omega, h3, h4, by omega⟩

theorem sum_take_months (y : Int) (m : Nat) (h1 : 1 ≤ m) (h2 : m ≤ 12) :
    ((Chrono.monthLengths (Chrono.leapYear y)).take (m - 1)).sum = daysBeforeMonth y m ∧
    Chrono.monthLen y m = daysInMonth y m := by
  have hb : Chrono.leapYear y = decide (isLeap y) := by
    have := leapYear_iff y
    by_cases h : isLeap y <;> simp_all
  unfold Chrono.monthLen
  rw [hb]
  by_cases hl : isLeap y <;> interval_cases m <;>
    simp [hl, Chrono.monthLengths, daysBeforeMonth, daysInMonth]

theorem monthLengths_sum (y : Int) : (Chrono.monthLengths (Chrono.leapYear y)).sum = yearLen y := by
  have hb : Chrono.leapYear y = decide (isLeap y) := by
    have := leapYear_iff y
    by_cases h : isLeap y <;> simp_all
  rw [hb]; unfold yearLen
  by_cases hl : isLeap y <;> simp [hl, Chrono.monthLengths]

theorem splitMonth_spec (y : Int) (d : Nat) (hd : d < yearLen y) :
    let md := Chrono.splitMonth (Chrono.monthLengths (Chrono.leapYear y)) 1 d
    1 ≤ md.1 ∧ md.1 ≤ 12 ∧ 1 ≤ md.2 ∧ md.2 ≤ daysInMonth y md.1 ∧
      daysBeforeMonth y md.1 + md.2 = d + 1 := by
  rw [← monthLengths_sum] at hd
  have h := splitMonth_gen _ 1 d hd
  simp only at h ⊢
  generalize Chrono.splitMonth (Chrono.monthLengths (Chrono.leapYear y)) 1 d = md at *
  obtain ⟨h1, h2, h3, h4, h5⟩ := h
  have hlen : (Chrono.monthLengths (Chrono.leapYear y)).length = 12 := rfl
  have hs := sum_take_months y md.1 h1 (by omega)
  unfold Chrono.monthLen at hs
  rw [hs.1] at h5; rw [hs.2] at h4
  exact ⟨h1, by omega, h3, h4, h5⟩

/-- The date of the chrono model. -/
def civilDate (n : Int) : Date :=
  ⟨(Chrono.civilOfDays n).1, (Chrono.civilOfDays n).2.1, (Chrono.civilOfDays n).2.2⟩

theorem civilDate_spec (n : Int) : (civilDate n).Valid ∧ dayNumber (civilDate n) = n := by
  unfold civilDate Chrono.civilOfDays
  simp only
  set N := n + 719162 with hN
  set a := N / 146097 with ha
  set r := N % 146097 with hr
  set b := r / 36524 with hb
  set r1 := r % 36524 with hr1
  set c := r1 / 1461 with hc
  set r2 := r1 % 1461 with hr2
  set e := r2 / 365 with he
  set r3 := r2 % 365 with hr3
  have hr_lo : 0 ≤ r ∧ r < 146097 := by omega
  have hr1_lo : 0 ≤ r1 ∧ r1 < 36524 := by omega
  have hr2_lo : 0 ≤ r2 ∧ r2 < 1461 := by omega
  have hr3_lo : 0 ≤ r3 ∧ r3 < 365 := by omega
  have eqN : N = 146097 * a + r := by omega
  have eqr : r = 36524 * b + r1 := by omega
  have eqr1 : r1 = 1461 * c + r2 := by omega
  have eqr2 : r2 = 365 * e + r3 := by omega
  clear_value a r b r1 c r2 e r3
  by_cases hcase : e = 4 ∨ b = 4
  · rw [if_pos hcase]
    simp only
    have hy : 400 * a + 100 * b + 4 * c + e + 1 - 1 = 400 * a + 100 * b + 4 * c + e := by ring
    rw [hy]
    have hleap : isLeap (400 * a + 100 * b + 4 * c + e) := by
      unfold isLeap
      rcases hcase with h | h
      · subst h; constructor
        · omega
        · have : 0 ≤ c ∧ c ≤ 24 := by omega
          have : 0 ≤ b ∧ b ≤ 3 := by omega
          omega
      · subst h
        have : r1 = 0 := by omega
        have : c = 0 := by omega
        have : e = 0 := by omega
        subst_vars; omega
    refine ⟨⟨by simp, by simp, by simp, by simp [daysInMonth]⟩, ?_⟩
    simp only [dayNumber, daysBeforeMonth, daysInMonth, hleap, daysBeforeYear]
    simp
    rcases hcase with h | h
    · subst h
      have : 0 ≤ c ∧ c ≤ 24 := by omega
      have hb3 : 0 ≤ b ∧ b ≤ 3 := by omega
      have hc23 : 4 * c + 3 ≤ 99 := by omega
      have d1 : (400 * a + 100 * b + 4 * c + 4 - 1) / 4 = 100 * a + 25 * b + c := by omega
      have d2 : (400 * a + 100 * b + 4 * c + 4 - 1) / 100 = 4 * a + b := by omega
      have d3 : (400 * a + 100 * b + 4 * c + 4 - 1) / 400 = a := by omega
      rw [d1, d2, d3]; omega
    · subst h
      have : r1 = 0 := by omega
      have : c = 0 := by omega
      have : e = 0 := by omega
      subst_vars; omega
  · rw [if_neg hcase]
    have hb3 : 0 ≤ b ∧ b ≤ 3 := by omega
    have he3 : 0 ≤ e ∧ e ≤ 3 := by omega
    have hc24 : 0 ≤ c ∧ c ≤ 24 := by omega
    set y := 400 * a + 100 * b + 4 * c + e + 1 with hy
    have hlen : r3.toNat < yearLen y := by unfold yearLen; split <;> omega
    have hs := splitMonth_spec y r3.toNat hlen
    simp only at hs ⊢
    obtain ⟨s1, s2, s3, s4, s5⟩ := hs
    refine ⟨⟨s1, s2, s3, s4⟩, ?_⟩
    simp only [dayNumber]
    have hdb : daysBeforeYear y = 146097 * a + 36524 * b + 1461 * c + 365 * e := by
      unfold daysBeforeYear
      have d1 : (y - 1) / 4 = 100 * a + 25 * b + c := by omega
      have d2 : (y - 1) / 100 = 4 * a + b := by omega
      have d3 : (y - 1) / 400 = a := by omega
      rw [d1, d2, d3]; omega
    rw [hdb]
    omega

/-- The chrono model follows the successor specification. -/
theorem civilDate_zero : civilDate 0 = ⟨1970, 1, 1⟩ := by decide

theorem civilDate_succ (n : Int) : civilDate (n + 1) = nextDay (civilDate n) := by
  obtain ⟨v1, e1⟩ := civilDate_spec n
  obtain ⟨v2, e2⟩ := civilDate_spec (n + 1)
  obtain ⟨v3, e3⟩ := dayNumber_nextDay v1
  apply dayNumber_inj v2 v3
  omega

theorem daysOfCivil_eq (y : Int) (m d : Nat) (h1 : 1 ≤ m) (h2 : m ≤ 12) :
    Chrono.daysOfCivil y m d = dayNumber ⟨y, m, d⟩ := by
  unfold Chrono.daysOfCivil dayNumber daysBeforeYear
  rw [(sum_take_months y m h1 h2).1]

end Osmio
