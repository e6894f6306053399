import Verif.Proofs.Calendar
import Verif.Proofs.Decimal
import Verif.Spec.Timestamp
import Verif.Model.Timestamp
/-! RFC 3339 printing and parsing of the chrono model against the specification. -/

namespace Osmio
open Spec Chrono

theorem digitVal?_eq (c : Char) : digitVal? c = if isDigit c then some (digit c) else none := by
  unfold digitVal? isDigit digit; simp

theorem takeNum_iff (w acc : Nat) (s : Str) (n : Nat) (r : Str) :
    takeNum w acc s = some (n, r) ↔
      ∃ a : Str, IsNumeral w a ∧ s = a ++ r ∧ n = a.foldl (fun a c => 10 * a + digit c) acc := by
  induction w generalizing acc s with
  | zero =>
    simp only [takeNum, Option.some.injEq, Prod.mk.injEq, IsNumeral]
    constructor
    · rintro ⟨rfl, rfl⟩; exact ⟨[], by simp⟩
    · rintro ⟨a, ⟨h1, _⟩, h2, h3⟩
      obtain rfl := List.eq_nil_of_length_eq_zero h1
      simp_all
  | succ w ih =>
    cases s with
    | nil =>
      simp only [takeNum, IsNumeral]
      constructor
      · intro h; cases h
      · rintro ⟨a, ⟨h1, _⟩, h2, _⟩
        have := congrArg List.length h2
        simp at this; omega
    | cons c cs =>
      have e : takeNum (w + 1) acc (c :: cs) =
          if isDigit c then takeNum w (10 * acc + digit c) cs else none := by
        simp only [takeNum, digitVal?_eq]
        by_cases hc : isDigit c = true <;> simp [hc]
      rw [e]
      constructor
      · intro h
        split at h
        · rename_i hc
          obtain ⟨a, ⟨h1, h2⟩, h3, h4⟩ := (ih _ _).1 h
          refine ⟨c :: a, ⟨by simp [h1], ?_⟩, by simp [h3], by simp [h4]⟩
          intro x hx
          rcases List.mem_cons.1 hx with rfl | hx
          · exact hc
          · exact h2 x hx
        · cases h
      · rintro ⟨a, ⟨h1, h2⟩, h3, h4⟩
        cases a with
        | nil => simp at h1
        | cons x a =>
          simp only [List.cons_append, List.cons.injEq] at h3
          obtain ⟨rfl, rfl⟩ := h3
          rw [if_pos (h2 c (by simp))]
          refine (ih _ _).2 ⟨a, ⟨by simpa using h1, fun x hx => h2 x (by simp [hx])⟩, rfl, by simpa using h4⟩

theorem takeNum_num {w : Nat} {a : Str} (h : IsNumeral w a) (r : Str) :
    takeNum w 0 (a ++ r) = some (number a, r) := (takeNum_iff ..).2 ⟨a, h, rfl, rfl⟩

theorem takeNum_dest {w : Nat} {s : Str} {n : Nat} {r : Str} (h : takeNum w 0 s = some (n, r)) :
    ∃ a, IsNumeral w a ∧ s = a ++ r ∧ n = number a := (takeNum_iff ..).1 h

theorem takeChar_iff (c : Char) (s r : Str) : takeChar c s = some r ↔ s = c :: r := by
  cases s with
  | nil => simp [takeChar]
  | cons x xs => simp only [takeChar]; split <;> simp_all

theorem takeSep_iff (s r : Str) :
    takeSep s = some r ↔ ∃ c, (c = 'T' ∨ c = 't' ∨ c = ' ') ∧ s = c :: r := by
  cases s with
  | nil => simp [takeSep]
  | cons x xs =>
    simp only [takeSep]
    split
    · rename_i h
      simp only [Option.some.injEq]
      exact ⟨fun e => ⟨x, h, by rw [e]⟩, fun ⟨c, _, e⟩ => (List.cons.inj e).2⟩
    · rename_i h
      simp only [reduceCtorEq, false_iff, not_exists, not_and]
      rintro c hc e
      rw [(List.cons.inj e).1] at h
      exact h hc

theorem takeOffset_iff (s r : Str) (off : Int) :
    (takeOffset s = some (off, r) ∧ -86340 ≤ off ∧ off ≤ 86340) ↔ ∃ z, IsZone z off ∧ s = z ++ r := by
  constructor
  · rintro ⟨h, hlo, hhi⟩
    cases s with
    | nil => simp [takeOffset] at h
    | cons c cs =>
      simp only [takeOffset] at h
      split at h
      · rename_i hc
        simp only [Option.some.injEq, Prod.mk.injEq] at h
        obtain ⟨rfl, rfl⟩ := h
        rcases hc with rfl | rfl
        · exact ⟨_, .zulu, rfl⟩
        · exact ⟨_, .zuluLower, rfl⟩
      · split at h
        · rename_i hc
          cases h1 : takeNum 2 0 cs with
          | none => simp [h1] at h
          | some p1 =>
            obtain ⟨hh, r1⟩ := p1
            simp only [h1] at h
            cases h2 : takeChar ':' r1 with
            | none => simp [h2] at h
            | some r2 =>
              simp only [h2] at h
              cases h3 : takeNum 2 0 r2 with
              | none => simp [h3] at h
              | some p3 =>
                obtain ⟨mm, r3⟩ := p3
                simp only [h3] at h
                split at h
                · rename_i hm
                  simp only [Option.some.injEq, Prod.mk.injEq] at h
                  obtain ⟨ho, rfl⟩ := h
                  obtain ⟨a, na, rfl, rfl⟩ := takeNum_dest h1
                  rw [takeChar_iff] at h2
                  subst h2
                  obtain ⟨b, nb, rfl, rfl⟩ := takeNum_dest h3
                  rcases hc with rfl | hc
                  · rw [if_pos rfl] at ho
                    subst ho
                    exact ⟨_, .east na nb (by omega) hm, by simp⟩
                  · have hne : c ≠ '+' := by rcases hc with rfl | rfl <;> decide
                    rw [if_neg hne] at ho
                    subst ho
                    exact ⟨_, .west hc na nb (by omega) hm, by simp⟩
                · cases h
        · cases h
  · rintro ⟨z, hz, rfl⟩
    cases hz with
    | zulu => simp [takeOffset]
    | zuluLower => simp [takeOffset]
    | east na nb ha hb =>
      have e : ∀ (h m : Str), ('+' :: (h ++ ':' :: m)) ++ r = '+' :: (h ++ (':' :: (m ++ r))) := by simp
      rw [e]
      refine ⟨?_, by omega, by omega⟩
      simp only [takeOffset, takeNum_num na, takeChar, if_true, takeNum_num nb, hb]
      simp
    | @west c _ _ hc na nb ha hb =>
      have e : ∀ (h m : Str), (c :: (h ++ ':' :: m)) ++ r = c :: (h ++ (':' :: (m ++ r))) := by simp
      rw [e]
      refine ⟨?_, by omega, by omega⟩
      have hne : c ≠ '+' ∧ c ≠ 'Z' ∧ c ≠ 'z' := by rcases hc with rfl | rfl <;> decide
      simp only [takeOffset, takeNum_num na, takeChar, if_true, takeNum_num nb, hb]
      rw [if_neg (by simp [hne]), if_pos (Or.inr hc), if_neg hne.1]

theorem zone_head {z : Str} {off : Int} (h : IsZone z off) :
    ∃ c cs, z = c :: cs ∧ c ≠ '.' ∧ isDigit c = false := by
  cases h with
  | zulu => exact ⟨_, _, rfl, by decide, by decide⟩
  | zuluLower => exact ⟨_, _, rfl, by decide, by decide⟩
  | east => exact ⟨_, _, rfl, by decide, by decide⟩
  | west hc =>
    refine ⟨_, _, rfl, ?_⟩
    rcases hc with rfl | rfl <;> exact ⟨by decide, by decide⟩

theorem skipFraction_frac {f z : Str} {off : Int} (hf : IsFraction f) (hz : IsZone z off) :
    skipFraction (f ++ z) = some z := by
  obtain ⟨c, cs, rfl, h1, h2⟩ := zone_head hz
  rcases hf with rfl | ⟨ds, hne, hd, rfl⟩
  · simp only [List.nil_append]
    unfold skipFraction
    split <;> simp_all
  · cases ds with
    | nil => exact absurd rfl hne
    | cons d ds =>
      simp only [List.cons_append, skipFraction, hd d (by simp), if_true]
      rw [spanDigits_append (fun x hx => hd x (by simp [hx]))]
      rintro x xs hx
      simp only [List.cons.injEq] at hx
      rw [← hx.1]; exact h2

theorem spanDigits_spec (s : Str) : s = (spanDigits s).1 ++ (spanDigits s).2 ∧
    ∀ c ∈ (spanDigits s).1, isDigit c = true := by
  induction s with
  | nil => simp [spanDigits]
  | cons c cs ih =>
    simp only [spanDigits]
    split
    · rename_i h
      refine ⟨by simpa using ih.1, ?_⟩
      intro x hx
      simp only [List.mem_cons] at hx
      rcases hx with rfl | hx
      · exact h
      · exact ih.2 x hx
    · simp

theorem skipFraction_dest {s r : Str} (h : skipFraction s = some r) : ∃ f, IsFraction f ∧ s = f ++ r := by
  unfold skipFraction at h
  split at h
  · rename_i c cs
    split at h
    · rename_i hc
      simp only [Option.some.injEq] at h
      subst h
      have := spanDigits_spec cs
      refine ⟨'.' :: c :: (spanDigits cs).1, Or.inr ⟨c :: (spanDigits cs).1, by simp, ?_, rfl⟩, ?_⟩
      · intro x hx
        simp only [List.mem_cons] at hx
        rcases hx with rfl | hx
        · exact hc
        · exact this.2 x hx
      · simp only [List.cons_append, ← this.1]
    · cases h
  · cases h
  · simp only [Option.some.injEq] at h
    exact ⟨[], Or.inl rfl, by simp [h]⟩

theorem parseRfc3339_iff (s : Str) (z : Int) : parseRfc3339 s = some z ↔ IsRfc3339 s z := by
  constructor
  · intro h
    obtain ⟨⟨y, s1⟩, e1, h⟩ := Option.bind_eq_some_iff.1 h
    obtain ⟨s2, e2, h⟩ := Option.bind_eq_some_iff.1 h
    obtain ⟨⟨mo, s3⟩, e3, h⟩ := Option.bind_eq_some_iff.1 h
    obtain ⟨s4, e4, h⟩ := Option.bind_eq_some_iff.1 h
    obtain ⟨⟨d, s5⟩, e5, h⟩ := Option.bind_eq_some_iff.1 h
    obtain ⟨s6, e6, h⟩ := Option.bind_eq_some_iff.1 h
    obtain ⟨⟨hh, s7⟩, e7, h⟩ := Option.bind_eq_some_iff.1 h
    obtain ⟨s8, e8, h⟩ := Option.bind_eq_some_iff.1 h
    obtain ⟨⟨mi, s9⟩, e9, h⟩ := Option.bind_eq_some_iff.1 h
    obtain ⟨s10, e10, h⟩ := Option.bind_eq_some_iff.1 h
    obtain ⟨⟨sec, s11⟩, e11, h⟩ := Option.bind_eq_some_iff.1 h
    obtain ⟨s12, e12, h⟩ := Option.bind_eq_some_iff.1 h
    obtain ⟨⟨off, s13⟩, e13, h⟩ := Option.bind_eq_some_iff.1 h
    have h : rfcFinish y mo d hh mi sec off s13 = some z := h
    unfold rfcFinish at h
    split at h
    case isFalse => cases h
    rename_i hc
    obtain ⟨c0, c1, c2, c3, c4, c5, c6, c7, c8, c9⟩ := hc
    have hz := Option.some.inj h
    subst c0
    obtain ⟨zone, hzone, rfl⟩ := (takeOffset_iff _ _ _).1 ⟨e13, c8, c9⟩
    obtain ⟨frac, hfrac, rfl⟩ := skipFraction_dest e12
    obtain ⟨S, nS, rfl, rfl⟩ := takeNum_dest e11
    rw [takeChar_iff] at e10; subst e10
    obtain ⟨Mi, nMi, rfl, rfl⟩ := takeNum_dest e9
    rw [takeChar_iff] at e8; subst e8
    obtain ⟨H, nH, rfl, rfl⟩ := takeNum_dest e7
    obtain ⟨sep, hsep, rfl⟩ := (takeSep_iff _ _).1 e6
    obtain ⟨D, nD, rfl, rfl⟩ := takeNum_dest e5
    rw [takeChar_iff] at e4; subst e4
    obtain ⟨M, nM, rfl, rfl⟩ := takeNum_dest e3
    rw [takeChar_iff] at e2; subst e2
    obtain ⟨Y, nY, rfl, rfl⟩ := takeNum_dest e1
    rw [(sum_take_months _ _ c1 c2).2] at c4
    refine ⟨Y, M, D, H, Mi, S, frac, zone, sep, off, nY, nM, nD, nH, nMi, nS, hsep, hfrac, hzone,
      by simp, ⟨c1, c2, c3, c4⟩, c5, c6, c7, ?_⟩
    rw [daysOfCivil_eq _ _ _ c1 c2] at hz
    rw [← hz]
    simp only [epochSeconds]
  · rintro ⟨Y, M, D, H, Mi, S, frac, zone, sep, off, nY, nM, nD, nH, nMi, nS, hsep, hfrac, hzone,
      rfl, ⟨c1, c2, c3, c4⟩, c5, c6, c7, rfl⟩
    have hoff := (takeOffset_iff zone [] off).2 ⟨zone, hzone, by simp⟩
    have hsep' : ∀ r, takeSep (sep :: r) = some r := fun r => (takeSep_iff _ _).2 ⟨sep, hsep, rfl⟩
    have hch : ∀ c r, takeChar c (c :: r) = some r := fun c r => (takeChar_iff _ _ _).2 rfl
    refine Option.bind_eq_some_iff.2 ⟨_, takeNum_num nY _, ?_⟩
    refine Option.bind_eq_some_iff.2 ⟨_, hch _ _, ?_⟩
    refine Option.bind_eq_some_iff.2 ⟨_, takeNum_num nM _, ?_⟩
    refine Option.bind_eq_some_iff.2 ⟨_, hch _ _, ?_⟩
    refine Option.bind_eq_some_iff.2 ⟨_, takeNum_num nD _, ?_⟩
    refine Option.bind_eq_some_iff.2 ⟨_, hsep' _, ?_⟩
    refine Option.bind_eq_some_iff.2 ⟨_, takeNum_num nH _, ?_⟩
    refine Option.bind_eq_some_iff.2 ⟨_, hch _ _, ?_⟩
    refine Option.bind_eq_some_iff.2 ⟨_, takeNum_num nMi _, ?_⟩
    refine Option.bind_eq_some_iff.2 ⟨_, hch _ _, ?_⟩
    refine Option.bind_eq_some_iff.2 ⟨_, takeNum_num nS _, ?_⟩
    refine Option.bind_eq_some_iff.2 ⟨_, skipFraction_frac hfrac hzone, ?_⟩
    refine Option.bind_eq_some_iff.2 ⟨_, hoff.1, ?_⟩
    show rfcFinish _ _ _ _ _ _ _ _ = _
    unfold rfcFinish
    simp only at c1 c2 c3 c4
    rw [if_pos ⟨rfl, c1, c2, c3, by rw [(sum_take_months _ _ c1 c2).2]; exact c4, c5, c6, c7, hoff.2⟩]
    rw [daysOfCivil_eq _ _ _ c1 c2]
    simp only [epochSeconds]

/-- The instant of a canonical text. -/
theorem Spec.IsIsoText.rfc {s : Str} {t : DateTime} (h : IsIsoText s t) : IsRfc3339 s (epochSeconds t) := by
  obtain ⟨Y, M, D, hh, m, sec, nY, nM, nD, nH, nMi, nS, rfl, rfl, hv⟩ := h
  refine ⟨Y, M, D, hh, m, sec, [], ['Z'], 'T', 0, nY, nM, nD, nH, nMi, nS, Or.inl rfl, Or.inl rfl, .zulu,
    by simp, hv.1, hv.2.1, hv.2.2.1, by have := hv.2.2.2; simp only at this; omega, ?_⟩
  have := hv.2.2.2
  simp only at this
  rw [Nat.min_eq_left this]; omega

theorem digitsVal_number {s : Str} (h : ∀ c ∈ s, isDigit c = true) (acc : Nat) :
    digitsVal acc s = some (s.foldl (fun a c => 10 * a + digit c) acc) := by
  induction s generalizing acc with
  | nil => rfl
  | cons c cs ih =>
    simp only [digitsVal, digitVal?_eq, h c (by simp), if_true, List.foldl_cons]
    exact ih (fun x hx => h x (by simp [hx])) _

theorem number_padNat (w n : Nat) (h : n < 10 ^ w) : number (padNat w n) = n := by
  have h1 := digitsVal_padNat 0 w n
  have h2 := digitsVal_number (padNat_isDigit w n) 0
  rw [h1] at h2
  simp only [Option.some.injEq] at h2
  unfold number
  rw [← h2, Nat.mod_eq_of_lt h]; omega

theorem padNat_numeral (w n : Nat) : IsNumeral w (padNat w n) := ⟨padNat_length w n, padNat_isDigit w n⟩

/-- Years 0 to 9999 are printed in the canonical form. -/
theorem toRfc3339_iso (t : Int) (hlo : -62167219200 ≤ t) (hhi : t < 253402300800) :
    ∃ dt, IsIsoText (toRfc3339 t) dt ∧ epochSeconds dt = t := by
  obtain ⟨hv, hd⟩ := civilDate_spec (t / 86400)
  have hyear : 0 ≤ (civilDate (t / 86400)).year ∧ (civilDate (t / 86400)).year ≤ 9999 := by
    have z0 : dayNumber ⟨0, 1, 1⟩ = -719528 := by decide
    have z1 : dayNumber ⟨9999, 12, 31⟩ = 2932896 := by decide
    constructor
    · by_contra hc
      have := dayNumber_lt (b := ⟨0, 1, 1⟩) hv (by unfold Date.Valid; decide +kernel) (Or.inl (by simpa using hc))
      omega
    · by_contra hc
      have := dayNumber_lt (a := ⟨9999, 12, 31⟩) (b := civilDate (t / 86400)) (by unfold Date.Valid; decide +kernel) hv
        (Or.inl (by simpa using hc))
      omega
  have hday := (month_facts (civilDate (t / 86400)).year (civilDate (t / 86400)).month hv.1 hv.2.1).2.2.2.1
  have e : toRfc3339 t = fmtYear (civilDate (t / 86400)).year ++ ['-'] ++
      padNat 2 (civilDate (t / 86400)).month ++ ['-'] ++ padNat 2 (civilDate (t / 86400)).day ++ ['T'] ++
      padNat 2 ((t % 86400).toNat / 3600) ++ [':'] ++ padNat 2 ((t % 86400).toNat / 60 % 60) ++ [':'] ++
      padNat 2 ((t % 86400).toNat % 60) ++ ['Z'] := by
    simp only [toRfc3339, civilDate]
  obtain ⟨c1, c2, c3, c4⟩ := hv
  generalize civilDate (t / 86400) = c at *
  obtain ⟨y, m, d⟩ := c
  simp only at *
  have hsod : (t % 86400).toNat < 86400 := by omega
  rw [e, fmtYear, if_pos hyear]
  obtain ⟨Y, rfl⟩ : ∃ Y : Nat, y = Y := ⟨y.toNat, by omega⟩
  have n4 := number_padNat 4 Y (by omega)
  have nm := number_padNat 2 m (by omega)
  have nd := number_padNat 2 d (by omega)
  have nh := number_padNat 2 ((t % 86400).toNat / 3600) (by omega)
  have nmi := number_padNat 2 ((t % 86400).toNat / 60 % 60) (by omega)
  have ns := number_padNat 2 ((t % 86400).toNat % 60) (by omega)
  refine ⟨⟨⟨Y, m, d⟩, (t % 86400).toNat / 3600, (t % 86400).toNat / 60 % 60, (t % 86400).toNat % 60⟩,
    ⟨padNat 4 Y, padNat 2 m, padNat 2 d, _, _, _, padNat_numeral _ _, padNat_numeral _ _, padNat_numeral _ _,
      padNat_numeral 2 ((t % 86400).toNat / 3600), padNat_numeral 2 ((t % 86400).toNat / 60 % 60),
      padNat_numeral 2 ((t % 86400).toNat % 60), by simp, ?_, ?_⟩, ?_⟩
  · rw [n4, nm, nd, nh, nmi, ns]
  · refine ⟨⟨c1, c2, c3, c4⟩, ?_, ?_, ?_⟩ <;> simp only <;> omega
  · simp only [epochSeconds, hd]
    omega

theorem Spec.IsIsoText.length {s : Str} {t : DateTime} (h : IsIsoText s t) : s.length = 20 := by
  obtain ⟨Y, M, D, hh, m, sec, nY, nM, nD, nH, nMi, nS, rfl, rfl, hv⟩ := h
  simp [nY.1, nM.1, nD.1, nH.1, nMi.1, nS.1]

/-! ### String order of canonical texts -/

theorem compareStr_append {a b c d : Str} (h : a.length = c.length) :
    compareStr (a ++ b) (c ++ d) = (compareStr a c).then (compareStr b d) := by
  induction a generalizing c with
  | nil => cases c with
    | nil => simp [compareStr]
    | cons => simp at h
  | cons x xs ih =>
    cases c with
    | nil => simp at h
    | cons y ys =>
      simp only [List.cons_append, compareStr]
      rw [ih (by simpa using h), Ordering.then_assoc]

theorem compareStr_cons_same (c : Char) (a b : Str) : compareStr (c :: a) (c :: b) = compareStr a b := by
  simp [compareStr]

theorem compareStr_num_aux {a b : Str} (hlen : a.length = b.length) (ha : ∀ c ∈ a, isDigit c = true)
    (hb : ∀ c ∈ b, isDigit c = true) (p q : Nat) :
    (compare p q).then (compareStr a b) =
      compare (a.foldl (fun a c => 10 * a + digit c) p) (b.foldl (fun a c => 10 * a + digit c) q) := by
  induction a generalizing b p q with
  | nil => cases b with
    | nil => simp [compareStr]
    | cons => simp at hlen
  | cons x xs ih =>
    cases b with
    | nil => simp at hlen
    | cons y ys =>
      simp only [List.foldl_cons]
      rw [← ih (by simpa using hlen) (fun c h => ha c (by simp [h])) (fun c h => hb c (by simp [h]))]
      simp only [compareStr]
      rw [← Ordering.then_assoc]
      congr 1
      have hx := ha x (by simp)
      have hy := hb y (by simp)
      simp only [isDigit, decide_eq_true_eq] at hx hy
      unfold digit
      rcases Nat.lt_trichotomy p q with h | h | h
      · rw [Nat.compare_eq_lt.2 h, Nat.compare_eq_lt.2
          (show 10 * p + (x.toNat - 48) < 10 * q + (y.toNat - 48) by omega)]; rfl
      · subst h
        rw [Nat.compare_eq_eq.2 rfl]
        rcases Nat.lt_trichotomy x.toNat y.toNat with h | h | h
        · rw [Nat.compare_eq_lt.2 h, Nat.compare_eq_lt.2 (by omega)]; rfl
        · rw [Nat.compare_eq_eq.2 h, Nat.compare_eq_eq.2 (by omega)]; rfl
        · rw [Nat.compare_eq_gt.2 h, Nat.compare_eq_gt.2 (by omega)]; rfl
      · rw [Nat.compare_eq_gt.2 h, Nat.compare_eq_gt.2
          (show 10 * q + (y.toNat - 48) < 10 * p + (x.toNat - 48) by omega)]; rfl

theorem compareStr_num {w : Nat} {a b : Str} (ha : IsNumeral w a) (hb : IsNumeral w b) :
    compareStr a b = compare (number a) (number b) := by
  have := compareStr_num_aux (ha.1.trans hb.1.symm) ha.2 hb.2 0 0
  simpa [number] using this

theorem compareStr_num_append {w : Nat} {a b : Str} (ha : IsNumeral w a) (hb : IsNumeral w b) (c : Char)
    (r s : Str) :
    compareStr (a ++ c :: r) (b ++ c :: s) = (compare (number a) (number b)).then (compareStr r s) := by
  rw [compareStr_append (ha.1.trans hb.1.symm), compareStr_num ha hb, compareStr_cons_same]

theorem compare_int_lt {a b : Int} (h : a < b) : compare a b = .lt := by
  rw [Int.compare_eq_lt]; exact h
theorem compare_int_gt {a b : Int} (h : b < a) : compare a b = .gt := by
  rw [Int.compare_eq_gt]; exact h
theorem compare_int_eq {a b : Int} (h : a = b) : compare a b = .eq := by
  rw [Int.compare_eq_eq]; exact h

/-- Canonical texts compare as their instants do. -/
theorem compareStr_iso {s s' : Str} {t t' : DateTime} (h : IsIsoText s t) (h' : IsIsoText s' t') :
    compareStr s s' = compare (epochSeconds t) (epochSeconds t') := by
  obtain ⟨Y, M, D, hh, m, sec, nY, nM, nD, nH, nMi, nS, rfl, rfl, hv⟩ := h
  obtain ⟨Y', M', D', hh', m', sec', nY', nM', nD', nH', nMi', nS', rfl, rfl, hv'⟩ := h'
  rw [compareStr_num_append nY nY', compareStr_num_append nM nM', compareStr_num_append nD nD',
    compareStr_num_append nH nH', compareStr_num_append nMi nMi', compareStr_num_append nS nS']
  obtain ⟨v1, v2, v3, v4⟩ := hv
  obtain ⟨w1, w2, w3, w4⟩ := hv'
  have dl := dayNumber_lt v1 w1
  have dl' := dayNumber_lt w1 v1
  simp only [epochSeconds] at *
  generalize number Y = y at *
  generalize number M = mo at *
  generalize number D = d at *
  generalize number hh = a1 at *
  generalize number m = a2 at *
  generalize number sec = a3 at *
  generalize number Y' = y' at *
  generalize number M' = mo' at *
  generalize number D' = d' at *
  generalize number hh' = b1 at *
  generalize number m' = b2 at *
  generalize number sec' = b3 at *
  rcases Nat.lt_trichotomy y y' with h | h | h
  · have := dl (Or.inl (by exact_mod_cast h))
    rw [Nat.compare_eq_lt.2 h, compare_int_lt (by omega)]; rfl
  · subst h
    rw [Nat.compare_eq_eq.2 rfl]
    rcases Nat.lt_trichotomy mo mo' with h | h | h
    · have := dl (Or.inr ⟨rfl, Or.inl h⟩)
      rw [Nat.compare_eq_lt.2 h, compare_int_lt (by omega)]; rfl
    · subst h
      rw [Nat.compare_eq_eq.2 rfl]
      rcases Nat.lt_trichotomy d d' with h | h | h
      · have := dl (Or.inr ⟨rfl, Or.inr ⟨rfl, h⟩⟩)
        rw [Nat.compare_eq_lt.2 h, compare_int_lt (by omega)]; rfl
      · subst h
        rw [Nat.compare_eq_eq.2 rfl]
        clear dl dl'
        rcases Nat.lt_trichotomy a1 b1 with h | h | h
        · rw [Nat.compare_eq_lt.2 h, compare_int_lt (by omega)]; rfl
        · subst h
          rw [Nat.compare_eq_eq.2 rfl]
          rcases Nat.lt_trichotomy a2 b2 with h | h | h
          · rw [Nat.compare_eq_lt.2 h, compare_int_lt (by omega)]; rfl
          · subst h
            rw [Nat.compare_eq_eq.2 rfl]
            rcases Nat.lt_trichotomy a3 b3 with h | h | h
            · rw [Nat.compare_eq_lt.2 h, compare_int_lt (by omega)]; rfl
            · rw [Nat.compare_eq_eq.2 h, compare_int_eq (by omega)]; rfl
            · rw [Nat.compare_eq_gt.2 h, compare_int_gt (by omega)]; rfl
          · rw [Nat.compare_eq_gt.2 h, compare_int_gt (by omega)]; rfl
        · rw [Nat.compare_eq_gt.2 h, compare_int_gt (by omega)]; rfl
      · have := dl' (Or.inr ⟨rfl, Or.inr ⟨rfl, h⟩⟩)
        rw [Nat.compare_eq_gt.2 h, compare_int_gt (by omega)]; rfl
    · have := dl' (Or.inr ⟨rfl, Or.inl h⟩)
      rw [Nat.compare_eq_gt.2 h, compare_int_gt (by omega)]; rfl
  · have := dl' (Or.inl (by exact_mod_cast h))
    rw [Nat.compare_eq_gt.2 h, compare_int_gt (by omega)]; rfl

theorem compareStr_eq_iff (a b : Str) : compareStr a b = .eq ↔ a = b := by
  induction a generalizing b with
  | nil => cases b <;> simp [compareStr]
  | cons x xs ih =>
    cases b with
    | nil => simp [compareStr]
    | cons y ys =>
      simp only [compareStr, Ordering.then_eq_eq, Nat.compare_eq_eq, ih, List.cons.injEq, Char.toNat_inj]

theorem compareStr_swap (a b : Str) : compareStr b a = (compareStr a b).swap := by
  induction a generalizing b with
  | nil => cases b <;> rfl
  | cons x xs ih =>
    cases b with
    | nil => rfl
    | cons y ys =>
      simp only [compareStr, Ordering.swap_then, ih, Nat.compare_swap]

theorem compareStr_trans {a b c : Str} (h1 : compareStr a b = .lt) (h2 : compareStr b c = .lt) :
    compareStr a c = .lt := by
  induction a generalizing b c with
  | nil =>
    cases b with
    | nil => simp [compareStr] at h1
    | cons y ys => cases c with
      | nil => simp [compareStr] at h2
      | cons => rfl
  | cons x xs ih =>
    cases b with
    | nil => simp [compareStr] at h1
    | cons y ys =>
      cases c with
      | nil => simp [compareStr] at h2
      | cons z zs =>
        simp only [compareStr, Ordering.then_eq_lt, Nat.compare_eq_lt, Nat.compare_eq_eq] at *
        rcases h1 with h1 | ⟨h1, h1'⟩ <;> rcases h2 with h2 | ⟨h2, h2'⟩
        · left; omega
        · left; omega
        · left; omega
        · right; exact ⟨by omega, ih h1' h2'⟩

end Osmio
