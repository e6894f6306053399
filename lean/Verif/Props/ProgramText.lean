import Verif.Props.Programs
import Verif.Proofs.ProgramText
/-!
# What `osmio-pbf-read-speed` prints, as text (C87)
-/

namespace Osmio
open Spec Spec.Programs Programs

/-- **C87**, the text of `osmio-pbf-read-speed`. If a loop over the reader sees the objects `ds`, then the program prints one line for each of the
lines of `C87_speed`, in order, and at the end of the file, but not if the reader panics, the last line with the number of objects. In a line the
number of objects has commas, the time is exact to the millisecond, and the rate lies as near to the true one as doubles and three places allow.
The times are at most 10¹⁴ milliseconds, some three thousand years. -/
theorem C87_speed_text (zlib : Proto.Bytes → Option Proto.Bytes) (b : Build) (clock : Nat → Nat)
    (hc : ∀ i, clock i ≤ clock 0 + 10 ^ 20) (files : Files) (args : List FileName)
    {name : FileName} (ha : args[1]? = some name) {src : Source} (hf : files name = some src) :
    ∃ ds e, Pbf.Reads .owned zlib b src ds e ∧ (ds.length < 18446744073709551616 → ∀ rounds, ds.length < rounds →
      ∃ printed last, pbfReadSpeed zlib b clock files args rounds = some (printed, last, ended e) ∧
      ∃ ls fin, speedOutput printed last = List.flatten ls ++ fin ∧
        List.Forall₂ (fun l p => IsLine l p.objects.toNat p.millis) ls (lines clock (clock 0) (List.range (checkpoints ds.length))) ∧
        match e with
        | none => IsLastLine fin ds.length ((clock (checkpoints ds.length + 1) - clock 0) / 1000000)
        | some _ => fin = []) := by
  obtain ⟨ds, e, h1, h2⟩ := C87_speed zlib b clock files args ha hf
  refine ⟨ds, e, h1, fun hl rounds hr => ?_⟩
  have h3 := h2 hl rounds
  rw [if_pos hr] at h3
  refine ⟨_, _, h3, (lines clock (clock 0) (List.range (checkpoints ds.length))).map Progress.line, _, by
    unfold speedOutput; rw [List.flatMap_def], ?_, ?_⟩
  · rw [List.forall₂_map_left_iff, List.forall₂_same]
    intro p hp
    refine line_isLine p ?_
    have key : ∀ (js : List Nat) (last : Nat), ∀ p ∈ lines clock last js, p.millis ≤ 10 ^ 14 := by
      intro js
      induction js with
      | nil => intro last p hp; simp [lines] at hp
      | cons j js ih =>
        intro last p hp
        rw [lines] at hp
        split at hp
        · rcases List.mem_cons.1 hp with rfl | hp
          · have := hc (j + 1)
            simp only; omega
          · exact ih _ p hp
        · exact ih _ p hp
    exact key _ _ p hp
  · cases e with
    | none =>
      have := lastLine_isLastLine ⟨UInt64.ofNat ds.length, (clock (checkpoints ds.length + 1) - clock 0) / 1000000⟩ (by
        have := hc (checkpoints ds.length + 1)
        simp only; omega)
      rw [UInt64.toNat_ofNat_of_lt' (by simpa [UInt64.size] using hl)] at this
      exact this
    | some _ => rfl

/-- What there is before the first space, and the rest, of two texts that are the same. -/
theorem upto_space {a a' r r' : List Char} (h : a ++ ' ' :: r = a' ++ ' ' :: r') (ha : ' ' ∉ a) (ha' : ' ' ∉ a') : a = a' ∧ r = r' := by
  induction a generalizing a' with
  | nil =>
    cases a' with
    | nil => simpa using h
    | cons c a' => simp only [List.nil_append, List.cons_append, List.cons.injEq] at h; exact absurd (List.mem_cons.2 (.inl h.1)) ha'
  | cons c a ih =>
    cases a' with
    | nil => simp only [List.nil_append, List.cons_append, List.cons.injEq] at h; exact absurd (by simp [h.1]) ha
    | cons c' a' =>
      simp only [List.cons_append, List.cons.injEq] at h
      simp only [List.mem_cons, not_or] at ha ha'
      obtain ⟨rfl, h⟩ := h
      obtain ⟨rfl, rfl⟩ := ih h ha.2 ha'.2
      exact ⟨rfl, rfl⟩

theorem grouped_digits {s : List Char} {n : Nat} (h : IsGrouped s n) : ' ' ∉ s ∧ number (s.filter (· != ',')) = n := by
  obtain ⟨g, gs, rfl, -, -, -, hd, -, rfl⟩ := h
  have hg : ∀ l : List (List Char), (∀ c ∈ l.flatten, isDigit c = true) →
      ' ' ∉ l.flatMap (',' :: ·) ∧ (l.flatMap (',' :: ·)).filter (· != ',') = l.flatten := by
    intro l
    induction l with
    | nil => simp
    | cons x l ih =>
      intro hl
      obtain ⟨h1, h2⟩ := ih fun c hc => hl c (by simp at hc ⊢; exact .inr hc)
      have hx : ∀ c ∈ x, isDigit c = true := fun c hc => hl c (by simp [hc])
      rw [List.flatMap_cons, List.flatten_cons]
      refine ⟨?_, ?_⟩
      · simp only [List.cons_append, List.mem_cons, List.mem_append, not_or]
        exact ⟨by decide, fun hs => absurd (hx _ hs) (by decide), h1⟩
      · rw [List.filter_append, h2]
        congr 1
        rw [List.filter_cons_of_neg (by decide), List.filter_eq_self]
        intro c hc
        have : c ≠ ',' := by rintro rfl; exact absurd (hx _ hc) (by decide)
        simp [this]
  have hgd : ∀ c ∈ g, isDigit c = true := fun c hc => hd c (List.mem_append_left _ hc)
  obtain ⟨h1, h2⟩ := hg gs fun c hc => hd c (List.mem_append_right _ hc)
  refine ⟨?_, ?_⟩
  · rw [List.mem_append]
    rintro (hs | hs)
    · exact absurd (hgd _ hs) (by decide)
    · exact h1 hs
  · rw [List.filter_append, h2]
    congr 2
    rw [List.filter_eq_self]
    intro c hc
    have : c ≠ ',' := by rintro rfl; exact absurd (hgd _ hc) (by decide)
    simp [this]

theorem seconds_digits {s : List Char} {m : Nat} (h : IsSeconds s m) : ' ' ∉ s ∧
    number (s.takeWhile (· != '.')) * 1000 + number ((s.dropWhile (· != '.')).tail) * 10 ^ (3 - ((s.dropWhile (· != '.')).tail).length) = m := by
  obtain ⟨a, f, rfl, -, hd, -, -, -, rfl⟩ := h
  have ha : ∀ c ∈ a, isDigit c = true := fun c hc => hd c (List.mem_append_left _ hc)
  have hf : ∀ c ∈ f, isDigit c = true := fun c hc => hd c (List.mem_append_right _ hc)
  have hsa : ' ' ∉ a := fun hs => absurd (ha _ hs) (by decide)
  have hsf : ' ' ∉ f := fun hs => absurd (hf _ hs) (by decide)
  have hpa : ∀ c ∈ a, (c != '.') = true := by
    intro c hc
    have : c ≠ '.' := by rintro rfl; exact absurd (ha _ hc) (by decide)
    simp [this]
  by_cases h0 : f = []
  · subst h0
    simp only [if_true, List.append_nil]
    have hw : a.takeWhile (· != '.') = a := List.takeWhile_eq_self_iff.2 hpa
    have hw' : a.dropWhile (· != '.') = [] := List.dropWhile_eq_nil_iff.2 hpa
    rw [hw, hw']
    exact ⟨hsa, rfl⟩
  · rw [if_neg h0]
    obtain ⟨h1, h2⟩ := takeWhile_point (t := f) ha
    rw [h1, h2]
    refine ⟨?_, rfl⟩
    simp only [List.mem_append, List.mem_cons, not_or]
    exact ⟨hsa, by decide, hsf⟩

/-- The lines say how many objects there were and how long it took: lines with the same text show the same two numbers. -/
theorem C87_speed_text_exact {s : List Char} {n n' t t' : Nat} :
    (IsLine s n t → IsLine s n' t' → n = n' ∧ t = t') ∧ (IsLastLine s n t → IsLastLine s n' t' → n = n' ∧ t = t') := by
  constructor
  · rintro ⟨a, b, r, ha, hb, -, rfl⟩ ⟨a', b', r', ha', hb', -, h⟩
    obtain ⟨a1, a2⟩ := grouped_digits ha
    obtain ⟨a1', a2'⟩ := grouped_digits ha'
    obtain ⟨b1, b2⟩ := seconds_digits hb
    obtain ⟨b1', b2'⟩ := seconds_digits hb'
    simp only [List.append_assoc, List.append_cancel_left_eq] at h
    obtain ⟨rfl, h⟩ := upto_space h a1 a1'
    obtain ⟨rfl, h⟩ := upto_space (by simpa using h) b1 b1'
    exact ⟨a2.symm.trans a2', b2.symm.trans b2'⟩
  · rintro ⟨a, b, r, ha, hb, -, rfl⟩ ⟨a', b', r', ha', hb', -, h⟩
    obtain ⟨a1, a2⟩ := grouped_digits ha
    obtain ⟨a1', a2'⟩ := grouped_digits ha'
    obtain ⟨b1, b2⟩ := seconds_digits hb
    obtain ⟨b1', b2'⟩ := seconds_digits hb'
    simp only [List.append_assoc, List.append_cancel_left_eq] at h
    obtain ⟨rfl, h⟩ := upto_space h a1 a1'
    obtain ⟨rfl, h⟩ := upto_space (by simpa using h) b1 b1'
    exact ⟨a2.symm.trans a2', b2.symm.trans b2'⟩

/-! The hypotheses are met, by the file of C41. -/

example (b : Build) : ∃ printed last, pbfReadSpeed some b (fun i => 700000000 * min i 2) (oneFile (Pbf.source (Pbf.fileBytes PbfEx.file)))
    [[], [97]] 100 = some (printed, last, .well) ∧ IsLastLine (speedOutput printed last) 6 1400 := by
  obtain ⟨ds, e, h, h1⟩ := C87_speed_text some b (fun i => 700000000 * min i 2) (fun i => by have := Nat.min_le_right i 2; omega)
    (oneFile (Pbf.source (Pbf.fileBytes PbfEx.file))) [[], [97]] (name := [97]) rfl (src := Pbf.source (Pbf.fileBytes PbfEx.file)) rfl
  obtain ⟨os, t, h2, rfl⟩ := h
  obtain ⟨os', t', h3, h4⟩ := PbfEx.file_drain b
  obtain ⟨rfl, rfl, -⟩ := h3.unique h2
  rw [h4] at h1
  have hl : PbfEx.fileData.flatten.length = 6 := by decide +kernel
  rw [hl] at h1
  have hc : checkpoints 6 = 1 := by unfold checkpoints; omega
  rw [hc] at h1
  obtain ⟨printed, last, h5, ls, fin, h6, h7, h8⟩ := h1 (by omega) 100 (by omega)
  refine ⟨printed, last, h5, ?_⟩
  have : lines (fun i => 700000000 * min i 2) (700000000 * min 0 2) (List.range 1) = [] := by simp [lines, List.range_succ]
  rw [this] at h7
  cases h7
  rw [h6]
  exact h8

/-- The lines themselves. -/
example : Progress.line ⟨2000000, 4500⟩ = str% "Processed 2,000,000 objects so far. Total time 4.5 s. 444,444.444 objects/sec\n" ∧
    Progress.lastLine ⟨6, 1400⟩ = str% "\nProcessed 6 objects in 1.4 s. 4.286 objects/sec\n" ∧
    Progress.lastLine ⟨0, 0⟩ = str% "\nProcessed 0 objects in 0 s. NaN objects/sec\n" := by
  decide +kernel

end Osmio
