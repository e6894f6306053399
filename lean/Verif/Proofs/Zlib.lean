import Verif.Lib.Zlib
import Mathlib.Tactic.Ring

/-! # The decompressor and the format -/

namespace Osmio.Zlib

open Spec.Zlib

/-! ## Numbers -/

theorem lsb_succ (w n : Nat) : lsb (w + 1) n = n.testBit 0 :: lsb w (n / 2) := by
  simp [lsb, List.range_succ_eq_map, Nat.testBit_succ, Function.comp_def]

@[simp] theorem lsb_length (w n : Nat) : (lsb w n).length = w := by simp [lsb]

@[simp] theorem msb_length (w n : Nat) : (msb w n).length = w := by simp [msb]

theorem msb_succ (w n : Nat) : msb (w + 1) n = n.testBit w :: msb w n := by
  simp [msb, lsb, List.range_succ]

theorem toNat_testBit_zero (n : Nat) : (n.testBit 0).toNat = n % 2 := by
  rcases Nat.mod_two_eq_zero_or_one n with h | h <;> simp [h]

theorem number_lsb (w : Nat) : ∀ (n : Nat) (s : Bits), n < 2 ^ w → number w (lsb w n ++ s) = some (n, s) := by
  induction w with
  | zero => intro n s h; simp at h; simp [lsb, number, h]
  | succ w ih =>
    intro n s h
    rw [lsb_succ, List.cons_append, number, ih (n / 2) s (by omega), toNat_testBit_zero]
    simp; omega

theorem number_some (w : Nat) : ∀ (n : Nat) (s r : Bits), number w s = some (n, r) → n < 2 ^ w ∧ s = lsb w n ++ r := by
  induction w with
  | zero => intro n s r h; simp [number] at h; obtain ⟨rfl, rfl⟩ := h; simp [lsb]
  | succ w ih =>
    intro n s r h
    cases s with
    | nil => simp [number] at h
    | cons b s =>
      rw [number] at h
      cases hn : number w s with
      | none => simp [hn] at h
      | some p =>
        obtain ⟨m, t⟩ := p
        simp only [hn, Option.some.injEq, Prod.mk.injEq] at h
        obtain ⟨h1, rfl⟩ := h
        obtain ⟨h2, rfl⟩ := ih m s t hn
        have hb : b.toNat < 2 := by cases b <;> decide
        refine ⟨by omega, ?_⟩
        rw [lsb_succ, ← h1]
        have e : (b.toNat + 2 * m) / 2 = m := by omega
        rw [e]
        have : (b.toNat + 2 * m).testBit 0 = b := by cases b <;> simp
        rw [this]; rfl

theorem numbers_of (w : Nat) : ∀ (xs : List Nat) (s : Bits), (∀ x ∈ xs, x < 2 ^ w) →
    numbers w xs.length (xs.flatMap (lsb w) ++ s) = some (xs, s) := by
  intro xs
  induction xs with
  | nil => intro s _; rfl
  | cons x xs ih =>
    intro s h
    simp only [List.flatMap_cons, List.append_assoc, List.length_cons, numbers]
    rw [number_lsb w x _ (h x (by simp))]
    simp [ih s (fun y hy => h y (by simp [hy]))]

theorem numbers_some (w : Nat) : ∀ (n : Nat) (s : Bits) (xs : List Nat) (r : Bits), numbers w n s = some (xs, r) →
    xs.length = n ∧ (∀ x ∈ xs, x < 2 ^ w) ∧ s = xs.flatMap (lsb w) ++ r := by
  intro n
  induction n with
  | zero => intro s xs r h; simp [numbers] at h; obtain ⟨rfl, rfl⟩ := h; simp
  | succ n ih =>
    intro s xs r h
    simp only [numbers, Option.bind_eq_bind, Option.bind_eq_some_iff] at h
    obtain ⟨⟨x, s1⟩, h1, ⟨ys, s2⟩, h2, h3⟩ := h
    simp only [Option.some.injEq, Prod.mk.injEq] at h3
    obtain ⟨rfl, rfl⟩ := h3
    obtain ⟨a1, rfl⟩ := number_some w x s s1 h1
    obtain ⟨b1, b2, rfl⟩ := ih s1 ys s2 h2
    refine ⟨by simp [b1], ?_, by simp⟩
    intro y hy
    rcases List.mem_cons.mp hy with rfl | hy
    · exact a1
    · exact b2 y hy

theorem bits_eq (bs : List UInt8) : bits bs = (bs.map UInt8.toNat).flatMap (lsb 8) := by
  simp [bits, List.flatMap_map]; rfl

theorem bits_append (a b : List UInt8) : bits (a ++ b) = bits a ++ bits b := by simp [bits]

@[simp] theorem bits_length (bs : List UInt8) : (bits bs).length = 8 * bs.length := by
  induction bs with
  | nil => rfl
  | cons b bs ih =>
    have : bits (b :: bs) = byteBits b ++ bits bs := rfl
    rw [this, List.length_append, ih]; simp [byteBits]; omega

theorem bytes_of (bs : List UInt8) (s : Bits) : bytes bs.length (bits bs ++ s) = some (bs, s) := by
  have h := numbers_of 8 (bs.map UInt8.toNat) s (by
    intro x hx
    obtain ⟨b, _, rfl⟩ := List.mem_map.mp hx
    exact b.toNat_lt)
  rw [List.length_map] at h
  rw [bytes, bits_eq, h]
  simp [Function.comp_def]

theorem bytes_some (n : Nat) (s : Bits) (bs : List UInt8) (r : Bits) (h : bytes n s = some (bs, r)) :
    bs.length = n ∧ s = bits bs ++ r := by
  rw [bytes, Option.map_eq_some_iff] at h
  obtain ⟨⟨xs, t⟩, h1, h2⟩ := h
  simp only [Prod.mk.injEq] at h2
  obtain ⟨rfl, rfl⟩ := h2
  obtain ⟨a, b, rfl⟩ := numbers_some 8 n s xs t h1
  refine ⟨by simp [a], ?_⟩
  rw [bits_eq, List.map_map]
  have : xs.map (UInt8.toNat ∘ UInt8.ofNat) = xs := by
    rw [List.map_congr_left (g := id)]
    · simp
    · intro x hx
      have := b x hx
      simp; omega
  rw [this]

/-! ## Symbols -/

/-- A code whose words do not overlap. -/
def Fits (ls : Lengths) : Prop := (∀ l ∈ ls, l ≤ 15) ∧ taken ls ≤ 2 ^ 15

theorem Fits.ofComplete {ls : Lengths} (h : Complete ls) : Fits ls := ⟨h.1, Nat.le_of_eq h.2⟩

theorem Fits.ofUsable {ls : Lengths} (h : Usable ls) : Fits ls := by
  rcases h with h | h | h
  · exact .ofComplete h
  · refine ⟨?_, by simp only [taken, h]; decide⟩
    intro l hl
    by_cases h0 : l = 0
    · omega
    · have : l ∈ ls.filter (· ≠ 0) := List.mem_filter.mpr ⟨hl, by simpa using h0⟩
      rw [h] at this
      simp at this; omega
  · refine ⟨?_, by simp only [taken, h]; decide⟩
    intro l hl
    by_cases h0 : l = 0
    · omega
    · have : l ∈ ls.filter (· ≠ 0) := List.mem_filter.mpr ⟨hl, by simpa using h0⟩
      rw [h] at this
      simp at this

/-- What the words of up to `l` bits take up. -/
def upTo (l : Nat) (ls : Lengths) : Nat := ((ls.filter fun x => x ≠ 0 ∧ x ≤ l).map fun l => 2 ^ (15 - l)).sum

theorem upTo_le (l : Nat) (ls : Lengths) : upTo l ls ≤ taken ls := by
  induction ls with
  | nil => simp [upTo, taken]
  | cons x ls ih =>
    unfold upTo taken at *
    by_cases h : x = 0
    · simpa [List.filter_cons, h] using ih
    · by_cases h' : x ≤ l
      · simp [h, h'] at ih ⊢; omega
      · simp [h, h'] at ih ⊢; exact Nat.le_trans ih (Nat.le_add_left _ _)

theorem upTo_zero (ls : Lengths) : upTo 0 ls = 0 := by
  have : ls.filter (fun x => decide (x ≠ 0 ∧ x ≤ 0)) = [] := by
    rw [List.filter_eq_nil_iff]; intro a _; simp
  simp only [upTo, this]; rfl

theorem upTo_succ (l : Nat) (ls : Lengths) : upTo (l + 1) ls = upTo l ls + ls.count (l + 1) * 2 ^ (15 - (l + 1)) := by
  induction ls with
  | nil => simp [upTo]
  | cons x ls ih =>
    unfold upTo at *
    by_cases h : x = 0
    · subst h; simpa [List.filter_cons] using ih
    · by_cases h1 : x = l + 1
      · subst h1; simp [Nat.add_mul] at ih ⊢; omega
      · by_cases h2 : x ≤ l
        · have h3 : x ≤ l + 1 := by omega
          simp [h, h2, h3, h1] at ih ⊢; omega
        · have h3 : ¬ x ≤ l + 1 := by omega
          simp [h, h2, h3, h1] at ih ⊢; omega

theorem firstCode_upTo (ls : Lengths) : ∀ l, l < 15 → firstCode ls (l + 1) * 2 ^ (15 - (l + 1)) = upTo l ls := by
  intro l
  induction l with
  | zero => intro _; simp [firstCode, upTo_zero]
  | succ l ih =>
    intro h
    have := ih (by omega)
    rw [firstCode, upTo_succ, ← this]
    have e : 15 - (l + 1) = 15 - (l + 1 + 1) + 1 := by omega
    rw [e, Nat.pow_succ]
    simp
    ring_nf

theorem word_fits {ls : Lengths} (h : Fits ls) {l : Nat} (h0 : l ≠ 0) (h15 : l ≤ 15) : firstCode ls l + ls.count l ≤ 2 ^ l := by
  obtain ⟨k, rfl⟩ := Nat.exists_eq_succ_of_ne_zero h0
  have h1 := firstCode_upTo ls k (by omega)
  have h2 := upTo_succ k ls
  have h3 := upTo_le (k + 1) ls
  have h4 : (firstCode ls (k + 1) + ls.count (k + 1)) * 2 ^ (15 - (k + 1)) ≤ 2 ^ (k + 1) * 2 ^ (15 - (k + 1)) := by
    rw [← Nat.pow_add, Nat.add_mul, h1, ← h2]
    have e : k + 1 + (15 - (k + 1)) = 15 := by omega
    rw [e]; exact Nat.le_trans h3 h.2
  exact Nat.le_of_mul_le_mul_right h4 (Nat.two_pow_pos _)

theorem firstCode_grows (ls : Lengths) (i : Nat) (hi : i ≠ 0) : ∀ m, 2 ^ (m + 1) * (firstCode ls i + ls.count i) ≤ firstCode ls (i + (m + 1)) := by
  intro m
  induction m with
  | zero => simp [firstCode, hi]
  | succ m ih =>
    have : i + (m + 1 + 1) = (i + (m + 1)) + 1 := by omega
    rw [this, firstCode, Nat.pow_succ]
    have : 2 ^ (m + 1) * 2 * (firstCode ls i + ls.count i) = 2 * (2 ^ (m + 1) * (firstCode ls i + ls.count i)) := by ring
    rw [this]; omega

theorem nth_of (l : Nat) : ∀ (ls : Lengths) (s : Nat), ls[s]? = some l → nth l ls ((ls.take s).count l) = some s := by
  intro ls
  induction ls with
  | nil => intro s h; simp at h
  | cons x ls ih =>
    intro s h
    cases s with
    | zero => simp at h; simp [nth, h]
    | succ s =>
      simp only [List.getElem?_cons_succ] at h
      by_cases hx : x = l
      · subst hx; simp [nth, ih s h]
      · simp [nth, hx, ih s h]

theorem nth_some (l : Nat) : ∀ (ls : Lengths) (k s : Nat), nth l ls k = some s → ls[s]? = some l ∧ (ls.take s).count l = k := by
  intro ls
  induction ls with
  | nil => intro k s h; simp [nth] at h
  | cons x ls ih =>
    intro k s h
    rw [nth] at h
    split at h
    · rename_i hx
      subst hx
      split at h
      · rename_i hk
        simp at h; subst h; simp [hk]
      · rename_i hk
        rw [Option.map_eq_some_iff] at h
        obtain ⟨t, h1, rfl⟩ := h
        obtain ⟨a, b⟩ := ih _ _ h1
        simp [a, b]; omega
    · rename_i hx
      rw [Option.map_eq_some_iff] at h
      obtain ⟨t, h1, rfl⟩ := h
      obtain ⟨a, b⟩ := ih _ _ h1
      simp [a, b, hx]

theorem half_bit (V m : Nat) : 2 * (V / 2 ^ (m + 1)) + (V.testBit m).toNat = V / 2 ^ m := by
  have : V.testBit m = (V / 2 ^ m).testBit 0 := by
    rw [Nat.testBit_div_two_pow]; simp
  rw [this, toNat_testBit_zero, Nat.pow_succ, ← Nat.div_div_eq_div_mul]
  omega

theorem symbolFrom_of (ls : Lengths) (s l : Nat) (hs : ls[s]? = some l) (rest : Bits) : ∀ (m i n : Nat), i ≠ 0 → i + m = l → m < n →
    symbolFrom ls n i (codeWord ls s / 2 ^ (m + 1)) (firstCode ls i) (msb (m + 1) (codeWord ls s) ++ rest) = some (s, rest) := by
  have hd : ls.getD s 0 = l := by simp [List.getD, hs]
  have hk : (ls.take s).count l < ls.count l := by
    obtain ⟨h, e⟩ := List.getElem?_eq_some_iff.mp hs
    have : ls = ls.take s ++ ls[s] :: ls.drop (s + 1) := by simp
    conv => rhs; rw [this]
    rw [List.count_append, e, List.count_cons_self]; omega
  intro m
  induction m with
  | zero =>
    intro i n h0 hi hn
    obtain ⟨n, rfl⟩ := Nat.exists_eq_succ_of_ne_zero (by omega : n ≠ 0)
    have hi : i = l := by omega
    subst hi
    rw [msb_succ, List.cons_append, symbolFrom, half_bit]
    simp only [Nat.pow_zero, Nat.div_one]
    rw [if_pos (by simp only [codeWord, hd]; omega)]
    have : codeWord ls s - firstCode ls i = (ls.take s).count i := by simp only [codeWord, hd]; omega
    rw [this, nth_of i ls s hs]; rfl
  | succ m ih =>
    intro i n h0 hi hn
    obtain ⟨n, rfl⟩ := Nat.exists_eq_succ_of_ne_zero (by omega : n ≠ 0)
    rw [msb_succ, List.cons_append, symbolFrom, half_bit]
    have hge : firstCode ls i + ls.count i ≤ codeWord ls s / 2 ^ (m + 1) := by
      rw [Nat.le_div_iff_mul_le (Nat.two_pow_pos _), Nat.mul_comm]
      have := firstCode_grows ls i h0 m
      rw [hi] at this
      simp only [codeWord, hd]; omega
    rw [if_neg (by omega)]
    have : 2 * (firstCode ls i + ls.count i) = firstCode ls (i + 1) := by simp [firstCode, h0]
    rw [this]
    exact ih (i + 1) n (by omega) (by omega) (by omega)

theorem symbol_of {ls : Lengths} (h : Fits ls) {s : Nat} {w : Bits} (hw : Word ls s w) (rest : Bits) : symbol ls (w ++ rest) = some (s, rest) := by
  obtain ⟨l, hs, h0, rfl⟩ := hw
  have h15 : l ≤ 15 := h.1 l (List.mem_of_getElem? hs)
  have hd : ls.getD s 0 = l := by simp [List.getD, hs]
  have hk : (ls.take s).count l < ls.count l := by
    obtain ⟨h, e⟩ := List.getElem?_eq_some_iff.mp hs
    have : ls = ls.take s ++ ls[s] :: ls.drop (s + 1) := by simp
    conv => rhs; rw [this]
    rw [List.count_append, e, List.count_cons_self]; omega
  have hc : codeWord ls s < 2 ^ l := by
    have := word_fits h h0 h15
    simp only [codeWord, hd]; omega
  obtain ⟨m, rfl⟩ := Nat.exists_eq_succ_of_ne_zero h0
  have := symbolFrom_of ls s _ hs rest m 1 15 (by omega) (by omega) (by omega)
  rw [Nat.div_eq_of_lt hc] at this
  exact this

theorem symbolFrom_some (ls : Lengths) (k : Nat) (r : Bits) : ∀ (n i code : Nat) (s : Bits), i ≠ 0 → firstCode ls i ≤ 2 * code →
    symbolFrom ls n i code (firstCode ls i) s = some (k, r) →
    ∃ m, ls[k]? = some (i + m) ∧ codeWord ls k / 2 ^ (m + 1) = code ∧ s = msb (m + 1) (codeWord ls k) ++ r := by
  intro n
  induction n with
  | zero => intro i code s _ _ h; simp [symbolFrom] at h
  | succ n ih =>
    intro i code s h0 hf h
    cases s with
    | nil => simp [symbolFrom] at h
    | cons b s =>
      have hb : b.toNat < 2 := by cases b <;> decide
      rw [symbolFrom] at h
      split at h
      · rename_i hlt
        rw [Option.map_eq_some_iff] at h
        obtain ⟨t, h1, h2⟩ := h
        simp only [Prod.mk.injEq] at h2
        obtain ⟨rfl, rfl⟩ := h2
        obtain ⟨a, c⟩ := nth_some _ _ _ _ h1
        have hd : ls.getD t 0 = i := by simp [List.getD, a]
        have hcw : codeWord ls t = 2 * code + b.toNat := by simp only [codeWord, hd, c]; omega
        refine ⟨0, by simpa using a, by rw [hcw]; simp; omega, ?_⟩
        rw [msb_succ, hcw]
        have : (2 * code + b.toNat).testBit 0 = b := by cases b <;> simp
        rw [this]; rfl
      · rename_i hge
        have e : 2 * (firstCode ls i + ls.count i) = firstCode ls (i + 1) := by simp [firstCode, h0]
        rw [e] at h
        obtain ⟨m, a, c, d⟩ := ih (i + 1) _ s (by omega) (by omega) h
        refine ⟨m + 1, by rw [a]; congr 1; omega, ?_, ?_⟩
        · rw [Nat.pow_succ, ← Nat.div_div_eq_div_mul, c]; omega
        · rw [msb_succ, List.cons_append, ← d]
          have hb2 := half_bit (codeWord ls k) (m + 1)
          have : (codeWord ls k).testBit (m + 1) = b := by
            have e2 : codeWord ls k / 2 ^ (m + 1 + 1) = code := by
              rw [Nat.pow_succ, ← Nat.div_div_eq_div_mul, c]; omega
            rw [e2, c] at hb2
            have : ((codeWord ls k).testBit (m + 1)).toNat = b.toNat := by omega
            revert this
            cases (codeWord ls k).testBit (m + 1) <;> cases b <;> simp
          rw [this]

theorem symbol_some {ls : Lengths} {s : Bits} {k : Nat} {r : Bits} (h : symbol ls s = some (k, r)) : ∃ w, Word ls k w ∧ s = w ++ r := by
  have e : firstCode ls 1 = 0 := by simp [firstCode]
  rw [symbol] at h
  have h' : symbolFrom ls 15 1 0 (firstCode ls 1) s = some (k, r) := by rw [e]; exact h
  obtain ⟨m, a, c, d⟩ := symbolFrom_some ls k r 15 1 0 s (by omega) (by omega) h'
  exact ⟨_, ⟨m + 1, by rw [a]; congr 1; omega, by omega, rfl⟩, d⟩

theorem word_length {ls : Lengths} {s : Nat} {w : Bits} (h : Word ls s w) : 0 < w.length := by
  obtain ⟨l, _, h0, rfl⟩ := h
  simp; omega

/-! ## Compressed data -/

theorem copy_of (d : Nat) (h1 : 1 ≤ d) : ∀ (more out : List UInt8), d ≤ out.length → Repeats out d more → copy d more.length out = out ++ more := by
  intro more
  induction more with
  | nil => intro out _ _; simp [copy]
  | cons b m ih =>
    intro out hd hr
    have h0 := hr 0 (by simp)
    simp only [Nat.add_zero] at h0
    rw [List.getElem?_append_right (Nat.le_refl _), List.getElem?_append_left (by omega)] at h0
    simp only [Nat.sub_self, List.getElem?_cons_zero] at h0
    rw [List.length_cons, copy]
    have : out.getD (out.length - d) 0 = b := by simp [List.getD, ← h0]
    rw [this, ih (out ++ [b]) (by simp; omega)]
    · simp
    · intro i hi
      have := hr (i + 1) (by simp; omega)
      simp only [List.append_assoc, List.cons_append, List.nil_append, List.length_append, List.length_cons, List.length_nil]
      rw [show out.length + (0 + 1) + i = out.length + (i + 1) by omega]
      exact this

theorem copy_some (d : Nat) (h1 : 1 ≤ d) : ∀ (n : Nat) (out : List UInt8), d ≤ out.length →
    ∃ more, copy d n out = out ++ more ∧ more.length = n ∧ Repeats out d more := by
  intro n
  induction n with
  | zero => intro out _; exact ⟨[], by simp [copy], rfl, by intro i hi; simp at hi⟩
  | succ n ih =>
    intro out hd
    have hlt : out.length - d < out.length := by omega
    have hb : out.getD (out.length - d) 0 = out[out.length - d] := by simp [List.getD, hlt]
    obtain ⟨m, e, hl, hr⟩ := ih (out ++ [out.getD (out.length - d) 0]) (by simp; omega)
    refine ⟨out.getD (out.length - d) 0 :: m, by rw [copy, e]; simp, by simp [hl], ?_⟩
    intro i hi
    cases i with
    | zero =>
      rw [Nat.add_zero, List.getElem?_append_right (Nat.le_refl _), List.getElem?_append_left (by omega)]
      simp [hlt]
    | succ i =>
      have := hr i (by simp at hi; omega)
      simp only [List.append_assoc, List.cons_append, List.nil_append, List.length_append, List.length_cons, List.length_nil] at this
      rw [show out.length + (0 + 1) + i = out.length + (i + 1) by omega] at this
      exact this

theorem distance_pos {j : Nat} {d : Nat × Nat} (h : distanceCodes[j]? = some d) : 1 ≤ d.1 := by
  have : ∀ d ∈ distanceCodes, 1 ≤ d.1 := by decide
  exact this d (List.mem_of_getElem? h)

theorem data_of {window : Nat} {lit dist : Lengths} (hl : Fits lit) (hd : Fits dist) {out out' : List UInt8} {w : Bits}
    (h : Data window lit dist out w out') : ∀ (n : Nat) (rest : Bits), w.length < n → data window lit dist n out (w ++ rest) = some (out', rest) := by
  induction h with
  | stop hw =>
    intro n rest hn
    obtain ⟨n, rfl⟩ := Nat.exists_eq_succ_of_ne_zero (by omega : n ≠ 0)
    simp [data, symbol_of hl hw]
  | @byte out out' b w r hw _ ih =>
    intro n rest hn
    obtain ⟨n, rfl⟩ := Nat.exists_eq_succ_of_ne_zero (by omega : n ≠ 0)
    have := word_length hw
    rw [List.append_assoc, data, symbol_of hl hw]
    simp only [Option.bind_eq_bind, Option.bind_some, b.toNat_lt, if_true, UInt8.ofNat_toNat]
    exact ih n rest (by simp at hn; omega)
  | @copy out more out' w v r i j len d e f hw hlen he hv hdist hf hwin hout hmore hrep _ ih =>
    intro n rest hn
    obtain ⟨n, rfl⟩ := Nat.exists_eq_succ_of_ne_zero (by omega : n ≠ 0)
    have := word_length hw
    have hpos := distance_pos hdist
    simp only [List.append_assoc]
    rw [data, symbol_of hl hw]
    simp only [Option.bind_eq_bind, Option.bind_some]
    rw [if_neg (by omega), if_neg (by omega), Nat.add_sub_cancel_left, hlen]
    simp only [Option.bind_some]
    rw [number_lsb _ _ _ he]
    simp only [Option.bind_some]
    rw [symbol_of hd hv]
    simp only [Option.bind_some]
    rw [hdist]
    simp only [Option.bind_some]
    rw [number_lsb _ _ _ hf]
    simp only [Option.bind_some]
    rw [if_pos ⟨hwin, hout⟩, ← hmore, copy_of _ (by omega) more out hout hrep]
    exact ih n rest (by simp at hn; omega)

theorem data_some {window : Nat} {lit dist : Lengths} {out' : List UInt8} {r : Bits} :
    ∀ (n : Nat) (out : List UInt8) (s : Bits), data window lit dist n out s = some (out', r) →
    ∃ w, s = w ++ r ∧ Data window lit dist out w out' := by
  intro n
  induction n with
  | zero => intro out s h; simp [data] at h
  | succ n ih =>
    intro out s h
    simp only [data, Option.bind_eq_bind, Option.bind_eq_some_iff] at h
    obtain ⟨⟨c, s1⟩, hc, h⟩ := h
    obtain ⟨w, hw, rfl⟩ := symbol_some hc
    split at h
    · rename_i hlt
      obtain ⟨w2, rfl, h2⟩ := ih _ _ h
      refine ⟨w ++ w2, by simp, .byte (b := UInt8.ofNat c) ?_ h2⟩
      have : (UInt8.ofNat c).toNat = c := by simp; omega
      rw [this]; exact hw
    · split at h
      · rename_i heq
        simp only [Option.some.injEq, Prod.mk.injEq] at h
        obtain ⟨rfl, rfl⟩ := h
        subst heq
        exact ⟨w, rfl, .stop hw⟩
      · rename_i hlt hne
        simp only [Option.bind_eq_some_iff] at h
        obtain ⟨len, hlen, ⟨e, s2⟩, he, ⟨j, s3⟩, hj, d, hd, ⟨f, s4⟩, hf, h⟩ := h
        obtain ⟨he1, rfl⟩ := number_some _ _ _ _ he
        obtain ⟨v, hv, rfl⟩ := symbol_some hj
        obtain ⟨hf1, rfl⟩ := number_some _ _ _ _ hf
        split at h
        · rename_i hw2
          have hpos := distance_pos hd
          obtain ⟨more, hm1, hm2, hm3⟩ := copy_some (d.1 + f) (by omega) (len.1 + e) out hw2.2
          rw [hm1] at h
          obtain ⟨w2, rfl, h2⟩ := ih _ _ h
          refine ⟨_, ?_, .copy (i := c - 257) (by rw [show 257 + (c - 257) = c by omega]; exact hw) hlen he1 hv hd hf1 hw2.1 hw2.2 hm2 hm3 h2⟩
          simp
        · simp at h

/-! ## The codes of a block -/

theorem runs_grow {cl ls ls' : Lengths} {w : Bits} (h : Runs cl ls w ls') : ls.length ≤ ls'.length := by
  induction h with
  | stop => exact Nat.le_refl _
  | one _ _ _ ih => simp at ih; omega
  | same _ _ _ _ ih => simp at ih; omega
  | zeros _ _ _ ih => simp at ih; omega
  | manyZeros _ _ _ ih => simp at ih; omega

theorem runs_of {cl : Lengths} (hc : Fits cl) {ls ls' : Lengths} {w : Bits} (h : Runs cl ls w ls') : ∀ (n : Nat) (rest : Bits), w.length < n →
    runs cl ls'.length n ls (w ++ rest) = some (ls', rest) := by
  induction h with
  | stop =>
    intro n rest hn
    obtain ⟨n, rfl⟩ := Nat.exists_eq_succ_of_ne_zero (by omega : n ≠ 0)
    simp [runs]
  | one hl hw hr ih =>
    intro n rest hn
    obtain ⟨n, rfl⟩ := Nat.exists_eq_succ_of_ne_zero (by omega : n ≠ 0)
    have h1 := word_length hw
    have h2 := runs_grow hr
    simp at h2
    rw [List.append_assoc, runs, if_neg (by omega), if_neg (by omega), symbol_of hc hw]
    simp only [Option.bind_eq_bind, Option.bind_some]
    rw [if_pos hl]
    exact ih n rest (by simp at hn; omega)
  | same hl hk hw hr ih =>
    intro n rest hn
    obtain ⟨n, rfl⟩ := Nat.exists_eq_succ_of_ne_zero (by omega : n ≠ 0)
    have h1 := word_length hw
    have h2 := runs_grow hr
    simp at h2
    simp only [List.append_assoc]
    rw [runs, if_neg (by omega), if_neg (by omega), symbol_of hc hw]
    simp only [Option.bind_eq_bind, Option.bind_some]
    rw [if_neg (by omega), if_pos trivial, hl]
    simp only [Option.bind_some]
    rw [number_lsb 2 _ _ (by omega)]
    simp only [Option.bind_some]
    exact ih n rest (by simp at hn; omega)
  | zeros hk hw hr ih =>
    intro n rest hn
    obtain ⟨n, rfl⟩ := Nat.exists_eq_succ_of_ne_zero (by omega : n ≠ 0)
    have h1 := word_length hw
    have h2 := runs_grow hr
    simp at h2
    simp only [List.append_assoc]
    rw [runs, if_neg (by omega), if_neg (by omega), symbol_of hc hw]
    simp only [Option.bind_eq_bind, Option.bind_some]
    rw [if_neg (by omega), if_neg (by omega), if_pos trivial, number_lsb 3 _ _ (by omega)]
    simp only [Option.bind_some]
    exact ih n rest (by simp at hn; omega)
  | manyZeros hk hw hr ih =>
    intro n rest hn
    obtain ⟨n, rfl⟩ := Nat.exists_eq_succ_of_ne_zero (by omega : n ≠ 0)
    have h1 := word_length hw
    have h2 := runs_grow hr
    simp at h2
    simp only [List.append_assoc]
    rw [runs, if_neg (by omega), if_neg (by omega), symbol_of hc hw]
    simp only [Option.bind_eq_bind, Option.bind_some]
    rw [if_neg (by omega), if_neg (by omega), if_neg (by omega), number_lsb 7 _ _ (by omega)]
    simp only [Option.bind_some]
    exact ih n rest (by simp at hn; omega)

theorem runs_some {cl : Lengths} (hc : cl.length ≤ 19) (total : Nat) {ls' : Lengths} {r : Bits} : ∀ (n : Nat) (ls : Lengths) (s : Bits),
    runs cl total n ls s = some (ls', r) → ls'.length = total ∧ ∃ w, s = w ++ r ∧ Runs cl ls w ls' := by
  intro n
  induction n with
  | zero => intro ls s h; simp [runs] at h
  | succ n ih =>
    intro ls s h
    rw [runs] at h
    split at h
    · rename_i ht
      simp only [Option.some.injEq, Prod.mk.injEq] at h
      obtain ⟨rfl, rfl⟩ := h
      exact ⟨ht, [], rfl, .stop⟩
    · split at h
      · simp at h
      · simp only [Option.bind_eq_bind, Option.bind_eq_some_iff] at h
        obtain ⟨⟨c, s1⟩, hsym, h⟩ := h
        obtain ⟨w, hw, rfl⟩ := symbol_some hsym
        have hc19 : c < 19 := by
          obtain ⟨l, hl, _⟩ := hw
          have := (List.getElem?_eq_some_iff.mp hl).1
          omega
        simp only at h
        split at h
        · rename_i h15
          obtain ⟨a, w2, rfl, h2⟩ := ih _ _ h
          exact ⟨a, w ++ w2, by simp, .one h15 hw h2⟩
        · split at h
          · rename_i h16
            subst h16
            simp only [Option.bind_eq_some_iff] at h
            obtain ⟨l, hl, ⟨k, s2⟩, hk, h⟩ := h
            obtain ⟨hk1, rfl⟩ := number_some _ _ _ _ hk
            obtain ⟨a, w2, rfl, h2⟩ := ih _ _ h
            exact ⟨a, w ++ (lsb 2 k ++ w2), by simp, .same hl (by omega) hw h2⟩
          · split at h
            · rename_i h17
              subst h17
              simp only [Option.bind_eq_some_iff] at h
              obtain ⟨⟨k, s2⟩, hk, h⟩ := h
              obtain ⟨hk1, rfl⟩ := number_some _ _ _ _ hk
              obtain ⟨a, w2, rfl, h2⟩ := ih _ _ h
              exact ⟨a, w ++ (lsb 3 k ++ w2), by simp, .zeros (by omega) hw h2⟩
            · have h18 : c = 18 := by omega
              subst h18
              simp only [Option.bind_eq_some_iff] at h
              obtain ⟨⟨k, s2⟩, hk, h⟩ := h
              obtain ⟨hk1, rfl⟩ := number_some _ _ _ _ hk
              obtain ⟨a, w2, rfl, h2⟩ := ih _ _ h
              exact ⟨a, w ++ (lsb 7 k ++ w2), by simp, .manyZeros (by omega) hw h2⟩

theorem codes_of {h : Bits} {lit dist : Lengths} (hc : Codes h lit dist) (rest : Bits) : codes (h ++ rest) = some (lit, dist, rest) := by
  cases hc with
  | @mk _ _ cl w h1 h2 h3 h4 h5 h6 h7 h8 h9 h10 h11 =>
    simp only [List.append_assoc]
    rw [codes, number_lsb 5 _ _ (by omega)]
    simp only [Option.bind_eq_bind, Option.bind_some]
    rw [number_lsb 5 _ _ (by omega)]
    simp only [Option.bind_some]
    rw [number_lsb 4 _ _ (by omega)]
    simp only [Option.bind_some]
    have e : cl.length - 4 + 4 = cl.length := by omega
    rw [e, numbers_of 3 cl _ (fun x hx => h7 x hx)]
    simp only [Option.bind_some]
    rw [if_pos ⟨by omega, by omega, by omega, h8⟩]
    have e1 : lit.length - 257 + 257 = lit.length := by omega
    have e2 : lit.length + (dist.length - 1 + 1) = (lit ++ dist).length := by simp; omega
    rw [e1, e2, runs_of (.ofComplete h8) h9 _ _ (by simp; omega)]
    simp [h10, h11]

theorem codes_some {s : Bits} {lit dist : Lengths} {r : Bits} (h : codes s = some (lit, dist, r)) : ∃ w, s = w ++ r ∧ Codes w lit dist := by
  simp only [codes, Option.bind_eq_bind, Option.bind_eq_some_iff] at h
  obtain ⟨⟨hlit, s1⟩, h1, ⟨hdist, s2⟩, h2, ⟨hclen, s3⟩, h3, ⟨cl, s4⟩, h4, h⟩ := h
  obtain ⟨_, rfl⟩ := number_some _ _ _ _ h1
  obtain ⟨_, rfl⟩ := number_some _ _ _ _ h2
  obtain ⟨_, rfl⟩ := number_some _ _ _ _ h3
  obtain ⟨c1, c2, rfl⟩ := numbers_some _ _ _ _ _ h4
  simp only at h
  split at h
  · rename_i hb
    simp only [Option.bind_eq_some_iff] at h
    obtain ⟨⟨ls, s5⟩, h5, h⟩ := h
    obtain ⟨hl, w, rfl, hr⟩ := runs_some (by simp [arranged]) _ _ _ _ h5
    simp only at h
    split at h
    · rename_i hu
      simp only [Option.some.injEq, Prod.mk.injEq] at h
      obtain ⟨rfl, rfl, rfl⟩ := h
      have l1 : (ls.take (hlit + 257)).length = hlit + 257 := by simp; omega
      have l2 : (ls.drop (hlit + 257)).length = hdist + 1 := by simp; omega
      have := Codes.mk (lit := ls.take (hlit + 257)) (dist := ls.drop (hlit + 257)) (cl := cl) (w := w) (by omega) (by omega) (by omega) (by omega)
        (by omega) (by omega) (fun x hx => c2 x hx) hb.2.2.2 (by rw [List.take_append_drop]; exact hr) hu.1 hu.2
      rw [l1, l2, c1] at this
      exact ⟨_, by simp, this⟩
    · simp at h
  · simp at h

/-! ## Blocks -/

theorem fixedLit_complete : Complete fixedLit := by decide +kernel
theorem fixedDist_complete : Complete fixedDist := by decide +kernel

theorem block_of {window pos : Nat} {out out' : List UInt8} {w : Bits} (h : Block window pos out w out') (rest : Bits)
    (ha : (pos + (w ++ rest).length) % 8 = 0) : block window out (w ++ rest) = some (out', rest) := by
  cases h with
  | @stored bs pad h1 h2 h3 =>
    simp only [List.append_assoc]
    rw [block, number_lsb 2 0 _ (by omega)]
    simp only [Option.bind_eq_bind, Option.bind_some, if_true]
    have : (pad ++ (lsb 16 bs.length ++ (lsb 16 (65535 - bs.length) ++ (bits bs ++ rest)))).length % 8 = pad.length := by
      simp only [List.length_append, lsb_length, bits_length] at ha ⊢; omega
    rw [this, List.drop_left, number_lsb 16 _ _ (by omega)]
    simp only [Option.bind_some]
    rw [number_lsb 16 _ _ (by omega)]
    simp only [Option.bind_some, if_true]
    rw [bytes_of]
    rfl
  | fixed hd =>
    simp only [List.append_assoc]
    rw [block, number_lsb 2 1 _ (by omega)]
    simp only [Option.bind_eq_bind, Option.bind_some]
    rw [if_neg (by omega), if_pos trivial]
    exact data_of (.ofComplete fixedLit_complete) (.ofComplete fixedDist_complete) hd _ _ (by simp; omega)
  | dynamic hc hd =>
    rename_i lit dist
    simp only [List.append_assoc]
    rw [block, number_lsb 2 2 _ (by omega)]
    simp only [Option.bind_eq_bind, Option.bind_some]
    rw [if_neg (by omega), if_neg (by omega), if_pos trivial, codes_of hc]
    simp only [Option.bind_some]
    have hu : Usable lit ∧ Usable dist := by cases hc; exact ⟨by assumption, by assumption⟩
    exact data_of (.ofUsable hu.1) (.ofUsable hu.2) hd _ _ (by simp; omega)

theorem block_some {window pos : Nat} {out out' : List UInt8} {s r : Bits} (ha : (pos + s.length) % 8 = 0) (h : block window out s = some (out', r)) :
    ∃ w, s = w ++ r ∧ Block window pos out w out' := by
  simp only [block, Option.bind_eq_bind, Option.bind_eq_some_iff] at h
  obtain ⟨⟨kind, s1⟩, hk, h⟩ := h
  obtain ⟨_, rfl⟩ := number_some _ _ _ _ hk
  simp only at h
  split at h
  · rename_i h0
    subst h0
    simp only [Option.bind_eq_some_iff] at h
    obtain ⟨⟨n, s2⟩, hn, ⟨m, s3⟩, hm, h⟩ := h
    obtain ⟨n1, n2⟩ := number_some _ _ _ _ hn
    obtain ⟨m1, rfl⟩ := number_some _ _ _ _ hm
    simp only at h
    split at h
    · rename_i hmn
      simp only [Option.bind_eq_some_iff] at h
      obtain ⟨⟨bs, s4⟩, hb, h⟩ := h
      obtain ⟨rfl, rfl⟩ := bytes_some _ _ _ _ hb
      simp only [Option.some.injEq, Prod.mk.injEq] at h
      obtain ⟨rfl, rfl⟩ := h
      subst hmn
      have hs := List.take_append_drop (s1.length % 8) s1
      have hl : (s1.take (s1.length % 8)).length = s1.length % 8 := by
        rw [List.length_take]; have := Nat.mod_le s1.length 8; omega
      refine ⟨_, ?_, .stored (pad := s1.take (s1.length % 8)) (bytes := bs) (by omega) ?_ (by omega)⟩
      · conv => lhs; rw [← hs, n2]
        simp
      · rw [hl]; simp only [List.length_append, lsb_length] at ha; omega
    · simp at h
  · split at h
    · rename_i h1
      subst h1
      obtain ⟨w, rfl, hd⟩ := data_some _ _ _ h
      exact ⟨_, by simp, .fixed hd⟩
    · split at h
      · rename_i h2
        subst h2
        simp only [Option.bind_eq_some_iff] at h
        obtain ⟨⟨lit, dist, s2⟩, hc, h⟩ := h
        obtain ⟨hh, rfl, hc'⟩ := codes_some hc
        obtain ⟨w, hw, hd⟩ := data_some _ _ _ h
        simp only at hw
        subst hw
        exact ⟨_, by simp, .dynamic hc' hd⟩
      · simp at h

theorem blocks_of {window pos : Nat} {out out' : List UInt8} {w : Bits} (h : Blocks window pos out w out') : ∀ (n : Nat) (rest : Bits),
    (pos + (w ++ rest).length) % 8 = 0 → w.length < n → blocks window n out (w ++ rest) = some (out', rest) := by
  induction h with
  | last hb =>
    intro n rest ha hn
    obtain ⟨n, rfl⟩ := Nat.exists_eq_succ_of_ne_zero (by omega : n ≠ 0)
    rw [List.cons_append, blocks, block_of hb rest (by simp only [List.cons_append, List.length_cons] at ha; rw [← ha]; congr 1; omega)]
    rfl
  | @more pos out out1 out' w r hb _ ih =>
    intro n rest ha hn
    obtain ⟨n, rfl⟩ := Nat.exists_eq_succ_of_ne_zero (by omega : n ≠ 0)
    simp only [List.cons_append, List.append_assoc, List.length_cons, List.length_append] at ha hn ⊢
    rw [blocks, block_of hb (r ++ rest) (by simp only [List.length_append]; omega)]
    exact ih n rest (by simp only [List.length_append]; omega) (by omega)

theorem blocks_some {window : Nat} {out' : List UInt8} {r : Bits} : ∀ (n pos : Nat) (out : List UInt8) (s : Bits), (pos + s.length) % 8 = 0 →
    blocks window n out s = some (out', r) → ∃ w, s = w ++ r ∧ Blocks window pos out w out' := by
  intro n
  induction n with
  | zero => intro pos out s _ h; cases s <;> simp [blocks] at h
  | succ n ih =>
    intro pos out s ha h
    cases s with
    | nil => simp [blocks] at h
    | cons b s =>
      simp only [blocks, Option.bind_eq_bind, Option.bind_eq_some_iff] at h
      obtain ⟨⟨out1, s1⟩, hb, h⟩ := h
      obtain ⟨w, rfl, hB⟩ := block_some (pos := pos + 1) (by simp at ha; omega) hb
      cases b with
      | true =>
        simp at h
        obtain ⟨rfl, rfl⟩ := h
        exact ⟨_, rfl, .last hB⟩
      | false =>
        simp at h
        obtain ⟨w2, rfl, h2⟩ := ih (pos + 1 + w.length) out1 s1 (by simp at ha; omega) h
        exact ⟨_, by simp, .more hB h2⟩

/-! ## Streams -/

/-- Every stream is decompressed to the data it stands for, whatever follows it. -/
theorem inflate_of {p x : List UInt8} (h : Stream p x) (rest : List UInt8) : inflate (p ++ rest) = some x := by
  cases h with
  | @mk cmf flg body _ w pad h1 h2 h3 h4 h5 h6 h7 =>
    simp only [List.cons_append, List.append_assoc]
    rw [inflate, if_pos ⟨h1, h2, h3, h4⟩, bits_append, h6, List.append_assoc,
      blocks_of h5 _ _ (by
        have e : (w ++ (pad ++ bits (be32 (sumB x * 65536 + sumA x) ++ rest))).length =
            8 * (body ++ (be32 (sumB x * 65536 + sumA x) ++ rest)).length := by
          rw [← bits_length, bits_append body, h6, List.append_assoc]
        rw [e]; omega) (by simp; omega)]
    simp only [Option.bind_eq_bind, Option.bind_some]
    have e : (pad ++ bits (be32 (sumB x * 65536 + sumA x) ++ rest)).length / 8 = (be32 (sumB x * 65536 + sumA x) ++ rest).length := by
      rw [List.length_append, bits_length]; omega
    rw [e, List.length_append, Nat.add_sub_cancel, List.drop_left, if_pos (List.take_left' (by rfl))]

/-- What is decompressed begins with a stream that stands for the result. -/
theorem inflate_some {q x : List UInt8} (h : inflate q = some x) : ∃ p rest, q = p ++ rest ∧ Stream p x := by
  match q, h with
  | cmf :: flg :: body, h =>
    rw [inflate] at h
    split at h
    · rename_i hh
      simp only [Option.bind_eq_bind, Option.bind_eq_some_iff] at h
      obtain ⟨⟨y, s⟩, hb, h⟩ := h
      obtain ⟨w, hw, hB⟩ := blocks_some _ 0 [] _ (by simp) hb
      simp only at h
      split at h
      · rename_i ht
        simp only [Option.some.injEq] at h
        subst h
        have hlen : 8 * body.length = w.length + s.length := by rw [← bits_length, hw, List.length_append]
        have hs : (s.take (s.length % 8)).length = s.length % 8 := by
          rw [List.length_take]; have := Nat.mod_le s.length 8; omega
        have hbits : bits (body.take (body.length - s.length / 8)) = w ++ s.take (s.length % 8) := by
          have e1 : bits (body.take (body.length - s.length / 8)) ++ bits (body.drop (body.length - s.length / 8)) =
              (w ++ s.take (s.length % 8)) ++ s.drop (s.length % 8) := by
            rw [← bits_append, List.take_append_drop, hw, List.append_assoc, List.take_append_drop]
          refine List.append_inj_left e1 ?_
          rw [bits_length, List.length_append, hs, List.length_take]; omega
        refine ⟨_, (body.drop (body.length - s.length / 8)).drop 4, ?_, .mk hh.1 hh.2.1 hh.2.2.1 hh.2.2.2 hB hbits (by omega)⟩
        rw [← ht]
        simp only [List.cons_append, List.append_assoc, List.take_append_drop]
      · simp at h
    · simp at h

end Osmio.Zlib
