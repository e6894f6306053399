import Verif.Lib.Bzip2
import Verif.Proofs.Zlib

/-! # The bzip2 decompressor and the format -/

namespace Osmio.Bzip2

open Spec.Zlib (Bits Lengths msb Word firstCode codeWord)
open Spec.Bzip2
open Zlib (msb_length msb_succ)

/-! ## Numbers -/

theorem number_msb (w : Nat) : ∀ (m n : Nat) (s : Bits), number w m (msb w n ++ s) = some (m * 2 ^ w + n % 2 ^ w, s) := by
  induction w with
  | zero => intro m n s; simp [msb, Spec.Zlib.lsb, number, Nat.mod_one]
  | succ w ih =>
    intro m n s
    rw [msb_succ, List.cons_append, number, ih]
    have h : n % 2 ^ (w + 1) = (n.testBit w).toNat * 2 ^ w + n % 2 ^ w := by
      have := Nat.mod_pow_succ (b := 2) (k := w) (x := n)
      rw [this, Nat.testBit_eq_decide_div_mod_eq]
      rcases Nat.mod_two_eq_zero_or_one (n / 2 ^ w) with h | h <;> simp [h]
      omega
    rw [h, Nat.pow_succ]
    congr 2
    ring

theorem number_zero {w n : Nat} (h : n < 2 ^ w) (s : Bits) : number w 0 (msb w n ++ s) = some (n, s) := by
  rw [number_msb, Nat.mod_eq_of_lt h]; simp

theorem number_false (s : Bits) : number 1 0 (false :: s) = some (0, s) := rfl

theorem flags_of : ∀ (w s : Bits), flags w.length (w ++ s) = some (w, s) := by
  intro w
  induction w with
  | nil => intro s; rfl
  | cons b w ih => intro s; simp [flags, ih]

theorem bits_append (a b : List UInt8) : bits (a ++ b) = bits a ++ bits b := by simp [bits]

@[simp] theorem bits_length (bs : List UInt8) : (bits bs).length = 8 * bs.length := by
  induction bs with
  | nil => rfl
  | cons b bs ih =>
    have : bits (b :: bs) = msb 8 b.toNat ++ bits bs := rfl
    rw [this, List.length_append, ih]; simp; omega

/-! ## The bytes that occur -/

theorem readMap_of (f : Nat → Nat → Bool) (s : Bits) : ∀ (is : List Nat),
    readMap (is.map fun i => (List.range 16).any (f i))
      ((is.flatMap fun i => if (List.range 16).any (f i) then (List.range 16).map (f i) else []) ++ s) =
      some (is.flatMap fun i => (List.range 16).map (f i), s) := by
  intro is
  induction is with
  | nil => rfl
  | cons i is ih =>
    rw [List.map_cons, List.flatMap_cons, List.append_assoc]
    cases h : (List.range 16).any (f i) with
    | true =>
      simp only [readMap, if_true]
      have := flags_of ((List.range 16).map (f i)) ((is.flatMap fun i => if (List.range 16).any (f i) then (List.range 16).map (f i) else []) ++ s)
      rw [List.length_map, List.length_range] at this
      rw [this]
      simp only [Option.bind_eq_bind, Option.bind_some]
      rw [ih]; simp
    | false =>
      have e : (List.range 16).map (f i) = List.replicate 16 false := by
        rw [List.eq_replicate_iff]
        refine ⟨by simp, fun b hb => ?_⟩
        obtain ⟨j, hj, rfl⟩ := List.mem_map.mp hb
        rw [List.any_eq_false] at h
        simpa using h j hj
      simp only [readMap, Bool.false_eq_true, if_false, List.nil_append]
      rw [ih]; simp only [Option.bind_eq_bind, Option.bind_some, List.flatMap_cons, e]

theorem flat_range (g : Nat → Bool) : ∀ n, ((List.range n).flatMap fun i => (List.range 16).map fun j => g (16 * i + j)) = (List.range (16 * n)).map g := by
  intro n
  induction n with
  | zero => rfl
  | succ n ih =>
    rw [List.range_succ (n := n), List.flatMap_append, ih, Nat.mul_succ, List.range_add, List.map_append]
    simp [Function.comp_def]

theorem marked_of (l : List UInt8) : marked ((List.range 256).map fun i => decide (UInt8.ofNat i ∈ l)) = alphabet l := by
  unfold marked alphabet
  rw [List.filter_map]
  refine congrArg _ (List.filter_congr ?_)
  intro i hi
  rw [List.mem_range] at hi
  rw [List.getD, List.getElem?_map, List.getElem?_range hi]
  rfl

theorem map_of (l : List UInt8) (s : Bits) : ∃ fs t, flags 16 (mapBits l ++ s) = some (fs, t) ∧
    readMap fs t = some ((List.range 256).map fun i => decide (UInt8.ofNat i ∈ l), s) := by
  have := flags_of ((List.range 16).map fun i => (List.range 16).any fun j => decide (UInt8.ofNat (16 * i + j) ∈ l))
      (((List.range 16).flatMap fun i =>
      if (List.range 16).any fun j => decide (UInt8.ofNat (16 * i + j) ∈ l) then
        (List.range 16).map fun j => decide (UInt8.ofNat (16 * i + j) ∈ l)
      else []) ++ s)
  rw [List.length_map, List.length_range, ← List.append_assoc] at this
  refine ⟨_, _, this, ?_⟩
  rw [readMap_of (fun i j => decide (UInt8.ofNat (16 * i + j) ∈ l)), flat_range (fun k => decide (UInt8.ofNat k ∈ l))]

theorem mem_alphabet {l : List UInt8} {b : UInt8} : b ∈ alphabet l ↔ b ∈ l := by
  unfold alphabet
  rw [List.mem_filter]
  refine ⟨fun h => by simpa using h.2, fun h => ⟨List.mem_map.mpr ⟨b.toNat, ?_, by simp⟩, by simpa using h⟩⟩
  have := b.toNat_lt
  simp; omega

/-! ## Selectors -/

theorem ones_of (n : Nat) (s : Bits) : ones (unary n ++ s) = some (n, s) := by
  induction n with
  | zero => rfl
  | succ n ih =>
    have : unary (n + 1) = true :: unary n := by simp [unary, List.replicate_succ]
    rw [this, List.cons_append, ones, ih]; rfl

theorem manyOnes_of : ∀ (js : List Nat) (s : Bits), manyOnes js.length (js.flatMap unary ++ s) = some (js, s) := by
  intro js
  induction js with
  | nil => intro s; rfl
  | cons j js ih => intro s; simp [manyOnes, ones_of, ih]

theorem unmove_of {α : Type} {front l : List α} {is : List Nat} (h : Moved front l is) : unmove front is = some l := by
  induction h with
  | stop => rfl
  | next h1 _ ih => simp [unmove, h1, ih]

theorem moved_length {α : Type} {front l : List α} {is : List Nat} (h : Moved front l is) : is.length = l.length := by
  induction h with
  | stop => rfl
  | next _ _ ih => simp [ih]

theorem moved_lt {α : Type} {front l : List α} {is : List Nat} (h : Moved front l is) : ∀ i ∈ is, i < front.length := by
  induction h with
  | stop => simp
  | @next front l a i is h1 _ ih =>
    obtain ⟨h, _⟩ := List.getElem?_eq_some_iff.mp h1
    intro j hj
    rcases List.mem_cons.mp hj with rfl | hj
    · exact h
    · have := ih j hj
      rw [List.length_cons, List.length_eraseIdx_of_lt h] at this
      omega

/-! ## Codes -/

theorem steps_of {cur : Nat} {ls : Lengths} {w : Bits} (h : Steps cur ls w) (s : Bits) : steps cur ls.length (w ++ s) = some (ls, s) := by
  induction h with
  | stop => simp [steps]
  | up h1 _ ih => simp only [List.length_cons, List.cons_append] at *; rw [steps, if_pos h1, ih]
  | down h1 _ ih => simp only [List.length_cons, List.cons_append] at *; rw [steps, if_pos h1, ih]
  | here _ ih => simp [steps, ih]

theorem codes_of (n : Nat) {tables : List Lengths} {tbs : List Bits} (h : List.Forall₂ Table tables tbs) (hn : ∀ t ∈ tables, t.length = n)
    (s : Bits) : codes n tables.length (tbs.flatten ++ s) = some (tables, s) := by
  induction h with
  | nil => rfl
  | @cons t tb ts tbs h1 _ ih =>
    obtain ⟨start, w, a, b, c, rfl⟩ := h1
    have e : t.length = n := hn t (by simp)
    simp only [List.length_cons, codes, List.flatten_cons, List.append_assoc]
    rw [number_zero (by omega)]
    simp only [Option.bind_eq_bind, Option.bind_some]
    rw [if_pos ⟨a, b⟩]
    have := steps_of c (tbs.flatten ++ s)
    rw [e] at this
    rw [this]
    simp [ih (fun t ht => hn t (by simp [ht]))]

/-- What the words of up to `l` bits take up. -/
def upTo (l : Nat) (ls : Lengths) : Nat := ((ls.filter fun x => x ≠ 0 ∧ x ≤ l).map fun l => 2 ^ (20 - l)).sum

theorem upTo_le (l : Nat) (ls : Lengths) : upTo l ls ≤ taken ls := by
  induction ls with
  | nil => simp [upTo, taken]
  | cons x ls ih =>
    unfold upTo taken at *
    by_cases h : x = 0
    · subst h
      simp only [List.filter_cons, List.map_cons, List.sum_cons] at ih ⊢
      simp at ih ⊢; omega
    · by_cases h' : x ≤ l
      · simp [h, h'] at ih ⊢; omega
      · simp [h, h'] at ih ⊢; exact Nat.le_trans ih (Nat.le_add_left _ _)

theorem upTo_zero (ls : Lengths) : upTo 0 ls = 0 := by
  have : ls.filter (fun x => decide (x ≠ 0 ∧ x ≤ 0)) = [] := by
    rw [List.filter_eq_nil_iff]; intro a _; simp
  simp only [upTo, this]; rfl

theorem upTo_succ (l : Nat) (ls : Lengths) : upTo (l + 1) ls = upTo l ls + ls.count (l + 1) * 2 ^ (20 - (l + 1)) := by
  induction ls with
  | nil => simp [upTo]
  | cons x ls ih =>
    unfold upTo at *
    by_cases h : x = 0
    · subst h; simpa [List.filter_cons] using ih
    · by_cases h1 : x = l + 1
      · subst h1; simp [Nat.add_mul] at ih ⊢; omega
      · by_cases h2 : x ≤ l
        · have h3 : x ≤ l + 1 := by omega
          simp [h, h2, h3, h1] at ih ⊢; omega
        · have h3 : ¬ x ≤ l + 1 := by omega
          simp [h, h2, h3, h1] at ih ⊢; omega

theorem firstCode_upTo (ls : Lengths) : ∀ l, l < 20 → firstCode ls (l + 1) * 2 ^ (20 - (l + 1)) = upTo l ls := by
  intro l
  induction l with
  | zero => intro _; simp [firstCode, upTo_zero]
  | succ l ih =>
    intro h
    have := ih (by omega)
    rw [firstCode, upTo_succ, ← this]
    have e : 20 - (l + 1) = 20 - (l + 1 + 1) + 1 := by omega
    rw [e, Nat.pow_succ]
    simp
    ring_nf

theorem word_fits {n : Nat} {ls : Lengths} (h : IsCode n ls) {l : Nat} (h0 : l ≠ 0) (h20 : l ≤ 20) : firstCode ls l + ls.count l ≤ 2 ^ l := by
  obtain ⟨k, rfl⟩ := Nat.exists_eq_succ_of_ne_zero h0
  have h1 := firstCode_upTo ls k (by omega)
  have h2 := upTo_succ k ls
  have h3 := upTo_le (k + 1) ls
  have h4 : (firstCode ls (k + 1) + ls.count (k + 1)) * 2 ^ (20 - (k + 1)) ≤ 2 ^ (k + 1) * 2 ^ (20 - (k + 1)) := by
    rw [← Nat.pow_add, Nat.add_mul, h1, ← h2]
    have e : k + 1 + (20 - (k + 1)) = 20 := by omega
    rw [e]; exact Nat.le_trans h3 h.2.2
  exact Nat.le_of_mul_le_mul_right h4 (Nat.two_pow_pos _)

theorem symbol_of {n : Nat} {ls : Lengths} (h : IsCode n ls) {s : Nat} {w : Bits} (hw : Word ls s w) (rest : Bits) :
    Zlib.symbolFrom ls 20 1 0 0 (w ++ rest) = some (s, rest) := by
  obtain ⟨l, hs, h0, rfl⟩ := hw
  have h20 : l ≤ 20 := (h.2.1 l (List.mem_of_getElem? hs)).2
  have hd : ls.getD s 0 = l := by simp [List.getD, hs]
  have hk : (ls.take s).count l < ls.count l := by
    obtain ⟨h, e⟩ := List.getElem?_eq_some_iff.mp hs
    have : ls = ls.take s ++ ls[s] :: ls.drop (s + 1) := by simp
    conv => rhs; rw [this]
    rw [List.count_append, e, List.count_cons_self]; omega
  have hc : codeWord ls s < 2 ^ l := by
    have := word_fits h h0 h20
    simp only [codeWord, hd]; omega
  obtain ⟨m, rfl⟩ := Nat.exists_eq_succ_of_ne_zero h0
  have := Zlib.symbolFrom_of ls s _ hs rest m 1 20 (by omega) (by omega) (by omega)
  rw [Nat.div_eq_of_lt hc] at this
  exact this

/-! ## Symbols -/

theorem data_of {tables : List Lengths} {sels : List Nat} {k stop : Nat} (hc : ∀ t ∈ tables, IsCode k t) (rest : Bits) :
    ∀ (ss : List Nat) (i n : Nat) (d : Bits), (∀ s ∈ ss, s ≠ stop) → Data tables sels i (ss ++ [stop]) d → d.length < n →
      data tables sels stop n i (d ++ rest) = some (ss, rest) := by
  intro ss
  induction ss with
  | nil =>
    intro i n d _ h hn
    obtain ⟨n, rfl⟩ := Nat.exists_eq_succ_of_ne_zero (by omega : n ≠ 0)
    cases h with
    | @next _ _ t ls _ w r h1 h2 h3 h4 =>
      cases h4
      rw [List.append_nil]
      simp only [data, h1, h2, Option.bind_eq_bind, Option.bind_some]
      rw [symbol_of (hc ls (List.mem_of_getElem? h2)) h3]
      simp
  | cons s ss ih =>
    intro i n d hne h hn
    obtain ⟨n, rfl⟩ := Nat.exists_eq_succ_of_ne_zero (by omega : n ≠ 0)
    cases h with
    | @next _ _ t ls _ w r h1 h2 h3 h4 =>
      have hw := Zlib.word_length h3
      rw [List.length_append] at hn
      simp only [data, h1, h2, Option.bind_eq_bind, Option.bind_some, List.append_assoc]
      rw [symbol_of (hc ls (List.mem_of_getElem? h2)) h3]
      simp only [Option.bind_some, if_neg (hne s (by simp))]
      rw [ih (i + 1) n r (fun s hs => hne s (by simp [hs])) h4 (by omega)]
      rfl

theorem uncode_digits : ∀ (ds : List Nat) (w k : Nat) (s : List Nat), (∀ d ∈ ds, d < 2) →
    uncode w k (ds ++ s) = uncode (w * 2 ^ ds.length) (k + w * runLength ds) s := by
  intro ds
  induction ds with
  | nil => intro w k s _; simp [runLength]
  | cons d ds ih =>
    intro w k s h
    have hd : d < 2 := h d (by simp)
    have := fun w k => ih w k s (fun d hd => h d (by simp [hd]))
    rw [List.length_cons, runLength, List.cons_append, Nat.pow_succ]
    rcases (by omega : d = 0 ∨ d = 1) with rfl | rfl
    · rw [uncode, this]; congr 1 <;> ring
    · rw [uncode, this]; congr 1 <;> ring

theorem uncode_run (w k : Nat) {s : List Nat} (h : ∀ c, s.head? = some c → 2 ≤ c) : uncode w k s = List.replicate k 0 ++ uncode 1 0 s := by
  cases s with
  | nil => simp [uncode]
  | cons c s =>
    have := h c rfl
    obtain ⟨i, rfl⟩ : ∃ i, c = i + 2 := ⟨c - 2, by omega⟩
    simp [uncode]

theorem uncode_of {is ss : List Nat} (h : Coded is ss) : uncode 1 0 ss = is := by
  induction h with
  | stop => rfl
  | @one is ss i h0 _ ih =>
    obtain ⟨k, rfl⟩ := Nat.exists_eq_succ_of_ne_zero h0
    simp [uncode, ih]
  | zeros ds _ h1 h2 _ ih =>
    rw [uncode_digits ds 1 0 _ h1, uncode_run _ _ h2, ih]; simp

theorem coded_le {is ss : List Nat} (h : Coded is ss) {n : Nat} (h1 : 1 ≤ n) (hi : ∀ i ∈ is, i < n) : ∀ s ∈ ss, s ≤ n := by
  induction h with
  | stop => simp
  | @one is ss i h0 _ ih =>
    intro s hs
    rcases List.mem_cons.mp hs with rfl | hs
    · exact hi i (by simp)
    · exact ih (fun i h => hi i (by simp [h])) s hs
  | zeros ds _ h2 _ _ ih =>
    intro s hs
    rcases List.mem_append.mp hs with hs | hs
    · have := h2 s hs; omega
    · exact ih (fun i h => hi i (by simp [h])) s hs

/-! ## Runs -/

theorem unrun_of {e x : List UInt8} (h : Runs e x) : ∀ n, e.length ≤ n → unrun n e = x := by
  have one : ∀ (n : Nat) (b : UInt8) (r : List UInt8), (∀ c d t, r ≠ b :: b :: b :: c :: t ∨ d ≠ c) → unrun (n + 1) (b :: r) = b :: unrun n r := by
    intro n b r h
    match r with
    | [] | [_] | [_, _] | [_, _, _] => rfl
    | b2 :: b3 :: b4 :: c :: t =>
      rw [unrun, if_neg]
      rintro ⟨rfl, rfl, rfl⟩
      rcases h c c t with h | h <;> exact h rfl
  induction h with
  | stop => intro n _; cases n <;> rfl
  | @long e x b c _ _ ih =>
    intro n hn
    simp only [List.replicate_succ, List.replicate_zero, List.cons_append, List.nil_append, List.length_cons] at hn ⊢
    obtain ⟨n, rfl⟩ := Nat.exists_eq_succ_of_ne_zero (by omega : n ≠ 0)
    rw [unrun, if_pos ⟨rfl, rfl, rfl⟩, ih n (by omega)]
  | @short e x b m h1 h3 hh _ ih =>
    have step : ∀ m, m ≤ 3 → ∀ n, m + e.length ≤ n → unrun n (List.replicate m b ++ e) = List.replicate m b ++ x := by
      intro m
      induction m with
      | zero => intro _ n hn; simpa using ih n (by omega)
      | succ m ihm =>
        intro hm n hn
        obtain ⟨n, rfl⟩ := Nat.exists_eq_succ_of_ne_zero (by omega : n ≠ 0)
        rw [List.replicate_succ, List.cons_append, one n, ihm (by omega) n (by omega)]; rfl
        intro c d t
        left
        intro he
        match e, hh with
        | [], _ =>
          have := congrArg List.length he
          simp at this; omega
        | a :: e', hh =>
          have ha := hh a rfl
          have : (List.replicate m b ++ a :: e')[m]? = some a := by simp
          rw [he] at this
          rcases (by omega : m = 0 ∨ m = 1 ∨ m = 2) with rfl | rfl | rfl <;> simp at this <;> exact ha this.symm
    intro n hn
    rw [List.length_append, List.length_replicate] at hn
    exact step m h3 n hn

/-! ## The transform -/

theorem before_iff : ∀ (x y : List UInt8), before x y = true ↔ Before x y := by
  intro x
  induction x with
  | nil => intro y; simp [before, Before]
  | cons a x ih =>
    intro y
    cases y with
    | nil => simp [before, Before]
    | cons b y => simp [before, Before, ih]

theorem before_refl : ∀ x, Before x x
  | [] => trivial
  | _ :: x => .inr ⟨rfl, before_refl x⟩

theorem before_total : ∀ x y, Before x y ∨ Before y x := by
  intro x
  induction x with
  | nil => intro y; exact .inl trivial
  | cons a x ih =>
    intro y
    cases y with
    | nil => exact .inr trivial
    | cons b y =>
      simp only [Before]
      rcases Nat.lt_trichotomy a.toNat b.toNat with h | h | h
      · exact .inl (.inl h)
      · have h := UInt8.toNat_inj.mp h
        subst h
        rcases ih y with h | h
        · exact .inl (.inr ⟨rfl, h⟩)
        · exact .inr (.inr ⟨rfl, h⟩)
      · exact .inr (.inl h)

theorem before_trans : ∀ {x y z : List UInt8}, Before x y → Before y z → Before x z := by
  intro x
  induction x with
  | nil => intro y z _ _; trivial
  | cons a x ih =>
    intro y z h1 h2
    cases y with
    | nil => exact h1.elim
    | cons b y =>
      cases z with
      | nil => exact h2.elim
      | cons c z =>
        simp only [Before] at *
        rcases h1 with h1 | ⟨rfl, h1⟩
        · rcases h2 with h2 | ⟨rfl, h2⟩
          · exact .inl (by omega)
          · exact .inl h1
        · rcases h2 with h2 | ⟨rfl, h2⟩
          · exact .inl h2
          · exact .inr ⟨rfl, ih h1 h2⟩

theorem before_antisymm : ∀ {x y : List UInt8}, Before x y → Before y x → x = y := by
  intro x
  induction x with
  | nil => intro y _ h; cases y with
    | nil => rfl
    | cons _ _ => exact h.elim
  | cons a x ih =>
    intro y h1 h2
    cases y with
    | nil => exact h1.elim
    | cons b y =>
      simp only [Before] at *
      rcases h1 with h1 | ⟨rfl, h1⟩
      · rcases h2 with h2 | ⟨rfl, h2⟩ <;> omega
      · rcases h2 with h2 | ⟨_, h2⟩
        · omega
        · rw [ih h1 h2]

theorem before_take : ∀ {x y : List UInt8} (k : Nat), Before x y → Before (x.take k) (y.take k) := by
  intro x
  induction x with
  | nil => intro y k _; simp [Before]
  | cons a x ih =>
    intro y k h
    cases y with
    | nil => exact h.elim
    | cons b y =>
      cases k with
      | zero => simp [Before]
      | succ k =>
        rcases h with h | ⟨rfl, h⟩
        · exact .inl h
        · exact .inr ⟨rfl, ih k h⟩

theorem insert_perm (x : List UInt8) : ∀ ys, (insert x ys).Perm (x :: ys) := by
  intro ys
  induction ys with
  | nil => exact .refl _
  | cons y ys ih =>
    rw [insert]
    split
    · exact .refl _
    · exact (ih.cons y).trans (.swap x y ys)

theorem insert_sorted (x : List UInt8) : ∀ ys, ys.Pairwise Before → (insert x ys).Pairwise Before := by
  intro ys
  induction ys with
  | nil => intro _; simp [insert]
  | cons y ys ih =>
    intro h
    obtain ⟨h1, h2⟩ := List.pairwise_cons.mp h
    rw [insert]
    split
    · rename_i hb
      rw [before_iff] at hb
      refine List.pairwise_cons.mpr ⟨fun z hz => ?_, h⟩
      rcases List.mem_cons.mp hz with rfl | hz
      · exact hb
      · exact before_trans hb (h1 z hz)
    · rename_i hb
      rw [before_iff] at hb
      have hb := (before_total x y).resolve_left hb
      refine List.pairwise_cons.mpr ⟨fun z hz => ?_, ih h2⟩
      rcases List.mem_cons.mp ((insert_perm x ys).mem_iff.mp hz) with rfl | hz
      · exact hb
      · exact h1 z hz

theorem sort_perm (l : List (List UInt8)) : (sort l).Perm l := by
  induction l with
  | nil => exact .refl _
  | cons x l ih => exact (insert_perm x (sort l)).trans (ih.cons x)

theorem sort_sorted (l : List (List UInt8)) : (sort l).Pairwise Before := by
  induction l with
  | nil => exact List.Pairwise.nil
  | cons x l ih => exact insert_sorted x (sort l) ih

/-- Strings in order are what sorting them gives. -/
theorem sort_unique {l m : List (List UInt8)} (h : m.Perm l) (hs : m.Pairwise Before) : sort l = m :=
  List.Perm.eq_of_pairwise (le := Before) (fun _ _ _ _ h1 h2 => before_antisymm h1 h2) (sort_sorted l) hs ((sort_perm l).trans h.symm)

/-- A string with its last byte put at its front. -/
def back (r : List UInt8) : List UInt8 := r.getLast?.getD 0 :: r.dropLast

theorem back_append (r : List UInt8) (b : UInt8) : back (r ++ [b]) = b :: r := by simp [back]

theorem back_rotation (e : List UInt8) {i : Nat} (h : i < e.length) : back (rotation e (i + 1)) = rotation e i := by
  unfold rotation
  rw [List.take_succ_eq_append_getElem h, ← List.append_assoc, back_append, List.drop_eq_getElem_cons h]
  rfl

theorem back_zero (e : List UInt8) {m : Nat} (h : e.length = m + 1) : back (rotation e 0) = rotation e m := by
  have h1 : rotation e 0 = rotation e (m + 1) := by
    unfold rotation
    rw [← h]; simp
  rw [h1, back_rotation e (by omega)]

theorem back_perm (e : List UInt8) : (((List.range e.length).map (rotation e)).map back).Perm ((List.range e.length).map (rotation e)) := by
  cases h : e.length with
  | zero => exact .refl _
  | succ m =>
    conv => lhs; rw [List.range_succ_eq_map]
    conv => rhs; rw [List.range_succ]
    rw [List.map_cons, List.map_cons, back_zero e h, List.map_map, List.map_map, List.map_append]
    have : (List.range m).map ((back ∘ rotation e) ∘ Nat.succ) = (List.range m).map (rotation e) := by
      apply List.map_congr_left
      intro i hi
      rw [List.mem_range] at hi
      exact back_rotation e (by omega)
    rw [this]
    exact (List.perm_append_comm (l₁ := [rotation e m]))

theorem rotation_length (e : List UInt8) (i : Nat) : (rotation e i).length = e.length := by
  simp [rotation]; omega

theorem untransform_of {e l : List UInt8} {ptr : Nat} (h : Transformed e l ptr) : untransform l ptr = some e ∧ l.length = e.length ∧ ptr < e.length := by
  obtain ⟨R, hp, hs, hl, hr⟩ := h
  have hlen : ∀ r ∈ R, r.length = e.length := by
    intro r hr
    obtain ⟨i, _, rfl⟩ := List.mem_map.mp (hp.mem_iff.mp hr)
    exact rotation_length e i
  have hl' : l = R.map fun r => r.getLast?.getD 0 := by
    have := congrArg (List.map fun o : Option UInt8 => o.getD 0) hl
    simpa [List.map_map, Function.comp_def] using this
  have hn : R.length = e.length := by simpa using hp.length_eq
  have hb : (R.map back).Perm R := (hp.map back).trans ((back_perm e).trans hp.symm)
  have key : ∀ k, k ≤ e.length → rows l k = R.map (List.take k) := by
    intro k
    induction k with
    | zero =>
      intro _
      rw [rows, hl', List.map_map]
      apply List.map_congr_left
      intro r _
      simp
    | succ k ih =>
      intro hk
      rw [rows, ih (by omega), hl', List.zipWith_map_left, List.zipWith_map_right, List.zipWith_self]
      apply sort_unique
      · have e2 : R.map (fun r => r.getLast?.getD 0 :: r.take k) = (R.map back).map (List.take (k + 1)) := by
          rw [List.map_map]
          apply List.map_congr_left
          intro r hr
          have := hlen r hr
          simp only [Function.comp_apply, back, List.take_succ_cons]
          rw [List.dropLast_eq_take, List.take_take]
          congr 2; omega
        rw [e2]
        exact (hb.map _).symm
      · exact List.pairwise_map.mpr (hs.imp fun h => before_take _ h)
  have hll : l.length = e.length := by rw [hl', List.length_map, hn]
  refine ⟨?_, hll, ?_⟩
  · rw [untransform, hll, key _ (Nat.le_refl _)]
    have : R.map (List.take e.length) = R := by
      conv => rhs; rw [← List.map_id R]
      apply List.map_congr_left
      intro r hr
      rw [← hlen r hr]; simp
    rw [this, hr]
  · rw [← hn]
    exact (List.getElem?_eq_some_iff.mp hr).1

/-! ## Blocks and streams -/

theorem bind_step {α β : Type} {o : Option α} {a : α} (h : o = some a) (f : α → Option β) : (o >>= f) = f a := by rw [h]; rfl

theorem block_of {level : Nat} (h9 : level ≤ 9) {w : Bits} {x : List UInt8} (h : Block level w x) (rest : Bits) :
    ∃ v, w = msb 48 0x314159265359 ++ v ∧ block level (v ++ rest) = some (x, rest) := by
  cases h with
  | @mk _ e l ptr is ss sels js tables tbs d h1 h2 h3 h4 h5 h6 h7 h8 h10 h11 h12 h13 h14 h15 =>
    obtain ⟨hu, hll, hptr⟩ := untransform_of h4
    have hr := unrun_of h1 e.length (Nat.le_refl _)
    have hpos : 0 < e.length := List.length_pos_iff.mpr h2
    have hal : 1 ≤ (alphabet l).length := by
      cases l with
      | nil => simp at hll; omega
      | cons b l => exact List.length_pos_iff.mpr (List.ne_nil_of_mem (mem_alphabet.mpr (List.mem_cons_self (a := b) (l := l))))
    have hstop : ∀ s ∈ ss, s ≠ (alphabet l).length + 1 := by
      intro s hs
      have := coded_le h6 hal (moved_lt h5) s hs
      omega
    refine ⟨_, rfl, ?_⟩
    simp only [List.append_assoc, List.cons_append]
    obtain ⟨fs, t, m1, m2⟩ := map_of l (msb 3 tables.length ++ (msb 15 sels.length ++ (js.flatMap unary ++ (tbs.flatten ++ (d ++ rest)))))
    have hs : js.length = sels.length := moved_length h13
    unfold block
    refine (bind_step (number_zero (UInt32.toNat_lt _) _) _).trans ?_
    refine (bind_step (number_false _) _).trans ?_
    refine (bind_step (number_zero (by omega) _) _).trans ?_
    refine (bind_step m1 _).trans ?_
    refine (bind_step m2 _).trans ?_
    refine (bind_step (number_zero (by omega) _) _).trans ?_
    refine (bind_step (number_zero (by omega) _) _).trans ?_
    refine (bind_step (by rw [← hs]; exact manyOnes_of js _) _).trans ?_
    refine (bind_step (unmove_of h13) _).trans ?_
    refine (bind_step (by rw [marked_of]; exact codes_of _ h14 (fun t ht => (h10 t ht).1) _) _).trans ?_
    refine (bind_step (by rw [marked_of]; exact data_of h10 rest ss 0 _ d hstop h15 (by rw [List.length_append]; omega)) _).trans ?_
    refine (bind_step (by rw [marked_of, uncode_of h6]; exact unmove_of h5) _).trans ?_
    refine (bind_step hu _).trans ?_
    rw [hr]
    exact if_pos ⟨rfl, h7, h8, by omega, rfl⟩

theorem block_length {level : Nat} {w : Bits} {x : List UInt8} (h : Block level w x) : 0 < w.length := by
  cases h
  simp

theorem blocks_of {level : Nat} (h9 : level ≤ 9) {c : UInt32} {w : Bits} {x : List UInt8} (h : Blocks level c w x) (rest : Bits) : ∀ n, w.length < n →
    blocks level n c (w ++ rest) = (x, some rest) := by
  induction h with
  | stop =>
    intro n hn
    obtain ⟨n, rfl⟩ := Nat.exists_eq_succ_of_ne_zero (by omega : n ≠ 0)
    rw [List.append_assoc, blocks, number_zero (by decide)]
    simp only
    rw [if_neg (by decide), if_pos trivial, number_zero (UInt32.toNat_lt _)]
    simp
  | @more c w r x y h1 _ ih =>
    intro n hn
    obtain ⟨n, rfl⟩ := Nat.exists_eq_succ_of_ne_zero (by omega : n ≠ 0)
    have hw := block_length h1
    obtain ⟨v, rfl, hb⟩ := block_of h9 h1 (r ++ rest)
    rw [List.length_append] at hn
    rw [List.append_assoc, List.append_assoc, blocks, number_zero (by decide)]
    simp only
    rw [if_pos trivial, hb]
    simp only
    rw [ih n (by omega)]

/-- The decompressor undoes every stream, and stops at its end. -/
theorem one_of {p x : List UInt8} (h : Stream p x) (rest : List UInt8) : one (p ++ rest) = (x, some rest) := by
  cases h with
  | @mk level body x w pad h1 h9 h hb hp =>
    have hv : (UInt8.ofNat (48 + level)).toNat = 48 + level := by
      rw [UInt8.toNat_ofNat']; omega
    have hlen := congrArg List.length hb
    rw [bits_length, List.length_append] at hlen
    simp only [List.cons_append, one]
    rw [hv, if_pos (by omega), bits_append, hb, List.append_assoc]
    have e : 48 + level - 48 = level := by omega
    rw [e, blocks_of h9 h _ _ (by simp; omega)]
    simp only [List.length_append, bits_length]
    congr 2
    have : body.length + rest.length - (pad.length + 8 * rest.length) / 8 = body.length := by omega
    rw [this, List.drop_left]

/-! ## Streams that are cut off -/

/-- What is read does not depend on what comes later. -/
def Local {α : Type} (f : Bits → Option (α × Bits)) : Prop := ∀ s a r t, f s = some (a, r) → f (s ++ t) = some (a, r ++ t)

theorem number_local (w : Nat) : ∀ n, Local (number w n) := by
  induction w with
  | zero => intro n s a r t h; simp only [number, Option.some.injEq, Prod.mk.injEq] at *; simp [h]
  | succ w ih =>
    intro n s a r t h
    cases s with
    | nil => simp [number] at h
    | cons b s => exact ih _ s a r t h

theorem map_local {α β : Type} {o o' : Option (α × Bits)} {t : Bits} (h : ∀ a r, o = some (a, r) → o' = some (a, r ++ t)) (g : α → β) {b : β} {r : Bits}
    (hb : (o.map fun p => (g p.1, p.2)) = some (b, r)) : (o'.map fun p => (g p.1, p.2)) = some (b, r ++ t) := by
  cases o with
  | none => simp at hb
  | some p =>
    simp only [Option.map_some, Option.some.injEq, Prod.mk.injEq] at hb
    rw [h p.1 p.2 rfl]
    simp [hb.1, hb.2]

theorem flags_local (w : Nat) : Local (flags w) := by
  induction w with
  | zero => intro s a r t h; simp only [flags, Option.some.injEq, Prod.mk.injEq] at *; simp [h]
  | succ w ih =>
    intro s a r t h
    cases s with
    | nil => simp [flags] at h
    | cons b s => exact map_local (fun a r => ih s a r t) (b :: ·) h

theorem bind_local {α β : Type} {o o' : Option (α × Bits)} {t : Bits} (h : ∀ a r, o = some (a, r) → o' = some (a, r ++ t))
    {f f' : α × Bits → Option (β × Bits)} (hf : ∀ a s b r, f (a, s) = some (b, r) → f' (a, s ++ t) = some (b, r ++ t)) {b : β} {r : Bits}
    (hb : (o >>= f) = some (b, r)) : (o' >>= f') = some (b, r ++ t) := by
  cases o with
  | none => cases hb
  | some p => rw [h p.1 p.2 rfl]; exact hf p.1 p.2 b r hb

theorem pure_local {β : Type} {t : Bits} {c b : β} {s r : Bits} (h : some (c, s) = some (b, r)) : some (c, s ++ t) = some (b, r ++ t) := by
  simp only [Option.some.injEq, Prod.mk.injEq] at *; simp [h]

theorem readMap_local : ∀ fs, Local (readMap fs) := by
  intro fs
  induction fs with
  | nil => intro s a r t h; exact pure_local h
  | cons b fs ih =>
    intro s a r t h
    cases b with
    | true =>
      refine bind_local (fun a r => flags_local 16 s a r t) ?_ h
      intro bs s b r h
      refine bind_local (fun a r => ih s a r t) ?_ h
      intro _ _ _ _ h
      exact pure_local h
    | false =>
      refine bind_local (fun a r => ih s a r t) ?_ h
      intro _ _ _ _ h
      exact pure_local h

theorem ones_local : Local ones := by
  intro s
  induction s with
  | nil => intro a r t h; simp [ones] at h
  | cons b s ih =>
    intro a r t h
    cases b with
    | false => exact pure_local h
    | true => exact map_local (fun a r => ih a r t) (· + 1) h

theorem manyOnes_local : ∀ n, Local (manyOnes n) := by
  intro n
  induction n with
  | zero => intro s a r t h; exact pure_local h
  | succ n ih =>
    intro s a r t h
    refine bind_local (fun a r => ones_local s a r t) ?_ h
    intro j s b r h
    refine bind_local (fun a r => ih s a r t) ?_ h
    intro _ _ _ _ h
    exact pure_local h

theorem steps_local (cur n : Nat) : Local (steps cur n) := by
  intro s
  induction cur, n, s using steps.induct with
  | case1 cur s => intro a r t h; rw [steps] at h ⊢; exact pure_local h
  | case2 cur n s ih =>
    intro a r t h
    rw [List.cons_append]
    rw [steps] at h ⊢
    exact map_local (fun a r => ih a r t) (cur :: ·) h
  | case3 cur n s hc ih =>
    intro a r t h
    rw [List.cons_append, List.cons_append]
    rw [steps, if_pos hc] at h ⊢
    exact ih a r t h
  | case4 cur n s hc => intro a r t h; rw [steps, if_neg hc] at h; cases h
  | case5 cur n s hc ih =>
    intro a r t h
    rw [List.cons_append, List.cons_append]
    rw [steps, if_pos hc] at h ⊢
    exact ih a r t h
  | case6 cur n s hc => intro a r t h; rw [steps, if_neg hc] at h; cases h
  | case7 cur n s h1 h2 h3 => intro a r t h; rw [steps] at h <;> first | cases h | assumption

theorem codes_local (n : Nat) : ∀ k, Local (codes n k) := by
  intro k
  induction k with
  | zero => intro s a r t h; exact pure_local h
  | succ k ih =>
    intro s a r t h
    refine bind_local (fun a r => number_local 5 0 s a r t) ?_ h
    intro start s b r h
    refine bind_local (t := t) (o' := if 1 ≤ start ∧ start ≤ 20 then steps start n (s ++ t) else none) ?_ ?_ h
    · intro a r h
      split at h
      · rename_i hc; rw [if_pos hc]; exact steps_local start n s a r t h
      · cases h
    intro c s b r h
    refine bind_local (fun a r => ih s a r t) ?_ h
    intro _ _ _ _ h
    exact pure_local h

theorem symbol_local (ls : Lengths) : ∀ n l code first, Local (Zlib.symbolFrom ls n l code first) := by
  intro n
  induction n with
  | zero => intro l code first s a r t h; cases h
  | succ n ih =>
    intro l code first s a r t h
    cases s with
    | nil => cases h
    | cons b s =>
      rw [List.cons_append]
      rw [Zlib.symbolFrom] at h ⊢
      split at h
      · rename_i hc
        rw [if_pos hc]
        rw [Option.map_eq_some_iff] at h ⊢
        obtain ⟨k, h1, h2⟩ := h
        simp only [Prod.mk.injEq] at h2
        exact ⟨k, h1, by simp [h2.1, h2.2]⟩
      · rename_i hc
        rw [if_neg hc]
        exact ih _ _ _ s a r t h

theorem data_local (tables : List Lengths) (sels : List Nat) (stop : Nat) : ∀ (n m i : Nat) (s : Bits) (a : List Nat) (r t : Bits), n ≤ m →
    data tables sels stop n i s = some (a, r) → data tables sels stop m i (s ++ t) = some (a, r ++ t) := by
  intro n
  induction n with
  | zero => intro m i s a r t _ h; cases h
  | succ n ih =>
    intro m i s a r t hm h
    obtain ⟨m, rfl⟩ := Nat.exists_eq_succ_of_ne_zero (by omega : m ≠ 0)
    rw [data] at h ⊢
    cases h1 : sels[i / 50]? with
    | none => simp [h1] at h
    | some k =>
      cases h2 : tables[k]? with
      | none => simp [h1, h2] at h
      | some ls =>
        simp only [h1, h2, Option.bind_eq_bind, Option.bind_some] at h ⊢
        refine bind_local (fun a r => symbol_local ls 20 1 0 0 s a r t) ?_ h
        intro c s b r h
        by_cases hc : c = stop
        · simp only [hc, if_true] at h ⊢; exact pure_local h
        · simp only [hc, if_false] at h ⊢
          refine bind_local (fun a r => ih m (i + 1) s a r t (by omega)) ?_ h
          intro _ _ _ _ h
          exact pure_local h

theorem block_local (level : Nat) : Local (block level) := by
  intro s a r t h
  unfold block at h ⊢
  refine bind_local (fun a r => number_local 32 0 s a r t) ?_ h
  intro sum s b r h
  refine bind_local (fun a r => number_local 1 0 s a r t) ?_ h
  intro random s b r h
  refine bind_local (fun a r => number_local 24 0 s a r t) ?_ h
  intro ptr s b r h
  refine bind_local (fun a r => flags_local 16 s a r t) ?_ h
  intro fs s b r h
  refine bind_local (fun a r => readMap_local fs s a r t) ?_ h
  intro fs s b r h
  refine bind_local (fun a r => number_local 3 0 s a r t) ?_ h
  intro groups s b r h
  refine bind_local (fun a r => number_local 15 0 s a r t) ?_ h
  intro count s b r h
  refine bind_local (fun a r => manyOnes_local count s a r t) ?_ h
  intro js s b r h
  simp only at h ⊢
  cases h1 : unmove (List.range groups) js with
  | none => rw [h1] at h; cases h
  | some sels =>
    rw [h1] at h
    refine bind_local (f := fun p : List Lengths × Bits => _) (fun a r => codes_local _ _ s a r t) ?_ h
    intro tables s b r h
    refine bind_local (fun a r => data_local tables sels _ (s.length + 1) ((s ++ t).length + 1) 0 s a r t (by simp)) ?_ h
    intro ss s b r h
    simp only at h ⊢
    cases h2 : unmove (marked fs) (uncode 1 0 ss) with
    | none => rw [h2] at h; cases h
    | some l =>
      rw [h2] at h
      simp only [Option.bind_eq_bind, Option.bind_some] at h ⊢
      cases h3 : untransform l ptr with
      | none => rw [h3] at h; cases h
      | some e =>
        rw [h3] at h
        simp only [Option.bind_some] at h ⊢
        split at h
        · rename_i hc
          rw [if_pos hc]; exact pure_local h
        · cases h

theorem blocks_cut {level : Nat} (h9 : level ≤ 9) {c : UInt32} {w : Bits} {x : List UInt8} (h : Blocks level c w x) : ∀ (n : Nat) (q t : Bits),
    w = q ++ t → t ≠ [] → ∃ y, y <+: x ∧ blocks level n c q = (y, none) := by
  induction h with
  | @stop c =>
    intro n q t hq ht
    cases n with
    | zero => exact ⟨[], List.prefix_refl _, rfl⟩
    | succ n =>
      rw [blocks]
      cases h1 : number 48 0 q with
      | none => exact ⟨[], List.prefix_refl _, rfl⟩
      | some p =>
        have h2 := number_local 48 0 q p.1 p.2 t h1
        rw [← hq, number_zero (by decide)] at h2
        simp only [Option.some.injEq, Prod.mk.injEq] at h2
        simp only [← h2.1]
        rw [if_neg (by decide), if_pos trivial]
        cases h3 : number 32 0 p.2 with
        | none => exact ⟨[], List.prefix_refl _, rfl⟩
        | some p' =>
          have h4 := number_local 32 0 p.2 p'.1 p'.2 t h3
          rw [← h2.2] at h4
          have h5 := number_zero (UInt32.toNat_lt c) []
          rw [List.append_nil] at h5
          rw [h5] at h4
          simp only [Option.some.injEq, Prod.mk.injEq] at h4
          exact absurd (List.append_eq_nil_iff.mp h4.2.symm).2 ht
  | @more c w r x y h1 _ ih =>
    intro n q t hq ht
    cases n with
    | zero => exact ⟨[], List.nil_prefix, rfl⟩
    | succ n =>
      obtain ⟨v, rfl, hb⟩ := block_of h9 h1 r
      rw [blocks]
      cases h2 : number 48 0 q with
      | none => exact ⟨[], List.nil_prefix, rfl⟩
      | some p =>
        have h3 := number_local 48 0 q p.1 p.2 t h2
        rw [← hq, List.append_assoc, number_zero (by decide)] at h3
        simp only [Option.some.injEq, Prod.mk.injEq] at h3
        simp only [← h3.1]
        rw [if_pos trivial]
        cases h4 : block level p.2 with
        | none => exact ⟨[], List.nil_prefix, rfl⟩
        | some p' =>
          have h5 := block_local level p.2 p'.1 p'.2 t h4
          rw [← h3.2, hb] at h5
          simp only [Option.some.injEq, Prod.mk.injEq] at h5
          obtain ⟨z, hz, e⟩ := ih n p'.2 t h5.2 ht
          simp only [← h5.1, e]
          exact ⟨_, List.prefix_append_right_inj _ |>.mpr hz, rfl⟩

/-- A stream that is cut off gives some of its data, and then fails. -/
theorem one_cut {p x : List UInt8} (h : Stream p x) {q : List UInt8} (hq : q <+: p) (hne : q ≠ p) : ∃ y, y <+: x ∧ one q = (y, none) := by
  cases h with
  | @mk level body x w pad h1 h9 h hb hp =>
    have hv : (UInt8.ofNat (48 + level)).toNat = 48 + level := by
      rw [UInt8.toNat_ofNat']; omega
    obtain ⟨u, hu⟩ := hq
    match q, hu, hne with
    | [], _, _ => exact ⟨[], List.nil_prefix, rfl⟩
    | [a], hu, _ => exact ⟨[], List.nil_prefix, by simp [one]⟩
    | [a, b], hu, _ => exact ⟨[], List.nil_prefix, by simp [one]⟩
    | [a, b, c], hu, _ => exact ⟨[], List.nil_prefix, by simp [one]⟩
    | a :: b :: c :: d :: q, hu, hne =>
      simp only [List.cons_append, List.cons.injEq] at hu
      obtain ⟨rfl, rfl, rfl, rfl, rfl⟩ := hu
      have hun : u ≠ [] := by rintro rfl; simp at hne
      have hlen := congrArg List.length hb
      rw [bits_length, List.length_append, List.length_append] at hlen
      have hu1 : 0 < u.length := List.length_pos_iff.mpr hun
      rw [bits_append] at hb
      have hw : w = bits q ++ w.drop (bits q).length := by
        have h6 := congrArg (List.take w.length) hb
        rw [List.take_left] at h6
        have h7 := congrArg (List.take (bits q).length) h6
        rw [List.take_take, Nat.min_eq_left (by rw [bits_length]; omega), List.take_left] at h7
        conv => lhs; rw [← List.take_append_drop (bits q).length w]
        rw [← h7]
      obtain ⟨y, hy, e⟩ := blocks_cut h9 h ((bits q).length + 1) (bits q) _ hw (by
        intro h8
        have := congrArg List.length hw
        rw [h8, List.length_append, bits_length] at this
        simp at this
        omega)
      refine ⟨y, hy, ?_⟩
      simp only [one]
      rw [hv, if_pos (by omega)]
      have e2 : 48 + level - 48 = level := by omega
      rw [e2, e]

/-- What is asked of a decompressor can be done. -/
theorem one_undoes : Undoes one := ⟨fun _ _ rest h => one_of h rest, fun _ _ _ h hq hne => one_cut h hq hne⟩

/-! ## Many streams -/

theorem stream_ne {p x : List UInt8} (h : Stream p x) : 0 < p.length := by cases h; simp

/-- Up to `a`, a part of a file from its start. -/
theorem multiFrom_cut {one : One} (ho : Undoes one) (whole : Bool) : ∀ (l : List (List UInt8 × List UInt8)), l ≠ [] → (∀ s ∈ l, Stream s.1 s.2) →
    ∀ (n : Nat) (a : List UInt8), a <+: (l.map (·.1)).flatten → a.length < n →
      ∃ y, y <+: (l.map (·.2)).flatten ∧ (a = (l.map (·.1)).flatten → y = (l.map (·.2)).flatten) ∧
        ((multiFrom one whole n a = y.map some ++ [none] ∧ a ≠ (l.map (·.1)).flatten) ∨
          (multiFrom one whole n a = y.map some ++ (if whole then [] else [none]) ∧ File a y)) := by
  intro l
  induction l with
  | nil => intro h; exact absurd rfl h
  | cons s l ih =>
    intro _ hl n a ha hn
    obtain ⟨p, x⟩ := s
    have hs : Stream p x := hl (p, x) (by simp)
    obtain ⟨n, rfl⟩ := Nat.exists_eq_succ_of_ne_zero (by omega : n ≠ 0)
    simp only [List.map_cons, List.flatten_cons] at ha ⊢
    by_cases hp : p <+: a
    · obtain ⟨a', rfl⟩ := hp
      have ha' := (List.prefix_append_right_inj p).mp ha
      rw [multiFrom, ho.1 p x a' hs]
      cases a' with
      | nil =>
        refine ⟨x, List.prefix_append _ _, ?_, .inr ⟨rfl, [(p, x)], by simp, by simpa using hs, by simp, by simp⟩⟩
        intro h
        have := List.append_cancel_left h
        cases l with
        | nil => simp
        | cons s l =>
          have h1 := stream_ne (hl s (by simp))
          have := congrArg List.length this
          simp at this; omega
      | cons b a' =>
        have hne : l ≠ [] := by
          rintro rfl
          simp at ha'
        have h1 := stream_ne hs
        rw [List.length_append] at hn
        obtain ⟨y, hy, he, hc⟩ := ih hne (fun s h => hl s (by simp [h])) n (b :: a') ha' (by omega)
        refine ⟨x ++ y, (List.prefix_append_right_inj x).mpr hy, fun h => ?_, ?_⟩
        · rw [he (List.append_cancel_left h)]
        · rcases hc with ⟨h2, h3⟩ | ⟨h2, m, m1, m2, m3, m4⟩
          · refine .inl ⟨?_, fun h => h3 (List.append_cancel_left h)⟩
            simp only [h2, List.map_append, List.append_assoc]
          · refine .inr ⟨?_, (p, x) :: m, by simp, ?_, by simp [m3], by simp [m4]⟩
            · simp only [h2, List.map_append, List.append_assoc]
            · intro s h
              rcases List.mem_cons.mp h with rfl | h
              · exact hs
              · exact m2 s h
    · have hap : a <+: p := (List.prefix_or_prefix_of_prefix ha (List.prefix_append p _)).resolve_right hp
      obtain ⟨y, hy, e⟩ := ho.2 p x a hs hap (by rintro rfl; exact hp (List.prefix_refl _))
      have hne : a ≠ p ++ (l.map (·.1)).flatten := by
        rintro rfl
        exact hp (List.prefix_append _ _)
      refine ⟨y, hy.trans (List.prefix_append _ _), fun h => absurd h hne, .inl ⟨?_, hne⟩⟩
      rw [multiFrom, e]

/-- Complete streams at the start of a file give all their data. -/
theorem multiFrom_prefix {one : One} (ho : Undoes one) (whole : Bool) : ∀ (l : List (List UInt8 × List UInt8)), (∀ s ∈ l, Stream s.1 s.2) →
    ∀ (n : Nat) (a : List UInt8), ((l.map (·.1)).flatten ++ a).length < n →
      ((l.map (·.2)).flatten).map some <+: multiFrom one whole n ((l.map (·.1)).flatten ++ a) := by
  intro l
  induction l with
  | nil => intro _ n a _; exact List.nil_prefix
  | cons s l ih =>
    intro hl n a hn
    obtain ⟨p, x⟩ := s
    have hs : Stream p x := hl (p, x) (by simp)
    obtain ⟨n, rfl⟩ := Nat.exists_eq_succ_of_ne_zero (by omega : n ≠ 0)
    simp only [List.map_cons, List.flatten_cons, List.append_assoc, List.map_append, List.length_append] at hn ⊢
    rw [multiFrom, ho.1 p x _ hs]
    have h1 := stream_ne hs
    have := ih (fun s h => hl s (by simp [h])) n a (by rw [List.length_append]; omega)
    cases hr : (l.map (·.1)).flatten ++ a with
    | nil =>
      have hl0 : l = [] := by
        cases l with
        | nil => rfl
        | cons s l =>
          have h2 := stream_ne (hl s (by simp))
          have h3 := congrArg List.length hr
          rw [List.map_cons, List.flatten_cons, List.length_append, List.length_append, List.length_nil] at h3
          omega
      subst hl0
      exact (List.prefix_append_right_inj _).mpr (by simp)
    | cons b r =>
      rw [hr] at this
      exact (List.prefix_append_right_inj _).mpr this

theorem before_whole (a : List UInt8) : Source.before (a.map some) = (a, true) := by
  induction a with
  | nil => rfl
  | cons b a ih => rw [List.map_cons, Source.before, ih]

theorem before_failing (a : List UInt8) (after : Source) : Source.before (a.map some ++ none :: after) = (a, false) := by
  induction a with
  | nil => rfl
  | cons b a ih => rw [List.map_cons, List.cons_append, Source.before, ih]

theorem multi_whole {one : One} (ho : Undoes one) {file data : List UInt8} (h : File file data) : multi one (file.map some) = data.map some := by
  obtain ⟨l, h1, h2, rfl, rfl⟩ := h
  unfold multi
  rw [before_whole]
  obtain ⟨y, -, hy, hc⟩ := multiFrom_cut ho true l h1 h2 _ _ (List.prefix_refl _) (Nat.lt_succ_self _)
  rcases hc with ⟨_, hc⟩ | ⟨hc, -⟩
  · exact absurd rfl hc
  · rw [hy rfl] at hc
    simpa using hc

theorem multi_cut {one : One} (ho : Undoes one) {file data : List UInt8} (h : File file data) {a : List UInt8} (ha : a <+: file) {tail : Source}
    (ht : tail = [] ∨ ∃ after, tail = none :: after) :
    ∃ y, y <+: data ∧ (a = file → y = data) ∧ (∀ a1 y1, File a1 y1 → a1 <+: a → y1 <+: y) ∧
      (multi one (a.map some ++ tail) = y.map some ++ [none] ∨ (multi one (a.map some ++ tail) = y.map some ∧ tail = [] ∧ File a y)) := by
  obtain ⟨l, h1, h2, rfl, rfl⟩ := h
  have hb : ∃ whole, Source.before (a.map some ++ tail) = (a, whole) ∧ (whole = true → tail = []) := by
    rcases ht with rfl | ⟨after, rfl⟩
    · exact ⟨true, by rw [List.append_nil, before_whole], fun _ => rfl⟩
    · exact ⟨false, before_failing a after, fun h => by cases h⟩
  obtain ⟨whole, hb, hw⟩ := hb
  unfold multi
  rw [hb]
  obtain ⟨y, hy1, hy2, hc⟩ := multiFrom_cut ho whole l h1 h2 _ a ha (Nat.lt_succ_self _)
  have hpre : ∀ t : Source, (t = [] ∨ t = [none]) → multiFrom one whole (a.length + 1) a = y.map some ++ t → ∀ a1 y1, File a1 y1 → a1 <+: a → y1 <+: y := by
    rintro t ht he a1 y1 ⟨m, _, m2, rfl, rfl⟩ ⟨r, hr⟩
    have := multiFrom_prefix ho whole m m2 (a.length + 1) r (by rw [hr]; exact Nat.lt_succ_self _)
    rw [hr, he] at this
    have h3 : ((m.map (·.2)).flatten).map some <+: y.map some := by
      rcases ht with rfl | rfl
      · simpa using this
      · rcases List.prefix_concat_iff.mp this with h | h
        · exfalso
          have : (none : Option UInt8) ∈ ((m.map (·.2)).flatten).map some := by rw [h]; simp
          simp at this
        · exact h
    obtain ⟨z, hz, e⟩ := List.prefix_map_iff.mp h3
    rw [List.map_injective_iff.2 (Option.some_injective _) e]
    exact hz
  refine ⟨y, hy1, hy2, ?_, ?_⟩
  · rcases hc with ⟨h, -⟩ | ⟨h, -⟩
    · exact hpre _ (.inr rfl) h
    · cases whole
      · exact hpre _ (.inr rfl) h
      · exact hpre _ (.inl rfl) h
  · rcases hc with ⟨h, -⟩ | ⟨h, hf⟩
    · exact .inl h
    · cases whole
      · exact .inl h
      · exact .inr ⟨by simpa using h, hw rfl, hf⟩

end Osmio.Bzip2
