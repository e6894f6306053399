import Verif.Spec.TagsToSqlite
import Verif.Proofs.Json
import Verif.Proofs.Chrono
import Verif.Proofs.ChangesetTags
import Verif.Proofs.ChangesetReaders
/-! # Proofs about the program that stores the tags of changesets in a database -/

namespace Osmio.TagsToSqlite
open Changesets QuickXml Spec.Cs

/-! ## JSON -/

theorem pairs_decode (l : List (Str × Str)) (hl : l ≠ []) (r : Str) (n : Nat) (hn : l.length ≤ n) :
    Spec.Json.pairsBody n (Json.pairs l ++ ']' :: r) = some (l, r) := by
  induction l generalizing n with
  | nil => exact absurd rfl hl
  | cons p m ih =>
    obtain ⟨k, v⟩ := p
    cases n with
    | zero => simp at hn
    | succ n =>
      cases m with
      | nil =>
        simp only [Json.pairs, Json.quote, List.cons_append, List.append_assoc, Spec.Json.pairsBody, List.nil_append]
        rw [strBody_quote]
        simp only
        rw [strBody_quote]
        rfl
      | cons q m =>
        have ih' := ih (by simp) n (by simpa using hn)
        simp only [Json.pairs, Json.quote, List.cons_append, List.append_assoc, Spec.Json.pairsBody, List.nil_append]
        rw [strBody_quote]
        simp only
        rw [strBody_quote]
        simp only
        rw [ih']

theorem pairs_length (l : List (Str × Str)) : l.length ≤ (Json.pairs l).length := by
  induction l with
  | nil => simp [Json.pairs]
  | cons p m ih =>
    cases m with
    | nil => simp [Json.pairs, Json.quote]
    | cons q m =>
      simp only [Json.pairs, List.length_append, List.length_cons] at *
      omega

theorem array_decode (l : List (Str × Str)) : Spec.Json.decodePairs (Json.array l) = some l := by
  cases l with
  | nil => rfl
  | cons p m =>
    have hne : ∃ cs, Json.pairs (p :: m) = '[' :: cs := by cases m <;> exact ⟨_, rfl⟩
    have hd := pairs_decode (p :: m) (by simp) [] (Json.pairs (p :: m) ++ [']']).length (by
      have := pairs_length (p :: m)
      rw [List.length_append]; omega)
    obtain ⟨cs, e⟩ := hne
    unfold Json.array
    rw [Spec.Json.decodePairs.eq_2 _ (by rw [e]; simp)]
    rw [hd]

theorem rowOf_stores (d : UInt64 × List (Str × Str)) : Stores (rowOf d.1 d.2) d := by
  refine ⟨?_, _, rfl, array_decode d.2⟩
  show d.1.toInt64.toInt % 2 ^ 64 = d.1.toNat
  have h := d.1.toNat_lt
  have e : d.1.toInt64.toInt = (d.1.toBitVec).toInt := rfl
  rw [e, BitVec.toInt_eq_toNat_cond]
  show (if 2 * d.1.toNat < 2 ^ 64 then _ else _) % 2 ^ 64 = _
  have e' : (d.1.toBitVec.toNat : ℤ) = d.1.toNat := rfl
  rw [e']
  split <;> omega

theorem toInt64_inj {a b : UInt64} (h : a.toInt64 = b.toInt64) : a = b := by
  have := congrArg Int64.toUInt64 h
  simpa using this

/-! ## Counting -/

/-- A map that counts these keys. -/
structure Counts (pop : List (Str × Nat)) (ks : List Str) : Prop where
  nodup : (pop.map (·.1)).Nodup
  mem : ∀ k n, (k, n) ∈ pop ↔ n = ks.count k ∧ 0 < n

theorem countKey_keys (k : Str) (pop : List (Str × Nat)) (x : Str) :
    x ∈ (countKey k pop).map (·.1) ↔ x = k ∨ x ∈ pop.map (·.1) := by
  induction pop with
  | nil => simp [countKey]
  | cons p r ih =>
    obtain ⟨k', n⟩ := p
    unfold countKey
    split
    · rename_i h; subst h; simp
    · simp only [List.map_cons, List.mem_cons, ih]; tauto

theorem countKey_nodup (k : Str) (pop : List (Str × Nat)) (h : (pop.map (·.1)).Nodup) :
    ((countKey k pop).map (·.1)).Nodup := by
  induction pop with
  | nil => simp [countKey]
  | cons p r ih =>
    obtain ⟨k', n⟩ := p
    rw [List.map_cons, List.nodup_cons] at h
    unfold countKey
    split
    · rw [List.map_cons, List.nodup_cons]; exact h
    · rename_i hk
      rw [List.map_cons, List.nodup_cons, countKey_keys]
      exact ⟨by rintro (e | e); exacts [hk e, h.1 e], ih h.2⟩

/-- What a counted entry is. -/
theorem countKey_mem (k : Str) (pop : List (Str × Nat)) (h : (pop.map (·.1)).Nodup) (x : Str) (m : Nat) :
    (x, m) ∈ countKey k pop ↔
      (x ≠ k ∧ (x, m) ∈ pop) ∨ (x = k ∧ ((∃ j, (k, j) ∈ pop ∧ m = j + 1) ∨ (k ∉ pop.map (·.1) ∧ m = 1))) := by
  induction pop with
  | nil => simp [countKey]
  | cons p r ih =>
    obtain ⟨k', n⟩ := p
    rw [List.map_cons, List.nodup_cons] at h
    have key : ∀ j, (k', j) ∈ r → False := fun j hj => h.1 (List.mem_map_of_mem (f := (·.1)) hj)
    unfold countKey
    split
    · rename_i e
      have e : k' = k := e
      subst e
      simp only [List.mem_cons, Prod.mk.injEq, List.map_cons, true_or, not_true_eq_false, false_and, or_false, true_and]
      constructor
      · rintro (⟨rfl, rfl⟩ | hx)
        · exact .inr ⟨rfl, n, .inl rfl, rfl⟩
        · exact .inl ⟨fun e => key m (e ▸ hx), .inr hx⟩
      · rintro (⟨h1, ⟨e, -⟩ | h2⟩ | ⟨rfl, j, rfl | hj, rfl⟩)
        · exact absurd e h1
        · exact .inr h2
        · exact .inl ⟨rfl, rfl⟩
        · exact absurd hj (key j)
    · rename_i e
      have e : k' ≠ k := e
      rw [List.mem_cons, ih h.2]
      simp only [List.mem_cons, Prod.mk.injEq, List.map_cons]
      constructor
      · rintro (⟨rfl, rfl⟩ | ⟨h1, h2⟩ | ⟨rfl, ⟨j, hj, rfl⟩ | ⟨hn, rfl⟩⟩)
        · exact .inl ⟨e, .inl ⟨rfl, rfl⟩⟩
        · exact .inl ⟨h1, .inr h2⟩
        · exact .inr ⟨rfl, .inl ⟨j, .inr hj, rfl⟩⟩
        · exact .inr ⟨rfl, .inr ⟨by rintro (h | h); exacts [e h.symm, hn h], rfl⟩⟩
      · rintro (⟨h1, ⟨rfl, rfl⟩ | h2⟩ | ⟨rfl, ⟨j, ⟨e', -⟩ | hj, rfl⟩ | ⟨hn, rfl⟩⟩)
        · exact .inl ⟨rfl, rfl⟩
        · exact .inr (.inl ⟨h1, h2⟩)
        · exact absurd e'.symm e
        · exact .inr (.inr ⟨rfl, .inl ⟨j, hj, rfl⟩⟩)
        · exact .inr (.inr ⟨rfl, .inr ⟨fun h => hn (.inr h), rfl⟩⟩)

theorem Counts.keys {pop : List (Str × Nat)} {ks : List Str} (h : Counts pop ks) (k : Str) :
    k ∈ pop.map (·.1) ↔ 0 < ks.count k := by
  rw [List.mem_map]
  constructor
  · rintro ⟨⟨x, n⟩, hm, rfl⟩
    obtain ⟨rfl, hn⟩ := (h.mem x n).1 hm
    exact hn
  · exact fun hc => ⟨(k, ks.count k), (h.mem _ _).2 ⟨rfl, hc⟩, rfl⟩

theorem Counts.snoc {pop : List (Str × Nat)} {ks : List Str} (h : Counts pop ks) (k : Str) :
    Counts (countKey k pop) (ks ++ [k]) := by
  refine ⟨countKey_nodup k pop h.nodup, fun x m => ?_⟩
  rw [countKey_mem k pop h.nodup]
  by_cases hx : x = k
  · subst hx
    have e : (ks ++ [x]).count x = ks.count x + 1 := by simp
    rw [e, h.keys]
    simp only [ne_eq, not_true_eq_false, false_and, false_or, true_and, h.mem]
    constructor
    · rintro (⟨j, ⟨rfl, -⟩, rfl⟩ | ⟨h0, rfl⟩) <;> omega
    · rintro ⟨rfl, -⟩
      by_cases h0 : 0 < ks.count x
      · exact .inl ⟨_, ⟨rfl, h0⟩, rfl⟩
      · exact .inr ⟨h0, by omega⟩
  · have e : (ks ++ [k]).count x = ks.count x := by
      rw [List.count_append, List.count_singleton]
      have : ¬ (k == x) = true := by simpa using fun e => hx e.symm
      simp [this]
    rw [e, h.mem]
    simp [hx]

theorem Counts.tags {pop : List (Str × Nat)} {ks : List Str} (h : Counts pop ks) (tags : List (Str × Str)) :
    Counts (countTags tags pop) (ks ++ tags.map (·.1)) := by
  unfold countTags
  induction tags generalizing pop ks with
  | nil => simpa using h
  | cons kv r ih =>
    have := ih (h.snoc kv.1)
    simpa using this

theorem Counts.length {pop : List (Str × Nat)} {ks : List Str} (h : Counts pop ks) : pop.length = ks.dedup.length := by
  have hp : (pop.map (·.1)).Perm ks.dedup := by
    rw [List.perm_ext_iff_of_nodup h.nodup ks.nodup_dedup]
    intro k
    rw [h.keys, List.mem_dedup, List.count_pos_iff]
  rw [← hp.length_eq, List.length_map]

/-! ## The report -/

theorem pairLe_iff (a b : Nat × Str) : pairLe a b = true ↔ ¬ MorePopular a b := by
  unfold pairLe MorePopular
  have hs := compareStr_swap a.2 b.2
  split
  · rename_i h
    rw [hs]
    cases compareStr a.2 b.2 <;> simp [h]
  · rename_i h
    simp [h]
    omega

theorem morePopular_trans {a b c : Nat × Str} (h1 : MorePopular a b) (h2 : MorePopular b c) : MorePopular a c := by
  rcases h1 with h1 | ⟨e1, h1⟩ <;> rcases h2 with h2 | ⟨e2, h2⟩
  · exact .inl (by omega)
  · exact .inl (by omega)
  · exact .inl (by omega)
  · exact .inr ⟨by omega, compareStr_trans h2 h1⟩

theorem morePopular_or (a b : Nat × Str) : MorePopular a b ∨ a = b ∨ MorePopular b a := by
  unfold MorePopular
  have hs := compareStr_swap a.2 b.2
  rcases Nat.lt_trichotomy a.1 b.1 with h | h | h
  · exact .inr (.inr (.inl h))
  · cases hc : compareStr a.2 b.2 with
    | lt => exact .inr (.inr (.inr ⟨h.symm, rfl⟩))
    | eq => exact .inr (.inl (Prod.ext h ((compareStr_eq_iff _ _).1 hc)))
    | gt => exact .inl (.inr ⟨h, by rw [hs, hc]; rfl⟩)
  · exact .inl (.inl h)

theorem morePopular_irrefl (a : Nat × Str) : ¬ MorePopular a a := by
  rintro (h | ⟨-, h⟩)
  · omega
  · rw [(compareStr_eq_iff _ _).2 rfl] at h; cases h

theorem morePopular_asymm {a b : Nat × Str} (h : MorePopular a b) : ¬ MorePopular b a :=
  fun h' => morePopular_irrefl a (morePopular_trans h h')

theorem ranking_perm (pop : List (Str × Nat)) : (ranking pop).Perm (pop.map fun p => (p.2, p.1)) :=
  (List.reverse_perm _).trans (List.perm_insertionSort _ _)

theorem ranking_sorted {pop : List (Str × Nat)} (h : (pop.map (·.1)).Nodup) : (ranking pop).Pairwise MorePopular := by
  have htot : ∀ a b : Nat × Str, (pairLe a b || pairLe b a) = true := by
    intro a b
    rw [Bool.or_eq_true, pairLe_iff, pairLe_iff]
    by_cases hab : MorePopular a b
    · exact .inr (morePopular_asymm hab)
    · exact .inl hab
  have htr : ∀ a b c : Nat × Str, pairLe a b = true → pairLe b c = true → pairLe a c = true := by
    intro a b c h1 h2
    rw [pairLe_iff] at *
    intro hac
    rcases morePopular_or a b with h | rfl | h
    · exact h1 h
    · exact h2 hac
    · exact h2 (morePopular_trans h hac)
  have : Std.Total (fun a b : Nat × Str => pairLe a b = true) := ⟨fun a b => by simpa using htot a b⟩
  have : IsTrans (Nat × Str) (fun a b => pairLe a b = true) := ⟨htr⟩
  have hs := List.pairwise_insertionSort (fun a b : Nat × Str => pairLe a b = true) (pop.map fun p => (p.2, p.1))
  have hnd : ((pop.map fun p => (p.2, p.1)).insertionSort fun a b => pairLe a b = true).Nodup := by
    rw [(List.perm_insertionSort _ _).nodup_iff]
    have : ((pop.map fun p => (p.2, p.1)).map (·.2)).Nodup := by rw [List.map_map]; exact h
    exact List.Nodup.of_map _ this
  unfold ranking
  rw [List.pairwise_reverse]
  refine (List.Pairwise.and hs hnd).imp ?_
  rintro a b ⟨h1, h2⟩
  rw [pairLe_iff] at h1
  rcases morePopular_or a b with h | h | h
  · exact absurd h h1
  · exact absurd h h2
  · exact h

/-- The list of which the report prints the lines. -/
def topKeys (num : Nat) (pop : List (Str × Nat)) : List (Nat × Str) :=
  ((ranking pop).take 100).takeWhile fun p => !decide (p.1 * 1000 < num)

theorem topKeys_report {ds : List (UInt64 × List (Str × Str))} {pop : List (Str × Nat)}
    (h : Counts pop ((ds.flatMap (·.2)).map (·.1))) : Report ds (topKeys ds.length pop) := by
  have hmem : ∀ p, p ∈ ranking pop ↔ p.1 = occurrences ds p.2 ∧ 0 < p.1 := by
    intro p
    rw [(ranking_perm pop).mem_iff, List.mem_map]
    constructor
    · rintro ⟨⟨k, n⟩, hm, rfl⟩; exact (h.mem k n).1 hm
    · rintro hp; exact ⟨(p.2, p.1), (h.mem _ _).2 hp, rfl⟩
  have hsort := ranking_sorted h.nodup
  have hsub : (topKeys ds.length pop).Sublist (ranking pop) :=
    (List.takeWhile_sublist _).trans (List.take_sublist _ _)
  refine ⟨fun p hp => ?_, hsort.sublist hsub, ?_, fun k h0 hk => ?_⟩
  · obtain ⟨h1, h2⟩ := (hmem p).1 (hsub.subset hp)
    have := List.mem_takeWhile_imp hp
    simp only [Bool.not_eq_true', decide_eq_false_iff_not, not_lt] at this
    exact ⟨h1, h2, this⟩
  · exact ((List.takeWhile_sublist _).length_le).trans (by rw [List.length_take]; omega)
  · have hk' : (occurrences ds k, k) ∈ ranking pop := (hmem _).2 ⟨rfl, h0⟩
    -- everything above a key that is popular enough is popular enough
    rw [← List.take_append_drop 100 (ranking pop), List.mem_append] at hk'
    have hs2 := hsort
    rw [← List.take_append_drop 100 (ranking pop), List.pairwise_append] at hs2
    have good : ∀ p, MorePopular p (occurrences ds k, k) ∨ p = (occurrences ds k, k) → (!decide (p.1 * 1000 < ds.length)) = true := by
      rintro p hp
      simp only [Bool.not_eq_true', decide_eq_false_iff_not, not_lt]
      have : occurrences ds k ≤ p.1 := by
        rcases hp with (h | ⟨h, -⟩) | rfl
        · exact h.le
        · exact h.ge
        · exact le_rfl
      exact hk.trans (Nat.mul_le_mul_right 1000 this)
    rcases hk' with hk' | hk'
    · left
      obtain ⟨a, b, hab⟩ := List.append_of_mem hk'
      have hp := hs2.1
      unfold topKeys
      rw [hab] at hp ⊢
      rw [List.pairwise_append] at hp
      rw [List.takeWhile_append_of_pos, List.mem_append]
      · right
        rw [List.takeWhile_cons, if_pos (good _ (.inr rfl))]
        exact List.mem_cons_self
      · intro x hx
        exact good x (.inl (hp.2.2 x hx _ List.mem_cons_self))
    · right
      have hall : ∀ p ∈ (ranking pop).take 100, MorePopular p (occurrences ds k, k) := fun p hp => hs2.2.2 p hp _ hk'
      have he : topKeys ds.length pop = (ranking pop).take 100 := by
        unfold topKeys
        rw [List.takeWhile_eq_self_iff]
        exact fun p hp => good p (.inl (hall p hp))
      rw [he]
      refine ⟨?_, hall⟩
      rw [List.length_take]
      have : 0 < ((ranking pop).drop 100).length := List.length_pos_of_mem hk'
      rw [List.length_drop] at this
      omega

/-! ## The machine -/

/-- Some calls have returned these changesets. -/
inductive Reads : TagReader → List (UInt64 × List (Str × Str)) → TagReader → Prop
  | nil (s : TagReader) : Reads s [] s
  | snoc {s s1 s2 : TagReader} {ds : List (UInt64 × List (Str × Str))} {d : UInt64 × List (Str × Str)} :
      Reads s ds s1 → Returns nextTag s1 (.ok (some d)) s2 → Reads s (ds ++ [d]) s2

theorem Reads.results {s s1 : TagReader} {ds : List (UInt64 × List (Str × Str))} (h : Reads s ds s1) :
    ∀ {rs : List (Except Err (UInt64 × List (Str × Str)))} {s2 : TagReader}, Results nextTag s1 rs s2 →
      Results nextTag s (ds.map .ok ++ rs) s2 := by
  induction h with
  | nil => intro rs s2 h; exact h
  | snoc _ hd ih =>
    intro rs s2 h
    have := ih (.ok hd h)
    simpa using this

/-- What holds at every point of a run. -/
def RunInv (evs : Events) (file : File) (s : Run) : Prop :=
  match s.phase with
  | .check => s = start evs file
  | .create => file = none ∧ s = { start evs file with phase := .create, file := some none }
  | .begin => file = none ∧ s = { start evs file with phase := .begin, file := some (some []) }
  | .insert => file = none ∧ s.file = some (some []) ∧ s.output = [] ∧
      ∃ ds, Reads (newTagReader evs) ds s.reader ∧ s.pending = ds.map (fun d => rowOf d.1 d.2) ∧ (ds.map (·.1)).Nodup ∧
        s.num = ds.length ∧ Counts s.popularity ((ds.flatMap (·.2)).map (·.1))
  | .commit => file = none ∧ s.file = some (some []) ∧ s.output = [] ∧
      ∃ ds, Provides evs ds ∧ s.pending = ds.map (fun d => rowOf d.1 d.2) ∧ (ds.map (·.1)).Nodup ∧
        s.num = ds.length ∧ Counts s.popularity ((ds.flatMap (·.2)).map (·.1))
  | .report => file = none ∧ s.output = [] ∧
      ∃ ds, Provides evs ds ∧ s.file = some (some (ds.map (fun d => rowOf d.1 d.2))) ∧ (ds.map (·.1)).Nodup ∧
        s.num = ds.length ∧ Counts s.popularity ((ds.flatMap (·.2)).map (·.1))
  | .done => file = none ∧
      ∃ ds pop, Provides evs ds ∧ s.file = some (some (ds.map (fun d => rowOf d.1 d.2))) ∧ (ds.map (·.1)).Nodup ∧
        Counts pop ((ds.flatMap (·.2)).map (·.1)) ∧ s.output = reportLines ds.length pop
  | .failed => s.output = [] ∧ if file = none then NoRows s.file else s.file = file

theorem hasId_rows (ds : List (UInt64 × List (Str × Str))) (d : UInt64 × List (Str × Str)) :
    hasId (ds.map fun d => rowOf d.1 d.2) (rowOf d.1 d.2).1 = true ↔ d.1 ∈ ds.map (·.1) := by
  unfold hasId
  simp only [List.any_eq_true, List.mem_map, beq_iff_eq]
  constructor
  · rintro ⟨_, ⟨x, hx, rfl⟩, e⟩; exact ⟨x, hx, toInt64_inj e⟩
  · rintro ⟨x, hx, e⟩; exact ⟨_, ⟨x, hx, rfl⟩, by show x.1.toInt64 = d.1.toInt64; rw [e]⟩

theorem noRows_none : NoRows none := by intro rows h; cases h
theorem noRows_empty : NoRows (some none) := by intro rows h; cases h
theorem noRows_nil : NoRows (some (some [])) := by rintro rows h; injection h with h; injection h with h; exact h.symm

theorem inv_start (evs : Events) (file : File) : RunInv evs file (start evs file) := rfl

theorem inv_step {evs : Events} {file : File} {s : Run} (h : RunInv evs file s) (fails : Bool) :
    RunInv evs file (step fails s) := by
  unfold step
  cases hp : s.phase with
  | check =>
    simp only [RunInv, hp] at h
    subst h
    simp only [start]
    cases file with
    | some f => exact ⟨rfl, by simp⟩
    | none =>
      simp only
      cases fails
      · exact ⟨rfl, rfl⟩
      · exact ⟨rfl, by rw [if_pos rfl]; exact noRows_none⟩
  | create =>
    simp only [RunInv, hp] at h
    obtain ⟨rfl, h⟩ := h
    subst h
    cases fails
    · exact ⟨rfl, rfl⟩
    · exact ⟨rfl, by rw [if_pos rfl]; exact noRows_empty⟩
  | begin =>
    simp only [RunInv, hp] at h
    obtain ⟨rfl, h⟩ := h
    subst h
    cases fails
    · exact ⟨rfl, rfl, rfl, [], .nil _, rfl, by simp, rfl, ⟨by simp [start], by simp [start]⟩⟩
    · exact ⟨rfl, by rw [if_pos rfl]; exact noRows_nil⟩
  | insert =>
    simp only [RunInv, hp] at h
    obtain ⟨rfl, hf, ho, ds, hr, hpe, hnd, hn, hc⟩ := h
    simp only
    unfold insertStep
    have failed : ∀ r, RunInv evs none { s with phase := .failed, reader := r, pending := [] } := by
      intro r
      refine ⟨ho, ?_⟩
      rw [if_pos rfl]
      show NoRows s.file
      rw [hf]; exact noRows_nil
    cases hnext : nextTag (s.reader.evs.length + 1) s.reader with
    | none => simp only; unfold RunInv; rw [hp]; exact ⟨rfl, hf, ho, ds, hr, hpe, hnd, hn, hc⟩
    | some x =>
      obtain ⟨e | _ | ⟨cid, tags⟩, r⟩ := x
      · exact failed r
      · refine ⟨rfl, hf, ho, ds, ⟨r, ?_⟩, hpe, hnd, hn, hc⟩
        simpa using hr.results (.done ⟨_, hnext⟩)
      · simp only
        split
        · exact failed r
        · rename_i hcond
          simp only [Bool.or_eq_true, not_or] at hcond
          unfold RunInv
          simp only [hp]
          refine ⟨trivial, hf, ho, ds ++ [(cid, tags)], .snoc hr ⟨_, hnext⟩, by simp [hpe], ?_, by simp [hn], ?_⟩
          · rw [List.map_append, List.nodup_append]
            refine ⟨hnd, by simp, ?_⟩
            rintro a ha b hb e
            simp only [List.map_cons, List.map_nil, List.mem_singleton] at hb
            rw [e, hb] at ha
            refine hcond.2 ?_
            rw [hpe]
            exact (hasId_rows ds (cid, tags)).2 ha
          · have := hc.tags tags
            simpa using this
  | commit =>
    simp only [RunInv, hp] at h
    obtain ⟨rfl, hf, ho, ds, hr, hpe, hnd, hn, hc⟩ := h
    cases fails
    · exact ⟨rfl, ho, ds, hr, by simp [hpe], hnd, hn, hc⟩
    · refine ⟨ho, ?_⟩
      rw [if_pos rfl]
      show NoRows s.file
      rw [hf]; exact noRows_nil
  | report =>
    simp only [RunInv, hp] at h
    obtain ⟨rfl, ho, ds, hr, hf, hnd, hn, hc⟩ := h
    exact ⟨rfl, ds, s.popularity, hr, hf, hnd, hc, by simp [hn]⟩
  | done => simp only; exact h
  | failed => simp only; exact h

theorem inv_after (evs : Events) (file : File) (fails : Nat → Bool) (n : Nat) :
    RunInv evs file (after fails (start evs file) n) := by
  induction n with
  | zero => exact inv_start evs file
  | succ n ih => exact inv_step ih (fails n)

/-! ## Termination -/

/-- Steps that are left at most. -/
def left (s : Run) : Nat :=
  match s.phase with
  | .check => s.reader.evs.length + 7
  | .create => s.reader.evs.length + 6
  | .begin => s.reader.evs.length + 5
  | .insert => s.reader.evs.length + 4
  | .commit => 2
  | .report => 1
  | .done => 0
  | .failed => 0

theorem left_step (fails : Bool) (s : Run) (h : 0 < left s) : left (step fails s) < left s := by
  unfold step
  cases hp : s.phase with
  | check =>
    cases hf : s.file with
    | some f => simp [left, hp]
    | none => cases fails <;> simp [left, hp]
  | create => cases fails <;> simp [left, hp]
  | begin => cases fails <;> simp [left, hp]
  | insert =>
    simp only
    unfold insertStep
    obtain ⟨r, s', h1, -, h3⟩ := tag_returns s.reader.evs s.reader.currId s.reader.tags (s.reader.evs.length + 1) (by omega)
    have h1 : nextTag (s.reader.evs.length + 1) s.reader = some (r, s') := h1
    rw [h1]
    rcases r with e | _ | ⟨cid, tags⟩
    · simp [left, hp]
    · simp [left, hp]
    · have := h3 (by simp)
      simp only
      split <;> simp [left, hp]
      omega
  | commit => cases fails <;> simp [left, hp]
  | report => simp [left, hp]
  | done => simp [left, hp] at h
  | failed => simp [left, hp] at h

theorem left_zero {s : Run} (h : left s = 0) : s.phase = .done ∨ s.phase = .failed := by
  cases hp : s.phase <;> simp [left, hp] at h ⊢

theorem left_after (fails : Nat → Bool) (s : Run) (n : Nat) : left (after fails s n) ≤ left s - n := by
  induction n with
  | zero => simp [after]
  | succ n ih =>
    show left (step (fails n) (after fails s n)) ≤ _
    by_cases h : 0 < left (after fails s n)
    · have := left_step (fails n) _ h; omega
    · have hz : left (after fails s n) = 0 := by omega
      have : step (fails n) (after fails s n) = after fails s n := by
        unfold step
        rcases left_zero hz with h | h <;> rw [h]
      rw [this, hz]; omega

/-- Whatever the source, the calls come to an end. -/
theorem results_exist (s : TagReader) : ∃ rs s', Results nextTag s rs s' := by
  generalize hn : s.evs.length = n
  induction n using Nat.strong_induction_on generalizing s with
  | _ n ih =>
    obtain ⟨r, s1, h1, -, h3⟩ := tag_returns s.evs s.currId s.tags (s.evs.length + 1) (by omega)
    have h1 : nextTag (s.evs.length + 1) s = some (r, s1) := h1
    rcases r with e | _ | d
    · obtain ⟨rs, s', h⟩ := ih _ (by have := h3 (by simp); omega) s1 rfl
      exact ⟨_, s', .err ⟨_, h1⟩ h⟩
    · exact ⟨[], s1, .done ⟨_, h1⟩⟩
    · obtain ⟨rs, s', h⟩ := ih _ (by have := h3 (by simp); omega) s1 rfl
      exact ⟨_, s', .ok ⟨_, h1⟩ h⟩

end Osmio.TagsToSqlite
