import Verif.Model.TagList
import Verif.Spec.Object
/-! Searching tag lists. -/

namespace Osmio
open Spec

theorem get_eq (tags : List (Str × Str)) (k : Str) : TagList.get tags k = lookup k tags := by
  unfold TagList.get
  induction tags with
  | nil => rfl
  | cons p r ih =>
    obtain ⟨k', v'⟩ := p
    simp only [List.filterMap_cons, lookup]
    by_cases h : k' = k
    · simp [h]
    · simp only [h, if_false]; exact ih

theorem idx_aux (tags : List (Str × Str)) (k : Str) (n : Nat) :
    ((tags.zipIdx n).filterMap (fun ((k', _), i) => if k' = k then some i else none)).head? =
      (TagList.idx tags k).map (fun i => i + n) := by
  unfold TagList.idx
  induction tags generalizing n with
  | nil => rfl
  | cons p r ih =>
    obtain ⟨k', v'⟩ := p
    simp only [List.zipIdx_cons, List.filterMap_cons]
    by_cases h : k' = k
    · simp [h]
    · simp only [h, if_false]
      rw [ih (n + 1), ih (0 + 1)]
      rw [Option.map_map]
      congr 1
      funext i
      simp; omega

theorem idx_cons (k' v' k : Str) (r : List (Str × Str)) :
    TagList.idx ((k', v') :: r) k = if k' = k then some 0 else (TagList.idx r k).map (· + 1) := by
  conv_lhs => unfold TagList.idx
  simp only [List.zipIdx_cons, List.filterMap_cons]
  by_cases h : k' = k
  · simp [h]
  · simp only [h, if_false]
    rw [idx_aux]

/-- The index based update is the specified one. -/
theorem put_eq (tags : List (Str × Str)) (k v : Str) :
    (match TagList.idx tags k with
      | none => tags ++ [(k, v)]
      | some i => tags.set i (k, v)) = put k v tags := by
  induction tags with
  | nil => rfl
  | cons p r ih =>
    obtain ⟨k', v'⟩ := p
    rw [idx_cons]
    by_cases h : k' = k
    · simp [h, put]
    · simp only [h, if_false, put]
      rw [← ih]
      cases TagList.idx r k <;> simp

theorem removeFirst_eq (tags : List (Str × Str)) (k : Str) :
    (match TagList.idx tags k with
      | none => tags
      | some i => tags.eraseIdx i) = removeFirst k tags := by
  induction tags with
  | nil => rfl
  | cons p r ih =>
    obtain ⟨k', v'⟩ := p
    rw [idx_cons]
    by_cases h : k' = k
    · simp [h, removeFirst]
    · simp only [h, if_false, removeFirst]
      rw [← ih]
      cases TagList.idx r k <;> simp

theorem put_ne_nil (tags : List (Str × Str)) (k v : Str) : put k v tags ≠ [] := by
  cases tags with
  | nil => simp [put]
  | cons p r => simp only [put]; split <;> simp

/-! Abstraction to the ordered map. -/

/-- The tags of an object as an ordered map. -/
def tagMap (tags : List (Str × Str)) : OMap := ⟨tags.map Prod.fst, fun k => lookup k tags⟩

theorem lookup_put (tags : List (Str × Str)) (k v x : Str) :
    lookup x (put k v tags) = if x = k then some v else lookup x tags := by
  induction tags with
  | nil =>
    simp only [put, lookup]
    by_cases h : k = x
    · simp [h]
    · have : x ≠ k := fun e => h e.symm
      simp [h, this]
  | cons p r ih =>
    obtain ⟨k', v'⟩ := p
    simp only [put]
    by_cases h : k' = k
    · subst h
      simp only [if_true, lookup]
      by_cases h2 : k' = x
      · simp [h2]
      · have : x ≠ k' := fun e => h2 e.symm
        simp [h2, this]
    · simp only [h, if_false, lookup, ih]
      by_cases h2 : k' = x
      · have : x ≠ k := fun e => h (h2.trans e)
        simp [h2, this]
      · simp [h2]

theorem keys_put (tags : List (Str × Str)) (k v : Str) :
    (put k v tags).map Prod.fst =
      if k ∈ tags.map Prod.fst then tags.map Prod.fst else tags.map Prod.fst ++ [k] := by
  induction tags with
  | nil => simp [put]
  | cons p r ih =>
    obtain ⟨k', v'⟩ := p
    simp only [put]
    by_cases h : k' = k
    · simp [h]
    · have h' : k ≠ k' := fun e => h e.symm
      simp only [h, if_false, List.map_cons, ih, List.mem_cons, h', false_or]
      split <;> simp

theorem lookup_not_mem {tags : List (Str × Str)} {k : Str} (h : k ∉ tags.map Prod.fst) :
    lookup k tags = none := by
  induction tags with
  | nil => rfl
  | cons p r ih =>
    obtain ⟨k', v'⟩ := p
    simp only [List.map_cons, List.mem_cons, not_or] at h
    have h' : k' ≠ k := fun e => h.1 e.symm
    simp only [lookup, h', if_false]
    exact ih h.2

theorem lookup_mem {tags : List (Str × Str)} {k : Str} (h : k ∈ tags.map Prod.fst) :
    ∃ v, lookup k tags = some v ∧ (k, v) ∈ tags := by
  induction tags with
  | nil => simp at h
  | cons p r ih =>
    obtain ⟨k', v'⟩ := p
    by_cases h' : k' = k
    · subst h'; exact ⟨v', by simp [lookup]⟩
    · simp only [List.map_cons, List.mem_cons] at h
      rcases h with h | h
      · exact absurd h.symm h'
      · obtain ⟨v, h1, h2⟩ := ih h
        exact ⟨v, by simp [lookup, h', h1], by simp [h2]⟩

theorem keys_remove {tags : List (Str × Str)} (k : Str) (hn : (tags.map Prod.fst).Nodup) :
    (removeFirst k tags).map Prod.fst = (tags.map Prod.fst).filter (fun x => x ≠ k) := by
  induction tags with
  | nil => rfl
  | cons p r ih =>
    obtain ⟨k', v'⟩ := p
    simp only [List.map_cons, List.nodup_cons] at hn
    simp only [removeFirst]
    by_cases h : k' = k
    · subst h
      simp only [if_true, List.map_cons, ne_eq, decide_not]
      rw [List.filter_cons_of_neg (by simp)]
      rw [List.filter_eq_self.2]
      intro a ha
      simp only [Bool.not_eq_true', decide_eq_false_iff_not]
      rintro rfl
      exact hn.1 ha
    · simp only [h, if_false, List.map_cons]
      rw [List.filter_cons_of_pos (by simpa using h), ih hn.2]

theorem lookup_remove {tags : List (Str × Str)} (k x : Str) (hn : (tags.map Prod.fst).Nodup) :
    lookup x (removeFirst k tags) = if x = k then none else lookup x tags := by
  induction tags with
  | nil => simp [removeFirst, lookup]
  | cons p r ih =>
    obtain ⟨k', v'⟩ := p
    simp only [List.map_cons, List.nodup_cons] at hn
    simp only [removeFirst]
    by_cases h : k' = k
    · subst h
      simp only [if_true, lookup]
      by_cases h2 : k' = x
      · subst h2; simp [lookup_not_mem hn.1]
      · have : x ≠ k' := fun e => h2 e.symm
        simp [h2, this]
    · simp only [h, if_false, lookup, ih hn.2]
      by_cases h2 : k' = x
      · have : x ≠ k := fun e => h (h2.trans e)
        simp [h2, this]
      · simp [h2]

theorem tagMap_put (tags : List (Str × Str)) (k v : Str) :
    tagMap (put k v tags) = (tagMap tags).set k v := by
  unfold tagMap OMap.set
  rw [keys_put]
  congr 1
  funext x
  exact lookup_put tags k v x

theorem tagMap_remove {tags : List (Str × Str)} (k : Str) (hn : (tags.map Prod.fst).Nodup) :
    tagMap (removeFirst k tags) = (tagMap tags).unset k := by
  unfold tagMap OMap.unset
  rw [keys_remove k hn]
  congr 1
  funext x
  exact lookup_remove k x hn

theorem tagMap_toList {tags : List (Str × Str)} (hn : (tags.map Prod.fst).Nodup) :
    (tagMap tags).toList = tags := by
  unfold tagMap OMap.toList
  induction tags with
  | nil => rfl
  | cons p r ih =>
    obtain ⟨k', v'⟩ := p
    simp only [List.map_cons, List.nodup_cons] at hn
    simp only [List.map_cons, List.filterMap_cons, lookup, if_true, Option.map_some]
    congr 1
    have := ih hn.2
    conv_rhs => rw [← this]
    apply List.filterMap_congr
    intro x hx
    have : k' ≠ x := by rintro rfl; exact hn.1 hx
    simp [this]

theorem put_nodup {tags : List (Str × Str)} (k v : Str) (hn : (tags.map Prod.fst).Nodup) :
    ((put k v tags).map Prod.fst).Nodup := by
  rw [keys_put]
  split
  · exact hn
  · rename_i h
    rw [List.nodup_append]
    refine ⟨hn, by simp, ?_⟩
    intro a ha b hb
    simp only [List.mem_singleton] at hb
    subst hb
    rintro rfl
    exact h ha

theorem removeFirst_nodup {tags : List (Str × Str)} (k : Str) (hn : (tags.map Prod.fst).Nodup) :
    ((removeFirst k tags).map Prod.fst).Nodup := by
  rw [keys_remove k hn]; exact hn.filter _

theorem put_not_mem {tags : List (Str × Str)} {k v : Str} (h : k ∉ tags.map Prod.fst) :
    put k v tags = tags ++ [(k, v)] := by
  induction tags with
  | nil => rfl
  | cons p r ih =>
    obtain ⟨k', v'⟩ := p
    simp only [List.map_cons, List.mem_cons, not_or] at h
    have h' : k' ≠ k := fun e => h.1 e.symm
    simp [put, h', ih h.2]

end Osmio
