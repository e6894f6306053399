import Verif.Model.ChangesetBuilder
import Mathlib.Data.List.Induction
import Mathlib.Data.List.Nodup
/-!
# Changesets made and changed by the caller: C61 for `ChangesetBuilder`, C88
-/

namespace Osmio
open Changesets

/-- A setter call on a `ChangesetBuilder`. -/
inductive ChangesetSet where
  | id (v : UInt32) | created (v : TimestampFormat) | closed (v : TimestampFormat) | isOpen (v : Bool) | uid (v : Int64) | user (v : Str)
  | tags (v : TagMap) | numChanges (v : UInt64) | commentsCount (v : UInt64)

namespace ChangesetSet
def id? : ChangesetSet → Option UInt32 | .id v => some v | _ => none
def created? : ChangesetSet → Option TimestampFormat | .created v => some v | _ => none
def closed? : ChangesetSet → Option TimestampFormat | .closed v => some v | _ => none
def isOpen? : ChangesetSet → Option Bool | .isOpen v => some v | _ => none
def uid? : ChangesetSet → Option Int64 | .uid v => some v | _ => none
def user? : ChangesetSet → Option Str | .user v => some v | _ => none
def tags? : ChangesetSet → Option TagMap | .tags v => some v | _ => none
def numChanges? : ChangesetSet → Option UInt64 | .numChanges v => some v | _ => none
def commentsCount? : ChangesetSet → Option UInt64 | .commentsCount v => some v | _ => none

/-- The argument of the last call of one setter. -/
def last {τ : Type} (sel : ChangesetSet → Option τ) (cs : List ChangesetSet) : Option τ := (cs.filterMap sel).getLast?

theorem last_concat {τ : Type} (sel : ChangesetSet → Option τ) (cs : List ChangesetSet) (c : ChangesetSet) :
    last sel (cs ++ [c]) = (sel c).or (last sel cs) := by
  unfold last
  rw [List.filterMap_append]
  cases h : sel c with
  | none => simp [h]
  | some v => simp [h]

/-- The call. -/
def apply (b : Builder) : ChangesetSet → Builder
  | .id v => b.setId v
  | .created v => b.setCreated v
  | .closed v => b.setClosed v
  | .isOpen v => b.setOpen v
  | .uid v => b.setUid v
  | .user v => b.setUser v
  | .tags v => b.setTags v
  | .numChanges v => b.setNumChanges v
  | .commentsCount v => b.setCommentsCount v

theorem apply_spec (cs : List ChangesetSet) :
    cs.foldl apply Builder.default = ⟨last id? cs, last created? cs, last closed? cs, last isOpen? cs, last uid? cs, last user? cs,
      last tags? cs, last numChanges? cs, last commentsCount? cs⟩ := by
  induction cs using List.reverseRecOn with
  | nil => rfl
  | append_singleton cs c ih =>
    rw [List.foldl_append, List.foldl_cons, List.foldl_nil, ih]
    simp only [last_concat]
    cases c <;> rfl

end ChangesetSet
open ChangesetSet

/-- **C61** for changesets. However the setters are called, `build()` succeeds exactly if id, creation time, open flag, tags and the two
counts were given, and then every field has the value given last for it (the others none if none was given). -/
theorem C61_changeset_builder (cs : List ChangesetSet) (c : Changeset) :
    (cs.foldl ChangesetSet.apply Builder.default).build = .ok c ↔
      last id? cs = some c.id ∧ last created? cs = some c.created ∧ last closed? cs = c.closed ∧ last isOpen? cs = some c.isOpen ∧
      last uid? cs = c.uid ∧ last user? cs = c.user ∧ last tags? cs = some c.tags ∧ last numChanges? cs = some c.numChanges ∧
      last commentsCount? cs = some c.commentsCount := by
  rw [apply_spec, Builder.build]
  obtain ⟨i, cr, cl, op, ui, us, ta, nc, cc⟩ := c
  simp only
  constructor
  · intro h
    split at h
    · rename_i h1 h2 h3 h4 h5 h6
      cases h
      exact ⟨h1, h2, rfl, h3, rfl, rfl, h4, h5, h6⟩
    · cases h
  · rintro ⟨h1, h2, h3, h4, h5, h6, h7, h8, h9⟩
    rw [h1, h2, h3, h4, h5, h6, h7, h8, h9]

/-- It fails exactly if one of these was never given. -/
theorem C61_changeset_incomplete (cs : List ChangesetSet) :
    (∃ e, (cs.foldl ChangesetSet.apply Builder.default).build = .error e) ↔
      (∀ c ∈ cs, c.id? = none) ∨ (∀ c ∈ cs, c.created? = none) ∨ (∀ c ∈ cs, c.isOpen? = none) ∨ (∀ c ∈ cs, c.tags? = none) ∨
      (∀ c ∈ cs, c.numChanges? = none) ∨ (∀ c ∈ cs, c.commentsCount? = none) := by
  have hl : ∀ {τ : Type} (sel : ChangesetSet → Option τ), (∀ c ∈ cs, sel c = none) ↔ last sel cs = none := by
    intro τ sel
    unfold last
    rw [List.getLast?_eq_none_iff, List.filterMap_eq_nil_iff]
  rw [apply_spec, Builder.build]
  simp only [hl]
  generalize last id? cs = a1, last created? cs = a2, last isOpen? cs = a3, last tags? cs = a4, last numChanges? cs = a5,
    last commentsCount? cs = a6
  cases a1 <;> cases a2 <;> cases a3 <;> cases a4 <;> cases a5 <;> cases a6 <;> simp

example : (∃ c, ([.id 1, .created (.epoch 0), .isOpen true, .id 2, .tags [], .commentsCount 0, .user (str% "u"), .numChanges 3].foldl
    ChangesetSet.apply Builder.default).build = .ok c ∧ c.id = 2 ∧ c.user = some (str% "u") ∧ c.uid = none) :=
  ⟨_, rfl, rfl, rfl, rfl⟩

/-! ## C88 -/

/-- What a caller does with the map `tags_mut()` lends to them. -/
inductive TagEdit where
  | insert (k v : Str)
  | remove (k : Str)
  | clear

/-- One edit of a changeset. -/
def TagEdit.apply (c : Changeset) : TagEdit → Changeset
  | .insert k v => c.tagsMut fun m => m.insert k v
  | .remove k => c.tagsMut fun m => m.remove k
  | .clear => c.tagsMut fun _ => []

/-- What an edit says about a key: nothing, or that it now has this value or none. -/
def TagEdit.about (k : Str) : TagEdit → Option (Option Str)
  | .insert k' v => if k' = k then some (some v) else none
  | .remove k' => if k' = k then some none else none
  | .clear => some none

/-- The last edit about a key decides. -/
def afterEdits (k : Str) (before : Option Str) : List TagEdit → Option Str
  | [] => before
  | e :: es => afterEdits k ((e.about k).getD before) es

theorem get_filter (m : TagMap) (k k' : Str) :
    TagMap.get (m.filter fun p => p.1 != k') k = if k' = k then none else TagMap.get m k := by
  unfold TagMap.get
  induction m with
  | nil => simp
  | cons p m ih =>
    by_cases h1 : p.1 = k'
    · rw [List.filter_cons_of_neg (by simp [h1]), ih]
      by_cases h2 : k' = k
      · simp [h2]
      · rw [if_neg h2, if_neg h2, List.find?_cons_of_neg]
        simpa [h1] using h2
    · rw [List.filter_cons_of_pos (by simp [h1])]
      by_cases h2 : p.1 = k
      · have : k' ≠ k := fun e => h1 (by rw [h2, e])
        rw [if_neg this, List.find?_cons_of_pos (by simp [h2]), List.find?_cons_of_pos (by simp [h2])]
      · rw [List.find?_cons_of_neg (by simpa using h2), List.find?_cons_of_neg (by simpa using h2), ih]

theorem get_insert (m : TagMap) (k k' v : Str) : (m.insert k' v).get k = if k' = k then some v else m.get k := by
  have h := get_filter m k k'
  unfold TagMap.insert
  unfold TagMap.get at h ⊢
  rw [List.find?_append]
  by_cases hk : k' = k
  · rw [if_pos hk] at h ⊢
    rw [Option.map_eq_none_iff] at h
    rw [h]
    simp [hk]
  · rw [if_neg hk] at h ⊢
    rw [← h]
    have : List.find? (fun p : Str × Str => p.1 == k) [(k', v)] = none := by simp [hk]
    rw [this, Option.or_none]

/-- The keys of a map are distinct. -/
def Keyed (m : TagMap) : Prop := (m.map Prod.fst).Nodup

theorem keyed_filter {m : TagMap} (h : Keyed m) (p : Str × Str → Bool) : Keyed (m.filter p) :=
  List.Nodup.sublist (List.filter_sublist.map _) h

theorem keyed_insert {m : TagMap} (h : Keyed m) (k v : Str) : Keyed (m.insert k v) := by
  unfold Keyed TagMap.insert
  rw [List.map_append, List.nodup_append]
  refine ⟨keyed_filter h _, by simp, ?_⟩
  intro a ha b hb
  obtain ⟨p, hp, rfl⟩ := List.mem_map.1 ha
  have := (List.mem_filter.1 hp).2
  simp at hb this
  rw [hb]
  exact this

/-- **C88.** After any edits through `tags_mut()`, a key has the value the last edit about it says (its old one if there was none),
the keys are distinct if they were, so that `num_tags()` counts them, and all else is as before. -/
theorem C88_tags_mut (c : Changeset) (es : List TagEdit) :
    let c' := es.foldl TagEdit.apply c
    (∀ k, c'.tag k = afterEdits k (c.tag k) es) ∧ (Keyed c.tags → Keyed c'.tags) ∧ c'.intoTags = c'.tags ∧
      c' = { c with tags := c'.tags } := by
  induction es generalizing c with
  | nil => exact ⟨fun _ => rfl, id, rfl, rfl⟩
  | cons e es ih =>
    obtain ⟨h1, h2, h3, h4⟩ := ih (e.apply c)
    refine ⟨fun k => ?_, fun hk => h2 ?_, h3, ?_⟩
    · show (es.foldl TagEdit.apply (e.apply c)).tag k = _
      rw [h1 k, afterEdits]
      congr 1
      cases e with
      | insert k' v =>
        show (c.tags.insert k' v).get k = _
        rw [get_insert, TagEdit.about]
        split <;> rfl
      | remove k' =>
        show TagMap.get (c.tags.filter _) k = _
        rw [get_filter, TagEdit.about]
        split <;> rfl
      | clear => rfl
    · cases e with
      | insert k' v => exact keyed_insert hk _ _
      | remove k' => exact keyed_filter hk _
      | clear => exact List.nodup_nil
    · cases e <;> exact h4

/-- `num_tags()` is the number of keys that have a value, `tagged()` whether there are any. -/
theorem C88_num_tags (c : Changeset) (hk : Keyed c.tags) {ks : List Str} (hd : ks.Nodup) (hks : ∀ k, k ∈ ks ↔ c.hasTag k = true) :
    c.numTags = ks.length ∧ (c.tagged = true ↔ ks ≠ []) ∧ (c.untagged = true ↔ ks = []) := by
  have hmem : ∀ k, k ∈ c.tags.map Prod.fst ↔ c.hasTag k = true := by
    intro k
    unfold Changeset.hasTag Changeset.tag TagMap.get
    rw [Option.isSome_map, List.find?_isSome, List.mem_map]
    simp
  have hp : (c.tags.map Prod.fst).Perm ks := by
    rw [List.perm_ext_iff_of_nodup hk hd]
    intro k
    rw [hmem, hks]
  have hl : c.numTags = ks.length := by
    rw [← hp.length_eq, List.length_map]; rfl
  refine ⟨hl, ?_, ?_⟩
  · unfold Changeset.tagged Changeset.untagged
    rw [hl]
    cases ks <;> simp
  · unfold Changeset.untagged
    rw [hl]
    cases ks <;> simp

/-- The changesets a reader makes have distinct keys: it starts with an empty map and inserts. -/
example (l : List (Str × Str)) : Keyed (l.foldl (fun (m : TagMap) p => m.insert p.1 p.2) []) := by
  induction l using List.reverseRecOn with
  | nil => exact List.nodup_nil
  | append_singleton l p ih => rw [List.foldl_append]; exact keyed_insert ih _ _

example : afterEdits (str% "a") (some (str% "x")) [.insert (str% "b") (str% "1"), .remove (str% "a"), .insert (str% "a") (str% "2"),
    .insert (str% "b") (str% "3")] = some (str% "2") := by decide

end Osmio
