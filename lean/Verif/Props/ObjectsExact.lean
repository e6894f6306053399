import Verif.Props.Objects
/-!
# C12, C15 and C20: exactly when the claims hold

The claims on `unset_tag`, on conversions and on the JSON text of the tags are false for some objects with a
repeated key (`Verif.Props.Objects`). Here: for which objects exactly.
-/

namespace Osmio
open Spec OSMObjBase

theorem lookup_isSome_iff (k : Str) (l : List (Str × Str)) : (lookup k l).isSome = true ↔ k ∈ l.map Prod.fst := by
  induction l with
  | nil => simp [lookup]
  | cons p r ih =>
    obtain ⟨k', v'⟩ := p
    simp only [lookup, List.map_cons, List.mem_cons]
    by_cases h : k' = k
    · simp [h]
    · rw [if_neg h, ih]
      exact ⟨Or.inr, fun e => e.resolve_left (fun e => h e.symm)⟩

theorem count_removeFirst (k : Str) (l : List (Str × Str)) :
    ((removeFirst k l).map Prod.fst).count k = (l.map Prod.fst).count k - 1 := by
  induction l with
  | nil => rfl
  | cons p r ih =>
    obtain ⟨k', v'⟩ := p
    simp only [removeFirst]
    by_cases h : k' = k
    · rw [if_pos h]; subst h; simp
    · rw [if_neg h]
      simp only [List.map_cons]
      rw [List.count_cons_of_ne h, List.count_cons_of_ne h, ih]

/-- **C12**, exactly: after `unset_tag` the object has no tag of that key if and only if there was at most one entry
for it. (Other keys are never affected, `C12_unset_tag_others_partial`.) -/
theorem C12_unset_tag_iff (t : ObjTy) (a : t.Carrier) (k : Str) :
    hasTag (unsetTag a k) k = false ↔ ((tags a).map Prod.fst).count k ≤ 1 := by
  have h : hasTag (unsetTag a k) k = true ↔ k ∈ ((removeFirst k (tags a)).map Prod.fst) := by
    unfold hasTag
    rw [LawfulObj.tag_eq, tags_unsetTag]
    exact lookup_isSome_iff _ _
  rw [← Bool.not_eq_true, h, ← List.count_pos_iff, count_removeFirst]
  omega

/-- **C12.** As many calls of `unset_tag` as there are entries always remove the tag. -/
theorem C12_unset_tag_repeat (t : ObjTy) (a : t.Carrier) (k : Str) (n : Nat) :
    hasTag ((fun o => unsetTag o k)^[n] a) k = false ↔ ((tags a).map Prod.fst).count k ≤ n := by
  have key : ∀ (n : Nat) (a : t.Carrier),
      ((tags ((fun o => unsetTag o k)^[n] a)).map Prod.fst).count k = ((tags a).map Prod.fst).count k - n := by
    intro n
    induction n with
    | zero => intro a; rfl
    | succ n ih =>
      intro a
      rw [Function.iterate_succ_apply, ih, tags_unsetTag, count_removeFirst]
      omega
  have h : ∀ b : t.Carrier, hasTag b k = true ↔ k ∈ (tags b).map Prod.fst := fun b => by
    unfold hasTag
    rw [LawfulObj.tag_eq]
    exact lookup_isSome_iff _ _
  rw [← Bool.not_eq_true, h, ← List.count_pos_iff, key]
  omega

theorem rebuilt_keys_nodup (l acc : List (Str × Str)) (h : (acc.map Prod.fst).Nodup) :
    ((l.foldl (fun t kv => put kv.1 kv.2 t) acc).map Prod.fst).Nodup := by
  induction l generalizing acc with
  | nil => exact h
  | cons p r ih => exact ih _ (put_nodup _ _ h)

theorem rebuilt_eq_iff (l : List (Str × Str)) : rebuilt l = l ↔ (l.map Prod.fst).Nodup :=
  ⟨fun h => by
    have := rebuilt_keys_nodup l [] (by simp)
    change ((rebuilt l).map Prod.fst).Nodup at this
    rwa [h] at this, rebuilt_nodup⟩

/-- **C15**, exactly: a conversion to an owned object keeps everything if and only if no key is repeated. -/
theorem C15_conversion_iff :
    (∀ o : RcNode, SameNode (StringNode.ofRc o) o ↔ ((tags o).map Prod.fst).Nodup) ∧
    (∀ o : ArcNode, SameNode (StringNode.ofArc o) o ↔ ((tags o).map Prod.fst).Nodup) ∧
    (∀ o : RcWay, SameWay (StringWay.ofRc o) o ↔ ((tags o).map Prod.fst).Nodup) ∧
    (∀ o : ArcWay, SameWay (StringWay.ofArc o) o ↔ ((tags o).map Prod.fst).Nodup) ∧
    (∀ o : RcRelation, SameRelation (StringRelation.ofRc o) o ↔ ((tags o).map Prod.fst).Nodup) ∧
    (∀ o : ArcRelation, SameRelation (StringRelation.ofArc o) o ↔ ((tags o).map Prod.fst).Nodup) := by
  obtain ⟨p1, p2, p3, p4, p5, p6⟩ := C15_conversion_partial
  refine ⟨fun o => ⟨fun h => ?_, p1 o⟩, fun o => ⟨fun h => ?_, p2 o⟩, fun o => ⟨fun h => ?_, p3 o⟩,
    fun o => ⟨fun h => ?_, p4 o⟩, fun o => ⟨fun h => ?_, p5 o⟩, fun o => ⟨fun h => ?_, p6 o⟩⟩ <;>
    rw [← rebuilt_eq_iff]
  · exact (congrArg View.tags (ofRc_node o).1).symm.trans (congrArg View.tags h.1)
  · exact (congrArg View.tags (ofArc_node o).1).symm.trans (congrArg View.tags h.1)
  · exact (congrArg View.tags (ofRc_way o).1).symm.trans (congrArg View.tags h.1)
  · exact (congrArg View.tags (ofArc_way o).1).symm.trans (congrArg View.tags h.1)
  · exact (congrArg View.tags (ofRc_relation o).1).symm.trans (congrArg View.tags h.1)
  · exact (congrArg View.tags (ofArc_relation o).1).symm.trans (congrArg View.tags h.1)

/-- What every conversion does to the tags, with any keys: the converted object has each key of the original once,
with its last value, and nothing else changes. -/
theorem C15_conversion_any :
    (∀ o : RcNode, { view (StringNode.ofRc o) with tags := tags o } = view o ∧
      NodeT.latLon (StringNode.ofRc o) = NodeT.latLon o ∧
      ((tags (StringNode.ofRc o)).map Prod.fst).Nodup ∧
      ∀ k, tag (StringNode.ofRc o) k = lookup k (tags o).reverse) ∧
    (∀ o : ArcNode, { view (StringNode.ofArc o) with tags := tags o } = view o ∧
      NodeT.latLon (StringNode.ofArc o) = NodeT.latLon o ∧
      ((tags (StringNode.ofArc o)).map Prod.fst).Nodup ∧
      ∀ k, tag (StringNode.ofArc o) k = lookup k (tags o).reverse) ∧
    (∀ o : RcWay, { view (StringWay.ofRc o) with tags := tags o } = view o ∧
      WayT.nodes (StringWay.ofRc o) = WayT.nodes o ∧
      ((tags (StringWay.ofRc o)).map Prod.fst).Nodup ∧
      ∀ k, tag (StringWay.ofRc o) k = lookup k (tags o).reverse) ∧
    (∀ o : ArcWay, { view (StringWay.ofArc o) with tags := tags o } = view o ∧
      WayT.nodes (StringWay.ofArc o) = WayT.nodes o ∧
      ((tags (StringWay.ofArc o)).map Prod.fst).Nodup ∧
      ∀ k, tag (StringWay.ofArc o) k = lookup k (tags o).reverse) ∧
    (∀ o : RcRelation, { view (StringRelation.ofRc o) with tags := tags o } = view o ∧
      RelationT.members (StringRelation.ofRc o) = RelationT.members o ∧
      ((tags (StringRelation.ofRc o)).map Prod.fst).Nodup ∧
      ∀ k, tag (StringRelation.ofRc o) k = lookup k (tags o).reverse) ∧
    (∀ o : ArcRelation, { view (StringRelation.ofArc o) with tags := tags o } = view o ∧
      RelationT.members (StringRelation.ofArc o) = RelationT.members o ∧
      ((tags (StringRelation.ofArc o)).map Prod.fst).Nodup ∧
      ∀ k, tag (StringRelation.ofArc o) k = lookup k (tags o).reverse) := by
  have key : ∀ {α β : Type} [OSMObjBase α] [LawfulObj α] [OSMObjBase β] (a : α) (b : β),
      view a = { view b with tags := rebuilt (tags b) } →
      ({ view a with tags := tags b } = view b) ∧ ((tags a).map Prod.fst).Nodup ∧
        ∀ k, tag a k = lookup k (tags b).reverse := by
    intro α β _ _ _ a b h
    have ht : tags a = rebuilt (tags b) := congrArg View.tags h
    refine ⟨by rw [h]; rfl, by rw [ht]; exact rebuilt_keys_nodup _ [] (by simp), fun k => ?_⟩
    rw [LawfulObj.tag_eq, ht]
    unfold rebuilt
    rw [lookup_foldl_put]
    simp [lookup, lookupLast]
  refine ⟨fun o => ?_, fun o => ?_, fun o => ?_, fun o => ?_, fun o => ?_, fun o => ?_⟩
  · obtain ⟨a, b, c⟩ := key _ _ (ofRc_node o).1; exact ⟨a, (ofRc_node o).2, b, c⟩
  · obtain ⟨a, b, c⟩ := key _ _ (ofArc_node o).1; exact ⟨a, (ofArc_node o).2, b, c⟩
  · obtain ⟨a, b, c⟩ := key _ _ (ofRc_way o).1; exact ⟨a, (ofRc_way o).2, b, c⟩
  · obtain ⟨a, b, c⟩ := key _ _ (ofArc_way o).1; exact ⟨a, (ofArc_way o).2, b, c⟩
  · obtain ⟨a, b, c⟩ := key _ _ (ofRc_relation o).1; exact ⟨a, (ofRc_relation o).2, b, c⟩
  · obtain ⟨a, b, c⟩ := key _ _ (ofArc_relation o).1; exact ⟨a, (ofArc_relation o).2, b, c⟩

/-- **C20**, exactly: the JSON text decodes to the object's tags, as `tag` shows them, if and only if each key has the same
first and last value. -/
theorem C20_json_iff (t : ObjTy) (a : t.Carrier) :
    (∃ ms, Spec.Json.decodeObject (tagsJsonString a) = some ms ∧ ∀ k, lookup k ms = tag a k) ↔
      ∀ k, lookup k (tags a) = lookup k (tags a).reverse := by
  obtain ⟨ms, h1, _, h3⟩ := C20_json_valid t a
  constructor
  · rintro ⟨ms', h1', h3'⟩ k
    rw [h1] at h1'
    cases h1'
    rw [← h3, h3', LawfulObj.tag_eq]
  · exact fun h => ⟨ms, h1, fun k => by rw [h3, ← h, LawfulObj.tag_eq]⟩

/-- Both sides of the equivalences occur. -/
example : ((tags sampleNode).map Prod.fst).count "a".toList ≤ 1 ∧
    ¬ (([("a".toList, "1".toList), ("a".toList, "2".toList)] : List (Str × Str)).map Prod.fst).count "a".toList ≤ 1 := by
  decide +kernel

example : hasTag (unsetTag { sampleNode with tags_ := [("a".toList, "1".toList), ("a".toList, "2".toList)] } "a".toList)
    "a".toList = true := by decide +kernel

end Osmio
