import Verif.Model.Family
import Verif.Proofs.Objects
/-! Every object type is lawful. -/

namespace Osmio
open Spec

instance (f : Family) : LawfulNode f.Node :=
  match f with
  | .string => inferInstanceAs (LawfulNode StringNode)
  | .rc => inferInstanceAs (LawfulNode RcNode)
  | .arc => inferInstanceAs (LawfulNode ArcNode)

instance (f : Family) : LawfulWay f.Way :=
  match f with
  | .string => inferInstanceAs (LawfulWay StringWay)
  | .rc => inferInstanceAs (LawfulWay RcWay)
  | .arc => inferInstanceAs (LawfulWay ArcWay)

instance (f : Family) : LawfulRelation f.Relation :=
  match f with
  | .string => inferInstanceAs (LawfulRelation StringRelation)
  | .rc => inferInstanceAs (LawfulRelation RcRelation)
  | .arc => inferInstanceAs (LawfulRelation ArcRelation)

instance (f : Family) : LawfulObj f.Obj :=
  match f with
  | .string => inferInstanceAs (LawfulObj StringOSMObj)
  | .rc => inferInstanceAs (LawfulObj RcOSMObj)
  | .arc => inferInstanceAs (LawfulObj ArcOSMObj)

instance (f : Family) : LawfulSum f.Obj f.Node f.Way f.Relation :=
  match f with
  | .string => inferInstanceAs (LawfulSum StringOSMObj StringNode StringWay StringRelation)
  | .rc => inferInstanceAs (LawfulSum RcOSMObj RcNode RcWay RcRelation)
  | .arc => inferInstanceAs (LawfulSum ArcOSMObj ArcNode ArcWay ArcRelation)

instance ObjTy.lawful (t : ObjTy) : LawfulObj t.Carrier :=
  match t with
  | .node f => inferInstanceAs (LawfulObj f.Node)
  | .way f => inferInstanceAs (LawfulObj f.Way)
  | .relation f => inferInstanceAs (LawfulObj f.Relation)
  | .obj f => inferInstanceAs (LawfulObj f.Obj)

section
variable {α : Type} [OSMObjBase α] [LawfulObj α]

theorem view_applyAll (a : α) (ops : List Op) :
    view (applyAll a ops) = ops.foldl (fun s op => step op s) (view a) := by
  induction ops generalizing a with
  | nil => rfl
  | cons op ops ih =>
    show view (applyAll (apply a op) ops) = _
    rw [ih, LawfulObj.view_apply]; rfl

theorem tags_apply (a : α) (op : Op) : OSMObjBase.tags (apply a op) = (step op (view a)).tags :=
  congrArg View.tags (LawfulObj.view_apply a op)

theorem tags_setTag (a : α) (k v : Str) :
    OSMObjBase.tags (OSMObjBase.setTag a k v) = put k v (OSMObjBase.tags a) :=
  tags_apply a (.setTag k v)

theorem tags_unsetTag (a : α) (k : Str) :
    OSMObjBase.tags (OSMObjBase.unsetTag a k) = removeFirst k (OSMObjBase.tags a) :=
  tags_apply a (.unsetTag k)

theorem step_nodup {v : View} (op : Op) (h : (v.tags.map Prod.fst).Nodup) :
    ((step op v).tags.map Prod.fst).Nodup ∧ tagMap (step op v).tags = OMap.step op (tagMap v.tags) := by
  cases op
  case setTag k x => exact ⟨put_nodup k x h, tagMap_put _ k x⟩
  case unsetTag k => exact ⟨removeFirst_nodup k h, tagMap_remove k h⟩
  all_goals exact ⟨h, rfl⟩

theorem applyAll_tags (a : α) (ops : List Op) (h : ((OSMObjBase.tags a).map Prod.fst).Nodup) :
    ((OSMObjBase.tags (applyAll a ops)).map Prod.fst).Nodup ∧
    tagMap (OSMObjBase.tags (applyAll a ops)) =
      ops.foldl (fun m op => OMap.step op m) (tagMap (OSMObjBase.tags a)) := by
  induction ops generalizing a with
  | nil => exact ⟨h, rfl⟩
  | cons op ops ih =>
    have hs := step_nodup op (v := view a) h
    rw [← tags_apply] at hs
    obtain ⟨h1, h2⟩ := ih (apply a op) hs.1
    refine ⟨h1, ?_⟩
    have e : tagMap (OSMObjBase.tags (apply a op)) = OMap.step op (tagMap (OSMObjBase.tags a)) := hs.2
    show tagMap (OSMObjBase.tags (applyAll (apply a op) ops)) = _
    rw [h2, e]; rfl
end

/-- Folding `put` over pairs with new distinct keys appends them. -/
theorem foldl_put_nodup (l acc : List (Str × Str)) (h : ((acc ++ l).map Prod.fst).Nodup) :
    l.foldl (fun t kv => put kv.1 kv.2 t) acc = acc ++ l := by
  induction l generalizing acc with
  | nil => simp
  | cons p r ih =>
    obtain ⟨k, v⟩ := p
    have hk : k ∉ acc.map Prod.fst := by
      rw [List.map_append, List.nodup_append] at h
      intro hm
      exact h.2.2 k hm k (by simp) rfl
    simp only [List.foldl_cons]
    rw [put_not_mem hk, ih]
    · simp
    · simpa using h

end Osmio
