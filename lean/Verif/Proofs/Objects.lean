import Verif.Proofs.Tags
import Verif.Model.Convert
/-! Every object type meets its specification. -/

namespace Osmio
open Spec

/-! ### StringNode -/

theorem StringNode.setTag_eq (a : StringNode) (k v : Str) :
    a.setTag k v = { a with tags_ := put k v a.tags_ } := by
  simp only [StringNode.setTag]
  rw [← put_eq]
  cases TagList.idx a.tags_ k <;> rfl

theorem StringNode.unsetTag_eq (a : StringNode) (k : Str) :
    a.unsetTag k = { a with tags_ := removeFirst k a.tags_ } := by
  simp only [StringNode.unsetTag]
  rw [← removeFirst_eq]
  cases TagList.idx a.tags_ k <;> rfl

instance : LawfulObj StringNode where
  view_apply a op := by
    cases op with
    | setTag k v => show view (a.setTag k v) = _; rw [StringNode.setTag_eq]; rfl
    | unsetTag k => show view (a.unsetTag k) = _; rw [StringNode.unsetTag_eq]; rfl
    | _ => rfl
  tag_eq a k := get_eq a.tags_ k
  numTags_eq a := rfl
  untagged_iff a := by
    show (a.tags_.length == 0) = true ↔ a.tags_ = []
    simp

instance : LawfulNode StringNode where
  kind _ := rfl
  latLon_apply a op := by
    cases op with
    | setTag k v => show (a.setTag k v).latLon_ = _; rw [StringNode.setTag_eq]; rfl
    | unsetTag k => show (a.unsetTag k).latLon_ = _; rw [StringNode.unsetTag_eq]; rfl
    | _ => rfl
  latLon_set _ _ := rfl
  view_set _ _ := rfl

/-! ### StringWay -/

theorem StringWay.setTag_eq (a : StringWay) (k v : Str) :
    a.setTag k v = { a with tags_ := put k v a.tags_ } := by
  simp only [StringWay.setTag]
  rw [← put_eq]
  cases TagList.idx a.tags_ k <;> rfl

theorem StringWay.unsetTag_eq (a : StringWay) (k : Str) :
    a.unsetTag k = { a with tags_ := removeFirst k a.tags_ } := by
  simp only [StringWay.unsetTag]
  rw [← removeFirst_eq]
  cases TagList.idx a.tags_ k <;> rfl

instance : LawfulObj StringWay where
  view_apply a op := by
    cases op with
    | setTag k v => show view (a.setTag k v) = _; rw [StringWay.setTag_eq]; rfl
    | unsetTag k => show view (a.unsetTag k) = _; rw [StringWay.unsetTag_eq]; rfl
    | _ => rfl
  tag_eq a k := get_eq a.tags_ k
  numTags_eq a := rfl
  untagged_iff a := by
    show (a.tags_.length == 0) = true ↔ a.tags_ = []
    simp

instance : LawfulWay StringWay where
  kind _ := rfl
  nodes_apply a op := by
    cases op with
    | setTag k v => show (a.setTag k v).nodes_ = _; rw [StringWay.setTag_eq]; rfl
    | unsetTag k => show (a.unsetTag k).nodes_ = _; rw [StringWay.unsetTag_eq]; rfl
    | _ => rfl
  nodes_set _ _ := rfl
  view_set _ _ := rfl
  numNodes_eq _ := rfl
  node_eq _ _ := rfl

/-! ### StringRelation -/

theorem StringRelation.setTag_eq (a : StringRelation) (k v : Str) :
    a.setTag k v = { a with tags_ := put k v a.tags_ } := by
  simp only [StringRelation.setTag]
  rw [← put_eq]
  cases TagList.idx a.tags_ k <;> rfl

theorem StringRelation.unsetTag_eq (a : StringRelation) (k : Str) :
    a.unsetTag k = { a with tags_ := removeFirst k a.tags_ } := by
  simp only [StringRelation.unsetTag]
  rw [← removeFirst_eq]
  cases TagList.idx a.tags_ k <;> rfl

instance : LawfulObj StringRelation where
  view_apply a op := by
    cases op with
    | setTag k v => show view (a.setTag k v) = _; rw [StringRelation.setTag_eq]; rfl
    | unsetTag k => show view (a.unsetTag k) = _; rw [StringRelation.unsetTag_eq]; rfl
    | _ => rfl
  tag_eq a k := get_eq a.tags_ k
  numTags_eq a := rfl
  untagged_iff a := by
    show (a.tags_.length == 0) = true ↔ a.tags_ = []
    simp

theorem StringRelation.members_eq (a : StringRelation) : a.members = a.members_ := by
  simp [StringRelation.members]

instance : LawfulRelation StringRelation where
  kind _ := rfl
  members_apply a op := by
    show StringRelation.members _ = StringRelation.members _
    rw [StringRelation.members_eq, StringRelation.members_eq]
    cases op with
    | setTag k v => show (a.setTag k v).members_ = _; rw [StringRelation.setTag_eq]
    | unsetTag k => show (a.unsetTag k).members_ = _; rw [StringRelation.unsetTag_eq]
    | _ => rfl
  members_set a l := by
    show StringRelation.members _ = _
    rw [StringRelation.members_eq]
    show (StringRelation.setMembers a l).members_ = l
    simp [StringRelation.setMembers]
  view_set _ _ := rfl

/-! ### StringOSMObj -/

theorem StringOSMObj.view_node (x : StringNode) : view (StringOSMObj.node x) = view x := rfl
theorem StringOSMObj.view_way (x : StringWay) : view (StringOSMObj.way x) = view x := rfl
theorem StringOSMObj.view_relation (x : StringRelation) : view (StringOSMObj.relation x) = view x := rfl

theorem StringOSMObj.apply_node (x : StringNode) (op : Op) : apply (StringOSMObj.node x) op = .node (apply x op) := by
  cases op <;> rfl
theorem StringOSMObj.apply_way (x : StringWay) (op : Op) : apply (StringOSMObj.way x) op = .way (apply x op) := by
  cases op <;> rfl
theorem StringOSMObj.apply_relation (x : StringRelation) (op : Op) :
    apply (StringOSMObj.relation x) op = .relation (apply x op) := by
  cases op <;> rfl

instance : LawfulObj StringOSMObj where
  view_apply a op := by
    cases a with
    | node x => rw [StringOSMObj.apply_node]; exact LawfulObj.view_apply x op
    | way x => rw [StringOSMObj.apply_way]; exact LawfulObj.view_apply x op
    | relation x => rw [StringOSMObj.apply_relation]; exact LawfulObj.view_apply x op
  tag_eq a k := by
    cases a with
    | node x => exact LawfulObj.tag_eq x k
    | way x => exact LawfulObj.tag_eq x k
    | relation x => exact LawfulObj.tag_eq x k
  numTags_eq a := rfl
  untagged_iff a := by
    show (a.tags.length == 0) = true ↔ a.tags = []
    simp

instance : LawfulSum StringOSMObj StringNode StringWay StringRelation where
  node a n h := by
    cases a <;> cases h
    exact ⟨rfl, rfl⟩
  way a n h := by
    cases a <;> cases h
    exact ⟨rfl, rfl⟩
  relation a n h := by
    cases a <;> cases h
    exact ⟨rfl, rfl⟩
  total a := by cases a <;> simp [OSMObjT.intoNode, OSMObjT.intoWay, OSMObjT.intoRelation,
    StringOSMObj.intoNode, StringOSMObj.intoWay, StringOSMObj.intoRelation]
  asNode a := by cases a <;> rfl
  asWay a := by cases a <;> rfl
  asRelation a := by cases a <;> rfl
  asNodeMut a := by
    refine ⟨by cases a <;> rfl, ?_⟩
    intro n f h n'
    cases a <;> cases h
    rfl
  asWayMut a := by
    refine ⟨by cases a <;> rfl, ?_⟩
    intro n f h n'
    cases a <;> cases h
    rfl
  asRelationMut a := by
    refine ⟨by cases a <;> rfl, ?_⟩
    intro n f h n'
    cases a <;> cases h
    rfl

/-! ### ArcNode -/

theorem ArcNode.tags_setTag (a : ArcNode) (k v : Str) : (a.setTag k v).tags = put k v a.tags := by
  obtain ⟨_, _, _, _, _, _, _, t, _⟩ := a
  cases t with
  | none => rfl
  | some t =>
    simp only [ArcNode.setTag, ArcNode.tags]
    rw [← put_eq]
    cases TagList.idx t k <;> rfl

theorem ArcNode.tags_unsetTag (a : ArcNode) (k : Str) : (a.unsetTag k).tags = removeFirst k a.tags := by
  obtain ⟨_, _, _, _, _, _, _, t, _⟩ := a
  cases t with
  | none => rfl
  | some t =>
    simp only [ArcNode.unsetTag, ArcNode.tags]
    rw [← removeFirst_eq]
    cases TagList.idx t k <;> rfl

theorem ArcNode.setTag_eq (a : ArcNode) (k v : Str) :
    a.setTag k v = { a with tags_ := some (put k v a.tags) } := by
  obtain ⟨_, _, _, _, _, _, _, t, _⟩ := a
  cases t with
  | none => rfl
  | some t =>
    simp only [ArcNode.setTag, ArcNode.tags]
    rw [← put_eq]
    cases TagList.idx t k <;> rfl

theorem ArcNode.unsetTag_eq (a : ArcNode) (k : Str) :
    a.unsetTag k = { a with tags_ := a.tags_.map (removeFirst k) } := by
  obtain ⟨_, _, _, _, _, _, _, t, _⟩ := a
  cases t with
  | none => rfl
  | some t =>
    simp only [ArcNode.unsetTag, Option.map_some]
    rw [← removeFirst_eq]
    cases TagList.idx t k <;> rfl

instance : LawfulObj ArcNode where
  view_apply a op := by
    cases op with
    | setTag k v =>
      have h := ArcNode.tags_setTag a k v
      show view (a.setTag k v) = _
      rw [ArcNode.setTag_eq] at h ⊢
      simp only [view, step, View.mk.injEq]
      exact ⟨rfl, rfl, rfl, rfl, rfl, rfl, rfl, h, rfl⟩
    | unsetTag k =>
      have h := ArcNode.tags_unsetTag a k
      show view (a.unsetTag k) = _
      rw [ArcNode.unsetTag_eq] at h ⊢
      simp only [view, step, View.mk.injEq]
      exact ⟨rfl, rfl, rfl, rfl, rfl, rfl, rfl, h, rfl⟩
    | _ => rfl
  tag_eq a k := by
    show a.tag k = lookup k a.tags
    simp only [ArcNode.tag, ArcNode.tags]
    cases a.tags_ <;> simp [get_eq, lookup]
  numTags_eq a := rfl
  untagged_iff a := by
    show (a.tags.length == 0) = true ↔ a.tags = []
    simp

instance : LawfulNode ArcNode where
  kind _ := rfl
  latLon_apply a op := by
    cases op with
    | setTag k v => show (a.setTag k v).latLon_ = _; rw [ArcNode.setTag_eq]; rfl
    | unsetTag k => show (a.unsetTag k).latLon_ = _; rw [ArcNode.unsetTag_eq]; rfl
    | _ => rfl
  latLon_set _ _ := rfl
  view_set _ _ := rfl

/-! ### ArcWay -/

theorem ArcWay.setTag_eq (a : ArcWay) (k v : Str) :
    a.setTag k v = { a with tags_ := put k v a.tags_ } := by
  simp only [ArcWay.setTag]
  rw [← put_eq]
  cases TagList.idx a.tags_ k <;> rfl

theorem ArcWay.unsetTag_eq (a : ArcWay) (k : Str) :
    a.unsetTag k = { a with tags_ := removeFirst k a.tags_ } := by
  simp only [ArcWay.unsetTag]
  rw [← removeFirst_eq]
  cases TagList.idx a.tags_ k <;> rfl

instance : LawfulObj ArcWay where
  view_apply a op := by
    cases op with
    | setTag k v => show view (a.setTag k v) = _; rw [ArcWay.setTag_eq]; rfl
    | unsetTag k => show view (a.unsetTag k) = _; rw [ArcWay.unsetTag_eq]; rfl
    | _ => rfl
  tag_eq a k := get_eq a.tags_ k
  numTags_eq a := rfl
  untagged_iff a := by
    show (a.tags_.length == 0) = true ↔ a.tags_ = []
    simp

instance : LawfulWay ArcWay where
  kind _ := rfl
  nodes_apply a op := by
    cases op with
    | setTag k v => show (a.setTag k v).nodes_ = _; rw [ArcWay.setTag_eq]; rfl
    | unsetTag k => show (a.unsetTag k).nodes_ = _; rw [ArcWay.unsetTag_eq]; rfl
    | _ => rfl
  nodes_set _ _ := rfl
  view_set _ _ := rfl
  numNodes_eq _ := rfl
  node_eq _ _ := rfl

/-! ### ArcRelation -/

theorem ArcRelation.setTag_eq (a : ArcRelation) (k v : Str) :
    a.setTag k v = { a with tags_ := put k v a.tags_ } := by
  simp only [ArcRelation.setTag]
  rw [← put_eq]
  cases TagList.idx a.tags_ k <;> rfl

theorem ArcRelation.unsetTag_eq (a : ArcRelation) (k : Str) :
    a.unsetTag k = { a with tags_ := removeFirst k a.tags_ } := by
  simp only [ArcRelation.unsetTag]
  rw [← removeFirst_eq]
  cases TagList.idx a.tags_ k <;> rfl

instance : LawfulObj ArcRelation where
  view_apply a op := by
    cases op with
    | setTag k v => show view (a.setTag k v) = _; rw [ArcRelation.setTag_eq]; rfl
    | unsetTag k => show view (a.unsetTag k) = _; rw [ArcRelation.unsetTag_eq]; rfl
    | _ => rfl
  tag_eq a k := get_eq a.tags_ k
  numTags_eq a := rfl
  untagged_iff a := by
    show (a.tags_.length == 0) = true ↔ a.tags_ = []
    simp

theorem ArcRelation.members_eq (a : ArcRelation) : a.members = a.members_ := by
  simp [ArcRelation.members]

instance : LawfulRelation ArcRelation where
  kind _ := rfl
  members_apply a op := by
    show ArcRelation.members _ = ArcRelation.members _
    rw [ArcRelation.members_eq, ArcRelation.members_eq]
    cases op with
    | setTag k v => show (a.setTag k v).members_ = _; rw [ArcRelation.setTag_eq]
    | unsetTag k => show (a.unsetTag k).members_ = _; rw [ArcRelation.unsetTag_eq]
    | _ => rfl
  members_set a l := by
    show ArcRelation.members _ = _
    rw [ArcRelation.members_eq]
    show (ArcRelation.setMembers a l).members_ = l
    simp [ArcRelation.setMembers]
  view_set _ _ := rfl

/-! ### ArcOSMObj -/

theorem ArcOSMObj.view_node (x : ArcNode) : view (ArcOSMObj.node x) = view x := rfl
theorem ArcOSMObj.view_way (x : ArcWay) : view (ArcOSMObj.way x) = view x := rfl
theorem ArcOSMObj.view_relation (x : ArcRelation) : view (ArcOSMObj.relation x) = view x := rfl

theorem ArcOSMObj.apply_node (x : ArcNode) (op : Op) : apply (ArcOSMObj.node x) op = .node (apply x op) := by
  cases op <;> rfl
theorem ArcOSMObj.apply_way (x : ArcWay) (op : Op) : apply (ArcOSMObj.way x) op = .way (apply x op) := by
  cases op <;> rfl
theorem ArcOSMObj.apply_relation (x : ArcRelation) (op : Op) :
    apply (ArcOSMObj.relation x) op = .relation (apply x op) := by
  cases op <;> rfl

instance : LawfulObj ArcOSMObj where
  view_apply a op := by
    cases a with
    | node x => rw [ArcOSMObj.apply_node]; exact LawfulObj.view_apply x op
    | way x => rw [ArcOSMObj.apply_way]; exact LawfulObj.view_apply x op
    | relation x => rw [ArcOSMObj.apply_relation]; exact LawfulObj.view_apply x op
  tag_eq a k := by
    cases a with
    | node x => exact LawfulObj.tag_eq x k
    | way x => exact LawfulObj.tag_eq x k
    | relation x => exact LawfulObj.tag_eq x k
  numTags_eq a := by
    cases a with
    | node x =>
      show (match x.tags_ with | none => 0 | some t => t.length) = (x.tags).length
      unfold ArcNode.tags
      cases x.tags_ <;> rfl
    | way x => rfl
    | relation x => rfl
  untagged_iff a := by
    cases a with
    | node x =>
      show (match x.tags_ with | none => true | some t => t.isEmpty) = true ↔ x.tags = []
      unfold ArcNode.tags
      cases x.tags_ <;> simp
    | way x =>
      show x.tags_.isEmpty = true ↔ x.tags_ = []
      simp
    | relation x =>
      show x.tags_.isEmpty = true ↔ x.tags_ = []
      simp

instance : LawfulSum ArcOSMObj ArcNode ArcWay ArcRelation where
  node a n h := by
    cases a <;> cases h
    exact ⟨rfl, rfl⟩
  way a n h := by
    cases a <;> cases h
    exact ⟨rfl, rfl⟩
  relation a n h := by
    cases a <;> cases h
    exact ⟨rfl, rfl⟩
  total a := by cases a <;> simp [OSMObjT.intoNode, OSMObjT.intoWay, OSMObjT.intoRelation,
    ArcOSMObj.intoNode, ArcOSMObj.intoWay, ArcOSMObj.intoRelation]
  asNode a := by cases a <;> rfl
  asWay a := by cases a <;> rfl
  asRelation a := by cases a <;> rfl
  asNodeMut a := by
    refine ⟨by cases a <;> rfl, ?_⟩
    intro n f h n'
    cases a <;> cases h
    rfl
  asWayMut a := by
    refine ⟨by cases a <;> rfl, ?_⟩
    intro n f h n'
    cases a <;> cases h
    rfl
  asRelationMut a := by
    refine ⟨by cases a <;> rfl, ?_⟩
    intro n f h n'
    cases a <;> cases h
    rfl

/-! ### RcNode -/

theorem RcNode.tags_setTag (a : RcNode) (k v : Str) : (a.setTag k v).tags = put k v a.tags := by
  obtain ⟨_, _, _, _, _, _, _, t, _⟩ := a
  cases t with
  | none => rfl
  | some t =>
    simp only [RcNode.setTag, RcNode.tags]
    rw [← put_eq]
    cases TagList.idx t k <;> rfl

theorem RcNode.tags_unsetTag (a : RcNode) (k : Str) : (a.unsetTag k).tags = removeFirst k a.tags := by
  obtain ⟨_, _, _, _, _, _, _, t, _⟩ := a
  cases t with
  | none => rfl
  | some t =>
    simp only [RcNode.unsetTag, RcNode.tags]
    rw [← removeFirst_eq]
    cases TagList.idx t k <;> rfl

theorem RcNode.setTag_eq (a : RcNode) (k v : Str) :
    a.setTag k v = { a with tags_ := some (put k v a.tags) } := by
  obtain ⟨_, _, _, _, _, _, _, t, _⟩ := a
  cases t with
  | none => rfl
  | some t =>
    simp only [RcNode.setTag, RcNode.tags]
    rw [← put_eq]
    cases TagList.idx t k <;> rfl

theorem RcNode.unsetTag_eq (a : RcNode) (k : Str) :
    a.unsetTag k = { a with tags_ := a.tags_.map (removeFirst k) } := by
  obtain ⟨_, _, _, _, _, _, _, t, _⟩ := a
  cases t with
  | none => rfl
  | some t =>
    simp only [RcNode.unsetTag, Option.map_some]
    rw [← removeFirst_eq]
    cases TagList.idx t k <;> rfl

instance : LawfulObj RcNode where
  view_apply a op := by
    cases op with
    | setTag k v =>
      have h := RcNode.tags_setTag a k v
      show view (a.setTag k v) = _
      rw [RcNode.setTag_eq] at h ⊢
      simp only [view, step, View.mk.injEq]
      exact ⟨rfl, rfl, rfl, rfl, rfl, rfl, rfl, h, rfl⟩
    | unsetTag k =>
      have h := RcNode.tags_unsetTag a k
      show view (a.unsetTag k) = _
      rw [RcNode.unsetTag_eq] at h ⊢
      simp only [view, step, View.mk.injEq]
      exact ⟨rfl, rfl, rfl, rfl, rfl, rfl, rfl, h, rfl⟩
    | _ => rfl
  tag_eq a k := by
    show a.tag k = lookup k a.tags
    simp only [RcNode.tag, RcNode.tags]
    cases a.tags_ <;> simp [get_eq, lookup]
  numTags_eq a := rfl
  untagged_iff a := by
    show (a.tags.length == 0) = true ↔ a.tags = []
    simp

instance : LawfulNode RcNode where
  kind _ := rfl
  latLon_apply a op := by
    cases op with
    | setTag k v => show (a.setTag k v).latLon_ = _; rw [RcNode.setTag_eq]; rfl
    | unsetTag k => show (a.unsetTag k).latLon_ = _; rw [RcNode.unsetTag_eq]; rfl
    | _ => rfl
  latLon_set _ _ := rfl
  view_set _ _ := rfl

/-! ### RcWay -/

theorem RcWay.setTag_eq (a : RcWay) (k v : Str) :
    a.setTag k v = { a with tags_ := put k v a.tags_ } := by
  simp only [RcWay.setTag]
  rw [← put_eq]
  cases TagList.idx a.tags_ k <;> rfl

theorem RcWay.unsetTag_eq (a : RcWay) (k : Str) :
    a.unsetTag k = { a with tags_ := removeFirst k a.tags_ } := by
  simp only [RcWay.unsetTag]
  rw [← removeFirst_eq]
  cases TagList.idx a.tags_ k <;> rfl

instance : LawfulObj RcWay where
  view_apply a op := by
    cases op with
    | setTag k v => show view (a.setTag k v) = _; rw [RcWay.setTag_eq]; rfl
    | unsetTag k => show view (a.unsetTag k) = _; rw [RcWay.unsetTag_eq]; rfl
    | _ => rfl
  tag_eq a k := get_eq a.tags_ k
  numTags_eq a := rfl
  untagged_iff a := by
    show (a.tags_.length == 0) = true ↔ a.tags_ = []
    simp

instance : LawfulWay RcWay where
  kind _ := rfl
  nodes_apply a op := by
    cases op with
    | setTag k v => show (a.setTag k v).nodes_ = _; rw [RcWay.setTag_eq]; rfl
    | unsetTag k => show (a.unsetTag k).nodes_ = _; rw [RcWay.unsetTag_eq]; rfl
    | _ => rfl
  nodes_set _ _ := rfl
  view_set _ _ := rfl
  numNodes_eq _ := rfl
  node_eq _ _ := rfl

/-! ### RcRelation -/

theorem RcRelation.setTag_eq (a : RcRelation) (k v : Str) :
    a.setTag k v = { a with tags_ := put k v a.tags_ } := by
  simp only [RcRelation.setTag]
  rw [← put_eq]
  cases TagList.idx a.tags_ k <;> rfl

theorem RcRelation.unsetTag_eq (a : RcRelation) (k : Str) :
    a.unsetTag k = { a with tags_ := removeFirst k a.tags_ } := by
  simp only [RcRelation.unsetTag]
  rw [← removeFirst_eq]
  cases TagList.idx a.tags_ k <;> rfl

instance : LawfulObj RcRelation where
  view_apply a op := by
    cases op with
    | setTag k v => show view (a.setTag k v) = _; rw [RcRelation.setTag_eq]; rfl
    | unsetTag k => show view (a.unsetTag k) = _; rw [RcRelation.unsetTag_eq]; rfl
    | _ => rfl
  tag_eq a k := get_eq a.tags_ k
  numTags_eq a := rfl
  untagged_iff a := by
    show (a.tags_.length == 0) = true ↔ a.tags_ = []
    simp

theorem RcRelation.members_eq (a : RcRelation) : a.members = a.members_ := by
  simp [RcRelation.members]

instance : LawfulRelation RcRelation where
  kind _ := rfl
  members_apply a op := by
    show RcRelation.members _ = RcRelation.members _
    rw [RcRelation.members_eq, RcRelation.members_eq]
    cases op with
    | setTag k v => show (a.setTag k v).members_ = _; rw [RcRelation.setTag_eq]
    | unsetTag k => show (a.unsetTag k).members_ = _; rw [RcRelation.unsetTag_eq]
    | _ => rfl
  members_set a l := by
    show RcRelation.members _ = _
    rw [RcRelation.members_eq]
    show (RcRelation.setMembers a l).members_ = l
    simp [RcRelation.setMembers]
  view_set _ _ := rfl

/-! ### RcOSMObj -/

theorem RcOSMObj.view_node (x : RcNode) : view (RcOSMObj.node x) = view x := rfl
theorem RcOSMObj.view_way (x : RcWay) : view (RcOSMObj.way x) = view x := rfl
theorem RcOSMObj.view_relation (x : RcRelation) : view (RcOSMObj.relation x) = view x := rfl

theorem RcOSMObj.apply_node (x : RcNode) (op : Op) : apply (RcOSMObj.node x) op = .node (apply x op) := by
  cases op <;> rfl
theorem RcOSMObj.apply_way (x : RcWay) (op : Op) : apply (RcOSMObj.way x) op = .way (apply x op) := by
  cases op <;> rfl
theorem RcOSMObj.apply_relation (x : RcRelation) (op : Op) :
    apply (RcOSMObj.relation x) op = .relation (apply x op) := by
  cases op <;> rfl

instance : LawfulObj RcOSMObj where
  view_apply a op := by
    cases a with
    | node x => rw [RcOSMObj.apply_node]; exact LawfulObj.view_apply x op
    | way x => rw [RcOSMObj.apply_way]; exact LawfulObj.view_apply x op
    | relation x => rw [RcOSMObj.apply_relation]; exact LawfulObj.view_apply x op
  tag_eq a k := by
    cases a with
    | node x => exact LawfulObj.tag_eq x k
    | way x => exact LawfulObj.tag_eq x k
    | relation x => exact LawfulObj.tag_eq x k
  numTags_eq a := by
    cases a with
    | node x =>
      show (match x.tags_ with | none => 0 | some t => t.length) = (x.tags).length
      unfold RcNode.tags
      cases x.tags_ <;> rfl
    | way x => rfl
    | relation x => rfl
  untagged_iff a := by
    cases a with
    | node x =>
      show (match x.tags_ with | none => true | some t => t.isEmpty) = true ↔ x.tags = []
      unfold RcNode.tags
      cases x.tags_ <;> simp
    | way x =>
      show x.tags_.isEmpty = true ↔ x.tags_ = []
      simp
    | relation x =>
      show x.tags_.isEmpty = true ↔ x.tags_ = []
      simp

instance : LawfulSum RcOSMObj RcNode RcWay RcRelation where
  node a n h := by
    cases a <;> cases h
    exact ⟨rfl, rfl⟩
  way a n h := by
    cases a <;> cases h
    exact ⟨rfl, rfl⟩
  relation a n h := by
    cases a <;> cases h
    exact ⟨rfl, rfl⟩
  total a := by cases a <;> simp [OSMObjT.intoNode, OSMObjT.intoWay, OSMObjT.intoRelation,
    RcOSMObj.intoNode, RcOSMObj.intoWay, RcOSMObj.intoRelation]
  asNode a := by cases a <;> rfl
  asWay a := by cases a <;> rfl
  asRelation a := by cases a <;> rfl
  asNodeMut a := by
    refine ⟨by cases a <;> rfl, ?_⟩
    intro n f h n'
    cases a <;> cases h
    rfl
  asWayMut a := by
    refine ⟨by cases a <;> rfl, ?_⟩
    intro n f h n'
    cases a <;> cases h
    rfl
  asRelationMut a := by
    refine ⟨by cases a <;> rfl, ?_⟩
    intro n f h n'
    cases a <;> cases h
    rfl

end Osmio
