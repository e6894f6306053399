import Verif.Proofs.PbfFrames
/-! # Proofs: builds with and without overflow checks -/

namespace Osmio
open Spec.Pbf Spec

/-- The same, or an overflow was found. -/
def Agree {α : Type} (x y : Res α) : Prop := x = y ∨ x = .error .overflow

theorem Agree.refl {α : Type} (x : Res α) : Agree x x := .inl rfl

theorem Agree.bind {α β : Type} {x y : Res α} {f g : α → Res β} (h : Agree x y) (hf : ∀ a, Agree (f a) (g a)) :
    Agree (x >>= f) (y >>= g) := by
  rcases h with rfl | rfl
  · cases x with
    | error p => exact .inl rfl
    | ok a => exact hf a
  · exact .inr rfl

theorem Agree.map {α β : Type} {x y : Res α} {f : α → β} (h : Agree x y) : Agree (x.map f) (y.map f) := by
  rcases h with rfl | rfl
  · exact .inl rfl
  · exact .inr rfl

theorem agree_i64 (x : Int) : Agree (Build.debug.i64 x) (Build.release.i64 x) := by
  unfold Build.i64
  split
  · exact .inl rfl
  · exact .inr rfl

theorem agree_i32 (x : Int) : Agree (Build.debug.i32 x) (Build.release.i32 x) := by
  unfold Build.i32
  split
  · exact .inl rfl
  · exact .inr rfl

theorem agree_rawCoord (x : Int64) (y : Int32) : Agree (StringPbf.rawCoord .debug x y) (StringPbf.rawCoord .release x y) :=
  (agree_i64 _).bind fun _ => .refl _

theorem agree_internalCoord (g : Int32) (o : Int64) (r : Int32) :
    Agree (StringPbf.internalCoord .debug g o r) (StringPbf.internalCoord .release g o r) :=
  (agree_i32 _).bind fun _ => agree_i32 _

theorem agree_delta32 (l : List Int32) (i : Nat) (x : Int32) : Agree (StringPbf.delta32 .debug l i x) (StringPbf.delta32 .release l i x) :=
  (Agree.refl _).bind fun _ => agree_i32 _

theorem agree_delta64 (l : List Int64) (i : Nat) (x : Int64) : Agree (StringPbf.delta64 .debug l i x) (StringPbf.delta64 .release l i x) :=
  (Agree.refl _).bind fun _ => agree_i64 _

theorem agree_denseTimestamp (g : Int32) (l : List Int64) (i : Nat) (x : Int32) :
    Agree (StringPbf.denseTimestamp .debug g l i x) (StringPbf.denseTimestamp .release g l i x) :=
  (Agree.refl _).bind fun _ => (agree_i32 _).bind fun _ => agree_i32 _

theorem agree_str_denseNode (dense : Proto.DenseNodes) (g : Int32) (la lo : Int64) (dg : Int32) (t : List Str) (i : Nat)
    (s : StringPbf.DenseState) : Agree (StringPbf.denseNode .debug dense g la lo dg t i s) (StringPbf.denseNode .release dense g la lo dg t i s) := by
  unfold StringPbf.denseNode
  refine (agree_delta64 _ _ _).bind fun _ => (Agree.refl _).bind fun _ => (agree_rawCoord _ _).bind fun _ => (Agree.refl _).bind fun _ =>
    (agree_rawCoord _ _).bind fun _ => (agree_internalCoord _ _ _).bind fun _ => (agree_internalCoord _ _ _).bind fun _ =>
    (Agree.refl _).bind fun _ => (agree_delta64 _ _ _).bind fun _ => (agree_delta32 _ _ _).bind fun _ => (agree_delta32 _ _ _).bind fun _ =>
    (agree_denseTimestamp _ _ _ _).bind fun _ => .refl _

theorem agree_arc_denseNode (dense : Proto.DenseNodes) (g : Int32) (la lo : Int64) (dg : Int32) (t : List (Option Str)) (i : Nat)
    (s : ArcPbf.DenseState) : Agree (ArcPbf.denseNode .debug dense g la lo dg t i s) (ArcPbf.denseNode .release dense g la lo dg t i s) := by
  unfold ArcPbf.denseNode
  refine (agree_delta64 _ _ _).bind fun _ => (Agree.refl _).bind fun _ => (agree_rawCoord _ _).bind fun _ => (Agree.refl _).bind fun _ =>
    (agree_rawCoord _ _).bind fun _ => (agree_internalCoord _ _ _).bind fun _ => (agree_internalCoord _ _ _).bind fun _ =>
    (Agree.refl _).bind fun _ => (agree_delta64 _ _ _).bind fun _ => (agree_delta32 _ _ _).bind fun _ => (agree_delta32 _ _ _).bind fun _ =>
    (agree_denseTimestamp _ _ _ _).bind fun _ => .refl _

theorem agree_pos_step (dense : Proto.DenseNodes) (g : Int32) (la lo : Int64) (i : Nat) (s : NodePos.State) :
    Agree (NodePos.step .debug dense g la lo i s) (NodePos.step .release dense g la lo i s) := by
  unfold NodePos.step
  refine (Agree.refl _).bind fun _ => (agree_i64 _).bind fun _ => (Agree.refl _).bind fun _ => (agree_rawCoord _ _).bind fun _ =>
    (Agree.refl _).bind fun _ => (agree_rawCoord _ _).bind fun _ => (agree_internalCoord _ _ _).bind fun _ =>
    (agree_internalCoord _ _ _).bind fun _ => .refl _

theorem agree_runningSums (last : Int64) (l : List Int64) :
    Agree (StringPbf.runningSums .debug last l) (StringPbf.runningSums .release last l) := by
  induction l generalizing last with
  | nil => exact .refl _
  | cons d l ih => exact (agree_i64 _).bind fun x => (ih x).bind fun _ => .refl _

theorem agree_undelta (l : List Int64) : Agree (StringPbf.undelta .debug l) (StringPbf.undelta .release l) := by
  cases l with
  | nil => exact .refl _
  | cons d l => exact (agree_runningSums d l).bind fun _ => .refl _

theorem agree_str_way (t : List Str) (w : Proto.Way) : Agree (StringPbf.decodeWay .debug t w) (StringPbf.decodeWay .release t w) := by
  unfold StringPbf.decodeWay
  exact (Agree.refl _).bind fun _ => (Agree.refl _).bind fun _ => (Agree.refl _).bind fun _ => (agree_undelta _).bind fun _ => .refl _

theorem agree_str_rel (t : List Str) (w : Proto.Relation) :
    Agree (StringPbf.decodeRelation .debug t w) (StringPbf.decodeRelation .release t w) := by
  unfold StringPbf.decodeRelation
  exact (Agree.refl _).bind fun _ => (Agree.refl _).bind fun _ => (agree_undelta _).bind fun _ => .refl _

theorem agree_arc_way (t : List (Option Str)) (w : Proto.Way) : Agree (ArcPbf.decodeWay .debug t w) (ArcPbf.decodeWay .release t w) := by
  unfold ArcPbf.decodeWay
  simp only [arc_undelta]
  exact (Agree.refl _).bind fun _ => (agree_undelta _).bind fun _ => .refl _

theorem agree_arc_rel (t : List (Option Str)) (w : Proto.Relation) :
    Agree (ArcPbf.decodeRelation .debug t w) (ArcPbf.decodeRelation .release t w) := by
  unfold ArcPbf.decodeRelation
  simp only [arc_undelta]
  exact (Agree.refl _).bind fun _ => (agree_undelta _).bind fun _ => .refl _

theorem agree_forAll {α β : Type} {f g : α → Res β} (h : ∀ a, Agree (f a) (g a)) (l : List α) :
    Agree (ArcPbf.forAll f l) (ArcPbf.forAll g l) := by
  induction l with
  | nil => exact .refl _
  | cons a l ih => exact (h a).bind fun _ => ih.bind fun _ => .refl _

theorem agree_arc_loop {f g : Nat → ArcPbf.DenseState → Res (ArcNode × ArcPbf.DenseState)} (h : ∀ i s, Agree (f i s) (g i s))
    (n i : Nat) (s : ArcPbf.DenseState) : Agree (ArcPbf.denseLoop f n i s) (ArcPbf.denseLoop g n i s) := by
  induction n generalizing i s with
  | zero => exact .refl _
  | succ n ih => exact (h i s).bind fun x => (ih _ _).bind fun _ => .refl _

theorem agree_arc_block (block : Proto.PrimitiveBlock) : Agree (ArcPbf.decodeBlock .debug block) (ArcPbf.decodeBlock .release block) := by
  unfold ArcPbf.decodeBlock
  induction block.primitivegroup with
  | nil => exact .refl _
  | cons g gs ih =>
    refine Agree.bind ?_ fun _ => ih.bind fun _ => .refl _
    unfold ArcPbf.decodeGroup
    simp only
    split
    · exact .refl _
    · split
      · exact agree_arc_loop (agree_arc_denseNode _ _ _ _ _ _) _ _ _
      · split
        · exact agree_forAll (fun w => (agree_arc_way _ w).map) _
        · split
          · exact agree_forAll (fun w => (agree_arc_rel _ w).map) _
          · exact .refl _

/-- The same for a computation with a sink: up to an overflow the same was pushed. -/
def AgreeS {α : Type} (x y : List α × Option Panic) : Prop := x = y ∨ (x.2 = some .overflow ∧ x.1 <+: y.1)

theorem AgreeS.refl {α : Type} (x : List α × Option Panic) : AgreeS x x := .inl rfl

theorem AgreeS.cons {α : Type} {x y : List α × Option Panic} (a : α) (h : AgreeS x y) : AgreeS (a :: x.1, x.2) (a :: y.1, y.2) := by
  rcases h with rfl | ⟨h1, h2⟩
  · exact .inl rfl
  · exact .inr ⟨h1, (List.prefix_cons_inj a).2 h2⟩

theorem agree_runAll {α β : Type} {f g : α → Res β} (h : ∀ a, Agree (f a) (g a)) (l : List α) : AgreeS (runAll f l) (runAll g l) := by
  induction l with
  | nil => exact .refl _
  | cons a l ih =>
    simp only [runAll]
    rcases h a with h | h
    · rw [h]
      cases g a with
      | error p => exact .refl _
      | ok x => exact ih.cons x
    · rw [h]
      exact .inr ⟨rfl, List.nil_prefix⟩

theorem agree_str_loop {f g : Nat → StringPbf.DenseState → Res (StringNode × StringPbf.DenseState)} (h : ∀ i s, Agree (f i s) (g i s))
    (n i : Nat) (s : StringPbf.DenseState) : AgreeS (StringPbf.denseLoop f n i s) (StringPbf.denseLoop g n i s) := by
  induction n generalizing i s with
  | zero => exact .refl _
  | succ n ih =>
    simp only [StringPbf.denseLoop]
    rcases h i s with h | h
    · rw [h]
      rcases g i s with p | ⟨x, s'⟩
      · exact .refl _
      · exact (ih _ _).cons _
    · rw [h]
      exact .inr ⟨rfl, List.nil_prefix⟩

theorem agree_pos_loop {f g : Nat → NodePos.State → Res (NodePos.NodeIdPos × NodePos.State)} (h : ∀ i s, Agree (f i s) (g i s))
    (n i : Nat) (s : NodePos.State) : AgreeS (NodePos.loop f n i s) (NodePos.loop g n i s) := by
  induction n generalizing i s with
  | zero => exact .refl _
  | succ n ih =>
    simp only [NodePos.loop]
    rcases h i s with h | h
    · rw [h]
      rcases g i s with p | ⟨x, s'⟩
      · exact .refl _
      · exact (ih _ _).cons _
    · rw [h]
      exact .inr ⟨rfl, List.nil_prefix⟩

theorem agree_withTable {raw : Proto.StringTable} {f g : List Str → List StringOSMObj × Option Panic} (h : ∀ t, AgreeS (f t) (g t)) :
    AgreeS (StringPbf.withTable raw f) (StringPbf.withTable raw g) := by
  unfold StringPbf.withTable
  split
  · exact h _
  · exact .refl _

theorem agree_str_block (block : Proto.PrimitiveBlock) (f : StringPbf.ObjectFilter) :
    AgreeS (StringPbf.decodeBlock .debug block f) (StringPbf.decodeBlock .release block f) := by
  unfold StringPbf.decodeBlock
  split
  · exact .refl _
  · split
    · unfold StringPbf.decodeGroup
      simp only
      split
      · exact .refl _
      · split
        · exact agree_withTable fun t => agree_str_loop (agree_str_denseNode _ _ _ _ _ _) _ _ _
        · split
          · exact agree_withTable fun t => agree_runAll (fun w => (agree_str_way _ w).map) _
          · split
            · exact agree_withTable fun t => agree_runAll (fun w => (agree_str_rel _ w).map) _
            · exact .refl _
    · exact .refl _

theorem agree_pos_block (block : Proto.PrimitiveBlock) : AgreeS (NodePos.decodeBlock .debug block) (NodePos.decodeBlock .release block) := by
  unfold NodePos.decodeBlock
  induction block.primitivegroup with
  | nil => exact .refl _
  | cons g gs ih =>
    simp only [NodePos.decodeGroups]
    have hg : AgreeS (NodePos.decodeGroup .debug block.granularityOr block.latOffsetOr block.lonOffsetOr g)
        (NodePos.decodeGroup .release block.granularityOr block.latOffsetOr block.lonOffsetOr g) := by
      unfold NodePos.decodeGroup
      split
      · exact .refl _
      · split
        · exact .refl _
        · split
          · exact agree_pos_loop (agree_pos_step _ _ _ _) _ _ _
          · exact .refl _
    rcases hg with hg | ⟨hg1, hg2⟩
    · rw [hg]
      split
      · exact .refl _
      · rcases ih with ih | ⟨ih1, ih2⟩
        · rw [ih]; exact .refl _
        · exact .inr ⟨ih1, (List.prefix_append_right_inj _).2 ih2⟩
    · rcases hd : NodePos.decodeGroup .debug block.granularityOr block.latOffsetOr block.lonOffsetOr g with ⟨xs, p⟩
      rw [hd] at hg1 hg2
      simp only at hg1 hg2
      subst hg1
      refine .inr ⟨rfl, ?_⟩
      show xs <+: _
      rcases hr : NodePos.decodeGroup .release block.granularityOr block.latOffsetOr block.lonOffsetOr g with ⟨ys, (_ | q)⟩
      · rw [hr] at hg2; exact hg2.trans (List.prefix_append _ _)
      · rw [hr] at hg2; exact hg2

/-- Blobs. -/
theorem agree_blobData (r : Which) (zlib : Proto.Bytes → Option Proto.Bytes) (blob : Proto.Blob) :
    AgreeS (blobData r zlib .debug blob) (blobData r zlib .release blob) := by
  have hmap : ∀ {α : Type} (f : α → ObjData) {x y : List α × Option Panic}, AgreeS x y → AgreeS (x.1.map f, x.2) (y.1.map f, y.2) := by
    intro α f x y h
    rcases h with rfl | ⟨h1, h2⟩
    · exact .refl _
    · exact .inr ⟨h1, h2.map f⟩
  cases r with
  | owned =>
    refine hmap objData (x := StringPbf.decodeBlob zlib .debug _ blob) (y := StringPbf.decodeBlob zlib .release _ blob) ?_
    unfold StringPbf.decodeBlob
    split
    · exact .refl _
    · split
      · exact .refl _
      · split
        · exact .refl _
        · exact agree_str_block _ _
  | shared =>
    refine hmap objData (x := arcDecode zlib .debug blob) (y := arcDecode zlib .release blob) ?_
    have : Agree (ArcPbf.decodeBlob zlib .debug blob) (ArcPbf.decodeBlob zlib .release blob) :=
      (Agree.refl _).bind fun _ => (Agree.refl _).bind fun _ => (Agree.refl _).bind fun _ => agree_arc_block _
    unfold arcDecode
    rcases this with h | h
    · rw [h]; exact .refl _
    · rw [h]; exact .inr ⟨rfl, List.nil_prefix⟩

theorem agree_pos_blob (zlib : Proto.Bytes → Option Proto.Bytes) (blob : Proto.Blob) :
    AgreeS (NodePos.decodeBlob zlib .debug blob) (NodePos.decodeBlob zlib .release blob) := by
  unfold NodePos.decodeBlob
  split
  · exact .refl _
  · split
    · exact .refl _
    · exact agree_pos_block _

theorem agree_runBlobs {α : Type} {f g : Proto.Blob → List α × Option Panic} (h : ∀ b, AgreeS (f b) (g b)) (e : Option Panic)
    (bs : List Proto.Blob) : AgreeS (runBlobs f e bs) (runBlobs g e bs) := by
  induction bs with
  | nil => exact .refl _
  | cons b bs ih =>
    simp only [runBlobs]
    rcases h b with hb | ⟨hb, _⟩
    · rw [hb]
      split
      · rcases ih with ih | ⟨ih1, ih2⟩
        · rw [ih]; exact .refl _
        · exact .inr ⟨ih1, (List.prefix_append_right_inj _).2 ih2⟩
      · exact .refl _
    · rcases hd : f b with ⟨os, p⟩
      rw [hd] at hb
      simp only at hb
      subst hb
      exact .inr ⟨rfl, List.nil_prefix⟩

end Osmio
