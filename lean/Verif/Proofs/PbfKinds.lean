import Verif.Proofs.PbfPositions
import Verif.Proofs.PbfFiles
/-! # Proofs: exactly when the kind filters and the reader of positions agree with the objects -/

namespace Osmio
open Spec.Pbf Spec

/-- Lists of which each is at most as long as the other: if all of them together are as long, each is. -/
theorem lengths_flatten {α β γ : Type} {R : α → List β → Prop} {S : α → List γ → Prop} {P : α → Prop} {l : List α} {xss : List (List β)}
    {yss : List (List γ)} (hx : List.Forall₂ R l xss) (hy : List.Forall₂ S l yss)
    (h : ∀ a ∈ l, ∀ xs ys, R a xs → S a ys → ys.length ≤ xs.length ∧ (ys.length = xs.length → P a)) :
    yss.flatten.length ≤ xss.flatten.length ∧ (yss.flatten.length = xss.flatten.length → ∀ a ∈ l, P a) := by
  induction hx generalizing yss with
  | nil => cases hy; simp
  | cons h1 _ ih =>
    cases hy with
    | cons h2 h3 =>
      obtain ⟨a1, a2⟩ := ih h3 (fun a ha => h a (by simp [ha]))
      obtain ⟨b1, b2⟩ := h _ (by simp) _ _ h1 h2
      simp only [List.flatten_cons, List.length_append]
      refine ⟨by omega, fun he a ha => ?_⟩
      rcases List.mem_cons.1 ha with rfl | ha
      · exact b2 (by omega)
      · exact a2 (by omega) a ha

/-! ## Positions -/

/-- The positions of the nodes that a reader of objects gives for a group. -/
structure GroupPos (b : Build) (block : Proto.PrimitiveBlock) (g : Proto.PrimitiveGroup) (ps : List NodePos.NodeIdPos) : Prop where
  nodes : g.nodes = []
  dense : ∀ dense, g.dense = some dense →
    loopR (NodePos.step b dense block.granularityOr block.latOffsetOr block.lonOffsetOr) dense.id.length 0 {} = .ok ps
  other : g.dense = none → ps = []

theorem str_groupPos {b : Build} {block : Proto.PrimitiveBlock} {raw : Proto.StringTable} {g : Proto.PrimitiveGroup} {ds : List ObjData}
    (h : StrGroup b block raw g ds) : GroupPos b block g (positionsOf ds) := by
  cases h with
  | dense t dense ht h1 h2 h3 =>
    exact ⟨h1, fun d hd => by rw [h2] at hd; cases hd; exact str_dense_pos h3, fun h => by rw [h2] at h; cases h⟩
  | ways t ht h1 h2 h3 h4 =>
    refine ⟨h1, fun d hd => (by rw [h2] at hd; cases hd), fun _ => ?_⟩
    exact positionsOf_other (forall2_right (P := fun d => d.view.kind ≠ .node) (fun a d h => by rw [strWay_kind h]; simp) h4)
  | relations t ht h1 h2 h3 h4 h5 =>
    refine ⟨h1, fun d hd => (by rw [h2] at hd; cases hd), fun _ => ?_⟩
    exact positionsOf_other (forall2_right (P := fun d => d.view.kind ≠ .node) (fun a d h => by rw [strRel_kind h]; simp) h5)
  | empty h1 h2 h3 h4 h5 =>
    subst h5
    exact ⟨h1, fun d hd => (by rw [h2] at hd; cases hd), fun _ => rfl⟩

theorem arc_groupPos {b : Build} {block : Proto.PrimitiveBlock} {t : List (Option Str)} {g : Proto.PrimitiveGroup} {ds : List ObjData}
    (h : ArcGroup b block t g ds) : GroupPos b block g (positionsOf ds) := by
  cases h with
  | dense dense h1 h2 h3 =>
    exact ⟨h1, fun d hd => by rw [h2] at hd; cases hd; exact arc_dense_pos h3, fun h => by rw [h2] at h; cases h⟩
  | ways h1 h2 h3 h4 =>
    refine ⟨h1, fun d hd => (by rw [h2] at hd; cases hd), fun _ => ?_⟩
    exact positionsOf_other (forall2_right (P := fun d => d.view.kind ≠ .node) (fun a d h => by rw [arcWay_kind h]; simp) h4)
  | relations h1 h2 h3 h4 h5 =>
    refine ⟨h1, fun d hd => (by rw [h2] at hd; cases hd), fun _ => ?_⟩
    exact positionsOf_other (forall2_right (P := fun d => d.view.kind ≠ .node) (fun a d h => by rw [arcRel_kind h]; simp) h5)

theorem pos_group_alone {b : Build} {block : Proto.PrimitiveBlock} {g : Proto.PrimitiveGroup} {ps : List NodePos.NodeIdPos}
    (h : GroupPos b block g ps) (ha : NodesAlone g) : PosGroup b block g ps := by
  cases hd : g.dense with
  | none =>
    rw [h.other hd]
    exact pos_other_group h.nodes (ha.2 hd)
  | some dense =>
    by_cases hi : dense.id = []
    · have := h.dense dense hd
      by_cases ho : g.ways ≠ [] ∨ g.relations ≠ []
      · rw [hi] at this
        cases this
        exact pos_other_group h.nodes ho
      · simp only [ne_eq, not_or, not_not] at ho
        exact pos_dense_group h.nodes hd ho.1 ho.2 this
    · obtain ⟨a, c⟩ := ha.1 dense hd hi
      exact pos_dense_group h.nodes hd a c (h.dense dense hd)

theorem pos_group_count {b : Build} {block : Proto.PrimitiveBlock} {g : Proto.PrimitiveGroup} {ps xs : List NodePos.NodeIdPos}
    (h : GroupPos b block g ps) (hx : PosGroup b block g xs) : xs.length ≤ ps.length ∧ (xs.length = ps.length → NodesAlone g) := by
  by_cases ha : NodesAlone g
  · have := pos_group_alone h ha
    unfold PosGroup at this hx
    rw [this] at hx
    cases hx
    exact ⟨le_refl _, fun _ => ha⟩
  · unfold PosGroup NodePos.decodeGroup at hx
    rw [if_neg (by simp [h.nodes])] at hx
    by_cases ho : g.ways ≠ [] ∨ g.relations ≠ []
    · rw [if_pos ho] at hx
      cases hx
      refine ⟨Nat.zero_le _, fun he => absurd ?_ ha⟩
      refine ⟨fun dense hd hi => ?_, fun _ => ho⟩
      have := loopR_length (h.dense dense hd)
      rw [← he] at this
      exact absurd (List.length_eq_zero_iff.1 this.symm) hi
    · rw [if_neg ho] at hx
      simp only [ne_eq, not_or, not_not] at ho
      cases hd : g.dense with
      | none => rw [hd] at hx; cases hx
      | some dense => exact absurd ⟨fun _ _ _ => ho, fun h => by rw [hd] at h; cases h⟩ ha

theorem pos_groups_iff {decode : Proto.PrimitiveGroup → List NodePos.NodeIdPos × Option Panic} {gs : List Proto.PrimitiveGroup}
    {xs : List NodePos.NodeIdPos} : NodePos.decodeGroups decode gs = (xs, none) ↔
      ∃ xss, List.Forall₂ (fun g xs => decode g = (xs, none)) gs xss ∧ xs = xss.flatten := by
  induction gs generalizing xs with
  | nil =>
    simp only [NodePos.decodeGroups, Prod.mk.injEq, and_true]
    constructor
    · rintro rfl; exact ⟨[], .nil, rfl⟩
    · rintro ⟨xss, h, rfl⟩; cases h; rfl
  | cons g gs ih =>
    simp only [NodePos.decodeGroups]
    constructor
    · intro h
      split at h
      · cases h
      · rename_i ys hy
        obtain ⟨xss, h1, h2⟩ := ih.1 (Prod.ext (x := NodePos.decodeGroups decode gs) (y := (_, none)) rfl (Prod.mk.inj h).2)
        exact ⟨ys :: xss, .cons hy h1, by rw [← (Prod.mk.inj h).1, List.flatten_cons, ← h2]⟩
    · rintro ⟨xss, h, rfl⟩
      cases h with
      | cons h1 h2 =>
        rw [h1, ih.2 ⟨_, h2, rfl⟩]
        rfl

theorem positions_iff {b : Build} {block : Proto.PrimitiveBlock} {xs : List NodePos.NodeIdPos} :
    positions b block = some xs ↔ ∃ xss, List.Forall₂ (PosGroup b block) block.primitivegroup xss ∧ xs = xss.flatten := by
  unfold positions NodePos.decodeBlock PosGroup
  rw [← pos_groups_iff]
  cases h : NodePos.decodeGroups (NodePos.decodeGroup b block.granularityOr block.latOffsetOr block.lonOffsetOr) block.primitivegroup with
  | mk ys p => cases p <;> simp

/-- The positions of a block, from the objects that either reader gives. -/
theorem objects_groupPos {r : Which} {b : Build} {block : Proto.PrimitiveBlock} {ds : List ObjData} (h : r.objects b block = some ds) :
    ∃ pss, List.Forall₂ (GroupPos b block) block.primitivegroup pss ∧ positionsOf ds = pss.flatten := by
  cases r with
  | owned =>
    obtain ⟨raw, g, h1, h2, h3⟩ := owned_block.1 h
    exact ⟨[positionsOf ds], by rw [h2]; exact .cons (str_groupPos h3) .nil, by simp⟩
  | shared =>
    obtain ⟨dss, h1, rfl⟩ := shared_block.1 h
    refine ⟨dss.map positionsOf, ?_, positionsOf_flatten dss⟩
    rw [List.forall₂_map_right_iff]
    exact forall2_imp_mem (fun g _ ds h => arc_groupPos h) h1

theorem positions_alone {r : Which} {b : Build} {block : Proto.PrimitiveBlock} {ds : List ObjData}
    (hk : ∀ g ∈ block.primitivegroup, NodesAlone g) (h : r.objects b block = some ds) : positions b block = some (positionsOf ds) := by
  obtain ⟨pss, h1, h2⟩ := objects_groupPos h
  exact positions_iff.2 ⟨pss, forall2_imp_mem (fun g hg ps h => pos_group_alone h (hk g hg)) h1, h2⟩

theorem positions_count {r : Which} {b : Build} {block : Proto.PrimitiveBlock} {ds : List ObjData} {xs : List NodePos.NodeIdPos}
    (h : r.objects b block = some ds) (hx : positions b block = some xs) :
    xs.length ≤ (positionsOf ds).length ∧ (xs.length = (positionsOf ds).length → ∀ g ∈ block.primitivegroup, NodesAlone g) := by
  obtain ⟨pss, h1, h2⟩ := objects_groupPos h
  obtain ⟨xss, h3, rfl⟩ := positions_iff.1 hx
  rw [h2]
  exact lengths_flatten h1 h3 (fun g _ ps xs h h' => pos_group_count h h')

/-- The reader of positions on a file of frames. -/
theorem readsPositions_file {zlib : Proto.Bytes → Option Proto.Bytes} {b : Build} {fs : List Frame}
    {os : List (Option Proto.PrimitiveBlock)} (h : List.Forall₂ (FrameIs (ZlibStored zlib)) fs os) {xs : List NodePos.NodeIdPos} :
    ReadsPositions zlib b (source (fileBytes fs)) xs none ↔
      ∃ xss, List.Forall₂ (fun block xs => positions b block = some xs) (os.filterMap id) xss ∧ xs = xss.flatten := by
  obtain ⟨bs, h1, h2⟩ := file_stream h
  have key : ∀ {bs : List Proto.Blob} {blocks : List Proto.PrimitiveBlock} {xss : List (List NodePos.NodeIdPos)},
      List.Forall₂ (fun blob block => ∃ data, ZlibStored zlib blob data ∧ Proto.PrimitiveBlock.parseFromBytes data = some block) bs blocks →
      (List.Forall₂ (fun blob xs => NodePos.decodeBlob zlib b blob = (xs, none)) bs xss ↔
        List.Forall₂ (fun block xs => positions b block = some xs) blocks xss) := by
    intro bs blocks xss h
    have hs : ∀ {blob data block xs}, ZlibStored zlib blob data → Proto.PrimitiveBlock.parseFromBytes data = some block →
        (NodePos.decodeBlob zlib b blob = (xs, none) ↔ positions b block = some xs) := by
      intro blob data block xs h3 h4
      refine ⟨fun h => ?_, pos_zlib h3 h4⟩
      obtain ⟨data', a1, block', a2, a3⟩ := pos_blob.1 h
      rw [str_zlibStored h3] at a1
      cases a1
      rw [h4] at a2
      cases a2
      exact a3
    induction h generalizing xss with
    | nil => simp
    | cons h _ ih =>
      obtain ⟨data, h3, h4⟩ := h
      constructor
      · intro h
        cases h with
        | cons h5 h6 => exact .cons ((hs h3 h4).1 h5) (ih.1 h6)
      · intro h
        cases h with
        | cons h5 h6 => exact .cons ((hs h3 h4).2 h5) (ih.2 h6)
  have h3 := readsPositions_stream (zlib := zlib) (b := b) h1
  constructor
  · rintro ⟨s, h4⟩
    obtain ⟨s', h3⟩ := h3
    obtain ⟨h5, h6, _⟩ := h4.unique h3
    obtain ⟨_, xss, h7, h8⟩ := runBlobs_none.1 (Prod.ext (x := runBlobs (NodePos.decodeBlob zlib b) none bs) (y := (xs, none)) h5.symm h6.symm)
    exact ⟨xss, (key h2).1 h7, h8⟩
  · rintro ⟨xss, h4, rfl⟩
    rw [runBlobs_none.2 ⟨rfl, xss, (key h2).2 h4, rfl⟩] at h3
    exact h3

theorem positions_file_iff {r : Which} {zlib : Proto.Bytes → Option Proto.Bytes} {b : Build} {fs : List Frame}
    {os : List (Option Proto.PrimitiveBlock)} (h : List.Forall₂ (FrameIs (ZlibStored zlib)) fs os) {ds : List ObjData}
    (hr : Reads r zlib b (source (fileBytes fs)) ds none) :
    ReadsPositions zlib b (source (fileBytes fs)) (positionsOf ds) none ↔
      ∀ block, some block ∈ os → ∀ g ∈ block.primitivegroup, NodesAlone g := by
  obtain ⟨dss, h1, rfl⟩ := (reads_file h).1 hr
  have hm : (∀ block, some block ∈ os → ∀ g ∈ block.primitivegroup, NodesAlone g) ↔
      ∀ block ∈ os.filterMap id, ∀ g ∈ block.primitivegroup, NodesAlone g := by simp
  rw [hm, readsPositions_file h, positionsOf_flatten]
  have h1' : List.Forall₂ (fun block ps => ∃ ds, r.objects b block = some ds ∧ ps = positionsOf ds) (os.filterMap id)
      (dss.map positionsOf) := by
    rw [List.forall₂_map_right_iff]
    exact forall2_imp_mem (fun _ _ ds h => ⟨ds, h, rfl⟩) h1
  constructor
  · rintro ⟨xss, h2, h3⟩
    refine (lengths_flatten (P := fun block => ∀ g ∈ block.primitivegroup, NodesAlone g) h1' h2 ?_).2 (by rw [h3])
    rintro block _ _ xs ⟨ds, h, rfl⟩ h'
    exact positions_count h h'
  · intro hk
    refine ⟨_, forall2_imp_mem (fun block hb ps h => ?_) h1', rfl⟩
    obtain ⟨ds, h, rfl⟩ := h
    exact positions_alone (hk block hb) h

/-! ## Kind filters -/

theorem runAll_length {α β : Type} {f : α → Res β} {l : List α} {os : List β} (h : runAll f l = (os, none)) : os.length = l.length := by
  induction l generalizing os with
  | nil => cases h; rfl
  | cons a l ih =>
    simp only [runAll] at h
    cases hf : f a with
    | error p => rw [hf] at h; cases h
    | ok x =>
      rw [hf] at h
      have h1 := (Prod.mk.inj h).1
      subst h1
      rw [List.length_cons, List.length_cons, ih (Prod.ext rfl (Prod.mk.inj h).2)]

/-- What a group gives is of the first kind that it has. -/
theorem group_first {b : Build} {g : Proto.PrimitiveGroup} {gr : Int32} {la lo : Int64} {dg : Int32} {raw : Proto.StringTable}
    {os : List StringOSMObj} (h : StringPbf.decodeGroup b g gr la lo dg raw (true, true, true) = (os, none)) :
    (g.dense ≠ none → ∀ o ∈ os, ∃ x, o = StringOSMObj.node x) ∧
      (g.dense = none → g.ways ≠ [] → ∀ o ∈ os, ∃ x, o = StringOSMObj.way x) := by
  have h1 := group_nodes_nil h
  constructor
  · intro h2
    obtain ⟨dense, h2⟩ := Option.ne_none_iff_exists'.1 h2
    rw [group_dense h1 h2 rfl] at h
    have := withTable_all (P := fun o => ∃ x, o = StringOSMObj.node x) (raw := raw)
      (f := fun t => StringPbf.decodeDenseNodes b dense gr la lo (Int32.ofInt (dg.toInt.tdiv 1000)) t) (fun t => denseLoop_nodes)
    rw [h] at this
    exact this
  · intro h2 h3
    rw [group_ways h1 h2 h3 rfl] at h
    have := withTable_all (P := fun o => ∃ x, o = StringOSMObj.way x) (raw := raw)
      (f := fun t => StringPbf.decodeWays b t g.ways) (fun t => runAll_map)
    rw [h] at this
    exact this

/-- A group with ways or relations that the filter lets through, and without dense nodes or with a filter that leaves them out. -/
theorem group_some {b : Build} {g : Proto.PrimitiveGroup} {gr : Int32} {la lo : Int64} {dg : Int32} {raw : Proto.StringTable}
    {f : StringPbf.ObjectFilter} {os : List StringOSMObj} (h1 : g.nodes = []) (h2 : g.dense ≠ none → f.1 = false)
    (h3 : (g.ways ≠ [] ∧ f.2.1 = true) ∨ (g.relations ≠ [] ∧ f.2.2 = true))
    (h : StringPbf.decodeGroup b g gr la lo dg raw f = (os, none)) : os ≠ [] := by
  simp only [StringPbf.decodeGroup] at h
  rw [if_neg (by simp [h1]), if_neg] at h
  · by_cases hw : g.ways ≠ [] ∧ f.2.1 = true
    · rw [if_pos hw] at h
      obtain ⟨t, _, h⟩ := withTable_ok.1 h
      have := runAll_length h
      rintro rfl
      exact hw.1 (List.length_eq_zero_iff.1 this.symm)
    · rw [if_neg hw] at h
      rcases h3 with h3 | h3
      · exact absurd h3 hw
      · rw [if_pos h3] at h
        obtain ⟨t, _, h⟩ := withTable_ok.1 h
        have := runAll_length h
        rintro rfl
        exact h3.1 (List.length_eq_zero_iff.1 this.symm)
  · rintro ⟨a, c⟩
    rw [h2 (by rintro e; rw [e] at a; cases a)] at c
    cases c

theorem filter_group_count {b : Build} {g : Proto.PrimitiveGroup} {gr : Int32} {la lo : Int64} {dg : Int32} {raw : Proto.StringTable}
    {f : StringPbf.ObjectFilter} {os os' : List StringOSMObj}
    (h : StringPbf.decodeGroup b g gr la lo dg raw (true, true, true) = (os, none))
    (h' : StringPbf.decodeGroup b g gr la lo dg raw f = (os', none)) :
    (os.filter (Passes f)).length ≤ os'.length ∧ ((os.filter (Passes f)).length = os'.length → Kept f g) := by
  by_cases hk : Kept f g
  · rw [filter_group hk h] at h'
    cases h'
    exact ⟨le_refl _, fun _ => hk⟩
  · have h1 := group_nodes_nil h
    obtain ⟨f1, f2⟩ := group_first h
    have key : os.filter (Passes f) = [] ∧ os' ≠ [] := by
      by_cases hd : g.dense = none
      · have h5 : ¬ (g.ways ≠ [] → f.2.1 = false → f.2.2 = true → g.relations = []) :=
          fun h5 => hk ⟨fun h => absurd hd h, fun _ => h5⟩
        simp only [Classical.not_imp] at h5
        obtain ⟨h5, h6, h7, h8⟩ := h5
        refine ⟨filter_none ?_, group_some h1 (fun h => absurd hd h) (.inr ⟨h8, h7⟩) h'⟩
        intro o ho
        obtain ⟨x, rfl⟩ := f2 hd h5 o ho
        exact h6
      · have h5 : ¬ (f.1 = false → (f.2.1 = true → g.ways = []) ∧ (f.2.2 = true → g.relations = [])) :=
          fun h5 => hk ⟨fun _ => h5, fun h => absurd h hd⟩
        simp only [Classical.not_imp] at h5
        obtain ⟨h5, h6⟩ := h5
        refine ⟨filter_none ?_, group_some h1 (fun _ => h5) ?_ h'⟩
        · intro o ho
          obtain ⟨x, rfl⟩ := f1 hd o ho
          exact h5
        · by_contra hc
          simp only [not_or, not_and] at hc
          exact h6 ⟨fun h => by_contra fun hn => hc.1 hn h, fun h => by_contra fun hn => hc.2 hn h⟩
    obtain ⟨k1, k2⟩ := key
    rw [k1]
    refine ⟨Nat.zero_le _, fun he => absurd (List.length_eq_zero_iff.1 he.symm) k2⟩

/-- The groups of a blob. -/
def BlobGroups (zlib : Proto.Bytes → Option Proto.Bytes) (P : Proto.PrimitiveGroup → Prop) (blob : Proto.Blob) : Prop :=
  ∀ data block, StringPbf.blobRawData zlib blob = .ok data → Proto.PrimitiveBlock.parseFromBytes data = some block →
    ∀ g ∈ block.primitivegroup, P g

theorem filter_blob_count {zlib : Proto.Bytes → Option Proto.Bytes} {b : Build} {blob : Proto.Blob} {f : StringPbf.ObjectFilter}
    {os os' : List StringOSMObj} (h : StringPbf.decodeBlob zlib b (true, true, true) blob = (os, none))
    (h' : StringPbf.decodeBlob zlib b f blob = (os', none)) :
    (os.filter (Passes f)).length ≤ os'.length ∧ ((os.filter (Passes f)).length = os'.length → BlobGroups zlib (Kept f) blob) := by
  unfold StringPbf.decodeBlob at h h'
  unfold BlobGroups
  cases h1 : StringPbf.blobRawData zlib blob with
  | error p => rw [h1] at h; cases h
  | ok data =>
    rw [h1] at h h'
    simp only at h h'
    by_cases h2 : data = []
    · rw [if_pos h2] at h h'
      cases h
      cases h'
      refine ⟨le_refl _, ?_⟩
      intro _ data' block hd hp g hg
      cases hd
      subst h2
      cases hp
    · rw [if_neg h2] at h h'
      cases h3 : Proto.PrimitiveBlock.parseFromBytes data with
      | none => rw [h3] at h; cases h
      | some block =>
        rw [h3] at h h'
        simp only at h h'
        unfold StringPbf.decodeBlock at h h'
        split at h
        · cases h
        · rename_i raw hraw
          rw [hraw] at h'
          simp only at h'
          split at h
          · rename_i g hg
            rw [hg] at h'
            obtain ⟨c1, c2⟩ := filter_group_count h h'
            refine ⟨c1, fun he data' block' hd hp g' hg' => ?_⟩
            cases hd
            rw [h3] at hp
            cases hp
            rw [hg] at hg'
            rw [List.mem_singleton.1 hg']
            exact c2 he
          · cases h

theorem decodeGroup_passes {b : Build} {g : Proto.PrimitiveGroup} {gr : Int32} {la lo : Int64} {dg : Int32} {raw : Proto.StringTable}
    {f : StringPbf.ObjectFilter} : ∀ o ∈ (StringPbf.decodeGroup b g gr la lo dg raw f).1, Passes f o = true := by
  simp only [StringPbf.decodeGroup]
  split
  · refine withTable_all ?_
    intro t o ho
    cases ho
  · split
    · rename_i hf
      refine withTable_all ?_
      intro t o ho
      obtain ⟨x, rfl⟩ := denseLoop_nodes o ho
      exact hf.2
    · split
      · rename_i hf
        refine withTable_all ?_
        intro t o ho
        obtain ⟨x, rfl⟩ := runAll_map o ho
        exact hf.2
      · split
        · rename_i hf
          refine withTable_all ?_
          intro t o ho
          obtain ⟨x, rfl⟩ := runAll_map o ho
          exact hf.2
        · intro o ho
          cases ho

theorem decodeBlob_passes {zlib : Proto.Bytes → Option Proto.Bytes} {b : Build} {f : StringPbf.ObjectFilter} (blob : Proto.Blob) :
    ∀ o ∈ (StringPbf.decodeBlob zlib b f blob).1, Passes f o = true := by
  unfold StringPbf.decodeBlob
  split
  · intro o ho; cases ho
  · split
    · intro o ho; cases ho
    · split
      · intro o ho; cases ho
      · unfold StringPbf.decodeBlock
        split
        · intro o ho; cases ho
        · split
          · exact decodeGroup_passes
          · intro o ho; cases ho

/-- Draining with a filter set gives as many objects as the filter lets through only if the groups are as they should be. -/
theorem filter_drain_count {zlib : Proto.Bytes → Option Proto.Bytes} {b : Build} {f : StringPbf.ObjectFilter} {src s' : Source}
    {bs : List Proto.Blob} {e : Option Panic} (hs : Stream src bs e s') {os xs : List StringOSMObj} {sa : Bool} {t t' : StringPbf.PBFReader}
    (h : Drain (StringPbf.PBFReader.next zlib b) ⟨src, [], sa, (true, true, true)⟩ os none t)
    (h' : Drain (StringPbf.PBFReader.next zlib b) ⟨src, [], sa, f⟩ xs none t') :
    (∀ o ∈ xs, Passes f o = true) ∧ (xs.length = (os.filter (Passes f)).length → ∀ blob ∈ bs, BlobGroups zlib (Kept f) blob) := by
  obtain ⟨t1, d1, _⟩ := stream_drain (StringPbf.decodeBlob zlib b (true, true, true)) hs
  have d3 := drain_map (φ := strState sa (true, true, true)) (str_next zlib b sa _) d1
  obtain ⟨rfl, he, _⟩ := h.unique d3
  obtain ⟨t2, c1, _⟩ := stream_drain (StringPbf.decodeBlob zlib b f) hs
  have c3 := drain_map (φ := strState sa f) (str_next zlib b sa f) c1
  obtain ⟨rfl, he', _⟩ := h'.unique c3
  refine ⟨runBlobs_all decodeBlob_passes bs, fun hl => ?_⟩
  obtain ⟨_, oss, h1, h2⟩ := runBlobs_none.1 (Prod.ext (x := runBlobs (StringPbf.decodeBlob zlib b (true, true, true)) e bs)
    (y := (_, none)) rfl he.symm)
  obtain ⟨_, oss', h1', h2'⟩ := runBlobs_none.1 (Prod.ext (x := runBlobs (StringPbf.decodeBlob zlib b f) e bs)
    (y := (_, none)) rfl he'.symm)
  have h3 : List.Forall₂ (fun blob ys => ∃ os, StringPbf.decodeBlob zlib b (true, true, true) blob = (os, none) ∧ ys = os.filter (Passes f)) bs
      (oss.map (List.filter (Passes f))) := by
    rw [List.forall₂_map_right_iff]
    exact forall2_imp_mem (fun _ _ os h => ⟨os, h, rfl⟩) h1
  refine (lengths_flatten (P := BlobGroups zlib (Kept f)) h1' h3 ?_).2 ?_
  · rintro blob _ xs _ h ⟨os, h', rfl⟩
    exact filter_blob_count h' h
  · have e5 := (congrArg (List.filter (Passes f)) h2).trans List.filter_flatten
    rw [← e5, ← hl, ← h2']

theorem groups_file {P : Proto.PrimitiveGroup → Prop} {zlib : Proto.Bytes → Option Proto.Bytes} {bs : List Proto.Blob}
    {blocks : List Proto.PrimitiveBlock}
    (h : List.Forall₂ (fun blob block => ∃ data, ZlibStored zlib blob data ∧ Proto.PrimitiveBlock.parseFromBytes data = some block) bs blocks)
    (hb : ∀ blob ∈ bs, BlobGroups zlib P blob) : ∀ block ∈ blocks, ∀ g ∈ block.primitivegroup, P g := by
  induction h with
  | nil => simp
  | cons h _ ih =>
    intro block hm
    rcases List.mem_cons.1 hm with rfl | hm
    · obtain ⟨data, h1, h2⟩ := h
      exact hb _ (by simp) data block (str_zlibStored h1) h2
    · exact ih (fun b hm => hb b (by simp [hm])) block hm

/-- Exactly when a filter gives the objects of its kind. -/
theorem filter_file_iff {zlib : Proto.Bytes → Option Proto.Bytes} {b : Build} {fs : List Frame}
    {os : List (Option Proto.PrimitiveBlock)} (hf : List.Forall₂ (FrameIs (ZlibStored zlib)) fs os) {f : StringPbf.ObjectFilter} {t : StringPbf.PBFReader}
    {objs : List StringOSMObj} {X : Type} {into : StringOSMObj → Option X} (hi : ∀ o, (into o).isSome = Passes f o)
    (h : Drain (StringPbf.PBFReader.next zlib b) (StringPbf.PBFReader.new (source (fileBytes fs))) objs none t) :
    (∃ xs t', Drain (StringPbf.PBFReader.next zlib b) { StringPbf.PBFReader.new (source (fileBytes fs)) with filter := f } xs none t' ∧
      xs.filterMap into = objs.filterMap into) ↔ ∀ block, some block ∈ os → ∀ g ∈ block.primitivegroup, Kept f g := by
  have hfm : ∀ l : List StringOSMObj, (l.filterMap into).length = (l.filter (Passes f)).length := by
    intro l
    induction l with
    | nil => rfl
    | cons o l ih =>
      have := hi o
      cases ho : into o with
      | none =>
        rw [ho] at this
        rw [List.filterMap_cons_none ho, List.filter_cons_of_neg (by rw [← this]; simp), ih]
      | some x =>
        rw [ho] at this
        rw [List.filterMap_cons_some ho, List.filter_cons_of_pos (by rw [← this]; rfl), List.length_cons, List.length_cons, ih]
  obtain ⟨bs, h1, h2⟩ := file_stream hf
  constructor
  · rintro ⟨xs, t', h3, h4⟩
    obtain ⟨h5, h6⟩ := filter_drain_count h1 h h3
    have := groups_file h2 (h6 (by rw [← hfm, ← h4, hfm, filter_all h5]))
    intro block hb
    exact this block (by simpa using hb)
  · intro hk
    obtain ⟨bs', h1', h2'⟩ := file_groups hf hk
    obtain ⟨rfl, _, _⟩ := h1.unique h1'
    obtain ⟨os', h3, rfl⟩ := filter_drain (f := f) h1 h2' h
    refine ⟨_, _, h3, ?_⟩
    rw [List.nil_append, List.filterMap_filter]
    congr 1
    funext o
    have := hi o
    cases ho : into o with
    | none => simp
    | some x => rw [ho] at this; rw [if_pos (by rw [← this]; rfl)]

end Osmio
