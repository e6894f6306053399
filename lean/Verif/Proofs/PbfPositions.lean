import Verif.Proofs.PbfFrames
/-! # Proofs: the reader of positions; the kind filters of the owned-string reader -/

namespace Osmio
open Spec.Pbf Spec

/-! ## Positions -/

theorem positionsOf_append (a c : List ObjData) : positionsOf (a ++ c) = positionsOf a ++ positionsOf c := by
  simp [positionsOf]

theorem positionsOf_flatten (dss : List (List ObjData)) : positionsOf dss.flatten = (dss.map positionsOf).flatten := by
  induction dss with
  | nil => rfl
  | cons d dss ih => rw [List.flatten_cons, positionsOf_append, ih, List.map_cons, List.flatten_cons]

theorem positionsOf_combine {T : Type} {g : T → List (Str × Str)} {v : Nat → Bool} {i : Nat} {ps : List NodePos.NodeIdPos}
    {ms : List Meta} {ts : List T} {us : List Str} (h1 : ms.length = ps.length) (h2 : ts.length = ps.length) (h3 : us.length = ps.length) :
    positionsOf (combine (fun j p m t u => nodeData p m (g t) u (v j)) i ps ms ts us) = ps := by
  induction ps generalizing i ms ts us with
  | nil => cases ms <;> cases ts <;> cases us <;> first | rfl | simp at h1 h2 h3
  | cons p ps ih =>
    cases ms with
    | nil => simp at h1
    | cons m ms =>
      cases ts with
      | nil => simp at h2
      | cons t ts =>
        cases us with
        | nil => simp at h3
        | cons u us =>
          have := ih (i := i + 1) (ms := ms) (ts := ts) (us := us) (by simpa using h1) (by simpa using h2) (by simpa using h3)
          simp only [combine, positionsOf, List.filterMap_cons]
          simp only [positionsOf] at this
          rw [this]
          rfl

theorem str_dense_pos {b : Build} {block : Proto.PrimitiveBlock} {t : List Str} {dense : Proto.DenseNodes} {ds : List ObjData}
    (h : StrDense b block t dense ds) :
    loopR (NodePos.step b dense block.granularityOr block.latOffsetOr block.lonOffsetOr) dense.id.length 0 {} = .ok (positionsOf ds) := by
  obtain ⟨ps, ms, ts, us, h1, h2, h3, h4, rfl⟩ := str_loop.1 h
  have l1 := loopR_length h1
  have l2 := loopR_length h2
  have l3 := loopR_length h3
  have l4 := h4.length_eq
  have := positionsOf_combine (g := id) (v := fun j => !visibleAt (dense.denseinfo.getD {}) j) (i := 0) (ps := ps) (ms := ms) (ts := ts) (us := us) (by omega) (by omega) (by omega)
  simp only [id] at this
  rw [this]
  exact h1

theorem arc_dense_pos {b : Build} {block : Proto.PrimitiveBlock} {t : List (Option Str)} {dense : Proto.DenseNodes} {ds : List ObjData}
    (h : ArcDense b block t dense ds) :
    loopR (NodePos.step b dense block.granularityOr block.latOffsetOr block.lonOffsetOr) dense.id.length 0 {} = .ok (positionsOf ds) := by
  obtain ⟨ps, ms, ts, us, h1, h2, h3, h4, rfl⟩ := arc_loop.1 h
  have l1 := loopR_length h1
  have l2 := loopR_length h2
  have l3 := loopR_length h3
  have l4 := h4.length_eq
  have := positionsOf_combine (g := fun (t : Option (List (Str × Str))) => t.getD []) (v := fun j => !visibleAt (dense.denseinfo.getD {}) j)
    (i := 0) (ps := ps) (ms := ms) (ts := ts) (us := us) (by omega) (by omega) (by omega)
  rw [this]
  exact h1

theorem positionsOf_other {ds : List ObjData} (h : ∀ d ∈ ds, d.view.kind ≠ .node) : positionsOf ds = [] := by
  unfold positionsOf
  rw [List.filterMap_eq_nil_iff]
  intro d hd
  rw [if_neg (h d hd)]

theorem forall2_right {α β : Type} {R : α → β → Prop} {P : β → Prop} (hP : ∀ a b, R a b → P b) {l : List α} {m : List β}
    (h : List.Forall₂ R l m) : ∀ b ∈ m, P b := by
  induction h with
  | nil => simp
  | cons h _ ih =>
    intro c hc
    rcases List.mem_cons.1 hc with rfl | hc
    · exact hP _ _ h
    · exact ih c hc

theorem strWay_kind {b : Build} {t : List Str} {w : Proto.Way} {d : ObjData} (h : StrWay b t w d) : d.view.kind = .way := by
  obtain ⟨_, _, _, _, _, _, _, _, _, _, _, _, _, _, _, rfl⟩ := str_decodeWay.1 h
  rfl
theorem arcWay_kind {b : Build} {t : List (Option Str)} {w : Proto.Way} {d : ObjData} (h : ArcWayIs b t w d) : d.view.kind = .way := by
  obtain ⟨_, _, _, _, _, _, _, _, _, _, _, _, _, _, rfl⟩ := arc_decodeWay.1 h
  rfl
theorem strRel_kind {b : Build} {t : List Str} {w : Proto.Relation} {d : ObjData} (h : StrRel b t w d) : d.view.kind = .relation := by
  obtain ⟨_, _, _, _, _, _, _, _, _, _, _, _, _, _, _, rfl⟩ := str_decodeRelation.1 h
  rfl
theorem arcRel_kind {b : Build} {t : List (Option Str)} {w : Proto.Relation} {d : ObjData} (h : ArcRel b t w d) :
    d.view.kind = .relation := by
  obtain ⟨_, _, _, _, _, _, _, _, _, _, _, _, _, _, _, _, rfl⟩ := arc_decodeRelation.1 h
  rfl

/-- A group in the reader of positions. -/
def PosGroup (b : Build) (block : Proto.PrimitiveBlock) (g : Proto.PrimitiveGroup) (xs : List NodePos.NodeIdPos) : Prop :=
  NodePos.decodeGroup b block.granularityOr block.latOffsetOr block.lonOffsetOr g = (xs, none)

theorem pos_dense_group {b : Build} {block : Proto.PrimitiveBlock} {g : Proto.PrimitiveGroup} {dense : Proto.DenseNodes}
    {xs : List NodePos.NodeIdPos} (h1 : g.nodes = []) (h2 : g.dense = some dense) (h3 : g.ways = []) (h4 : g.relations = [])
    (h : loopR (NodePos.step b dense block.granularityOr block.latOffsetOr block.lonOffsetOr) dense.id.length 0 {} = .ok xs) :
    PosGroup b block g xs := by
  unfold PosGroup NodePos.decodeGroup
  rw [if_neg (by simp [h1]), if_neg (by simp [h3, h4]), h2]
  exact toRes_ok.1 (by rw [pos_loop]; exact h)

theorem pos_other_group {b : Build} {block : Proto.PrimitiveBlock} {g : Proto.PrimitiveGroup} (h1 : g.nodes = [])
    (h2 : g.ways ≠ [] ∨ g.relations ≠ []) : PosGroup b block g [] := by
  unfold PosGroup NodePos.decodeGroup
  rw [if_neg (by simp [h1]), if_pos h2]

theorem str_group_pos {b : Build} {block : Proto.PrimitiveBlock} {raw : Proto.StringTable} {g : Proto.PrimitiveGroup} {ds : List ObjData}
    (hk : OneKind g) (h : StrGroup b block raw g ds) : PosGroup b block g (positionsOf ds) := by
  cases h with
  | dense t dense ht h1 h2 h3 =>
    rcases hk with ⟨_, a, c⟩ | ⟨a, _⟩ | ⟨a, _⟩
    · exact pos_dense_group h1 h2 a c (str_dense_pos h3)
    · rw [h2] at a; cases a
    · rw [h2] at a; cases a
  | ways t ht h1 h2 h3 h4 =>
    rw [positionsOf_other (forall2_right (P := fun d => d.view.kind ≠ .node) (fun a d h => by rw [strWay_kind h]; simp) h4)]
    exact pos_other_group h1 (.inl h3)
  | relations t ht h1 h2 h3 h4 h5 =>
    rw [positionsOf_other (forall2_right (P := fun d => d.view.kind ≠ .node) (fun a d h => by rw [strRel_kind h]; simp) h5)]
    exact pos_other_group h1 (.inr h4)
  | empty h1 h2 h3 h4 h5 =>
    rcases hk with ⟨a, _⟩ | ⟨_, a, _⟩ | ⟨_, _, a⟩
    · exact absurd h2 a
    · exact absurd h3 a
    · exact absurd h4 a

theorem arc_group_pos {b : Build} {block : Proto.PrimitiveBlock} {t : List (Option Str)} {g : Proto.PrimitiveGroup} {ds : List ObjData}
    (hk : OneKind g) (h : ArcGroup b block t g ds) : PosGroup b block g (positionsOf ds) := by
  cases h with
  | dense dense h1 h2 h3 =>
    rcases hk with ⟨_, a, c⟩ | ⟨a, _⟩ | ⟨a, _⟩
    · exact pos_dense_group h1 h2 a c (arc_dense_pos h3)
    · rw [h2] at a; cases a
    · rw [h2] at a; cases a
  | ways h1 h2 h3 h4 =>
    rw [positionsOf_other (forall2_right (P := fun d => d.view.kind ≠ .node) (fun a d h => by rw [arcWay_kind h]; simp) h4)]
    exact pos_other_group h1 (.inl h3)
  | relations h1 h2 h3 h4 h5 =>
    rw [positionsOf_other (forall2_right (P := fun d => d.view.kind ≠ .node) (fun a d h => by rw [arcRel_kind h]; simp) h5)]
    exact pos_other_group h1 (.inr h4)

theorem pos_groups {b : Build} {block : Proto.PrimitiveBlock} {gs : List Proto.PrimitiveGroup} {xss : List (List NodePos.NodeIdPos)}
    (h : List.Forall₂ (PosGroup b block) gs xss) :
    NodePos.decodeGroups (NodePos.decodeGroup b block.granularityOr block.latOffsetOr block.lonOffsetOr) gs = (xss.flatten, none) := by
  induction h with
  | nil => rfl
  | cons h _ ih =>
    unfold PosGroup at h
    simp only [NodePos.decodeGroups, h, ih, List.flatten_cons]

theorem positions_of {b : Build} {block : Proto.PrimitiveBlock} {xss : List (List NodePos.NodeIdPos)}
    (h : List.Forall₂ (PosGroup b block) block.primitivegroup xss) : positions b block = some xss.flatten := by
  unfold positions NodePos.decodeBlock
  rw [pos_groups h]

/-- On blocks that follow the format the reader of positions agrees with either reader of objects. -/
theorem positions_agree {r : Which} {b : Build} {block : Proto.PrimitiveBlock} {ds : List ObjData}
    (hk : ∀ g ∈ block.primitivegroup, OneKind g) (h : r.objects b block = some ds) : positions b block = some (positionsOf ds) := by
  cases r with
  | owned =>
    obtain ⟨raw, g, h1, h2, h3⟩ := owned_block.1 h
    have := positions_of (b := b) (block := block) (xss := [positionsOf ds])
      (by rw [h2]; exact .cons (str_group_pos (hk g (by rw [h2]; simp)) h3) .nil)
    simpa using this
  | shared =>
    obtain ⟨dss, h1, rfl⟩ := shared_block.1 h
    rw [positionsOf_flatten]
    refine positions_of ?_
    rw [List.forall₂_map_right_iff]
    exact forall2_imp_mem (fun g hg ds h => arc_group_pos (hk g hg) h) h1

/-! ## Files -/

theorem readsPositions_frames {zlib : Proto.Bytes → Option Proto.Bytes} {b : Build} {fs : List Frame} {fbs : List (List Proto.Blob)}
    {xss : List (List NodePos.NodeIdPos)} (h : List.Forall₂ FrameBlobs fs fbs)
    (h2 : List.Forall₂ (fun blob xs => NodePos.decodeBlob zlib b blob = (xs, none)) fbs.flatten xss) :
    ReadsPositions zlib b (source (fileBytes fs)) xss.flatten none := by
  have h3 := stream_frames (tail := []) h (.done (s' := []) (readBlob_short (by decide)))
  rw [List.append_nil, List.append_nil] at h3
  have h4 := readsPositions_stream (zlib := zlib) (b := b) h3
  rw [runBlobs_none.2 ⟨rfl, _, h2, rfl⟩] at h4
  exact h4

theorem pos_zlib {zlib : Proto.Bytes → Option Proto.Bytes} {b : Build} {blob : Proto.Blob} {data : Proto.Bytes}
    {block : Proto.PrimitiveBlock} (h : ZlibStored zlib blob data) (hp : Proto.PrimitiveBlock.parseFromBytes data = some block)
    {xs : List NodePos.NodeIdPos} (hx : positions b block = some xs) : NodePos.decodeBlob zlib b blob = (xs, none) :=
  pos_blob.2 ⟨data, str_zlibStored h, block, hp, hx⟩

/-- A file of frames. -/
theorem reads_blocks {stored : Proto.Blob → Proto.Bytes → Prop} {fs : List Frame} {os : List (Option Proto.PrimitiveBlock)}
    (h : List.Forall₂ (FrameIs stored) fs os) :
    ∃ fbs, List.Forall₂ FrameBlobs fs fbs ∧ List.Forall₂ (fun blob block => ∃ data, stored blob data ∧
      Proto.PrimitiveBlock.parseFromBytes data = some block) fbs.flatten (os.filterMap id) := by
  induction h with
  | nil => exact ⟨[], .nil, .nil⟩
  | cons h _ ih =>
    obtain ⟨fbs, h1, h2⟩ := ih
    obtain ⟨fb, h3, ⟨rfl, rfl⟩ | ⟨block, blob, data, rfl, rfl, h4, h5⟩⟩ := frameIs_blobs h
    · exact ⟨[] :: fbs, .cons h3 h1, h2⟩
    · exact ⟨[blob] :: fbs, .cons h3 h1, .cons ⟨data, h4, h5⟩ h2⟩

theorem file_stream {stored : Proto.Blob → Proto.Bytes → Prop} {fs : List Frame} {os : List (Option Proto.PrimitiveBlock)}
    (h : List.Forall₂ (FrameIs stored) fs os) :
    ∃ bs, Stream (source (fileBytes fs)) bs none [] ∧ List.Forall₂ (fun blob block => ∃ data, stored blob data ∧
      Proto.PrimitiveBlock.parseFromBytes data = some block) bs (os.filterMap id) := by
  obtain ⟨fbs, h1, h2⟩ := reads_blocks h
  have h3 := stream_frames (tail := []) h1 (.done (s' := []) (readBlob_short (by decide)))
  rw [List.append_nil, List.append_nil] at h3
  exact ⟨_, h3, h2⟩

/-- Reading a file of frames gives the objects of its blocks, and nothing else, for any way to store blocks that the reader can undo. -/
theorem reads_file_stored {r : Which} {zlib : Proto.Bytes → Option Proto.Bytes} {b : Build} {stored : Proto.Blob → Proto.Bytes → Prop}
    (hs : ∀ {blob data block ds}, stored blob data → Proto.PrimitiveBlock.parseFromBytes data = some block →
      (blobData r zlib b blob = (ds, none) ↔ r.objects b block = some ds)) {fs : List Frame}
    {os : List (Option Proto.PrimitiveBlock)} (h : List.Forall₂ (FrameIs stored) fs os) {ds : List ObjData} :
    Reads r zlib b (source (fileBytes fs)) ds none ↔
      ∃ dss, List.Forall₂ (fun block ds => r.objects b block = some ds) (os.filterMap id) dss ∧ ds = dss.flatten := by
  obtain ⟨bs, h1, h2⟩ := file_stream h
  have key : ∀ {bs : List Proto.Blob} {blocks : List Proto.PrimitiveBlock} {dss : List (List ObjData)},
      List.Forall₂ (fun blob block => ∃ data, stored blob data ∧ Proto.PrimitiveBlock.parseFromBytes data = some block) bs blocks →
      (List.Forall₂ (fun blob ds => blobData r zlib b blob = (ds, none)) bs dss ↔
        List.Forall₂ (fun block ds => r.objects b block = some ds) blocks dss) := by
    intro bs blocks dss h
    induction h generalizing dss with
    | nil => simp
    | cons h _ ih =>
      obtain ⟨data, h3, h4⟩ := h
      constructor
      · intro h
        cases h with
        | cons h5 h6 => exact .cons ((hs h3 h4).1 h5) (ih.1 h6)
      · intro h
        cases h with
        | cons h5 h6 => exact .cons ((hs h3 h4).2 h5) (ih.2 h6)
  rw [reads_none]
  constructor
  · rintro ⟨bs', s', dss, h3, h4, h5⟩
    obtain ⟨rfl, _, _⟩ := h1.unique h3
    exact ⟨dss, (key h2).1 h4, h5⟩
  · rintro ⟨dss, h4, h5⟩
    exact ⟨bs, [], dss, h1, (key h2).2 h4, h5⟩

theorem reads_file {r : Which} {zlib : Proto.Bytes → Option Proto.Bytes} {b : Build} {fs : List Frame}
    {os : List (Option Proto.PrimitiveBlock)} (h : List.Forall₂ (FrameIs (ZlibStored zlib)) fs os) {ds : List ObjData} :
    Reads r zlib b (source (fileBytes fs)) ds none ↔
      ∃ dss, List.Forall₂ (fun block ds => r.objects b block = some ds) (os.filterMap id) dss ∧ ds = dss.flatten :=
  reads_file_stored (fun h1 h2 => blobData_zlib h1 h2) h

theorem positions_file {r : Which} {zlib : Proto.Bytes → Option Proto.Bytes} {b : Build} {fs : List Frame}
    {os : List (Option Proto.PrimitiveBlock)} (h : List.Forall₂ (FrameIs (ZlibStored zlib)) fs os)
    (hk : ∀ block, some block ∈ os → ∀ g ∈ block.primitivegroup, OneKind g) {ds : List ObjData}
    (hr : Reads r zlib b (source (fileBytes fs)) ds none) :
    ReadsPositions zlib b (source (fileBytes fs)) (positionsOf ds) none := by
  obtain ⟨dss, h1, rfl⟩ := (reads_file h).1 hr
  obtain ⟨fbs, h2, h3⟩ := reads_blocks h
  rw [positionsOf_flatten]
  refine readsPositions_frames h2 ?_
  have hk' : ∀ block ∈ os.filterMap id, ∀ g ∈ block.primitivegroup, OneKind g := by
    intro block hb
    exact hk block (by simpa using hb)
  generalize os.filterMap id = blocks at h1 h3 hk'
  generalize fbs.flatten = bs at h3
  clear h hk hr h2
  induction h1 generalizing bs with
  | nil => cases h3; exact .nil
  | cons h _ ih =>
    cases h3 with
    | cons h4 h5 =>
      obtain ⟨data, h6, h7⟩ := h4
      exact .cons (pos_zlib h6 h7 (positions_agree (hk' _ (by simp)) h)) (ih (fun b hb => hk' b (by simp [hb])) _ h5)

/-! ## Kind filters -/

/-- What a filter lets through. -/
def Passes (f : StringPbf.ObjectFilter) (o : StringOSMObj) : Bool :=
  match o with
  | .node _ => f.1
  | .way _ => f.2.1
  | .relation _ => f.2.2

theorem denseLoop_nodes {step : Nat → StringPbf.DenseState → Res (StringNode × StringPbf.DenseState)} {n i : Nat}
    {s : StringPbf.DenseState} : ∀ o ∈ (StringPbf.denseLoop step n i s).1, ∃ x, o = .node x := by
  induction n generalizing i s with
  | zero => intro o ho; cases ho
  | succ n ih =>
    intro o ho
    simp only [StringPbf.denseLoop] at ho
    cases h : step i s with
    | error p => rw [h] at ho; cases ho
    | ok x =>
      rw [h] at ho
      rcases List.mem_cons.1 ho with rfl | ho
      · exact ⟨_, rfl⟩
      · exact ih o ho

theorem runAll_map {α β γ : Type} {f : α → Res β} {c : β → γ} {l : List α} :
    ∀ o ∈ (runAll (fun a => (f a).map c) l).1, ∃ x, o = c x := by
  induction l with
  | nil => intro o ho; cases ho
  | cons a l ih =>
    intro o ho
    simp only [runAll] at ho
    cases h : f a with
    | error p => rw [h] at ho; cases ho
    | ok x =>
      rw [h] at ho
      rcases List.mem_cons.1 ho with rfl | ho
      · exact ⟨_, rfl⟩
      · exact ih o ho

theorem withTable_all {P : StringOSMObj → Prop} {raw : Proto.StringTable} {f : List Str → List StringOSMObj × Option Panic}
    (h : ∀ t, ∀ o ∈ (f t).1, P o) : ∀ o ∈ (StringPbf.withTable raw f).1, P o := by
  unfold StringPbf.withTable
  split
  · exact h _
  · intro o ho; cases ho

theorem filter_all {f : StringPbf.ObjectFilter} {os : List StringOSMObj} (h : ∀ o ∈ os, Passes f o = true) : os.filter (Passes f) = os :=
  List.filter_eq_self.2 h

theorem filter_none {f : StringPbf.ObjectFilter} {os : List StringOSMObj} (h : ∀ o ∈ os, Passes f o = false) : os.filter (Passes f) = [] :=
  List.filter_eq_nil_iff.2 fun o ho => by simp [h o ho]

theorem group_dense {b : Build} {g : Proto.PrimitiveGroup} {gr : Int32} {la lo : Int64} {dg : Int32} {raw : Proto.StringTable}
    {dense : Proto.DenseNodes} (h1 : g.nodes = []) (h2 : g.dense = some dense) {f : StringPbf.ObjectFilter} (hf : f.1 = true) :
    StringPbf.decodeGroup b g gr la lo dg raw f = StringPbf.withTable raw fun t =>
      StringPbf.decodeDenseNodes b dense gr la lo (Int32.ofInt (dg.toInt.tdiv 1000)) t := by
  simp only [StringPbf.decodeGroup]
  rw [if_neg (by simp [h1]), if_pos (by simp [h2, hf]), h2]
  rfl

theorem group_ways {b : Build} {g : Proto.PrimitiveGroup} {gr : Int32} {la lo : Int64} {dg : Int32} {raw : Proto.StringTable}
    (h1 : g.nodes = []) (h2 : g.dense = none) (h3 : g.ways ≠ []) {f : StringPbf.ObjectFilter} (hf : f.2.1 = true) :
    StringPbf.decodeGroup b g gr la lo dg raw f = StringPbf.withTable raw fun t => StringPbf.decodeWays b t g.ways := by
  simp only [StringPbf.decodeGroup]
  rw [if_neg (by simp [h1]), if_neg (by simp [h2]), if_pos ⟨h3, hf⟩]

theorem group_rels {b : Build} {g : Proto.PrimitiveGroup} {gr : Int32} {la lo : Int64} {dg : Int32} {raw : Proto.StringTable}
    (h1 : g.nodes = []) (h2 : g.dense = none) (h3 : g.ways = []) (h4 : g.relations ≠ []) {f : StringPbf.ObjectFilter} (hf : f.2.2 = true) :
    StringPbf.decodeGroup b g gr la lo dg raw f = StringPbf.withTable raw fun t => StringPbf.decodeRelations b t g.relations := by
  simp only [StringPbf.decodeGroup]
  rw [if_neg (by simp [h1]), if_neg (by simp [h2]), if_neg (by simp [h3]), if_pos ⟨h4, hf⟩]

theorem group_nothing {b : Build} {g : Proto.PrimitiveGroup} {gr : Int32} {la lo : Int64} {dg : Int32} {raw : Proto.StringTable}
    {f : StringPbf.ObjectFilter} (h1 : g.nodes = []) (h2 : f.1 = true → g.dense = none) (h3 : f.2.1 = true → g.ways = [])
    (h4 : f.2.2 = true → g.relations = []) : StringPbf.decodeGroup b g gr la lo dg raw f = ([], none) := by
  simp only [StringPbf.decodeGroup]
  rw [if_neg (by simp [h1]), if_neg, if_neg, if_neg]
  · rintro ⟨a, c⟩; exact a (h4 c)
  · rintro ⟨a, c⟩; exact a (h3 c)
  · rintro ⟨a, c⟩; rw [h2 c] at a; cases a

theorem group_nodes_nil {b : Build} {g : Proto.PrimitiveGroup} {gr : Int32} {la lo : Int64} {dg : Int32} {raw : Proto.StringTable}
    {os : List StringOSMObj} (h : StringPbf.decodeGroup b g gr la lo dg raw (true, true, true) = (os, none)) : g.nodes = [] := by
  by_contra hn
  simp only [StringPbf.decodeGroup] at h
  rw [if_pos ⟨hn, trivial⟩] at h
  unfold StringPbf.withTable at h
  split at h <;> cases h

/-- The first kind that a group has is one that the filter lets through, or the filter lets through none that the group has. -/
def Kept (f : StringPbf.ObjectFilter) (g : Proto.PrimitiveGroup) : Prop :=
  (g.dense ≠ none → f.1 = false → (f.2.1 = true → g.ways = []) ∧ (f.2.2 = true → g.relations = [])) ∧
    (g.dense = none → g.ways ≠ [] → f.2.1 = false → f.2.2 = true → g.relations = [])

theorem OneKind.kept {g : Proto.PrimitiveGroup} (h : OneKind g) (f : StringPbf.ObjectFilter) : Kept f g := by
  rcases h with ⟨h1, h2, h3⟩ | ⟨h1, h2, h3⟩ | ⟨h1, h2, h3⟩
  · exact ⟨fun _ _ => ⟨fun _ => h2, fun _ => h3⟩, fun h => absurd h h1⟩
  · exact ⟨fun h => absurd h1 h, fun _ _ _ _ => h3⟩
  · exact ⟨fun h => absurd h1 h, fun _ h => absurd h2 h⟩

theorem kept_nodes (g : Proto.PrimitiveGroup) : Kept (true, false, false) g :=
  ⟨fun _ h => (by cases h), fun _ _ _ h => (by cases h)⟩

/-- With a filter set, a group gives what the filter lets through. -/
theorem filter_group {b : Build} {g : Proto.PrimitiveGroup} {gr : Int32} {la lo : Int64} {dg : Int32} {raw : Proto.StringTable}
    {f : StringPbf.ObjectFilter} (hk : Kept f g) {os : List StringOSMObj}
    (h : StringPbf.decodeGroup b g gr la lo dg raw (true, true, true) = (os, none)) :
    StringPbf.decodeGroup b g gr la lo dg raw f = (os.filter (Passes f), none) := by
  have h1 := group_nodes_nil h
  cases h2 : g.dense with
  | some dense =>
    rw [group_dense h1 h2 rfl] at h
    have hn : ∀ o ∈ os, ∃ x, o = StringOSMObj.node x := by
      have := withTable_all (P := fun o => ∃ x, o = StringOSMObj.node x) (raw := raw)
        (f := fun t => StringPbf.decodeDenseNodes b dense gr la lo (Int32.ofInt (dg.toInt.tdiv 1000)) t) (fun t => denseLoop_nodes)
      rw [h] at this
      exact this
    cases hf : f.1 with
    | true =>
      rw [group_dense h1 h2 hf, h, filter_all]
      intro o ho
      obtain ⟨x, rfl⟩ := hn o ho
      exact hf
    | false =>
      rw [filter_none (by intro o ho; obtain ⟨x, rfl⟩ := hn o ho; exact hf)]
      obtain ⟨a, c⟩ := hk.1 (by simp [h2]) hf
      exact group_nothing h1 (by simp [hf]) a c
  | none =>
    by_cases h3 : g.ways = []
    · by_cases h4 : g.relations = []
      · rw [group_nothing h1 (fun _ => h2) (fun _ => h3) (fun _ => h4)] at h
        cases h
        exact group_nothing h1 (fun _ => h2) (fun _ => h3) (fun _ => h4)
      · rw [group_rels h1 h2 h3 h4 rfl] at h
        have hn : ∀ o ∈ os, ∃ x, o = StringOSMObj.relation x := by
          have := withTable_all (P := fun o => ∃ x, o = StringOSMObj.relation x) (raw := raw)
            (f := fun t => StringPbf.decodeRelations b t g.relations) (fun t => runAll_map)
          rw [h] at this
          exact this
        cases hf : f.2.2 with
        | true =>
          rw [group_rels h1 h2 h3 h4 hf, h, filter_all]
          intro o ho
          obtain ⟨x, rfl⟩ := hn o ho
          exact hf
        | false =>
          rw [filter_none (by intro o ho; obtain ⟨x, rfl⟩ := hn o ho; exact hf)]
          exact group_nothing h1 (fun _ => h2) (fun _ => h3) (by simp [hf])
    · rw [group_ways h1 h2 h3 rfl] at h
      have hn : ∀ o ∈ os, ∃ x, o = StringOSMObj.way x := by
        have := withTable_all (P := fun o => ∃ x, o = StringOSMObj.way x) (raw := raw)
          (f := fun t => StringPbf.decodeWays b t g.ways) (fun t => runAll_map)
        rw [h] at this
        exact this
      cases hf : f.2.1 with
      | true =>
        rw [group_ways h1 h2 h3 hf, h, filter_all]
        intro o ho
        obtain ⟨x, rfl⟩ := hn o ho
        exact hf
      | false =>
        rw [filter_none (by intro o ho; obtain ⟨x, rfl⟩ := hn o ho; exact hf)]
        exact group_nothing h1 (fun _ => h2) (by simp [hf]) (hk.2 h2 h3 hf)

theorem filter_block {b : Build} {block : Proto.PrimitiveBlock} {f : StringPbf.ObjectFilter}
    (hk : ∀ g ∈ block.primitivegroup, Kept f g) {os : List StringOSMObj}
    (h : StringPbf.decodeBlock b block (true, true, true) = (os, none)) :
    StringPbf.decodeBlock b block f = (os.filter (Passes f), none) := by
  unfold StringPbf.decodeBlock at h ⊢
  split at h
  · cases h
  · rename_i raw hraw
    split at h
    · rename_i g hg
      exact filter_group (hk g (by rw [hg]; simp)) h
    · cases h

theorem filter_blob {zlib : Proto.Bytes → Option Proto.Bytes} {b : Build} {blob : Proto.Blob} {f : StringPbf.ObjectFilter}
    (hk : ∀ data block, StringPbf.blobRawData zlib blob = .ok data → Proto.PrimitiveBlock.parseFromBytes data = some block →
      ∀ g ∈ block.primitivegroup, Kept f g) {os : List StringOSMObj}
    (h : StringPbf.decodeBlob zlib b (true, true, true) blob = (os, none)) :
    StringPbf.decodeBlob zlib b f blob = (os.filter (Passes f), none) := by
  unfold StringPbf.decodeBlob at h ⊢
  cases h1 : StringPbf.blobRawData zlib blob with
  | error p => rw [h1] at h; cases h
  | ok data =>
    rw [h1] at h
    simp only at h ⊢
    by_cases h2 : data = []
    · rw [if_pos h2] at h ⊢
      cases h
      rfl
    · rw [if_neg h2] at h ⊢
      cases h3 : Proto.PrimitiveBlock.parseFromBytes data with
      | none => rw [h3] at h; cases h
      | some block =>
        rw [h3] at h
        exact filter_block (hk data block h1 h3) h

/-- Draining with a filter set. -/
theorem filter_drain {zlib : Proto.Bytes → Option Proto.Bytes} {b : Build} {f : StringPbf.ObjectFilter} {src s' : Source}
    {bs : List Proto.Blob} {e : Option Panic} (hs : Stream src bs e s')
    (hk : ∀ blob ∈ bs, ∀ data block, StringPbf.blobRawData zlib blob = .ok data → Proto.PrimitiveBlock.parseFromBytes data = some block →
      ∀ g ∈ block.primitivegroup, Kept f g) {buf os : List StringOSMObj} {sa : Bool}
    {t : StringPbf.PBFReader}
    (h : Drain (StringPbf.PBFReader.next zlib b) ⟨src, buf, sa, (true, true, true)⟩ os none t) :
    ∃ os', Drain (StringPbf.PBFReader.next zlib b) ⟨src, buf, sa, f⟩ (buf ++ os'.filter (Passes f)) none { t with filter := f } ∧
      os = buf ++ os' := by
  obtain ⟨t1, d1, d2⟩ := stream_drain (StringPbf.decodeBlob zlib b (true, true, true)) hs
  have d3 := drain_map (φ := strState sa (true, true, true)) (str_next zlib b sa _) (drain_buffer (buf := buf) d1)
  obtain ⟨rfl, he, rfl⟩ := h.unique d3
  obtain ⟨rfl, oss, h1, h2⟩ := runBlobs_none.1 (Prod.ext (x := runBlobs (StringPbf.decodeBlob zlib b (true, true, true)) e bs)
    (y := (_, none)) rfl he.symm)
  refine ⟨_, ?_, rfl⟩
  obtain ⟨t2, c1, c2⟩ := stream_drain (StringPbf.decodeBlob zlib b f) hs
  have h3 : List.Forall₂ (fun blob os => StringPbf.decodeBlob zlib b f blob = (os, none)) bs (oss.map (List.filter (Passes f))) := by
    rw [List.forall₂_map_right_iff]
    exact forall2_imp_mem (fun blob hb os h => filter_blob (hk blob hb) h) h1
  have h4 := runBlobs_none.2 ⟨rfl, _, h3, rfl⟩
  rw [h4] at c1 c2
  have c3 := drain_map (φ := strState sa f) (str_next zlib b sa f) (drain_buffer (buf := buf) c1)
  rw [c2 rfl] at c3
  rw [d2 he.symm]
  have e5 := (congrArg (List.filter (Passes f)) h2).trans List.filter_flatten
  exact (congrArg (fun l => Drain (StringPbf.PBFReader.next zlib b) _ (buf ++ l) none _) e5).mpr c3

theorem file_groups {P : Proto.PrimitiveGroup → Prop} {zlib : Proto.Bytes → Option Proto.Bytes} {fs : List Frame}
    {os : List (Option Proto.PrimitiveBlock)}
    (hf : List.Forall₂ (FrameIs (ZlibStored zlib)) fs os) (hk : ∀ block, some block ∈ os → ∀ g ∈ block.primitivegroup, P g) :
    ∃ bs, Stream (source (fileBytes fs)) bs none [] ∧ ∀ blob ∈ bs, ∀ data block, StringPbf.blobRawData zlib blob = .ok data →
      Proto.PrimitiveBlock.parseFromBytes data = some block → ∀ g ∈ block.primitivegroup, P g := by
  obtain ⟨bs, h1, h2⟩ := file_stream hf
  refine ⟨bs, h1, ?_⟩
  have hk' : ∀ block ∈ os.filterMap id, ∀ g ∈ block.primitivegroup, P g := by
    intro block hb
    exact hk block (by simpa using hb)
  clear h1 hf hk
  generalize os.filterMap id = blocks at h2 hk'
  induction h2 with
  | nil => simp
  | cons h _ ih =>
    intro blob hb data block h3 h4
    rcases List.mem_cons.1 hb with rfl | hb
    · obtain ⟨data', a1, a2⟩ := h
      rw [str_zlibStored a1] at h3
      cases h3
      rw [a2] at h4
      cases h4
      exact hk' _ (by simp)
    · exact ih (fun b hb => hk' b (by simp [hb])) blob hb data block h3 h4

end Osmio
