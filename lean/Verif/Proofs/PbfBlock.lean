import Verif.Proofs.PbfTags
/-! # Proofs: ways, relations, groups and blocks -/

namespace Osmio
open Spec.Pbf

theorem unwrap_ok {α : Type} {o : Option α} {a : α} : unwrap o = .ok a ↔ o = some a := by
  cases o <;> simp [unwrap]

theorem assert_ok {c : Bool} {u : Unit} : StringPbf.assert c = .ok u ↔ c = true := by
  cases c <;> simp [StringPbf.assert]

/-- The getters of a way. -/
def wayData (id : ObjId) (tags : List (Str × Str)) (nodes : List ObjId) (deleted : Bool) (ts cs : Int64) (uid ver : Int32)
    (user : Str) : Spec.ObjData :=
  { view := { id := id, version := some (UInt32.ofInt ver.toInt), deleted := deleted
              changesetId := some (UInt32.ofInt cs.toInt), timestamp := some (.epoch ts)
              uid := some (UInt32.ofInt uid.toInt), user := some user, tags := tags, kind := .way }
    pos := none, nodes := nodes, members := [] }

/-- The getters of a relation. -/
def relData (id : ObjId) (tags : List (Str × Str)) (members : List (OSMObjectType × ObjId × Str)) (deleted : Bool) (ts cs : Int64)
    (uid ver : Int32) (user : Str) : Spec.ObjData :=
  { view := { id := id, version := some (UInt32.ofInt ver.toInt), deleted := deleted
              changesetId := some (UInt32.ofInt cs.toInt), timestamp := some (.epoch ts)
              uid := some (UInt32.ofInt uid.toInt), user := some user, tags := tags, kind := .relation }
    pos := none, nodes := [], members := members }

/-- Metadata that is there. -/
structure InfoIs (i : Proto.Info) (ts cs : Int64) (uid : Int32) (sid : UInt32) (ver : Int32) : Prop where
  timestamp : i.timestamp = some ts
  changeset : i.changeset = some cs
  uid : i.uid = some uid
  userSid : i.userSid = some sid
  version : i.version = some ver

theorem str_decodeWay {b : Build} {t : List Str} {w : Proto.Way} {d : Spec.ObjData} :
    (∃ x, StringPbf.decodeWay b t w = .ok x ∧ objData (StringOSMObj.way x) = d) ↔
      ∃ id tags nodes ts cs uid sid ver user, w.id = some id ∧ w.keys.length = w.vals.length ∧
        StringPbf.zipTags t w.keys w.vals = .ok tags ∧ StringPbf.undelta b w.refs = .ok nodes ∧
        InfoIs (w.info.getD {}) ts cs uid sid ver ∧ index t sid.toNat = .ok user ∧
        d = wayData id tags nodes (!((w.info.getD {}).visible.getD false)) ts cs uid ver user := by
  simp only [StringPbf.decodeWay, bind_ok, unwrap_ok, assert_ok]
  constructor
  · rintro ⟨x, ⟨id, h1, _, h2, tags, h3, nodes, h4, ts, h5, cs, h6, uid, h7, sid, h8, user, h9, ver, h10, h⟩, rfl⟩
    cases h
    exact ⟨id, tags, nodes, ts, cs, uid, sid, ver, user, h1, by simpa using h2, h3, h4, ⟨h5, h6, h7, h8, h10⟩, h9, rfl⟩
  · rintro ⟨id, tags, nodes, ts, cs, uid, sid, ver, user, h1, h2, h3, h4, ⟨h5, h6, h7, h8, h10⟩, h9, rfl⟩
    exact ⟨_, ⟨id, h1, (), by simpa using h2, tags, h3, nodes, h4, ts, h5, cs, h6, uid, h7, sid, h8, user, h9, ver, h10, rfl⟩, rfl⟩

theorem arc_decodeWay {b : Build} {t : List (Option Str)} {w : Proto.Way} {d : Spec.ObjData} :
    (∃ x, ArcPbf.decodeWay b t w = .ok x ∧ objData (ArcOSMObj.way x) = d) ↔
      ∃ tags nodes ts vis cs uid sid ver user,
        ArcPbf.zipTags t w.keys w.vals = .ok tags ∧ StringPbf.undelta b w.refs = .ok nodes ∧
        InfoIs (w.info.getD {}) ts cs uid sid ver ∧ (w.info.getD {}).visible = some vis ∧ index t sid.toNat = .ok (some user) ∧
        d = wayData (w.id.getD 0) tags nodes (!vis) ts cs uid ver user := by
  have e : ∀ l, ArcPbf.undelta b l = StringPbf.undelta b l := by
    intro l
    have : ∀ x l, ArcPbf.runningSums b x l = StringPbf.runningSums b x l := by
      intro x l
      induction l generalizing x with
      | nil => rfl
      | cons d l ih => simp only [ArcPbf.runningSums, StringPbf.runningSums, ih]
    cases l with
    | nil => rfl
    | cons d l => simp only [ArcPbf.undelta, StringPbf.undelta, this]
  simp only [ArcPbf.decodeWay, bind_ok, unwrap_ok, e]
  constructor
  · rintro ⟨x, ⟨tags, h3, nodes, h4, ts, h5, vis, hv, cs, h6, uid, h7, sid, h8, userO, h9, user, h9', ver, h10, h⟩, rfl⟩
    cases h
    subst h9'
    exact ⟨tags, nodes, ts, vis, cs, uid, sid, ver, user, h3, h4, ⟨h5, h6, h7, h8, h10⟩, hv, h9, rfl⟩
  · rintro ⟨tags, nodes, ts, vis, cs, uid, sid, ver, user, h3, h4, ⟨h5, h6, h7, h8, h10⟩, hv, h9, rfl⟩
    exact ⟨_, ⟨tags, h3, nodes, h4, ts, h5, vis, hv, cs, h6, uid, h7, sid, h8, _, h9, user, rfl, ver, h10, rfl⟩, rfl⟩

theorem relData_ext {d d' : Spec.ObjData} (h1 : d.view = d'.view) (h2 : d.pos = d'.pos) (h3 : d.nodes = d'.nodes)
    (h4 : d.members = d'.members) : d = d' := by
  cases d; cases d'; simp_all

theorem str_relData (x : StringRelation) : (objData (StringOSMObj.relation x)).members = x.members_ := List.map_id' _
theorem arc_relData (x : ArcRelation) : (objData (ArcOSMObj.relation x)).members = x.members_ := List.map_id' _

theorem str_decodeRelation {b : Build} {t : List Str} {w : Proto.Relation} {d : Spec.ObjData} :
    (∃ x, StringPbf.decodeRelation b t w = .ok x ∧ objData (StringOSMObj.relation x) = d) ↔
      ∃ tags ids ms ts cs uid sid ver user, w.keys.length = w.vals.length ∧
        StringPbf.zipTags t w.keys w.vals = .ok tags ∧ StringPbf.undelta b w.memids = .ok ids ∧
        StringPbf.zipMembers t w.types ids w.rolesSid = .ok ms ∧
        InfoIs (w.info.getD {}) ts cs uid sid ver ∧ index t sid.toNat = .ok user ∧
        d = relData (w.id.getD 0) tags ms (!((w.info.getD {}).visible.getD false)) ts cs uid ver user := by
  simp only [StringPbf.decodeRelation, bind_ok, unwrap_ok, assert_ok]
  constructor
  · rintro ⟨x, ⟨_, h2, tags, h3, ids, h4, ms, hm, ts, h5, cs, h6, uid, h7, sid, h8, user, h9, ver, h10, h⟩, rfl⟩
    cases h
    exact ⟨tags, ids, ms, ts, cs, uid, sid, ver, user, by simpa using h2, h3, h4, hm, ⟨h5, h6, h7, h8, h10⟩, h9, relData_ext rfl rfl rfl (str_relData _)⟩
  · rintro ⟨tags, ids, ms, ts, cs, uid, sid, ver, user, h2, h3, h4, hm, ⟨h5, h6, h7, h8, h10⟩, h9, rfl⟩
    exact ⟨_, ⟨(), by simpa using h2, tags, h3, ids, h4, ms, hm, ts, h5, cs, h6, uid, h7, sid, h8, user, h9, ver, h10, rfl⟩,
      relData_ext rfl rfl rfl (str_relData _)⟩

theorem arc_undelta {b : Build} {l : List Int64} : ArcPbf.undelta b l = StringPbf.undelta b l := by
  have : ∀ x l, ArcPbf.runningSums b x l = StringPbf.runningSums b x l := by
    intro x l
    induction l generalizing x with
    | nil => rfl
    | cons d l ih => simp only [ArcPbf.runningSums, StringPbf.runningSums, ih]
  cases l with
  | nil => rfl
  | cons d l => simp only [ArcPbf.undelta, StringPbf.undelta, this]

theorem arc_decodeRelation {b : Build} {t : List (Option Str)} {w : Proto.Relation} {d : Spec.ObjData} :
    (∃ x, ArcPbf.decodeRelation b t w = .ok x ∧ objData (ArcOSMObj.relation x) = d) ↔
      ∃ tags ids ms ts vis cs uid sid ver user,
        ArcPbf.zipTags t w.keys w.vals = .ok tags ∧ StringPbf.undelta b w.memids = .ok ids ∧
        ArcPbf.zipMembers t w.types ids w.rolesSid = .ok ms ∧
        InfoIs (w.info.getD {}) ts cs uid sid ver ∧ (w.info.getD {}).visible = some vis ∧ index t sid.toNat = .ok (some user) ∧
        d = relData (w.id.getD 0) tags ms (!vis) ts cs uid ver user := by
  simp only [ArcPbf.decodeRelation, bind_ok, unwrap_ok, arc_undelta]
  constructor
  · rintro ⟨x, ⟨tags, h3, ids, h4, ms, hm, ts, h5, vis, hv, cs, h6, uid, h7, sid, h8, userO, h9, user, h9', ver, h10, h⟩, rfl⟩
    cases h
    subst h9'
    exact ⟨tags, ids, ms, ts, vis, cs, uid, sid, ver, user, h3, h4, hm, ⟨h5, h6, h7, h8, h10⟩, hv, h9, relData_ext rfl rfl rfl (arc_relData _)⟩
  · rintro ⟨tags, ids, ms, ts, vis, cs, uid, sid, ver, user, h3, h4, hm, ⟨h5, h6, h7, h8, h10⟩, hv, h9, rfl⟩
    exact ⟨_, ⟨tags, h3, ids, h4, ms, hm, ts, h5, vis, hv, cs, h6, uid, h7, sid, h8, _, h9, user, rfl, ver, h10, rfl⟩,
      relData_ext rfl rfl rfl (arc_relData _)⟩

/-! ## Lists of messages -/

theorem forAll_data {α O : Type} {f : α → Res O} {D : O → Spec.ObjData} {l : List α} {ds : List Spec.ObjData} :
    (∃ os, ArcPbf.forAll f l = .ok os ∧ os.map D = ds) ↔ List.Forall₂ (fun a d => ∃ x, f a = .ok x ∧ D x = d) l ds := by
  simp only [forAll_ok]
  induction l generalizing ds with
  | nil =>
    constructor
    · rintro ⟨os, h, rfl⟩; cases h; exact .nil
    · intro h; cases h; exact ⟨[], .nil, rfl⟩
  | cons a l ih =>
    constructor
    · rintro ⟨os, h, rfl⟩
      cases h with
      | cons h1 h2 => exact .cons ⟨_, h1, rfl⟩ (ih.1 ⟨_, h2, rfl⟩)
    · intro h
      cases h with
      | cons h1 h2 =>
        obtain ⟨x, h1, rfl⟩ := h1
        obtain ⟨os, h3, rfl⟩ := ih.2 h2
        exact ⟨x :: os, .cons h1 h3, rfl⟩

theorem exists_map_ok {α β : Type} {x : Res α} {f : α → β} {D : β → Spec.ObjData} {d : Spec.ObjData} :
    (∃ y, x.map f = .ok y ∧ D y = d) ↔ ∃ a, x = .ok a ∧ D (f a) = d := by
  simp only [map_ok]
  constructor
  · rintro ⟨_, ⟨a, h, rfl⟩, h2⟩; exact ⟨a, h, h2⟩
  · rintro ⟨a, h, h2⟩; exact ⟨f a, ⟨a, h, rfl⟩, h2⟩

/-- The parts the block gives to the decoders. -/
def dateSeconds (block : Proto.PrimitiveBlock) : Int32 := Int32.ofInt (block.dateGranularityOr.toInt.tdiv 1000)

/-- A list of dense nodes in the owned-string reader. -/
def StrDense (b : Build) (block : Proto.PrimitiveBlock) (t : List Str) (dense : Proto.DenseNodes) (ds : List Spec.ObjData) : Prop :=
  ∃ xs, loopR (StringPbf.denseNode b dense block.granularityOr block.latOffsetOr block.lonOffsetOr (dateSeconds block) t)
      dense.id.length 0 { keysVals := dense.keysVals } = .ok xs ∧ xs.map (fun x => objData (StringOSMObj.node x)) = ds
/-- A list of dense nodes in the shared-string reader. -/
def ArcDense (b : Build) (block : Proto.PrimitiveBlock) (t : List (Option Str)) (dense : Proto.DenseNodes)
    (ds : List Spec.ObjData) : Prop :=
  ∃ xs, loopR (ArcPbf.denseNode b dense block.granularityOr block.latOffsetOr block.lonOffsetOr (dateSeconds block) t)
      dense.id.length 0 { keysVals := dense.keysVals } = .ok xs ∧ xs.map (fun x => objData (ArcOSMObj.node x)) = ds
def StrWay (b : Build) (t : List Str) (w : Proto.Way) (d : Spec.ObjData) : Prop :=
  ∃ x, StringPbf.decodeWay b t w = .ok x ∧ objData (StringOSMObj.way x) = d
def ArcWayIs (b : Build) (t : List (Option Str)) (w : Proto.Way) (d : Spec.ObjData) : Prop :=
  ∃ x, ArcPbf.decodeWay b t w = .ok x ∧ objData (ArcOSMObj.way x) = d
def StrRel (b : Build) (t : List Str) (w : Proto.Relation) (d : Spec.ObjData) : Prop :=
  ∃ x, StringPbf.decodeRelation b t w = .ok x ∧ objData (StringOSMObj.relation x) = d
def ArcRel (b : Build) (t : List (Option Str)) (w : Proto.Relation) (d : Spec.ObjData) : Prop :=
  ∃ x, ArcPbf.decodeRelation b t w = .ok x ∧ objData (ArcOSMObj.relation x) = d

theorem str_dense_group {b : Build} {block : Proto.PrimitiveBlock} {t : List Str} {dense : Proto.DenseNodes} {ds : List Spec.ObjData} :
    (∃ os, StringPbf.decodeDenseNodes b dense block.granularityOr block.latOffsetOr block.lonOffsetOr (dateSeconds block) t = (os, none) ∧
      os.map objData = ds) ↔ StrDense b block t dense ds := by
  simp only [← toRes_ok, StringPbf.decodeDenseNodes, str_denseLoop, map_ok, StrDense]
  constructor
  · rintro ⟨_, ⟨xs, h, rfl⟩, rfl⟩; exact ⟨xs, h, by simp⟩
  · rintro ⟨xs, h, rfl⟩; exact ⟨_, ⟨xs, h, rfl⟩, by simp⟩

theorem arc_dense_group {b : Build} {block : Proto.PrimitiveBlock} {t : List (Option Str)} {dense : Proto.DenseNodes}
    {ds : List Spec.ObjData} :
    (∃ os, ArcPbf.decodeDenseNodes b dense block.granularityOr block.latOffsetOr block.lonOffsetOr (dateSeconds block) t = .ok os ∧
      os.map objData = ds) ↔ ArcDense b block t dense ds := by
  simp only [ArcPbf.decodeDenseNodes, arc_denseLoop, map_ok, ArcDense]
  constructor
  · rintro ⟨_, ⟨xs, h, rfl⟩, rfl⟩; exact ⟨xs, h, by simp⟩
  · rintro ⟨xs, h, rfl⟩; exact ⟨_, ⟨xs, h, rfl⟩, by simp⟩

theorem str_ways_group {b : Build} {t : List Str} {l : List Proto.Way} {ds : List Spec.ObjData} :
    (∃ os, StringPbf.decodeWays b t l = (os, none) ∧ os.map objData = ds) ↔ List.Forall₂ (StrWay b t) l ds := by
  simp only [← toRes_ok, StringPbf.decodeWays, toRes_runAll]
  rw [forAll_data]
  simp only [exists_map_ok]
  rfl

theorem str_rels_group {b : Build} {t : List Str} {l : List Proto.Relation} {ds : List Spec.ObjData} :
    (∃ os, StringPbf.decodeRelations b t l = (os, none) ∧ os.map objData = ds) ↔ List.Forall₂ (StrRel b t) l ds := by
  simp only [← toRes_ok, StringPbf.decodeRelations, toRes_runAll]
  rw [forAll_data]
  simp only [exists_map_ok]
  rfl

theorem arc_ways_group {b : Build} {t : List (Option Str)} {l : List Proto.Way} {ds : List Spec.ObjData} :
    (∃ os, ArcPbf.decodeWays b t l = .ok os ∧ os.map objData = ds) ↔ List.Forall₂ (ArcWayIs b t) l ds := by
  simp only [ArcPbf.decodeWays]
  rw [forAll_data]
  simp only [exists_map_ok]
  rfl

theorem arc_rels_group {b : Build} {t : List (Option Str)} {l : List Proto.Relation} {ds : List Spec.ObjData} :
    (∃ os, ArcPbf.decodeRelations b t l = .ok os ∧ os.map objData = ds) ↔ List.Forall₂ (ArcRel b t) l ds := by
  simp only [ArcPbf.decodeRelations]
  rw [forAll_data]
  simp only [exists_map_ok]
  rfl

/-! ## Groups -/

/-- A group in the owned-string reader. -/
inductive StrGroup (b : Build) (block : Proto.PrimitiveBlock) (raw : Proto.StringTable) (g : Proto.PrimitiveGroup)
    (ds : List Spec.ObjData) : Prop
  | dense (t : List Str) (dense : Proto.DenseNodes) : raw.s.map Utf8.decode = t.map some → g.nodes = [] → g.dense = some dense →
      StrDense b block t dense ds → StrGroup b block raw g ds
  | ways (t : List Str) : raw.s.map Utf8.decode = t.map some → g.nodes = [] → g.dense = none → g.ways ≠ [] →
      List.Forall₂ (StrWay b t) g.ways ds → StrGroup b block raw g ds
  | relations (t : List Str) : raw.s.map Utf8.decode = t.map some → g.nodes = [] → g.dense = none → g.ways = [] → g.relations ≠ [] →
      List.Forall₂ (StrRel b t) g.relations ds → StrGroup b block raw g ds
  | empty : g.nodes = [] → g.dense = none → g.ways = [] → g.relations = [] → ds = [] → StrGroup b block raw g ds

theorem withTable_ok {raw : Proto.StringTable} {f : List Str → List StringOSMObj × Option Panic} {os : List StringOSMObj} :
    StringPbf.withTable raw f = (os, none) ↔ ∃ t, raw.s.map Utf8.decode = t.map some ∧ f t = (os, none) := by
  unfold StringPbf.withTable
  cases h : StringPbf.stringTable raw.s with
  | error p =>
    simp only [Prod.mk.injEq, reduceCtorEq, and_false, false_iff]
    rintro ⟨t, ht, _⟩
    rw [stringTable_ok.2 ht] at h
    cases h
  | ok t =>
    simp only [← stringTable_ok, h, Except.ok.injEq]
    constructor
    · intro h; exact ⟨t, rfl, h⟩
    · rintro ⟨_, rfl, h⟩; exact h

theorem str_group {b : Build} {block : Proto.PrimitiveBlock} {raw : Proto.StringTable} {g : Proto.PrimitiveGroup}
    {ds : List Spec.ObjData} :
    (∃ os, StringPbf.decodeGroup b g block.granularityOr block.latOffsetOr block.lonOffsetOr block.dateGranularityOr raw
      (true, true, true) = (os, none) ∧ os.map objData = ds) ↔ StrGroup b block raw g ds := by
  simp only [StringPbf.decodeGroup, and_true]
  by_cases h1 : g.nodes = []
  · rw [if_neg (by simp [h1])]
    cases h2 : g.dense with
    | some dense =>
      rw [if_pos (by rfl)]
      simp only [withTable_ok]
      constructor
      · rintro ⟨os, ⟨t, ht, h⟩, rfl⟩
        exact .dense t dense ht h1 h2 (str_dense_group.1 ⟨os, h, rfl⟩)
      · intro h
        cases h with
        | dense t dense' ht _ h2' h =>
          rw [h2] at h2'; cases h2'
          obtain ⟨os, h5, rfl⟩ := str_dense_group.2 h
          exact ⟨os, ⟨t, ht, h5⟩, rfl⟩
        | ways t ht _ h2' => rw [h2] at h2'; cases h2'
        | relations t ht _ h2' => rw [h2] at h2'; cases h2'
        | empty _ h2' => rw [h2] at h2'; cases h2'
    | none =>
      rw [if_neg (by simp)]
      by_cases h3 : g.ways = []
      · rw [if_neg (by simp [h3])]
        by_cases h4 : g.relations = []
        · rw [if_neg (by simp [h4])]
          constructor
          · rintro ⟨os, h, rfl⟩; cases h; exact .empty h1 h2 h3 h4 rfl
          · intro h
            cases h with
            | dense t dense' ht _ h2' h => rw [h2] at h2'; cases h2'
            | ways t ht _ _ h3' => exact absurd h3 h3'
            | relations t ht _ _ _ h4' => exact absurd h4 h4'
            | empty _ _ _ _ h => exact ⟨[], rfl, h.symm⟩
        · rw [if_pos h4]
          simp only [withTable_ok]
          constructor
          · rintro ⟨os, ⟨t, ht, h⟩, rfl⟩
            exact .relations t ht h1 h2 h3 h4 (str_rels_group.1 ⟨os, h, rfl⟩)
          · intro h
            cases h with
            | dense t dense' ht _ h2' h => rw [h2] at h2'; cases h2'
            | ways t ht _ _ h3' => exact absurd h3 h3'
            | relations t ht _ _ _ _ h =>
              obtain ⟨os, h5, rfl⟩ := str_rels_group.2 h
              exact ⟨os, ⟨t, ht, h5⟩, rfl⟩
            | empty _ _ _ h4' => exact absurd h4' h4
      · rw [if_pos h3]
        simp only [withTable_ok]
        constructor
        · rintro ⟨os, ⟨t, ht, h⟩, rfl⟩
          exact .ways t ht h1 h2 h3 (str_ways_group.1 ⟨os, h, rfl⟩)
        · intro h
          cases h with
          | dense t dense' ht _ h2' h => rw [h2] at h2'; cases h2'
          | ways t ht _ _ _ h =>
            obtain ⟨os, h5, rfl⟩ := str_ways_group.2 h
            exact ⟨os, ⟨t, ht, h5⟩, rfl⟩
          | relations t ht _ _ h3' => exact absurd h3' h3
          | empty _ _ h3' => exact absurd h3' h3
  · rw [if_pos h1]
    constructor
    · rintro ⟨os, h, rfl⟩
      obtain ⟨t, _, h⟩ := withTable_ok.1 h
      cases h
    · intro h
      cases h with
      | dense _ _ _ h => exact absurd h h1
      | ways _ _ h => exact absurd h h1
      | relations _ _ h => exact absurd h h1
      | empty h => exact absurd h h1

/-- A group in the shared-string reader. -/
inductive ArcGroup (b : Build) (block : Proto.PrimitiveBlock) (t : List (Option Str)) (g : Proto.PrimitiveGroup)
    (ds : List Spec.ObjData) : Prop
  | dense (dense : Proto.DenseNodes) : g.nodes = [] → g.dense = some dense → ArcDense b block t dense ds → ArcGroup b block t g ds
  | ways : g.nodes = [] → g.dense = none → g.ways ≠ [] → List.Forall₂ (ArcWayIs b t) g.ways ds → ArcGroup b block t g ds
  | relations : g.nodes = [] → g.dense = none → g.ways = [] → g.relations ≠ [] → List.Forall₂ (ArcRel b t) g.relations ds →
      ArcGroup b block t g ds

theorem arc_group {b : Build} {block : Proto.PrimitiveBlock} {t : List (Option Str)} {g : Proto.PrimitiveGroup}
    {ds : List Spec.ObjData} :
    (∃ os, ArcPbf.decodeGroup b g block.granularityOr block.latOffsetOr block.lonOffsetOr block.dateGranularityOr t = .ok os ∧
      os.map objData = ds) ↔ ArcGroup b block t g ds := by
  simp only [ArcPbf.decodeGroup]
  by_cases h1 : g.nodes = []
  · rw [if_neg (by simp [h1])]
    cases h2 : g.dense with
    | some dense =>
      rw [if_pos (by rfl)]
      constructor
      · rintro ⟨os, h, rfl⟩
        exact .dense dense h1 h2 (arc_dense_group.1 ⟨os, h, rfl⟩)
      · intro h
        cases h with
        | dense dense' _ h2' h =>
          rw [h2] at h2'; cases h2'
          exact arc_dense_group.2 h
        | ways _ h2' => rw [h2] at h2'; cases h2'
        | relations _ h2' => rw [h2] at h2'; cases h2'
    | none =>
      rw [if_neg (by simp)]
      by_cases h3 : g.ways = []
      · rw [if_neg (by simp [h3])]
        by_cases h4 : g.relations = []
        · rw [if_neg (by simp [h4])]
          constructor
          · rintro ⟨os, h, rfl⟩; cases h
          · intro h
            cases h with
            | dense dense' _ h2' h => rw [h2] at h2'; cases h2'
            | ways _ _ h3' => exact absurd h3 h3'
            | relations _ _ _ h4' => exact absurd h4 h4'
        · rw [if_pos h4]
          constructor
          · rintro ⟨os, h, rfl⟩
            exact .relations h1 h2 h3 h4 (arc_rels_group.1 ⟨os, h, rfl⟩)
          · intro h
            cases h with
            | dense dense' _ h2' h => rw [h2] at h2'; cases h2'
            | ways _ _ h3' => exact absurd h3 h3'
            | relations _ _ _ _ h => exact arc_rels_group.2 h
      · rw [if_pos h3]
        constructor
        · rintro ⟨os, h, rfl⟩
          exact .ways h1 h2 h3 (arc_ways_group.1 ⟨os, h, rfl⟩)
        · intro h
          cases h with
          | dense dense' _ h2' h => rw [h2] at h2'; cases h2'
          | ways _ _ _ h => exact arc_ways_group.2 h
          | relations _ _ h3' => exact absurd h3' h3
  · rw [if_pos h1]
    constructor
    · rintro ⟨os, h, rfl⟩; cases h
    · intro h
      cases h with
      | dense _ h => exact absurd h h1
      | ways h => exact absurd h h1
      | relations h => exact absurd h h1

/-! ## Blocks -/

theorem owned_block {b : Build} {block : Proto.PrimitiveBlock} {ds : List Spec.ObjData} :
    Which.owned.objects b block = some ds ↔
      ∃ raw g, block.stringtable = some raw ∧ block.primitivegroup = [g] ∧ StrGroup b block raw g ds := by
  have e : Which.owned.objects b block = some ds ↔
      ∃ os, StringPbf.decodeBlock b block (true, true, true) = (os, none) ∧ os.map objData = ds := by
    unfold Which.objects
    cases h : StringPbf.decodeBlock b block (true, true, true) with
    | mk os p => cases p <;> simp
  rw [e]
  simp only [← str_group]
  unfold StringPbf.decodeBlock
  cases h1 : block.stringtable with
  | none => simp
  | some raw =>
    match h2 : block.primitivegroup with
    | [] => simp
    | [g] =>
      simp only [Option.some.injEq, List.cons.injEq, and_true]
      constructor
      · intro h; exact ⟨raw, g, rfl, rfl, h⟩
      · rintro ⟨_, _, rfl, rfl, h⟩; exact h
    | g :: g' :: gs => simp

theorem arc_groups {f : Proto.PrimitiveGroup → Res (List ArcOSMObj)} {gs : List Proto.PrimitiveGroup} {ds : List Spec.ObjData} :
    (∃ os, ArcPbf.decodeGroups f gs = .ok os ∧ os.map objData = ds) ↔
      ∃ dss, List.Forall₂ (fun g ds => ∃ os, f g = .ok os ∧ os.map objData = ds) gs dss ∧ ds = dss.flatten := by
  induction gs generalizing ds with
  | nil =>
    constructor
    · rintro ⟨os, h, rfl⟩; cases h; exact ⟨[], .nil, rfl⟩
    · rintro ⟨dss, h, rfl⟩; cases h; exact ⟨[], rfl, rfl⟩
  | cons g gs ih =>
    constructor
    · rintro ⟨os, h, rfl⟩
      simp only [ArcPbf.decodeGroups, bind_ok] at h
      obtain ⟨os1, h1, os2, h2, h3⟩ := h
      cases h3
      obtain ⟨dss, h4, h5⟩ := ih.1 ⟨os2, h2, rfl⟩
      exact ⟨_ :: dss, .cons ⟨os1, h1, rfl⟩ h4, by simp [h5]⟩
    · rintro ⟨dss, h, rfl⟩
      cases h with
      | cons h1 h2 =>
        obtain ⟨os1, h1, rfl⟩ := h1
        obtain ⟨os2, h3, h4⟩ := ih.2 ⟨_, h2, rfl⟩
        refine ⟨os1 ++ os2, ?_, by simp [h4]⟩
        simp only [ArcPbf.decodeGroups, bind_ok]
        exact ⟨os1, h1, os2, h3, rfl⟩

theorem shared_block {b : Build} {block : Proto.PrimitiveBlock} {ds : List Spec.ObjData} :
    Which.shared.objects b block = some ds ↔
      ∃ dss, List.Forall₂ (ArcGroup b block (ArcPbf.stringTable block)) block.primitivegroup dss ∧ ds = dss.flatten := by
  have e : Which.shared.objects b block = some ds ↔ ∃ os, ArcPbf.decodeBlock b block = .ok os ∧ os.map objData = ds := by
    unfold Which.objects
    cases h : ArcPbf.decodeBlock b block <;> simp
  rw [e]
  unfold ArcPbf.decodeBlock
  rw [arc_groups]
  simp only [arc_group]

end Osmio
