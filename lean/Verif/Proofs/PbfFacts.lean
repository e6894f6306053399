import Verif.Proofs.PbfComplete
/-! # Proofs: what is true of every object of an accepted block -/

namespace Osmio
open Spec.Pbf

/-! ## Builds with overflow checks -/

theorem i64_debug {x : Int} {y : Int64} (h : Build.debug.i64 x = .ok y) : FitsI64 x := by
  unfold Build.i64 at h
  split at h
  · assumption
  · cases h

theorem i32_debug {x : Int} {y : Int32} (h : Build.debug.i32 x = .ok y) : FitsI32 x := by
  unfold Build.i32 at h
  split at h
  · assumption
  · cases h

theorem runningSums_debug {last : Int64} {ds r : List Int64} (h : StringPbf.runningSums .debug last ds = .ok r) :
    ∀ i < ds.length, FitsI64 (last.toInt + runningSum (ints ds) i) := by
  induction ds generalizing last r with
  | nil => intro i hi; simp at hi
  | cons d ds ih =>
    simp only [StringPbf.runningSums, bind_ok] at h
    obtain ⟨x, h1, r', h2, _⟩ := h
    have f := i64_debug h1
    have e : ints (d :: ds) = d.toInt :: ints ds := rfl
    intro i hi
    rw [e]
    cases i with
    | zero => simpa [runningSum] using f
    | succ i =>
      have := ih h2 i (by simpa using hi)
      rw [i64_ok h1, toInt_ofInt64 f] at this
      simpa only [runningSum, List.take_succ_cons, List.sum_cons, Int.add_assoc] using this

theorem undelta_debug {ds r : List Int64} (h : StringPbf.undelta .debug ds = .ok r) :
    ∀ x ∈ runningSums (ints ds), FitsI64 x := by
  intro x hx
  unfold runningSums at hx
  simp only [List.mem_map, List.mem_range] at hx
  obtain ⟨i, hi, rfl⟩ := hx
  cases ds with
  | nil => simp [ints] at hi
  | cons d ds =>
    simp only [StringPbf.undelta, bind_ok] at h
    obtain ⟨r', h2, _⟩ := h
    have e : ints (d :: ds) = d.toInt :: ints ds := rfl
    rw [e] at hi ⊢
    cases i with
    | zero => simpa [runningSum] using fits64 d
    | succ i =>
      have := runningSums_debug h2 i (by simpa [ints] using hi)
      simpa only [runningSum, List.take_succ_cons, List.sum_cons] using this

theorem internalCoord_debug {g : Int32} {off : Int64} {raw y : Int32} (h : NodePos.internalCoord .debug g off raw = .ok y) :
    FitsI32 (raw.toInt * g.toInt.tdiv 100) ∧ FitsI32 (raw.toInt * g.toInt.tdiv 100 + (Int32.ofInt (off.toInt.tdiv 100)).toInt) := by
  obtain ⟨x, h1, h2⟩ := bind_ok.1 h
  have f1 := i32_debug h1
  have f2 := i32_debug h2
  rw [i32_ok h1, toInt_ofInt32 f1] at f2
  exact ⟨f1, f2⟩

/-- What the checks of a debug build guarantee for the position of a node. -/
structure PosChecked (dense : Proto.DenseNodes) (g : Int32) (la lo : Int64) (i : Nat) : Prop where
  id : FitsI64 (runningSum (ints dense.id) i)
  lat : FitsI32 (runningSum (ints dense.lat) i * g.toInt.tdiv 100 + (Int32.ofInt (la.toInt.tdiv 100)).toInt)
  lon : FitsI32 (runningSum (ints dense.lon) i * g.toInt.tdiv 100 + (Int32.ofInt (lo.toInt.tdiv 100)).toInt)

theorem pos_step_debug {dense : Proto.DenseNodes} {g : Int32} {la lo : Int64} {i : Nat} {s s' : NodePos.State}
    {p : NodePos.NodeIdPos} (hs : PosExact dense i s) (h : NodePos.step .debug dense g la lo i s = .ok (p, s')) :
    PosChecked dense g la lo i ∧ PosExact dense (i + 1) s' := by
  simp only [NodePos.step, bind_ok] at h
  obtain ⟨did, h1, id, h2, dlat, h3, rl, h4, dlon, h5, rlo, h6, lat, h7, lon, h8, h9⟩ := h
  cases h9
  rw [index_ok] at h1 h3 h5
  have f := i64_debug h2
  have e1 : did.toInt + s.lastId.toInt = runningSum (ints dense.id) i := by
    rw [hs.id, runningSum_of (ints_get h1), Int.add_comm]
  have e2 : rl.toInt = runningSum (ints dense.lat) i := by
    rw [rawCoord_ok h4, hs.lat, runningSum_of (ints_get h3), Int.add_comm]
  have e3 : rlo.toInt = runningSum (ints dense.lon) i := by
    rw [rawCoord_ok h6, hs.lon, runningSum_of (ints_get h5), Int.add_comm]
  rw [e1] at f h2
  refine ⟨⟨f, ?_, ?_⟩, ⟨?_, e2, e3⟩⟩
  · rw [← e2]; exact (internalCoord_debug h7).2
  · rw [← e3]; exact (internalCoord_debug h8).2
  · rw [i64_ok h2, toInt_ofInt64 f]; rfl

theorem pos_loop_debug {dense : Proto.DenseNodes} {g : Int32} {la lo : Int64} {n i : Nat} {s : NodePos.State}
    {ps : List NodePos.NodeIdPos} (hs : PosExact dense i s) (h : loopR (NodePos.step .debug dense g la lo) n i s = .ok ps) :
    ∀ j p, ps[j]? = some p → PosChecked dense g la lo (i + j) := by
  induction n generalizing i s ps with
  | zero => cases h; intro j p hj; cases hj
  | succ n ih =>
    obtain ⟨x, s', r, h1, h2, rfl⟩ := loopR_succ.1 h
    obtain ⟨e, hs'⟩ := pos_step_debug hs h1
    intro j p hj
    cases j with
    | zero => exact e
    | succ j =>
      have := ih hs' h2 j p hj
      rw [Nat.add_assoc, Nat.add_comm 1 j] at this
      exact this

/-- What the checks of a debug build guarantee for the metadata of a node. -/
structure MetaChecked (info : Proto.DenseInfo) (i : Nat) : Prop where
  changeset : FitsI64 (runningSum (ints info.changeset) i)
  uid : FitsI32 (runningSum (ints32 info.uid) i)
  user : FitsI32 (runningSum (ints32 info.userSid) i)

structure MetaExact' (info : Proto.DenseInfo) (i : Nat) (s : MState) : Prop where
  changeset : s.lastChangeset.toInt = ((ints info.changeset).take i).sum
  uid : s.lastUid.toInt = ((ints32 info.uid).take i).sum
  userSid : s.lastUserSid.toInt = ((ints32 info.userSid).take i).sum

theorem delta64_debug {l : List Int64} {i : Nat} {last y : Int64} (hl : last.toInt = ((ints l).take i).sum)
    (h : StringPbf.delta64 .debug l i last = .ok y) : FitsI64 (runningSum (ints l) i) ∧ y.toInt = runningSum (ints l) i := by
  obtain ⟨d, h1, h2⟩ := bind_ok.1 h
  have f := i64_debug h2
  rw [hl, Int.add_comm, ← runningSum_of (ints_get (index_ok.1 h1))] at f h2
  exact ⟨f, by rw [i64_ok h2, toInt_ofInt64 f]⟩

theorem delta32_debug {l : List Int32} {i : Nat} {last y : Int32} (hl : last.toInt = ((ints32 l).take i).sum)
    (h : StringPbf.delta32 .debug l i last = .ok y) : FitsI32 (runningSum (ints32 l) i) ∧ y.toInt = runningSum (ints32 l) i := by
  obtain ⟨d, h1, h2⟩ := bind_ok.1 h
  have f := i32_debug h2
  rw [hl, Int.add_comm, ← runningSum_of (ints32_get (index_ok.1 h1))] at f h2
  exact ⟨f, by rw [i32_ok h2, toInt_ofInt32 f]⟩

theorem meta_loop_debug {info : Proto.DenseInfo} {dg : Int32} {n i : Nat} {s : MState} {ms : List Meta}
    (hs : MetaExact' info i s) (h : loopR (metaStep .debug info dg) n i s = .ok ms) :
    ∀ j m, ms[j]? = some m → MetaChecked info (i + j) := by
  induction n generalizing i s ms with
  | zero => cases h; intro j p hj; cases hj
  | succ n ih =>
    obtain ⟨x, s', r, h1, h2, rfl⟩ := loopR_succ.1 h
    simp only [metaStep, bind_ok] at h1
    obtain ⟨cs, a1, uid, a2, us, a3, ts, a4, _, a5, v, a6, a7⟩ := h1
    cases a7
    obtain ⟨f1, e1⟩ := delta64_debug hs.changeset a1
    obtain ⟨f2, e2⟩ := delta32_debug hs.uid a2
    obtain ⟨f3, e3⟩ := delta32_debug hs.userSid a3
    intro j p hj
    cases j with
    | zero => exact ⟨f1, f2, f3⟩
    | succ j =>
      have := ih ⟨e1, e2, e3⟩ h2 j p hj
      rw [Nat.add_assoc, Nat.add_comm 1 j] at this
      exact this

/-! ## Ways and relations -/

theorem stringAt_raw {raw : Proto.StringTable} {i : Nat} {x : Str} :
    index (raw.s.map Utf8.decode) i = .ok (some x) ↔ stringAt raw i = some x := by
  rw [index_ok, List.getElem?_map]
  unfold stringAt
  rw [if_neg (by omega), Int.toNat_natCast]
  cases raw.s[i]? <;> simp

theorem stringAt_raw32 {raw : Proto.StringTable} {i : Int32} {x : Str} :
    indexI32 (raw.s.map Utf8.decode) i = .ok (some x) ↔ stringAt raw i.toInt = some x := by
  unfold indexI32
  by_cases hi : i.toInt < 0
  · rw [if_pos hi]
    simp [stringAt, hi]
  · rw [if_neg hi, stringAt_raw, Int.toNat_of_nonneg (by omega)]

/-- Metadata as it is shown. -/
structure InfoFacts (r : Which) (raw : Proto.StringTable) (i : Proto.Info) (v : Spec.View) : Prop where
  version : ∃ x, i.version = some x ∧ v.version = some (UInt32.ofInt x.toInt)
  timestamp : ∃ x, i.timestamp = some x ∧ v.timestamp = some (.epoch x)
  changeset : ∃ x, i.changeset = some x ∧ v.changesetId = some (UInt32.ofInt x.toInt)
  uid : ∃ x, i.uid = some x ∧ v.uid = some (UInt32.ofInt x.toInt)
  user : ∃ x s, i.userSid = some x ∧ stringAt raw x.toNat = some s ∧ v.user = some s
  owned : r = .owned → v.deleted = !(i.visible.getD false)
  shared : r = .shared → ∃ x, i.visible = some x ∧ v.deleted = !x

structure WayFacts (r : Which) (b : Build) (raw : Proto.StringTable) (w : Proto.Way) (d : Spec.ObjData) : Prop where
  kind : d.view.kind = .way
  id : d.view.id = w.id.getD 0
  nodes : d.nodes = (runningSums (ints w.refs)).map Int64.ofInt
  checked : b = .debug → ∀ x ∈ runningSums (ints w.refs), FitsI64 x
  info : InfoFacts r raw (w.info.getD {}) d.view
  tags : TableValid raw →
    List.Forall₂ (fun (kv : UInt32 × UInt32) tag => PairAt raw kv.1.toNat kv.2.toNat tag) (w.keys.zip w.vals) d.view.tags
  pos : d.pos = none
  members : d.members = []

structure RelFacts (r : Which) (b : Build) (raw : Proto.StringTable) (w : Proto.Relation) (d : Spec.ObjData) : Prop where
  kind : d.view.kind = .relation
  id : d.view.id = w.id.getD 0
  ids : TableValid raw → d.members.map (fun m => m.2.1) =
    ((runningSums (ints w.memids)).map Int64.ofInt).take (min w.types.length w.rolesSid.length)
  parts : TableValid raw → List.Forall₂ (fun (x : (Int32 × Int64) × Int32) m =>
    memberKind m.1 = x.1.1.toInt ∧ m.2.1 = x.1.2 ∧ stringAt raw x.2.toInt = some m.2.2)
      ((w.types.zip ((runningSums (ints w.memids)).map Int64.ofInt)).zip w.rolesSid) d.members
  checked : b = .debug → ∀ x ∈ runningSums (ints w.memids), FitsI64 x
  info : InfoFacts r raw (w.info.getD {}) d.view
  tags : TableValid raw →
    List.Forall₂ (fun (kv : UInt32 × UInt32) tag => PairAt raw kv.1.toNat kv.2.toNat tag) (w.keys.zip w.vals) d.view.tags
  pos : d.pos = none
  nodes : d.nodes = []

theorem str_wayFacts {b : Build} {raw : Proto.StringTable} {t : List Str} (ht : raw.s.map Utf8.decode = t.map some) {w : Proto.Way}
    {d : Spec.ObjData} (h : StrWay b t w d) : WayFacts .owned b raw w d := by
  obtain ⟨id, tags, nodes, ts, cs, uid, sid, ver, user, h1, h2, h3, h4, h5, h6, rfl⟩ := str_decodeWay.1 h
  refine ⟨rfl, by rw [h1]; rfl, undelta_ok h4, ?_, ⟨⟨_, h5.version, rfl⟩, ⟨_, h5.timestamp, rfl⟩, ⟨_, h5.changeset, rfl⟩,
    ⟨_, h5.uid, rfl⟩, ⟨_, user, h5.userSid, (stringAt_nat ht).2 h6, rfl⟩, fun _ => rfl, nofun⟩, fun _ => (str_zipTags ht).1 h3, rfl, rfl⟩
  rintro rfl
  exact undelta_debug h4

theorem arc_wayFacts {b : Build} {raw : Proto.StringTable} {w : Proto.Way}
    {d : Spec.ObjData} (h : ArcWayIs b (raw.s.map Utf8.decode) w d) : WayFacts .shared b raw w d := by
  obtain ⟨tags, nodes, ts, vis, cs, uid, sid, ver, user, h3, h4, h5, h6, h7, rfl⟩ := arc_decodeWay.1 h
  refine ⟨rfl, rfl, undelta_ok h4, ?_, ⟨⟨_, h5.version, rfl⟩, ⟨_, h5.timestamp, rfl⟩, ⟨_, h5.changeset, rfl⟩,
    ⟨_, h5.uid, rfl⟩, ⟨_, user, h5.userSid, stringAt_raw.1 h7, rfl⟩, nofun, fun _ => ⟨vis, h6, rfl⟩⟩, ?_, rfl, rfl⟩
  · rintro rfl
    exact undelta_debug h4
  · intro hv
    obtain ⟨t, ht⟩ := tableValid_iff.1 hv
    rw [ht] at h3
    exact (str_zipTags ht).1 (arc_zipTags h3)

theorem zipMembers_ids {t : List Str} {ts : List Int32} {ids : List ObjId} {rs : List Int32}
    {ms : List (OSMObjectType × ObjId × Str)}
    (h : List.Forall₂ (fun (x : (Int32 × Int64) × Int32) (m : OSMObjectType × ObjId × Str) =>
      StringPbf.memberType x.1.1 = .ok m.1 ∧ m.2.1 = x.1.2 ∧ indexI32 t x.2 = .ok m.2.2) ((ts.zip ids).zip rs) ms) :
    ms.map (fun m => m.2.1) = ids.take (min ts.length rs.length) := by
  induction ts generalizing ids rs ms with
  | nil => cases h; simp
  | cons ty ts ih =>
    cases ids with
    | nil => cases h; simp
    | cons id ids =>
      cases rs with
      | nil => cases h; simp
      | cons r rs =>
        cases h with
        | cons hm h =>
          rw [List.map_cons, ih h, hm.2.1, List.length_cons, List.length_cons, Nat.succ_min_succ, List.take_succ_cons]

theorem zipMembers_parts {raw : Proto.StringTable} {t : List Str} (ht : raw.s.map Utf8.decode = t.map some) {ts : List Int32}
    {ids : List ObjId} {rs : List Int32} {ms : List (OSMObjectType × ObjId × Str)}
    (h : List.Forall₂ (fun (x : (Int32 × Int64) × Int32) (m : OSMObjectType × ObjId × Str) =>
      StringPbf.memberType x.1.1 = .ok m.1 ∧ m.2.1 = x.1.2 ∧ indexI32 t x.2 = .ok m.2.2) ((ts.zip ids).zip rs) ms) :
    List.Forall₂ (fun (x : (Int32 × Int64) × Int32) m =>
      memberKind m.1 = x.1.1.toInt ∧ m.2.1 = x.1.2 ∧ stringAt raw x.2.toInt = some m.2.2) ((ts.zip ids).zip rs) ms :=
  h.imp fun _ _ h => ⟨memberType_ok.1 h.1, h.2.1, (stringAt_int ht).2 h.2.2⟩

theorem str_relFacts {b : Build} {raw : Proto.StringTable} {t : List Str} (ht : raw.s.map Utf8.decode = t.map some)
    {w : Proto.Relation} {d : Spec.ObjData} (h : StrRel b t w d) : RelFacts .owned b raw w d := by
  obtain ⟨tags, ids, ms, ts, cs, uid, sid, ver, user, h2, h3, h4, hm, h5, h6, rfl⟩ := str_decodeRelation.1 h
  refine ⟨rfl, rfl, fun _ => ?_, fun _ => ?_, ?_, ⟨⟨_, h5.version, rfl⟩, ⟨_, h5.timestamp, rfl⟩, ⟨_, h5.changeset, rfl⟩,
    ⟨_, h5.uid, rfl⟩, ⟨_, user, h5.userSid, (stringAt_nat ht).2 h6, rfl⟩, fun _ => rfl, nofun⟩, fun _ => (str_zipTags ht).1 h3, rfl, rfl⟩
  · rw [← undelta_ok h4]; exact zipMembers_ids (str_zipMembers_rel hm)
  · rw [← undelta_ok h4]; exact zipMembers_parts ht (str_zipMembers_rel hm)
  · rintro rfl
    exact undelta_debug h4

theorem arc_relFacts {b : Build} {raw : Proto.StringTable} {w : Proto.Relation}
    {d : Spec.ObjData} (h : ArcRel b (raw.s.map Utf8.decode) w d) : RelFacts .shared b raw w d := by
  obtain ⟨tags, ids, ms, ts, vis, cs, uid, sid, ver, user, h3, h4, hm, h5, h6, h7, rfl⟩ := arc_decodeRelation.1 h
  refine ⟨rfl, rfl, ?_, ?_, ?_, ⟨⟨_, h5.version, rfl⟩, ⟨_, h5.timestamp, rfl⟩, ⟨_, h5.changeset, rfl⟩,
    ⟨_, h5.uid, rfl⟩, ⟨_, user, h5.userSid, stringAt_raw.1 h7, rfl⟩, nofun, fun _ => ⟨vis, h6, rfl⟩⟩, ?_, rfl, rfl⟩
  · intro hv
    obtain ⟨t, ht⟩ := tableValid_iff.1 hv
    rw [ht] at hm
    rw [← undelta_ok h4]
    exact zipMembers_ids (str_of_arc_zipMembers hm)
  · intro hv
    obtain ⟨t, ht⟩ := tableValid_iff.1 hv
    rw [ht] at hm
    rw [← undelta_ok h4]
    exact zipMembers_parts ht (str_of_arc_zipMembers hm)
  · rintro rfl
    exact undelta_debug h4
  · intro hv
    obtain ⟨t, ht⟩ := tableValid_iff.1 hv
    rw [ht] at h3
    exact (str_zipTags ht).1 (arc_zipTags h3)

/-! ## Dense nodes -/

structure NodeFacts (b : Build) (block : Proto.PrimitiveBlock) (raw : Proto.StringTable) (dense : Proto.DenseNodes) (i : Nat)
    (d : Spec.ObjData) : Prop where
  kind : d.view.kind = .node
  id : d.view.id = (posAt dense block.granularityOr block.latOffsetOr block.lonOffsetOr i).1
  pos : d.pos = some (posAt dense block.granularityOr block.latOffsetOr block.lonOffsetOr i).2
  latFits : FitsI32 (runningSum (ints dense.lat) i)
  lonFits : FitsI32 (runningSum (ints dense.lon) i)
  version : ∃ x, (dense.denseinfo.getD {}).version[i]? = some x ∧ d.view.version = some (UInt32.ofInt x.toInt)
  changeset : d.view.changesetId = some (UInt32.ofInt (runningSum (ints (dense.denseinfo.getD {}).changeset) i))
  uid : d.view.uid = some (UInt32.ofInt (runningSum (ints32 (dense.denseinfo.getD {}).uid) i))
  user : ∃ s, stringAt raw (Int32.ofInt (runningSum (ints32 (dense.denseinfo.getD {}).userSid) i)).toInt = some s ∧ d.view.user = some s
  timestamp : dateSeconds block = 1 → d.view.timestamp =
    some (.epoch (Int64.ofInt (Int32.ofInt (runningSum (ints (dense.denseinfo.getD {}).timestamp) i)).toInt))
  compounded : d.view.timestamp = some (.epoch (Int64.ofInt (Int32.ofInt
    (compounded (dateSeconds block).toInt ((ints (dense.denseinfo.getD {}).timestamp).take (i + 1)))).toInt))
  epoch : ∃ x, d.view.timestamp = some (.epoch x)
  visible : d.view.deleted = !((dense.denseinfo.getD {}).visible[i]?.getD true)
  nodes : d.nodes = []
  members : d.members = []
  posChecked : b = .debug → PosChecked dense block.granularityOr block.latOffsetOr block.lonOffsetOr i
  metaChecked : b = .debug → MetaChecked (dense.denseinfo.getD {}) i

/-- The tags of a list of nodes. -/
def TagFacts (raw : Proto.StringTable) (dense : Proto.DenseNodes) (ds : List Spec.ObjData) : Prop :=
  ∃ (segs : List (List (Int32 × Int32))) (rest : List Int32), (∀ seg ∈ segs, ∀ kv ∈ seg, kv.1 ≠ 0) ∧
    (dense.keysVals = keysValsOf segs ++ rest ∨ (dense.keysVals = [] ∧ ∀ seg ∈ segs, seg = [])) ∧
    List.Forall₂ (fun seg d =>
      List.Forall₂ (fun (kv : Int32 × Int32) tag => PairAt raw kv.1.toInt kv.2.toInt tag) seg d.view.tags) segs ds

structure DenseFacts (b : Build) (block : Proto.PrimitiveBlock) (raw : Proto.StringTable) (dense : Proto.DenseNodes)
    (ds : List Spec.ObjData) : Prop where
  node : ∀ i d, ds[i]? = some d → NodeFacts b block raw dense i d
  tags : TableValid raw → TagFacts raw dense ds

theorem u32_wrap64 (x : Int) : UInt32.ofInt (Int64.ofInt x).toInt = UInt32.ofInt x := by
  have h : (Int64.ofInt x).toInt = Int.bmod x Int64.size := Int64.toInt_ofInt
  rw [h]
  simp only [UInt32.ofInt, Int64.size, Int.bmod_def]
  congr 1
  omega

theorem u32_wrap32 (x : Int) : UInt32.ofInt (Int32.ofInt x).toInt = UInt32.ofInt x := by
  have h : (Int32.ofInt x).toInt = Int.bmod x Int32.size := Int32.toInt_ofInt
  rw [h]
  simp only [UInt32.ofInt, Int32.size, Int.bmod_def]
  congr 1
  omega

theorem nodeFacts_of {b : Build} {block : Proto.PrimitiveBlock} {raw : Proto.StringTable} {dense : Proto.DenseNodes} {T : Type}
    {g : T → List (Str × Str)} {ps : List NodePos.NodeIdPos} {ms : List Meta} {ts : List T} {us : List Str}
    (h1 : loopR (NodePos.step b dense block.granularityOr block.latOffsetOr block.lonOffsetOr) dense.id.length 0 {} = .ok ps)
    (h2 : loopR (metaStep b (dense.denseinfo.getD {}) (dateSeconds block)) dense.id.length 0 {} = .ok ms)
    (h3 : List.Forall₂ (fun (m : Meta) u => stringAt raw m.userSid.toInt = some u) ms us) {i : Nat} {d : Spec.ObjData}
    (hd : (combine (fun j p m t u => nodeData p m (g t) u (!visibleAt (dense.denseinfo.getD {}) j)) 0 ps ms ts us)[i]? = some d) :
    NodeFacts b block raw dense i d := by
  obtain ⟨p, m, tg, u, a1, a2, a3, a4, rfl⟩ := (combine_getElem? _).1 hd
  obtain ⟨e1, e2, e3⟩ := pos_loop_ok (posState_zero dense) h1 i p a1
  have e4 := meta_loop_ok (metaState_zero _) h2 i m a2
  have e5 := forall2_get h3 a2 a4
  rw [Nat.zero_add] at *
  subst e1
  refine ⟨rfl, rfl, rfl, e2, e3, ⟨_, e4.version, rfl⟩, ?_, ?_, ⟨u, by rw [← e4.userSid]; exact e5, rfl⟩, ?_, ?_, ⟨_, rfl⟩, rfl, rfl, rfl, ?_, ?_⟩
  · simp only [nodeData]; rw [e4.changeset, u32_wrap64]
  · simp only [nodeData]; rw [e4.uid, u32_wrap32]
  · intro hdg
    rw [hdg] at h2
    have := meta_loop_timestamp (metaState_zero _) rfl h2 i m a2
    rw [Nat.zero_add] at this
    simp only [nodeData]
    rw [this]
  · have := meta_loop_compounded (s := {}) rfl h2 i m a2
    rw [Nat.zero_add] at this
    simp only [nodeData]
    rw [this]
  · rintro rfl
    have := pos_loop_debug (posExact_zero dense) h1 i _ a1
    rwa [Nat.zero_add] at this
  · rintro rfl
    have := meta_loop_debug (s := {}) ⟨rfl, rfl, rfl⟩ h2 i _ a2
    rwa [Nat.zero_add] at this

theorem combine_length {P M T U N : Type} (mk : Nat → P → M → T → U → N) {i n : Nat} {ps : List P} {ms : List M} {ts : List T}
    {us : List U} (h1 : ps.length = n) (h2 : ms.length = n) (h3 : ts.length = n) (h4 : us.length = n) :
    (combine mk i ps ms ts us).length = n := by
  induction n generalizing i ps ms ts us with
  | zero => simp only [List.length_eq_zero_iff] at h1; subst h1; simp [combine]
  | succ n ih =>
    cases ps <;> cases ms <;> cases ts <;> cases us <;> simp at h1 h2 h3 h4
    simp [combine, ih h1 h2 h3 h4]

theorem str_denseFacts {b : Build} {block : Proto.PrimitiveBlock} {raw : Proto.StringTable} {t : List Str}
    (ht : raw.s.map Utf8.decode = t.map some) {dense : Proto.DenseNodes} {ds : List Spec.ObjData} (h : StrDense b block t dense ds) :
    ds.length = dense.id.length ∧ DenseFacts b block raw dense ds := by
  obtain ⟨ps, ms, ts, us, h1, h2, h3, h4, rfl⟩ := str_loop.1 h
  have l4 := h4.length_eq
  have l2 := loopR_length h2
  have l3 := loopR_length h3
  have hl := combine_length (i := 0) (us := us) (fun j p m t u => nodeData p m t u (!visibleAt (dense.denseinfo.getD {}) j)) (loopR_length h1) l2 l3
    (by omega)
  refine ⟨hl, ⟨fun i d hd => nodeFacts_of (g := fun t => t) h1 h2 (h4.imp fun m u h => (stringAt_int ht).2 h) hd, fun _ => ?_⟩⟩
  obtain ⟨segs, rest, hs, hk, hkv⟩ := str_tags_form h3
  have hkv' : dense.keysVals = keysValsOf segs ++ rest := hkv
  refine ⟨segs, rest, hk, .inl hkv', forall2_of_get (by rw [hl, hs]) ?_⟩
  intro i seg d h5 h6
  obtain ⟨p, m, tg, u, a1, a2, a3, a4, rfl⟩ := (combine_getElem? _).1 h6
  have h3' : loopR (fun _ kv => StringPbf.denseTags t kv) segs.length 0 (keysValsOf segs ++ rest) = .ok ts := by
    rw [hs, ← hkv']; exact h3
  exact forall2_get ((str_tags_loop ht hk).1 h3') h5 a3

theorem arc_denseFacts {b : Build} {block : Proto.PrimitiveBlock} {raw : Proto.StringTable}
    {dense : Proto.DenseNodes} {ds : List Spec.ObjData} (h : ArcDense b block (raw.s.map Utf8.decode) dense ds) :
    ds.length = dense.id.length ∧ DenseFacts b block raw dense ds := by
  obtain ⟨ps, ms, ts, us, h1, h2, h3, h4, rfl⟩ := arc_loop.1 h
  have l4 := h4.length_eq
  have l2 := loopR_length h2
  have l3 := loopR_length h3
  have hl := combine_length (i := 0) (us := us) (fun j p m (t : Option (List (Str × Str))) u =>
    nodeData p m (t.getD []) u (!visibleAt (dense.denseinfo.getD {}) j)) (loopR_length h1) l2 l3 (by omega)
  refine ⟨hl, ⟨fun i d hd => nodeFacts_of (g := fun t : Option (List (Str × Str)) => t.getD []) h1 h2
    (h4.imp fun m u h => stringAt_raw32.1 h) hd, fun hv => ?_⟩⟩
  obtain ⟨t, ht⟩ := tableValid_iff.1 hv
  by_cases hn : dense.keysVals = []
  · refine ⟨List.replicate dense.id.length [], [], ?_, .inr ⟨hn, fun seg hs => List.eq_of_mem_replicate hs⟩,
      forall2_of_get (by rw [hl]; simp) ?_⟩
    · intro seg hs kv hkv
      rw [List.eq_of_mem_replicate hs] at hkv
      cases hkv
    · intro i seg d h5 h6
      obtain ⟨p, m, tg, u, a1, a2, a3, a4, rfl⟩ := (combine_getElem? _).1 h6
      rw [List.eq_of_mem_replicate (List.mem_of_getElem? h5)]
      simp only [hn, List.isEmpty_nil, Bool.not_true] at h3
      rw [arc_notags_loop] at h3
      cases h3
      rw [List.eq_of_mem_replicate (List.mem_of_getElem? a3)]
      exact .nil
  · have e : (!dense.keysVals.isEmpty) = true := by simp [hn]
    rw [e, ht] at h3
    obtain ⟨ts', rfl, h8⟩ := (arc_tags_loop ht).1 h3
    obtain ⟨segs, rest, hs, hk, hkv⟩ := str_tags_form h8
    have hkv' : dense.keysVals = keysValsOf segs ++ rest := hkv
    refine ⟨segs, rest, hk, .inl hkv', forall2_of_get (by rw [hl, hs]) ?_⟩
    intro i seg d h5 h6
    obtain ⟨p, m, tg, u, a1, a2, a3, a4, rfl⟩ := (combine_getElem? _).1 h6
    have h3' : loopR (fun _ kv => StringPbf.denseTags t kv) segs.length 0 (keysValsOf segs ++ rest) = .ok ts' := by
      rw [hs, ← hkv']; exact h8
    rw [List.getElem?_map] at a3
    cases h7 : ts'[i]? with
    | none => rw [h7] at a3; cases a3
    | some x =>
      rw [h7] at a3
      cases a3
      exact forall2_get ((str_tags_loop ht hk).1 h3') h5 h7

/-! ## Blocks -/

theorem block_facts {r : Which} {b : Build} {block : Proto.PrimitiveBlock} {ds : List Spec.ObjData} (h : r.objects b block = some ds) :
    EachObject (DenseFacts b block (block.stringtable.getD {})) (WayFacts r b (block.stringtable.getD {}))
      (RelFacts r b (block.stringtable.getD {})) block ds := by
  cases r with
  | owned =>
    obtain ⟨raw, g, h1, h2, h3⟩ := owned_block.1 h
    refine ⟨[ds], ?_, by simp⟩
    rw [h2, h1]
    refine .cons ?_ .nil
    cases h3 with
    | dense t dense ht _ hd h => exact .dense dense hd (str_denseFacts ht h).1 (str_denseFacts ht h).2
    | ways t ht _ hd hw h => exact .ways hd hw (h.imp fun _ _ h => str_wayFacts ht h)
    | relations t ht _ hd hw hr h => exact .relations hd hw hr (h.imp fun _ _ h => str_relFacts ht h)
    | empty _ hd hw hr h => exact .empty hd hw hr h
  | shared =>
    obtain ⟨dss, h1, rfl⟩ := shared_block.1 h
    refine ⟨dss, h1.imp fun g ds h => ?_, rfl⟩
    cases h with
    | dense dense _ hd h => exact .dense dense hd (arc_denseFacts h).1 (arc_denseFacts h).2
    | ways _ hd hw h => exact .ways hd hw (h.imp fun _ _ h => arc_wayFacts h)
    | relations _ hd hw hr h => exact .relations hd hw hr (h.imp fun _ _ h => arc_relFacts h)

theorem Spec.Pbf.EachObject.mono {D D' : Proto.DenseNodes → List Spec.ObjData → Prop} {W W' : Proto.Way → Spec.ObjData → Prop}
    {R R' : Proto.Relation → Spec.ObjData → Prop} {block : Proto.PrimitiveBlock} {ds : List Spec.ObjData}
    (hD : ∀ x y, D x y → D' x y) (hW : ∀ x y, W x y → W' x y) (hR : ∀ x y, R x y → R' x y)
    (h : EachObject D W R block ds) : EachObject D' W' R' block ds := by
  obtain ⟨dss, h1, rfl⟩ := h
  refine ⟨dss, h1.imp fun g ds h => ?_, rfl⟩
  cases h with
  | dense dense hd hl h => exact .dense dense hd hl (hD _ _ h)
  | ways hd hw h => exact .ways hd hw (h.imp hW)
  | relations hd hw hr h => exact .relations hd hw hr (h.imp hR)
  | empty hd hw hr h => exact .empty hd hw hr h

end Osmio
