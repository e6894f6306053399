import Verif.Proofs.PbfBlock
/-! # Proofs: well formed blocks are decoded to what they say -/

namespace Osmio
open Spec.Pbf

theorem u32_of_toNat {y : UInt32} {x : Int} (h : (y.toNat : Int) = x) : UInt32.ofInt x = y := by
  rw [← h]
  apply UInt32.toNat_inj.1
  have := y.toNat_lt
  rw [UInt32.ofInt, UInt32.toNat_ofNat']
  omega

theorem infoIs_of {raw : Proto.StringTable} {i : Proto.Info} {v : Spec.View} (h : HasInfo raw i v) :
    ∃ ts cs uid sid ver user vis, InfoIs i ts cs uid sid ver ∧ i.visible = some vis ∧ stringAt raw sid.toNat = some user ∧
      v.version = some (UInt32.ofInt ver.toInt) ∧ v.deleted = !vis ∧ v.changesetId = some (UInt32.ofInt cs.toInt) ∧
      v.timestamp = some (.epoch ts) ∧ v.uid = some (UInt32.ofInt uid.toInt) ∧ v.user = some user := by
  obtain ⟨ver, y1, a1, a2, a3⟩ := h.version
  obtain ⟨ts, b1, b2⟩ := h.timestamp
  obtain ⟨cs, y2, c1, c2, c3⟩ := h.changeset
  obtain ⟨uid, y3, d1, d2, d3⟩ := h.uid
  obtain ⟨sid, user, e1, e2, e3⟩ := h.user
  obtain ⟨vis, f1, f2⟩ := h.visible
  exact ⟨ts, cs, uid, sid, ver, user, vis, ⟨b1, c1, d1, e1, a1⟩, f1, e2, by rw [a2, u32_of_toNat a3], f2,
    by rw [c2, u32_of_toNat c3], b2, by rw [d2, u32_of_toNat d3], e3⟩

theorem sums_fit {ns : List Int64} {l : List Int64} (h : ns.map Int64.toInt = runningSums (ints l)) :
    (∀ i < l.length, FitsI64 (runningSum (ints l) i)) ∧ (runningSums (ints l)).map Int64.ofInt = ns := by
  constructor
  · intro i hi
    have h1 : (runningSums (ints l))[i]? = some (runningSum (ints l) i) := by
      simp [runningSums, ints, hi]
    rw [← h] at h1
    obtain ⟨x, _, hx⟩ := List.mem_map.1 (List.mem_of_getElem? h1)
    rw [← hx]
    exact fits64 x
  · rw [← h, List.map_map]
    conv_rhs => rw [← List.map_id ns]
    congr 1
    funext x
    exact Int64.ofInt_toInt x

theorem way_complete (b : Build) {raw : Proto.StringTable} {t : List Str} (ht : raw.s.map Utf8.decode = t.map some) {w : Proto.Way}
    {d : Spec.ObjData} (h : IsWay raw w d) : StrWay b t w d ∧ ArcWayIs b (t.map some) w d := by
  obtain ⟨i, hi, hinfo⟩ := h.info
  obtain ⟨ts, cs, uid, sid, ver, user, vis, h1, h2, h3, v1, v2, v3, v4, v5, v6⟩ := infoIs_of hinfo
  obtain ⟨hl, htags⟩ := h.tags
  obtain ⟨f1, f2⟩ := sums_fit h.nodes
  have hu := undelta_fits b f1
  rw [f2] at hu
  have hz := (str_zipTags ht).2 htags
  have he : w.info.getD {} = i := by rw [hi]; rfl
  have hd : d = wayData d.view.id d.view.tags d.nodes (!vis) ts cs uid ver user := by
    obtain ⟨⟨_, _, _, _, _, _, _, _, _⟩, _, _, _⟩ := d
    have k := h.kind
    have p := h.pos
    have m := h.members
    simp only at k p m v1 v2 v3 v4 v5 v6
    subst k p m v1 v2 v3 v4 v5 v6
    rfl
  refine ⟨str_decodeWay.2 ⟨_, _, _, ts, cs, uid, sid, ver, user, h.id, hl, hz, hu, he ▸ h1, (stringAt_nat ht).1 h3, ?_⟩,
    arc_decodeWay.2 ⟨_, _, ts, vis, cs, uid, sid, ver, user, arc_zipTags_of hl hz, hu, he ▸ h1, he ▸ h2,
      index_some.2 ⟨_, rfl, (stringAt_nat ht).1 h3⟩, ?_⟩⟩
  · rw [he, h2]; exact hd
  · rw [h.id]; exact hd

theorem relation_complete (b : Build) {raw : Proto.StringTable} {t : List Str} (ht : raw.s.map Utf8.decode = t.map some)
    {w : Proto.Relation} {d : Spec.ObjData} (h : IsRelation raw w d) : StrRel b t w d ∧ ArcRel b (t.map some) w d := by
  obtain ⟨i, hi, hinfo⟩ := h.info
  obtain ⟨ts, cs, uid, sid, ver, user, vis, h1, h2, h3, v1, v2, v3, v4, v5, v6⟩ := infoIs_of hinfo
  obtain ⟨hl, htags⟩ := h.tags
  have hids : (d.members.map (fun m => m.2.1)).map Int64.toInt = runningSums (ints w.memids) := by
    rw [← h.ids, List.map_map]; rfl
  obtain ⟨f1, f2⟩ := sums_fit hids
  have hu := undelta_fits b f1
  rw [f2] at hu
  have hz := (str_zipTags ht).2 htags
  have he : w.info.getD {} = i := by rw [hi]; rfl
  have l1 := congrArg List.length h.types
  have l3 := congrArg List.length h.roles
  have hm : StringPbf.zipMembers t w.types (d.members.map (fun m => m.2.1)) w.rolesSid = .ok d.members :=
    (str_zipMembers_ok ht (by simpa [ints32] using l1.symm) (by simpa using l3.symm)).2 ⟨h.types, rfl, h.roles⟩
  have hd : d = relData d.view.id d.view.tags d.members (!vis) ts cs uid ver user := by
    obtain ⟨⟨_, _, _, _, _, _, _, _, _⟩, _, _, _⟩ := d
    have k := h.kind
    have p := h.pos
    have m := h.nodes
    simp only at k p m v1 v2 v3 v4 v5 v6
    subst k p m v1 v2 v3 v4 v5 v6
    rfl
  refine ⟨str_decodeRelation.2 ⟨_, _, _, ts, cs, uid, sid, ver, user, hl, hz, hu, hm, he ▸ h1, (stringAt_nat ht).1 h3, ?_⟩,
    arc_decodeRelation.2 ⟨_, _, _, ts, vis, cs, uid, sid, ver, user, arc_zipTags_of hl hz, hu, arc_zipMembers_of (by simpa [ints32] using l1.symm) (by simpa using l3.symm) hm, he ▸ h1, he ▸ h2,
      index_some.2 ⟨_, rfl, (stringAt_nat ht).1 h3⟩, ?_⟩⟩
  · rw [he, h2, h.id]; exact hd
  · rw [h.id]; exact hd

/-! ## Dense nodes -/

theorem tdiv_of_mod {x : Int} (h : x % 100 = 0) : x.tdiv 100 = x / 100 :=
  Int.tdiv_eq_ediv_of_dvd (Int.dvd_of_emod_eq_zero h)

theorem coord_eq {o g s : Int} (ho : o % 100 = 0) (hg : g % 100 = 0) :
    (o + g * s) = (s * g.tdiv 100 + o.tdiv 100) * 100 := by
  obtain ⟨o', rfl⟩ := Int.dvd_of_emod_eq_zero ho
  obtain ⟨g', rfl⟩ := Int.dvd_of_emod_eq_zero hg
  rw [tdiv_of_mod hg, tdiv_of_mod ho, Int.mul_ediv_cancel_left _ (by decide), Int.mul_ediv_cancel_left _ (by decide)]
  ring

theorem getElem?_range'_map {α : Type} (f : Nat → α) {n i : Nat} (h : i < n) : ((List.range' 0 n).map f)[i]? = some (f i) := by
  simp [h]

section Dense
variable {block : Proto.PrimitiveBlock} {raw : Proto.StringTable} {dense : Proto.DenseNodes} {info : Proto.DenseInfo}
  {segs : List (List (Int32 × Int32))} {ds : List Spec.ObjData}

theorem isDense_get (h : IsDense block raw dense info segs ds) {i : Nat} (hi : i < dense.id.length) :
    ∃ seg d, segs[i]? = some seg ∧ ds[i]? = some d ∧ IsDenseNode block raw dense info i seg d := by
  obtain ⟨seg, h1⟩ := getElem?_of_lt (l := segs) (by rw [h.segsLength]; exact hi)
  obtain ⟨d, h2⟩ := getElem?_of_lt (l := ds) (by rw [h.length]; exact hi)
  exact ⟨seg, d, h1, h2, h.node i seg d h1 h2⟩

theorem posRange_of (h : IsDense block raw dense info segs ds) :
    PosRange dense block.granularityOr block.latOffsetOr block.lonOffsetOr dense.id.length := by
  have hr := h.range
  have eg : block.granularityOr.toInt.tdiv 100 = granularity block / 100 := tdiv_of_mod hr.gran
  have ela : block.latOffsetOr.toInt.tdiv 100 = latOffset block / 100 := tdiv_of_mod hr.latOff.1
  have elo : block.lonOffsetOr.toInt.tdiv 100 = lonOffset block / 100 := tdiv_of_mod hr.lonOff.1
  refine ⟨Nat.le_refl _, hr.latLength, hr.lonLength, ?_, ela ▸ hr.latOff.2, elo ▸ hr.lonOff.2, ?_, ?_⟩
  · intro i hi
    obtain ⟨seg, d, _, _, hd⟩ := isDense_get h hi
    rw [← hd.id]
    exact fits64 _
  · intro i hi
    obtain ⟨seg, d, _, _, hd⟩ := isDense_get h hi
    obtain ⟨p, _, hp, _⟩ := hd.lat
    refine ⟨(hr.lat i hi).1, by rw [eg, Int.mul_comm]; exact (hr.lat i hi).2, ?_⟩
    have e : nanoLat block dense i = _ := coord_eq (s := runningSum (ints dense.lat) i) hr.latOff.1 hr.gran
    rw [e] at hp
    have : p.1.inner.toInt = runningSum (ints dense.lat) i * (granularity block).tdiv 100 + (latOffset block).tdiv 100 := by omega
    show FitsI32 (runningSum (ints dense.lat) i * (granularity block).tdiv 100 + (latOffset block).tdiv 100)
    rw [← this]
    exact fits32 _
  · intro i hi
    obtain ⟨seg, d, _, _, hd⟩ := isDense_get h hi
    obtain ⟨p, _, _, hp⟩ := hd.lat
    refine ⟨(hr.lon i hi).1, by rw [eg, Int.mul_comm]; exact (hr.lon i hi).2, ?_⟩
    have e : nanoLon block dense i = _ := coord_eq (s := runningSum (ints dense.lon) i) hr.lonOff.1 hr.gran
    rw [e] at hp
    have : p.2.inner.toInt = runningSum (ints dense.lon) i * (granularity block).tdiv 100 + (lonOffset block).tdiv 100 := by omega
    show FitsI32 (runningSum (ints dense.lon) i * (granularity block).tdiv 100 + (lonOffset block).tdiv 100)
    rw [← this]
    exact fits32 _

theorem metaRange_of (h : IsDense block raw dense info segs ds) : MetaRange info dense.id.length := by
  have hr := h.range
  refine ⟨hr.changesetLength, hr.uidLength, hr.userLength, hr.timestampLength, ?_, hr.timestampDelta, ?_, ?_, hr.user, hr.timestamp⟩
  · by_contra hlt
    obtain ⟨seg, d, _, _, hd⟩ := isDense_get h (i := info.version.length) (by omega)
    obtain ⟨x, y, hx, _⟩ := hd.version
    simp at hx
  · intro i hi
    obtain ⟨seg, d, _, _, hd⟩ := isDense_get h hi
    obtain ⟨y, _, hy⟩ := hd.changeset
    rw [← hy]
    have := y.toNat_lt
    unfold FitsI64
    omega
  · intro i hi
    obtain ⟨seg, d, _, _, hd⟩ := isDense_get h hi
    obtain ⟨y, _, hy⟩ := hd.uid
    have h1 := hr.uid i hi
    refine ⟨?_, h1⟩
    unfold FitsI32
    omega

theorem users_of (h : IsDense block raw dense info segs ds) :
    ∃ us : List Str, us.length = dense.id.length ∧ ∀ i u, us[i]? = some u →
      stringAt raw (runningSum (ints32 info.userSid) i) = some u := by
  refine ⟨(List.range dense.id.length).map (fun i => (stringAt raw (runningSum (ints32 info.userSid) i)).getD []), by simp, ?_⟩
  intro i u hu
  rw [List.getElem?_map] at hu
  by_cases hi : i < dense.id.length
  · rw [List.getElem?_range hi] at hu
    obtain ⟨seg, d, _, _, hd⟩ := isDense_get h hi
    obtain ⟨s, hs, _⟩ := hd.user
    rw [Option.map_some, hs] at hu
    cases hu
    exact hs
  · simp [List.getElem?_eq_none (l := List.range dense.id.length) (i := i) (by simpa using hi)] at hu

/-- The objects are what the parts say. -/
theorem dense_ds (h : IsDense block raw dense info segs ds) {T : Type} (g : T → List (Str × Str)) {ts : List T} {us : List Str}
    (hul : us.length = dense.id.length)
    (hus : ∀ (i : Nat) u, us[i]? = some u → stringAt raw (runningSum (ints32 info.userSid) i) = some u)
    (htl : ts.length = dense.id.length)
    (hts : ∀ (i : Nat) d tg, ds[i]? = some d → ts[i]? = some tg → d.view.tags = g tg) :
    ds = combine (fun j p m t u => nodeData p m (g t) u (!visibleAt (dense.denseinfo.getD {}) j)) 0
      ((List.range' 0 dense.id.length).map (posAt dense block.granularityOr block.latOffsetOr block.lonOffsetOr))
      ((List.range' 0 dense.id.length).map (metaAt info)) ts us := by
  have hr := h.range
  apply List.ext_getElem?
  intro i
  by_cases hi : i < dense.id.length
  · obtain ⟨seg, d, h1, h2, hd⟩ := isDense_get h hi
    rw [h2]
    obtain ⟨tg, h3⟩ := getElem?_of_lt (l := ts) (by rw [htl]; exact hi)
    obtain ⟨u, h4⟩ := getElem?_of_lt (l := us) (by rw [hul]; exact hi)
    symm
    rw [combine_getElem?]
    refine ⟨_, _, tg, u, getElem?_range'_map _ hi, getElem?_range'_map _ hi, h3, h4, ?_⟩
    have k := hd.kind
    have k1 := hd.id
    obtain ⟨p, k2, k3, k4⟩ := hd.lat
    have k5 := hts i d tg h2 h3
    obtain ⟨xv, yv, k6, k7, k8⟩ := hd.version
    obtain ⟨xt, k9, k10⟩ := hd.timestamp
    obtain ⟨yc, k11, k12⟩ := hd.changeset
    obtain ⟨yu, k13, k14⟩ := hd.uid
    obtain ⟨s, k15, k16⟩ := hd.user
    have k17 := hd.visible
    have k18 := hd.nodes
    have k19 := hd.members
    have e1 : s = u := by
      have := hus i u h4
      rw [k15] at this
      exact Option.some.inj this
    have e2 : d.view.id = Int64.ofInt (runningSum (ints dense.id) i) := by rw [← k1, Int64.ofInt_toInt]
    have a1 : nanoLat block dense i = _ := coord_eq (s := runningSum (ints dense.lat) i) hr.latOff.1 hr.gran
    have a2 : nanoLon block dense i = _ := coord_eq (s := runningSum (ints dense.lon) i) hr.lonOff.1 hr.gran
    rw [a1] at k3
    rw [a2] at k4
    have e3 : p.1.inner.toInt = runningSum (ints dense.lat) i * block.granularityOr.toInt.tdiv 100 + block.latOffsetOr.toInt.tdiv 100 := by
      exact Int.eq_of_mul_eq_mul_right (by decide) k3
    have e4 : p.2.inner.toInt = runningSum (ints dense.lon) i * block.granularityOr.toInt.tdiv 100 + block.lonOffsetOr.toInt.tdiv 100 := by
      exact Int.eq_of_mul_eq_mul_right (by decide) k4
    have e5 : p = (posAt dense block.granularityOr block.latOffsetOr block.lonOffsetOr i).2 := by
      obtain ⟨⟨p1⟩, ⟨p2⟩⟩ := p
      simp only at e3 e4
      simp only [posAt, ← e3, ← e4, Int32.ofInt_toInt]
    have e6 : xt = Int64.ofInt (Int32.ofInt (runningSum (ints info.timestamp) i)).toInt := by
      rw [toInt_ofInt32 (hr.timestamp i hi)]
      rw [hr.dateGran] at k10
      have : xt.toInt = runningSum (ints info.timestamp) i := by omega
      rw [← this, Int64.ofInt_toInt]
    have e7 : yc = UInt32.ofInt (Int64.ofInt (runningSum (ints info.changeset) i)).toInt := by
      rw [toInt_ofInt64 ((metaRange_of h).changeset i hi), u32_of_toNat k12]
    have e8 : yu = UInt32.ofInt (Int32.ofInt (runningSum (ints32 info.uid) i)).toInt := by
      rw [toInt_ofInt32 ((metaRange_of h).uid i hi).1, u32_of_toNat k14]
    have e9 : dense.denseinfo.getD {} = info := by rw [h.hasInfo]; rfl
    obtain ⟨⟨_, _, _, _, _, _, _, _, _⟩, _, _, _⟩ := d
    simp only at *
    subst k k2 k5 k7 k9 k11 k13 k16 k17 k18 k19
    rw [e2, e5, e6, e7, e8, e1, Nat.zero_add, ← u32_of_toNat k8, e9]
    simp only [nodeData, metaAt, posAt, visibleAt, k6, Option.getD_some]
  · rw [List.getElem?_eq_none (by rw [h.length]; omega)]
    symm
    rw [← Option.not_isSome_iff_eq_none, Option.isSome_iff_exists]
    rintro ⟨x, hx⟩
    obtain ⟨p, m, tg, u, _, _, h3, _⟩ := (combine_getElem? _).1 hx
    have := (List.getElem?_eq_some_iff.1 h3).1
    omega

theorem forall2_of_get {α β : Type} {R : α → β → Prop} {l : List α} {m : List β} (hl : l.length = m.length)
    (h : ∀ (i : Nat) a b, l[i]? = some a → m[i]? = some b → R a b) : List.Forall₂ R l m := by
  induction l generalizing m with
  | nil => cases m <;> simp at hl; exact .nil
  | cons a l ih =>
    cases m with
    | nil => simp at hl
    | cons b m =>
      exact .cons (h 0 a b rfl rfl) (ih (by simpa using hl) (fun i a b h1 h2 => h (i + 1) a b h1 h2))

theorem forall2_get {α β : Type} {R : α → β → Prop} {l : List α} {m : List β} (h : List.Forall₂ R l m) {i : Nat} {a : α} {b : β}
    (h1 : l[i]? = some a) (h2 : m[i]? = some b) : R a b := by
  induction h generalizing i with
  | nil => cases h1
  | cons h _ ih =>
    cases i with
    | zero => cases h1; cases h2; exact h
    | succ i => exact ih h1 h2

theorem dateSeconds_of (h : dateGranularity block = 1000) : dateSeconds block = 1 := by
  unfold dateSeconds
  show Int32.ofInt ((dateGranularity block).tdiv 1000) = 1
  rw [h]
  rfl

theorem dense_complete (b : Build) {t : List Str} (ht : raw.s.map Utf8.decode = t.map some)
    (h : IsDense block raw dense info segs ds) :
    ArcDense b block (t.map some) dense ds ∧ ((dense.keysVals ≠ [] ∨ dense.id = []) → StrDense b block t dense ds) := by
  have hr := h.range
  have e9 : dense.denseinfo.getD {} = info := by rw [h.hasInfo]; rfl
  have hp := pos_loop_fits b (k := dense.id.length) (i := 0) (posRange_of h) (by omega) (posExact_zero dense)
  have hm := meta_loop_fits b (k := dense.id.length) (i := 0) (metaRange_of h) (by omega) (metaExact_zero info)
  obtain ⟨us, hul, hus⟩ := users_of h
  have hu : List.Forall₂ (fun (m : Meta) u => indexI32 t m.userSid = .ok u) ((List.range' 0 dense.id.length).map (metaAt info)) us := by
    refine forall2_of_get (by simp [hul]) ?_
    intro i m u h1 h2
    have hi : i < dense.id.length := by have := (List.getElem?_eq_some_iff.1 h2).1; omega
    rw [getElem?_range'_map _ hi] at h1
    cases h1
    rw [← stringAt_int ht]
    simp only [metaAt]
    rw [toInt_ofInt32 (hr.user i hi)]
    exact hus i u h2
  have hu' : List.Forall₂ (fun (m : Meta) u => indexI32 (t.map some) m.userSid = .ok (some u))
      ((List.range' 0 dense.id.length).map (metaAt info)) us :=
    hu.imp (fun m u h => indexI32_some.2 ⟨u, rfl, h⟩)
  obtain ⟨hk, hkv⟩ := h.tags
  have htags : List.Forall₂ (fun seg tags =>
        List.Forall₂ (fun (kv : Int32 × Int32) tag => PairAt raw kv.1.toInt kv.2.toInt tag) seg tags) segs (ds.map (fun d => d.view.tags)) := by
    refine forall2_of_get (by simp [h.segsLength, h.length]) ?_
    intro i seg tags h1 h2
    rw [List.getElem?_map] at h2
    cases h3 : ds[i]? with
    | none => rw [h3] at h2; cases h2
    | some d =>
      rw [h3] at h2
      cases h2
      exact (h.node i seg d h1 h3).tags
  by_cases hn : dense.keysVals = []
  · have hsegs : ∀ seg ∈ segs, seg = [] := by
      rcases hkv with hkv | ⟨_, hkv⟩
      · rw [hn] at hkv
        intro seg hseg
        exfalso
        cases segs with
        | nil => cases hseg
        | cons s ss => simp [keysValsOf] at hkv
      · exact hkv
    refine ⟨?_, ?_⟩
    · refine arc_loop.2 ⟨_, _, List.replicate dense.id.length none, us, hp, ?_, ?_, hu', ?_⟩
      · rw [dateSeconds_of hr.dateGran, e9]; exact hm
      · simp only [hn, List.isEmpty_nil, Bool.not_true]
        exact arc_notags_loop
      · refine dense_ds h (fun t : Option (List (Str × Str)) => t.getD []) hul hus (by simp) ?_
        intro i d tg h1 h2
        have hi : i < dense.id.length := by have := (List.getElem?_eq_some_iff.1 h2).1; simpa using this
        rw [List.getElem?_replicate, if_pos hi] at h2
        cases h2
        obtain ⟨seg, d', h3, h4, hd⟩ := isDense_get h hi
        rw [h1] at h4
        cases h4
        have := hd.tags
        rw [hsegs seg (List.mem_of_getElem? h3)] at this
        cases ht : d.view.tags with
        | nil => rfl
        | cons a l => rw [ht] at this; cases this
    · intro h0
      rcases h0 with h0 | h0
      · exact absurd hn h0
      · refine ⟨[], by rw [h0]; rfl, ?_⟩
        have := h.length
        rw [h0] at this
        exact (List.length_eq_zero_iff.1 this).symm
  · have hkv' : dense.keysVals = keysValsOf segs := by
      rcases hkv with hkv | ⟨hkv, _⟩
      · exact hkv
      · exact absurd hkv hn
    have hl : loopR (fun _ kv => StringPbf.denseTags t kv) dense.id.length 0 dense.keysVals = .ok (ds.map (fun d => d.view.tags)) := by
      rw [hkv', ← h.segsLength]
      have := (str_tags_loop ht hk (rest := []) (i := 0)).2 htags
      rw [List.append_nil] at this
      exact this
    refine ⟨?_, fun _ => ?_⟩
    · refine arc_loop.2 ⟨_, _, (ds.map (fun d => d.view.tags)).map some, us, hp, ?_, ?_, hu', ?_⟩
      · rw [dateSeconds_of hr.dateGran, e9]; exact hm
      · have e : (!dense.keysVals.isEmpty) = true := by simp [hn]
        rw [e]
        exact (arc_tags_loop ht).2 ⟨_, rfl, hl⟩
      · refine dense_ds h (fun t : Option (List (Str × Str)) => t.getD []) hul hus (by simp [h.length]) ?_
        intro i d tg h1 h2
        simp only [List.getElem?_map, h1, Option.map_some, Option.some.injEq] at h2
        rw [← h2]
        rfl
    · refine str_loop.2 ⟨_, _, ds.map (fun d => d.view.tags), us, hp, ?_, hl, hu, ?_⟩
      · rw [dateSeconds_of hr.dateGran, e9]; exact hm
      · refine dense_ds h (fun t : List (Str × Str) => t) hul hus (by simp [h.length]) ?_
        intro i d tg h1 h2
        simp only [List.getElem?_map, h1, Option.map_some, Option.some.injEq] at h2
        exact h2

end Dense

/-! ## Groups and blocks -/

theorem arcGroup_complete (b : Build) {block : Proto.PrimitiveBlock} {raw : Proto.StringTable} {t : List Str}
    (ht : raw.s.map Utf8.decode = t.map some) {g : Proto.PrimitiveGroup} {ds : List Spec.ObjData} (h : IsGroup block raw g ds) :
    ArcGroup b block (t.map some) g ds := by
  cases h with
  | dense dense info segs h1 h2 h3 h4 h => exact .dense dense h1 h2 (dense_complete b ht h).1
  | ways h1 h2 h3 h4 h => exact .ways h1 h2 h3 (h.imp fun _ _ h => (way_complete b ht h).2)
  | relations h1 h2 h3 h4 h => exact .relations h1 h2 h3 h4 (h.imp fun _ _ h => (relation_complete b ht h).2)

theorem strGroup_complete (b : Build) {block : Proto.PrimitiveBlock} {raw : Proto.StringTable} {t : List Str}
    (ht : raw.s.map Utf8.decode = t.map some) {g : Proto.PrimitiveGroup} {ds : List Spec.ObjData} (h : IsGroup block raw g ds)
    (hk : ∀ d, g.dense = some d → d.keysVals ≠ [] ∨ d.id = []) :
    StrGroup b block raw g ds := by
  cases h with
  | dense dense info segs h1 h2 h3 h4 h => exact .dense t dense ht h1 h2 ((dense_complete b ht h).2 (hk dense h2))
  | ways h1 h2 h3 h4 h => exact .ways t ht h1 h2 h3 (h.imp fun _ _ h => (way_complete b ht h).1)
  | relations h1 h2 h3 h4 h => exact .relations t ht h1 h2 h3 h4 (h.imp fun _ _ h => (relation_complete b ht h).1)

theorem shared_complete (b : Build) {block : Proto.PrimitiveBlock} {ds : List Spec.ObjData} (h : IsBlock block ds) :
    Which.shared.objects b block = some ds := by
  obtain ⟨raw, h1, h2, dss, h3, rfl⟩ := h.table
  obtain ⟨t, ht⟩ := tableValid_iff.1 h2
  refine shared_block.2 ⟨dss, ?_, rfl⟩
  have e : ArcPbf.stringTable block = t.map some := by rw [ArcPbf.stringTable, h1, ← ht]; rfl
  rw [e]
  exact h3.imp fun _ _ h => arcGroup_complete b ht h

theorem owned_complete (b : Build) {block : Proto.PrimitiveBlock} {g : Proto.PrimitiveGroup} {ds : List Spec.ObjData}
    (h : IsBlock block ds) (hg : block.primitivegroup = [g]) (hk : ∀ d, g.dense = some d → d.keysVals ≠ [] ∨ d.id = []) :
    Which.owned.objects b block = some ds := by
  obtain ⟨raw, h1, h2, dss, h3, rfl⟩ := h.table
  obtain ⟨t, ht⟩ := tableValid_iff.1 h2
  rw [hg] at h3
  cases h3 with
  | cons h4 h5 =>
    cases h5
    refine owned_block.2 ⟨raw, g, h1, hg, ?_⟩
    have := strGroup_complete b ht h4 hk
    simpa using this

end Osmio
