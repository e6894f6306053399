import Verif.Proofs.PbfStream
/-! # Proofs: the readers agree with each other; builds with and without overflow checks -/

namespace Osmio
open Spec.Pbf Spec

/-! ## The two readers of objects -/

theorem forall2_right_unique {α β : Type} {R : α → β → Prop} (hR : ∀ a b c, R a b → R a c → b = c) {l : List α} {m m' : List β}
    (h : List.Forall₂ R l m) (h' : List.Forall₂ R l m') : m = m' := by
  induction h generalizing m' with
  | nil => cases h'; rfl
  | cons h _ ih =>
    cases h' with
    | cons h1 h2 => rw [hR _ _ _ h h1, ih h2]

theorem combine_map_some {P M U : Type} (f : Nat → P → M → List (Str × Str) → U → ObjData) (i : Nat) (ps : List P) (ms : List M)
    (ts : List (List (Str × Str))) (us : List U) :
    combine (fun j p m (t : Option (List (Str × Str))) u => f j p m (t.getD []) u) i ps ms (ts.map some) us = combine f i ps ms ts us := by
  apply List.ext_getElem?
  intro j
  apply Option.ext
  intro d
  rw [combine_getElem?, combine_getElem?]
  constructor
  · rintro ⟨p, m, t, u, h1, h2, h3, h4, rfl⟩
    rw [List.getElem?_map] at h3
    obtain ⟨t', h5, rfl⟩ := Option.map_eq_some_iff.1 h3
    exact ⟨p, m, t', u, h1, h2, h5, h4, rfl⟩
  · rintro ⟨p, m, t, u, h1, h2, h3, h4, rfl⟩
    exact ⟨p, m, some t, u, h1, h2, by rw [List.getElem?_map, h3]; rfl, h4, rfl⟩

theorem str_to_arc_dense {b : Build} {block : Proto.PrimitiveBlock} {raw : Proto.StringTable} {t : List Str}
    (ht : raw.s.map Utf8.decode = t.map some) {dense : Proto.DenseNodes} {ds : List ObjData} (h : StrDense b block t dense ds) :
    ArcDense b block (t.map some) dense ds := by
  obtain ⟨ps, ms, ts, us, h1, h2, h3, h4, rfl⟩ := str_loop.1 h
  have h4' : List.Forall₂ (fun (m : Meta) u => indexI32 (t.map some) m.userSid = .ok (some u)) ms us :=
    h4.imp (fun m u h => indexI32_some.2 ⟨u, rfl, h⟩)
  cases hk : dense.keysVals with
  | nil =>
    cases hn : dense.id.length with
    | zero =>
      rw [hn] at h1 h2 h3
      cases h1; cases h2; cases h3; cases h4
      unfold ArcDense
      rw [hn]
      exact ⟨[], rfl, rfl⟩
    | succ n =>
      rw [hn] at h3
      obtain ⟨x, s', r, a1, _⟩ := loopR_succ.1 h3
      simp only [hk] at a1
      cases a1
  | cons k kv =>
    refine arc_loop.2 ⟨ps, ms, ts.map some, us, h1, h2, ?_, h4', ?_⟩
    · rw [hk]
      rw [hk] at h3
      exact (arc_tags_loop ht).2 ⟨ts, rfl, h3⟩
    · exact (combine_map_some (fun j p m t u => nodeData p m t u (!visibleAt (dense.denseinfo.getD {}) j)) 0 ps ms ts us).symm

theorem str_to_arc_way {b : Build} {t : List Str} {w : Proto.Way} {d : ObjData} (hv : (w.info.getD {}).visible ≠ none)
    (h : StrWay b t w d) : ArcWayIs b (t.map some) w d := by
  obtain ⟨id, tags, nodes, ts, cs, uid, sid, ver, user, h1, h2, h3, h4, h5, h6, rfl⟩ := str_decodeWay.1 h
  obtain ⟨vis, hv⟩ := Option.ne_none_iff_exists'.1 hv
  exact arc_decodeWay.2 ⟨tags, nodes, ts, vis, cs, uid, sid, ver, user, arc_zipTags_of h2 h3, h4, h5, hv,
    index_some.2 ⟨_, rfl, h6⟩, by rw [h1, hv]; rfl⟩

theorem str_to_arc_rel {b : Build} {t : List Str} {w : Proto.Relation} {d d' : ObjData} (h : StrRel b t w d)
    (h' : ArcRel b (t.map some) w d') : ArcRel b (t.map some) w d := by
  obtain ⟨tags, ids, ms, ts, cs, uid, sid, ver, user, h2, h3, h4, hm, h5, h6, rfl⟩ := str_decodeRelation.1 h
  obtain ⟨tags', ids', ms', ts', vis, cs', uid', sid', ver', user', -, k4, km, -, hv, -, -⟩ := arc_decodeRelation.1 h'
  rw [h4] at k4
  cases k4
  rw [← zipMembers_same hm km] at km
  exact arc_decodeRelation.2 ⟨tags, ids, ms, ts, vis, cs, uid, sid, ver, user, arc_zipTags_of h2 h3, h4, km, h5, hv,
    index_some.2 ⟨_, rfl, h6⟩, by rw [hv]; rfl⟩

theorem arcWay_visible {b : Build} {t : List (Option Str)} {w : Proto.Way} {d : ObjData} (h : ArcWayIs b t w d) :
    (w.info.getD {}).visible ≠ none := by
  obtain ⟨tags, nodes, ts, vis, cs, uid, sid, ver, user, h3, h4, h5, h6, h7, rfl⟩ := arc_decodeWay.1 h
  simp [h6]

theorem arcRel_visible {b : Build} {t : List (Option Str)} {w : Proto.Relation} {d : ObjData} (h : ArcRel b t w d) :
    (w.info.getD {}).visible ≠ none := by
  obtain ⟨tags, ids, ms, ts, vis, cs, uid, sid, ver, user, h3, h4, hm, h5, h6, h7, rfl⟩ := arc_decodeRelation.1 h
  simp [h6]

theorem forall2_imp_mem {α β : Type} {R S : α → β → Prop} {l : List α} {m : List β} (hRS : ∀ a ∈ l, ∀ b, R a b → S a b)
    (h : List.Forall₂ R l m) : List.Forall₂ S l m := by
  induction h with
  | nil => exact .nil
  | cons h _ ih => exact .cons (hRS _ (by simp) _ h) (ih (fun a ha => hRS a (by simp [ha])))

theorem arcGroup_stated {b : Build} {block : Proto.PrimitiveBlock} {t : List (Option Str)} {g : Proto.PrimitiveGroup}
    {ds : List ObjData} (h : ArcGroup b block t g ds) :
    g.dense = none → (g.ways ≠ [] → ∀ w ∈ g.ways, (w.info.getD {}).visible ≠ none) ∧
      (g.ways = [] → g.relations ≠ [] ∧ ∀ w ∈ g.relations, (w.info.getD {}).visible ≠ none) := by
  have key : ∀ {α : Type} {R : α → ObjData → Prop} {P : α → Prop} (_ : ∀ a d, R a d → P a) {l : List α} {ds : List ObjData},
      List.Forall₂ R l ds → ∀ a ∈ l, P a := by
    intro α R P hP l ds h
    induction h with
    | nil => simp
    | cons h _ ih =>
      intro a ha
      rcases List.mem_cons.1 ha with rfl | ha
      · exact hP _ _ h
      · exact ih a ha
  intro hd
  cases h with
  | dense dense h1 h2 h3 => rw [h2] at hd; cases hd
  | ways h1 h2 h3 h4 => exact ⟨fun _ => key (P := fun (w : Proto.Way) => (w.info.getD {}).visible ≠ none) (fun a d => arcWay_visible) h4, fun h => absurd h h3⟩
  | relations h1 h2 h3 h4 h5 => exact ⟨fun h => absurd h3 h, fun _ => ⟨h4, key (P := fun (w : Proto.Relation) => (w.info.getD {}).visible ≠ none) (fun a d => arcRel_visible) h5⟩⟩

theorem forall2_some {α β : Type} {R : α → β → Prop} {l : List α} {m : List β} (h : List.Forall₂ R l m) : ∀ a ∈ l, ∃ b, R a b := by
  induction h with
  | nil => simp
  | cons h _ ih =>
    intro a ha
    rcases List.mem_cons.1 ha with rfl | ha
    · exact ⟨_, h⟩
    · exact ih a ha

theorem str_to_arc_group {b : Build} {block : Proto.PrimitiveBlock} {raw : Proto.StringTable} {g : Proto.PrimitiveGroup}
    {ds ds' : List ObjData} (h : StrGroup b block raw g ds) (h' : ArcGroup b block (raw.s.map Utf8.decode) g ds') :
    ArcGroup b block (raw.s.map Utf8.decode) g ds := by
  have hv := arcGroup_stated h'
  cases h with
  | dense t dense ht h1 h2 h3 => rw [ht]; exact .dense dense h1 h2 (str_to_arc_dense ht h3)
  | ways t ht h1 h2 h3 h4 => rw [ht]; exact .ways h1 h2 h3 (forall2_imp_mem (fun w hw d h => str_to_arc_way ((hv h2).1 h3 w hw) h) h4)
  | relations t ht h1 h2 h3 h4 h5 =>
    rw [ht] at h' ⊢
    refine .relations h1 h2 h3 h4 (forall2_imp_mem (fun w hw d h => ?_) h5)
    cases h' with
    | dense dense k1 k2 k3 => rw [k2] at h2; cases h2
    | ways k1 k2 k3 k4 => exact absurd h3 k3
    | relations k1 k2 k3 k4 k5 =>
      obtain ⟨d', hd'⟩ := forall2_some k5 w hw
      exact str_to_arc_rel h hd'
  | empty h1 h2 h3 h4 h5 => exact absurd h4 ((hv h2).2 h3).1

theorem shared_single {b : Build} {block : Proto.PrimitiveBlock} {g : Proto.PrimitiveGroup} (hg : block.primitivegroup = [g])
    {ds : List ObjData} : Which.shared.objects b block = some ds ↔ ArcGroup b block (ArcPbf.stringTable block) g ds := by
  rw [shared_block, hg]
  constructor
  · rintro ⟨dss, h, rfl⟩
    cases h with
    | cons h h' => cases h'; simpa using h
  · intro h
    exact ⟨[ds], .cons h .nil, by simp⟩

/-- Whatever the readers both accept, they agree on. -/
theorem objects_agree {b : Build} {block : Proto.PrimitiveBlock} {ds ds' : List ObjData}
    (h : Which.owned.objects b block = some ds) (h' : Which.shared.objects b block = some ds') : ds = ds' := by
  obtain ⟨raw, g, h1, h2, h3⟩ := owned_block.1 h
  have h4 := (shared_single h2).1 h'
  have e : ArcPbf.stringTable block = raw.s.map Utf8.decode := by unfold ArcPbf.stringTable; rw [h1]; rfl
  rw [e] at h4
  have h5 := str_to_arc_group h3 h4
  rw [← e] at h5
  have h6 := (shared_single h2).2 h5
  rw [h'] at h6
  exact (Option.some.inj h6).symm

/-! ## Blobs -/

theorem parse_nil : Proto.PrimitiveBlock.parseFromBytes [] = none := by rfl

theorem owned_blob {zlib : Proto.Bytes → Option Proto.Bytes} {b : Build} {blob : Proto.Blob} {ds : List ObjData} :
    blobData .owned zlib b blob = (ds, none) ↔
      ∃ data, StringPbf.blobRawData zlib blob = .ok data ∧
        ((data = [] ∧ ds = []) ∨ (data ≠ [] ∧ ∃ block, Proto.PrimitiveBlock.parseFromBytes data = some block ∧
          Which.owned.objects b block = some ds)) := by
  simp only [blobData, StringPbf.decodeBlob]
  cases h1 : StringPbf.blobRawData zlib blob with
  | error p => simp
  | ok data =>
    simp only [Except.ok.injEq, exists_eq_left']
    by_cases h2 : data = []
    · subst h2
      simp [eq_comm]
    · simp only [if_neg h2, h2, false_and, false_or, not_false_eq_true, ne_eq, true_and]
      cases h3 : Proto.PrimitiveBlock.parseFromBytes data with
      | none => simp
      | some block =>
        simp only [Option.some.injEq, exists_eq_left', Which.objects]
        cases StringPbf.decodeBlock b block (true, true, true) with
        | mk os p => cases p <;> simp

theorem shared_blob {zlib : Proto.Bytes → Option Proto.Bytes} {b : Build} {blob : Proto.Blob} {ds : List ObjData} :
    blobData .shared zlib b blob = (ds, none) ↔
      ∃ data, ArcPbf.blobRawData zlib blob = .ok (some data) ∧
        ∃ block, Proto.PrimitiveBlock.parseFromBytes data = some block ∧ Which.shared.objects b block = some ds := by
  simp only [blobData, arcDecode, ArcPbf.decodeBlob]
  cases h1 : ArcPbf.blobRawData zlib blob with
  | error p => simp [bind, Except.bind]
  | ok o =>
    cases o with
    | none => simp [bind, Except.bind, unwrap]
    | some data =>
      simp only [Except.ok.injEq, Option.some.injEq, exists_eq_left']
      cases h3 : Proto.PrimitiveBlock.parseFromBytes data with
      | none => simp [bind, Except.bind, unwrap, h3]
      | some block =>
        simp only [Option.some.injEq, exists_eq_left', Which.objects]
        simp only [bind, Except.bind, unwrap, h3]
        cases ArcPbf.decodeBlock b block <;> simp

theorem pos_blob {zlib : Proto.Bytes → Option Proto.Bytes} {b : Build} {blob : Proto.Blob} {xs : List NodePos.NodeIdPos} :
    NodePos.decodeBlob zlib b blob = (xs, none) ↔
      ∃ data, StringPbf.blobRawData zlib blob = .ok data ∧
        ∃ block, Proto.PrimitiveBlock.parseFromBytes data = some block ∧ positions b block = some xs := by
  simp only [NodePos.decodeBlob]
  cases h1 : StringPbf.blobRawData zlib blob with
  | error p => simp
  | ok data =>
    simp only [Except.ok.injEq, exists_eq_left']
    cases h3 : Proto.PrimitiveBlock.parseFromBytes data with
    | none => simp
    | some block =>
      simp only [Option.some.injEq, exists_eq_left', positions]
      cases NodePos.decodeBlock b block with
      | mk os p => cases p <;> simp

theorem raw_agree {zlib : Proto.Bytes → Option Proto.Bytes} {blob : Proto.Blob} {d d' : Proto.Bytes}
    (h : StringPbf.blobRawData zlib blob = .ok d) (h' : ArcPbf.blobRawData zlib blob = .ok (some d')) : d = d' := by
  unfold StringPbf.blobRawData at h
  unfold ArcPbf.blobRawData at h'
  cases h1 : blob.raw with
  | some raw =>
    rw [h1] at h h'
    simp only at h h'
    cases h'
    split at h
    · cases h
      rename_i hl
      exact (List.length_eq_zero_iff.1 hl).symm
    · cases h
  | none =>
    rw [h1] at h h'
    cases h2 : blob.zlibData with
    | none => rw [h2] at h h'; cases h'
    | some z =>
      rw [h2] at h h'
      simp only [bind_ok, unwrap_ok] at h h'
      obtain ⟨size, _, h3⟩ := h'
      split at h3
      · cases h3
      · rw [h] at h3
        cases h3
        rfl

theorem blob_agree {zlib : Proto.Bytes → Option Proto.Bytes} {b : Build} {blob : Proto.Blob} {ds ds' : List ObjData}
    (h : blobData .owned zlib b blob = (ds, none)) (h' : blobData .shared zlib b blob = (ds', none)) : ds = ds' := by
  obtain ⟨data, h1, h2⟩ := owned_blob.1 h
  obtain ⟨data', h1', block', h3', h4'⟩ := shared_blob.1 h'
  obtain rfl := raw_agree h1 h1'
  rcases h2 with ⟨rfl, rfl⟩ | ⟨_, block, h3, h4⟩
  · rw [parse_nil] at h3'; cases h3'
  · rw [h3'] at h3
    cases h3
    exact objects_agree h4 h4'

/-- Files without a failure. -/
theorem runBlobs_none {α : Type} {decode : Proto.Blob → List α × Option Panic} {e : Option Panic} {bs : List Proto.Blob} {os : List α} :
    runBlobs decode e bs = (os, none) ↔ e = none ∧ ∃ oss, List.Forall₂ (fun b os => decode b = (os, none)) bs oss ∧ os = oss.flatten := by
  induction bs generalizing os with
  | nil =>
    simp only [runBlobs, Prod.mk.injEq]
    constructor
    · rintro ⟨rfl, rfl⟩; exact ⟨rfl, [], .nil, rfl⟩
    · rintro ⟨rfl, oss, h, rfl⟩; cases h; exact ⟨rfl, rfl⟩
  | cons b bs ih =>
    simp only [runBlobs]
    constructor
    · intro h
      rcases hd : decode b with ⟨os', (_ | p)⟩
      · rw [hd] at h
        simp only [Prod.mk.injEq] at h
        obtain ⟨h1, h2⟩ := h
        obtain ⟨h3, oss, h4, h5⟩ := ih.1 (Prod.ext rfl h2)
        refine ⟨h3, os' :: oss, .cons hd h4, ?_⟩
        rw [List.flatten_cons, ← h5, h1]
      · rw [hd] at h; cases h
    · rintro ⟨rfl, oss, h, rfl⟩
      cases h with
      | cons h1 h2 =>
        rw [h1]
        have := ih.2 ⟨rfl, _, h2, rfl⟩
        simp only [this, List.flatten_cons]

theorem reads_none {r : Which} {zlib : Proto.Bytes → Option Proto.Bytes} {b : Build} {src : Source} {ds : List ObjData} :
    Reads r zlib b src ds none ↔ ∃ bs s' dss, Stream src bs none s' ∧
      List.Forall₂ (fun blob ds => blobData r zlib b blob = (ds, none)) bs dss ∧ ds = dss.flatten := by
  rw [reads_iff]
  constructor
  · rintro ⟨bs, e, s', h1, h2⟩
    obtain ⟨rfl, dss, h3, h4⟩ := runBlobs_none.1 h2
    exact ⟨bs, s', dss, h1, h3, h4⟩
  · rintro ⟨bs, s', dss, h1, h3, h4⟩
    exact ⟨bs, none, s', h1, runBlobs_none.2 ⟨rfl, dss, h3, h4⟩⟩

theorem reads_agree {zlib : Proto.Bytes → Option Proto.Bytes} {b : Build} {src : Source} {ds ds' : List ObjData}
    (h : Reads .owned zlib b src ds none) (h' : Reads .shared zlib b src ds' none) : ds = ds' := by
  obtain ⟨bs, s, dss, h1, h2, rfl⟩ := reads_none.1 h
  obtain ⟨bs', s', dss', h1', h2', rfl⟩ := reads_none.1 h'
  obtain ⟨rfl, _, _⟩ := h1.unique h1'
  congr 1
  clear h h' h1 h1'
  induction h2 generalizing dss' with
  | nil => cases h2'; rfl
  | cons h _ ih =>
    cases h2' with
    | cons h1 h2 => rw [blob_agree h h1, ih _ h2]

/-- Until one of them fails, the readers agree. -/
theorem reads_prefix {zlib : Proto.Bytes → Option Proto.Bytes} {b : Build} {src : Source} {ds ds' : List ObjData} {e e' : Option Panic}
    (h : Reads .owned zlib b src ds e) (h' : Reads .shared zlib b src ds' e') : ds <+: ds' ∨ ds' <+: ds := by
  obtain ⟨bs, e0, s, h1, h2⟩ := reads_iff.1 h
  obtain ⟨bs', e0', s', h1', h2'⟩ := reads_iff.1 h'
  obtain ⟨rfl, rfl, _⟩ := h1.unique h1'
  clear h h' h1 h1'
  induction bs generalizing ds ds' with
  | nil => cases h2; cases h2'; exact .inl (List.prefix_refl _)
  | cons blob bs ih =>
    simp only [runBlobs] at h2 h2'
    rcases ho : blobData .owned zlib b blob with ⟨os, (_ | p)⟩
    · rcases hs : blobData .shared zlib b blob with ⟨os', (_ | p')⟩
      · rw [ho] at h2
        rw [hs] at h2'
        obtain rfl := blob_agree ho hs
        cases h2
        cases h2'
        rcases ih rfl rfl with h | h
        · exact .inl ((List.prefix_append_right_inj _).2 h)
        · exact .inr ((List.prefix_append_right_inj _).2 h)
      · rw [hs] at h2'
        cases h2'
        exact .inr List.nil_prefix
    · rw [ho] at h2
      cases h2
      exact .inl List.nil_prefix

end Osmio
