import Verif.Proofs.PbfChecked
import Verif.Props.PbfBlocks
import Verif.Spec.PbfShown
/-! # Proofs: the objects of a block as formulas -/

namespace Osmio
open Spec.Pbf
open Spec (ObjData)

/-! ## Tags and members -/

theorem textPair_of {t : Proto.StringTable} {k v : Int} {kv : Str × Str} (h : PairAt t k v kv) : textPair t k v = some kv := by
  obtain ⟨h1, h2⟩ := h
  simp [textPair, h1, h2]

theorem filterMap_of {α β : Type} {f : α → Option β} {l : List α} {m : List β} (h : List.Forall₂ (fun a b => f a = some b) l m) :
    l.filterMap f = m := by
  induction h with
  | nil => rfl
  | cons h _ ih => rw [List.filterMap_cons, h, ih]

/-- A position of the shared-string reader's table. -/
theorem stringAt_index {raw : Proto.StringTable} {i : Nat} {o : Option Str} (h : index (raw.s.map Utf8.decode) i = .ok o) :
    stringAt raw i = o := by
  rw [index_ok, List.getElem?_map] at h
  unfold stringAt
  rw [if_neg (by omega), Int.toNat_natCast]
  cases hs : raw.s[i]? with
  | none => rw [hs] at h; cases h
  | some s => rw [hs] at h; exact Option.some.inj h

theorem stringAt_index32 {raw : Proto.StringTable} {i : Int32} {o : Option Str} (h : indexI32 (raw.s.map Utf8.decode) i = .ok o) :
    stringAt raw i.toInt = o := by
  unfold indexI32 at h
  split at h
  · cases h
  · rename_i hi
    have := stringAt_index h
    rwa [Int.toNat_of_nonneg (by omega)] at this

theorem consSome_eq {k v : Option Str} {r : List (Str × Str)} :
    ArcPbf.consSome k v r = (k.bind fun k => v.map fun v => (k, v)).toList ++ r := by
  cases k <;> cases v <;> rfl

theorem filterMap_cons_toList {α β : Type} (f : α → Option β) (a : α) (l : List α) :
    (a :: l).filterMap f = (f a).toList ++ l.filterMap f := by
  rw [List.filterMap_cons]
  cases f a <;> rfl

theorem arc_shownTags {raw : Proto.StringTable} {ks vs : List UInt32} {tags : List (Str × Str)}
    (h : ArcPbf.zipTags (raw.s.map Utf8.decode) ks vs = .ok tags) : tags = shownTags raw ks vs := by
  induction ks generalizing vs tags with
  | nil => rw [arc_zipTags_left] at h; cases h; rfl
  | cons k ks ih =>
    cases vs with
    | nil =>
      rw [arc_zipTags_nil, surplus_ok] at h
      rw [h.1]; rfl
    | cons v vs =>
      simp only [ArcPbf.zipTags, bind_ok] at h
      obtain ⟨a, h1, c, h2, tags', h3, h4⟩ := h
      cases h4
      rw [consSome_eq, ih h3, ← stringAt_index h1, ← stringAt_index h2]
      exact (filterMap_cons_toList (fun kv : UInt32 × UInt32 => textPair raw kv.1.toNat kv.2.toNat) (k, v) (ks.zip vs)).symm

theorem str_shownTags {raw : Proto.StringTable} {t : List Str} (ht : raw.s.map Utf8.decode = t.map some) {ks vs : List UInt32}
    {tags : List (Str × Str)} (h : StringPbf.zipTags t ks vs = .ok tags) : tags = shownTags raw ks vs :=
  (filterMap_of (((str_zipTags ht).1 h).imp fun _ _ h => textPair_of h)).symm

theorem arc_shownDenseTags {raw : Proto.StringTable} {seg : List (Int32 × Int32)} {tags : List (Str × Str)}
    (h : ArcPbf.denseTags (raw.s.map Utf8.decode) seg = .ok tags) : tags = shownDenseTags raw seg := by
  induction seg generalizing tags with
  | nil => cases h; rfl
  | cons kv seg ih =>
    obtain ⟨k, v⟩ := kv
    simp only [ArcPbf.denseTags, bind_ok] at h
    obtain ⟨a, h1, c, h2, tags', h3, h4⟩ := h
    cases h4
    rw [consSome_eq, ih h3, ← stringAt_index32 h1, ← stringAt_index32 h2]
    exact (filterMap_cons_toList (fun kv : Int32 × Int32 => textPair raw kv.1.toInt kv.2.toInt) (k, v) seg).symm

theorem kindOf_eq {x : Int} {k : OSMObjectType} : kindOf x = some k ↔ memberKind k = x := by
  unfold kindOf memberKind
  cases k <;> simp only <;> (repeat' split) <;> simp_all [eq_comm]

theorem arc_memberType {x : Int32} {k : OSMObjectType} (h : ArcPbf.memberType x = .ok k) : kindOf x.toInt = some k := by
  rw [kindOf_eq]
  exact memberType_ok.1 h

theorem arc_shownMembers {raw : Proto.StringTable} {ts : List Int32} {ids : List ObjId} {rs : List Int32}
    {ms : List (OSMObjectType × ObjId × Str)} (h : ArcPbf.zipMembers (raw.s.map Utf8.decode) ts ids rs = .ok ms) :
    ms = ((ts.zip ids).zip rs).filterMap fun x =>
      (kindOf x.1.1.toInt).bind fun kind => (stringAt raw x.2.toInt).map fun role => (kind, x.1.2, role) := by
  induction ts generalizing ids rs ms with
  | nil =>
    rw [arc_zipMembers_end (.inl rfl), surplus_ok] at h
    rw [h.1]; rfl
  | cons ty ts ih =>
    rcases three_lists (ty :: ts) ids rs with hn | ⟨x, a, id, ids', r, rs', e1, rfl, rfl⟩
    · rw [arc_zipMembers_end hn, surplus_ok] at h
      rw [h.1]
      rcases hn with hn | rfl | rfl
      · cases hn
      · rfl
      · rw [List.zip_nil_right]; rfl
    · simp only [ArcPbf.zipMembers, bind_ok] at h
      obtain ⟨k, h3, role, h4, d, h5, h6⟩ := h
      cases h6
      rw [List.zip_cons_cons, List.zip_cons_cons, filterMap_cons_toList, ← ih h5, arc_memberType h3, stringAt_index32 h4]
      cases role <;> rfl

theorem str_shownMembers {raw : Proto.StringTable} {t : List Str} (ht : raw.s.map Utf8.decode = t.map some) {ts : List Int32}
    {ids : List ObjId} {rs : List Int32} {ms : List (OSMObjectType × ObjId × Str)} (h : StringPbf.zipMembers t ts ids rs = .ok ms) :
    ms = ((ts.zip ids).zip rs).filterMap fun x =>
      (kindOf x.1.1.toInt).bind fun kind => (stringAt raw x.2.toInt).map fun role => (kind, x.1.2, role) := by
  refine (filterMap_of ((str_zipMembers_rel h).imp ?_)).symm
  rintro ⟨⟨ty, id⟩, r⟩ ⟨k, id', role⟩ ⟨h1, h2, h3⟩
  simp only at h1 h2 h3 ⊢
  rw [kindOf_eq.2 (memberType_ok.1 h1), (stringAt_int ht).2 h3, h2]
  rfl

/-! ## Ways and relations -/

theorem str_shownWay {b : Build} {raw : Proto.StringTable} {t : List Str} (ht : raw.s.map Utf8.decode = t.map some) {w : Proto.Way}
    {d : ObjData} (h : StrWay b t w d) : d = shownWay raw w := by
  obtain ⟨id, tags, nodes, ts, cs, uid, sid, ver, user, h1, h2, h3, h4, h5, h6, rfl⟩ := str_decodeWay.1 h
  rw [undelta_ok h4, str_shownTags ht h3]
  simp only [wayData, shownWay, shownView, h1, h5.version, h5.changeset, h5.timestamp, h5.uid, h5.userSid, Option.map_some,
    Option.bind_some, (stringAt_nat ht).2 h6, Option.getD_some]
  rfl

theorem arc_shownWay {b : Build} {raw : Proto.StringTable} {w : Proto.Way}
    {d : ObjData} (h : ArcWayIs b (raw.s.map Utf8.decode) w d) : d = shownWay raw w := by
  obtain ⟨tags, nodes, ts, vis, cs, uid, sid, ver, user, h3, h4, h5, h6, h7, rfl⟩ := arc_decodeWay.1 h
  rw [undelta_ok h4, arc_shownTags h3]
  simp only [wayData, shownWay, shownView, shownDeleted, h6, h5.version, h5.changeset, h5.timestamp, h5.uid, h5.userSid,
    Option.map_some, Option.bind_some, stringAt_raw.1 h7, Option.getD_some]

theorem str_shownRelation {b : Build} {raw : Proto.StringTable} {t : List Str} (ht : raw.s.map Utf8.decode = t.map some)
    {w : Proto.Relation} {d : ObjData} (h : StrRel b t w d) : d = shownRelation raw w := by
  obtain ⟨tags, ids, ms, ts, cs, uid, sid, ver, user, h2, h3, h4, hm, h5, h6, rfl⟩ := str_decodeRelation.1 h
  rw [str_shownTags ht h3, str_shownMembers ht hm, undelta_ok h4]
  simp only [relData, shownRelation, shownMembers, shownView, h5.version, h5.changeset, h5.timestamp, h5.uid, h5.userSid, Option.map_some,
    Option.bind_some, (stringAt_nat ht).2 h6]
  rfl

theorem arc_shownRelation {b : Build} {raw : Proto.StringTable} {w : Proto.Relation}
    {d : ObjData} (h : ArcRel b (raw.s.map Utf8.decode) w d) : d = shownRelation raw w := by
  obtain ⟨tags, ids, ms, ts, vis, cs, uid, sid, ver, user, h3, h4, hm, h5, h6, h7, rfl⟩ := arc_decodeRelation.1 h
  rw [arc_shownTags h3, arc_shownMembers hm, undelta_ok h4]
  simp only [relData, shownRelation, shownMembers, shownView, shownDeleted, h6, h5.version, h5.changeset, h5.timestamp, h5.uid, h5.userSid,
    Option.map_some, Option.bind_some, stringAt_raw.1 h7, Option.getD_some]

/-! ## Dense nodes -/

theorem wrap32_eq (x : Int) : (Int32.ofInt x).toInt = wrap32 x := Int32.toInt_ofInt

/-- All but the tags of a node. -/
theorem shownNode_of {b : Build} {block : Proto.PrimitiveBlock} {raw : Proto.StringTable} {dense : Proto.DenseNodes} {i : Nat}
    {d : ObjData} {seg : List (Int32 × Int32)} (h : NodeFacts b block raw dense i d) (ht : d.view.tags = shownDenseTags raw seg) :
    d = shownNode block raw dense i seg := by
  obtain ⟨kind, id, pos, _, _, ⟨x, hx, version⟩, changeset, uid, ⟨s, hs, user⟩, _, timestamp, _, visible, nodes, members, _, _⟩ := h
  obtain ⟨⟨v1, v2, v3, v4, v5, v6, v7, v8, v9⟩, p, n, m⟩ := d
  simp only at kind id pos version changeset uid user timestamp visible nodes members ht
  rw [wrap32_eq] at hs timestamp
  rw [dateSeconds_toInt] at timestamp
  subst kind id pos version changeset uid user timestamp visible nodes members ht
  simp only [shownNode, hx, hs, Option.map_some]
  rfl

theorem str_shownDense {b : Build} {block : Proto.PrimitiveBlock} {raw : Proto.StringTable} {t : List Str}
    (ht : raw.s.map Utf8.decode = t.map some) {dense : Proto.DenseNodes} {ds : List ObjData} (h : StrDense b block t dense ds) :
    ∃ segs, segs.length = dense.id.length ∧ Segments dense.keysVals segs ∧ ds = segs.mapIdx (shownNode block raw dense) := by
  obtain ⟨hl, hn, htags⟩ := str_denseFacts ht h
  obtain ⟨segs, rest, hk, hs, hf⟩ := htags (tableValid_iff.2 ⟨t, ht⟩)
  have hlen : segs.length = dense.id.length := hf.length_eq.trans hl
  refine ⟨segs, hlen, ⟨hk, hs.imp (fun h => ⟨rest, h⟩) id⟩, ?_⟩
  refine List.ext_getElem? fun i => ?_
  rw [List.getElem?_mapIdx]
  cases h1 : segs[i]? with
  | none =>
    rw [List.getElem?_eq_none_iff] at h1
    exact List.getElem?_eq_none (by omega)
  | some seg =>
    obtain ⟨d, h2⟩ := getElem?_of_lt (l := ds) (i := i) (by have := (List.getElem?_eq_some_iff.1 h1).1; omega)
    rw [h2]
    exact congrArg some (shownNode_of (hn i d h2) (filterMap_of ((forall2_get hf h1 h2).imp fun _ _ h => textPair_of h)).symm)

/-- The tags of the shared-string reader, whatever the strings. -/
theorem arc_tags_shown {raw : Proto.StringTable} {n i : Nat} {kvs : List Int32} {ts : List (Option (List (Str × Str)))}
    (h : loopR (fun _ kv => ArcPbf.nodeTags true (raw.s.map Utf8.decode) kv) n i kvs = .ok ts) :
    ∃ segs rest, segs.length = n ∧ (∀ seg ∈ segs, ∀ kv ∈ seg, kv.1 ≠ 0) ∧ kvs = keysValsOf segs ++ rest ∧
      ts = segs.map fun seg => some (shownDenseTags raw seg) := by
  induction n generalizing i kvs ts with
  | zero => cases h; exact ⟨[], kvs, rfl, by simp, rfl, rfl⟩
  | succ n ih =>
    obtain ⟨x, s', r, h1, h2, rfl⟩ := loopR_succ.1 h
    simp only [ArcPbf.nodeTags, if_true, bind_ok] at h1
    obtain ⟨⟨seg, r'⟩, h3, tags, h4, h5⟩ := h1
    cases h5
    obtain ⟨a, rfl⟩ := arc_densePairs_form.1 h3
    obtain ⟨segs, rest, rfl, b, rfl, rfl⟩ := ih h2
    refine ⟨seg :: segs, rest, rfl, ?_, by simp [keysValsOf], by rw [List.map_cons, arc_shownDenseTags h4]⟩
    intro sg hs
    rcases List.mem_cons.1 hs with rfl | hs
    · exact a
    · exact b sg hs

theorem arc_shownDense {b : Build} {block : Proto.PrimitiveBlock} {raw : Proto.StringTable}
    {dense : Proto.DenseNodes} {ds : List ObjData} (h : ArcDense b block (raw.s.map Utf8.decode) dense ds) :
    ∃ segs, segs.length = dense.id.length ∧ Segments dense.keysVals segs ∧ ds = segs.mapIdx (shownNode block raw dense) := by
  obtain ⟨hl, hn, _⟩ := arc_denseFacts h
  obtain ⟨ps, ms, ts, us, h1, h2, h3, h4, rfl⟩ := arc_loop.1 h
  have l3 := loopR_length h3
  have key : ∃ segs, segs.length = dense.id.length ∧ Segments dense.keysVals segs ∧
      ∀ (i : Nat) seg (o : Option (List (Str × Str))), segs[i]? = some seg → ts[i]? = some o → o.getD [] = shownDenseTags raw seg := by
    by_cases hk : dense.keysVals = []
    · refine ⟨List.replicate dense.id.length [], by simp, ⟨?_, .inr ⟨hk, fun seg hs => List.eq_of_mem_replicate hs⟩⟩, ?_⟩
      · intro seg hs kv hkv
        rw [List.eq_of_mem_replicate hs] at hkv
        cases hkv
      · intro i seg o h5 h6
        simp only [hk, List.isEmpty_nil, Bool.not_true] at h3
        rw [arc_notags_loop] at h3
        cases h3
        rw [List.eq_of_mem_replicate (List.mem_of_getElem? h5), List.eq_of_mem_replicate (List.mem_of_getElem? h6)]
        rfl
    · have e : (!dense.keysVals.isEmpty) = true := by simp [hk]
      rw [e] at h3
      obtain ⟨segs, rest, hs, hz, hkv, hts⟩ := arc_tags_shown h3
      refine ⟨segs, hs, ⟨hz, .inl ⟨rest, hkv⟩⟩, ?_⟩
      intro i seg o h5 h6
      rw [hts, List.getElem?_map, h5] at h6
      cases h6
      rfl
  obtain ⟨segs, hs, hseg, htag⟩ := key
  refine ⟨segs, hs, hseg, List.ext_getElem? fun i => ?_⟩
  rw [List.getElem?_mapIdx]
  cases h5 : segs[i]? with
  | none =>
    rw [List.getElem?_eq_none_iff] at h5
    exact List.getElem?_eq_none (by omega)
  | some seg =>
    have hi := (List.getElem?_eq_some_iff.1 h5).1
    obtain ⟨d, h6⟩ := getElem?_of_lt (i := i) (Nat.lt_of_lt_of_le hi (Nat.le_of_eq (hs.trans hl.symm)))
    rw [h6]
    refine congrArg some (shownNode_of (hn i d h6) ?_)
    obtain ⟨p, m, tg, u, a1, a2, a3, a4, rfl⟩ := (combine_getElem? _).1 h6
    exact htag i seg tg h5 a3

/-! ## Blocks -/

theorem map_of_forall2 {α β : Type} {f : α → β} {l : List α} {m : List β} (h : List.Forall₂ (fun a b => b = f a) l m) : m = l.map f := by
  induction h with
  | nil => rfl
  | cons h _ ih => rw [List.map_cons, h, ih]

theorem block_shown {r : Which} {b : Build} {block : Proto.PrimitiveBlock} {ds : List ObjData} (h : r.objects b block = some ds) :
    BlockShown block ds := by
  cases r with
  | owned =>
    obtain ⟨raw, g, h1, h2, h3⟩ := owned_block.1 h
    refine ⟨[ds], ?_, by simp⟩
    rw [h2, h1]
    refine .cons ?_ .nil
    cases h3 with
    | dense t dense ht _ hd h =>
      obtain ⟨segs, a, b, rfl⟩ := str_shownDense ht h
      exact .dense dense segs hd a b
    | ways t ht _ hd hw h => rw [map_of_forall2 (h.imp fun _ _ h => str_shownWay ht h)]; exact .ways hd hw
    | relations t ht _ hd hw hr h => rw [map_of_forall2 (h.imp fun _ _ h => str_shownRelation ht h)]; exact .relations hd hw
    | empty _ hd hw hr h =>
      rw [h]
      have := GroupShown.relations (b := block) (t := (some raw).getD {}) hd hw
      rwa [hr] at this
  | shared =>
    obtain ⟨dss, h1, rfl⟩ := shared_block.1 h
    refine ⟨dss, h1.imp fun g ds h => ?_, rfl⟩
    cases h with
    | dense dense _ hd h =>
      obtain ⟨segs, a, b, rfl⟩ := arc_shownDense h
      exact .dense dense segs hd a b
    | ways _ hd hw h => rw [map_of_forall2 (h.imp fun _ _ h => arc_shownWay h)]; exact .ways hd hw
    | relations _ hd hw hr h => rw [map_of_forall2 (h.imp fun _ _ h => arc_shownRelation h)]; exact .relations hd hw

theorem segments_unique {keysVals : List Int32} {segs segs' : List (List (Int32 × Int32))} (h : Segments keysVals segs)
    (h' : Segments keysVals segs') (hl : segs.length = segs'.length) : segs = segs' := by
  obtain ⟨hk, hs⟩ := h
  obtain ⟨hk', hs'⟩ := h'
  rcases hs with ⟨rest, hs⟩ | ⟨hs, hn⟩ <;> rcases hs' with ⟨rest', hs'⟩ | ⟨hs', hn'⟩
  · exact segments_inj hl hk hk' (hs ▸ hs')
  · have := keysValsOf_eq_nil (hs.symm.trans hs'); subst this
    exact (List.length_eq_zero_iff.1 hl.symm).symm
  · have := keysValsOf_eq_nil (hs'.symm.trans hs); subst this
    exact List.length_eq_zero_iff.1 hl
  · exact List.ext_getElem hl fun i h1 h2 => by rw [hn _ (List.getElem_mem h1), hn' _ (List.getElem_mem h2)]

theorem groupShown_unique {block : Proto.PrimitiveBlock} {t : Proto.StringTable} {g : Proto.PrimitiveGroup} {ds ds' : List ObjData}
    (h : GroupShown block t g ds) (h' : GroupShown block t g ds') : ds = ds' := by
  cases h with
  | dense dense segs hd hl hs =>
    cases h' with
    | dense dense' segs' hd' hl' hs' =>
      rw [hd] at hd'; cases hd'
      rw [segments_unique hs hs' (hl.trans hl'.symm)]
    | ways hd' => rw [hd] at hd'; cases hd'
    | relations hd' => rw [hd] at hd'; cases hd'
  | ways hd hw =>
    cases h' with
    | dense dense' segs' hd' hl' hs' => rw [hd] at hd'; cases hd'
    | ways hd' => rfl
    | relations _ hw' => exact absurd hw' hw
  | relations hd hw =>
    cases h' with
    | dense dense' segs' hd' hl' hs' => rw [hd] at hd'; cases hd'
    | ways _ hw' => exact absurd hw hw'
    | relations _ _ => rfl

theorem blockShown_unique {block : Proto.PrimitiveBlock} {ds ds' : List ObjData} (h : BlockShown block ds) (h' : BlockShown block ds') :
    ds = ds' := by
  obtain ⟨dss, h, rfl⟩ := h
  obtain ⟨dss', h', rfl⟩ := h'
  rw [forall2_right_unique (R := GroupShown block (block.stringtable.getD {})) (fun _ _ _ h h' => groupShown_unique h h') h h']

/-- What a reader makes of a block, in full. -/
theorem objects_iff {r : Which} {b : Build} {block : Proto.PrimitiveBlock} {ds : List ObjData} :
    r.objects b block = some ds ↔ ReadableIn b r block ∧ BlockShown block ds := by
  constructor
  · intro h
    exact ⟨readable_in.1 ⟨ds, h⟩, block_shown h⟩
  · rintro ⟨h1, h2⟩
    obtain ⟨ds', h3⟩ := readable_in.2 h1
    rw [h3, blockShown_unique (block_shown h3) h2]

end Osmio
