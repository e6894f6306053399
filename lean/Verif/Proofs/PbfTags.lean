import Verif.Proofs.PbfNum
/-! # Proofs: string tables and tags -/

namespace Osmio
open Spec.Pbf

theorem stringTable_ok {l : List Proto.Bytes} {t : List Str} :
    StringPbf.stringTable l = .ok t ↔ l.map Utf8.decode = t.map some := by
  induction l generalizing t with
  | nil => cases t <;> simp [StringPbf.stringTable]
  | cons a l ih =>
    simp only [StringPbf.stringTable, bind_ok, List.map_cons]
    cases h : Utf8.decode a with
    | none =>
      cases t <;> simp [unwrap]
    | some x =>
      cases t with
      | nil => simp [unwrap]
      | cons y t =>
        simp only [unwrap, ih, Except.ok.injEq, List.cons.injEq, List.map_cons, Option.some.injEq]
        constructor
        · rintro ⟨_, rfl, _, h1, rfl, rfl⟩; exact ⟨rfl, h1⟩
        · rintro ⟨rfl, h1⟩; exact ⟨_, rfl, _, h1, rfl, rfl⟩

theorem tableValid_iff {raw : Proto.StringTable} : TableValid raw ↔ ∃ t : List Str, raw.s.map Utf8.decode = t.map some := by
  unfold TableValid
  generalize raw.s = l
  induction l with
  | nil => simp
  | cons a l ih =>
    simp only [List.mem_cons, forall_eq_or_imp, ih]
    constructor
    · rintro ⟨h, t, ht⟩
      cases h2 : Utf8.decode a with
      | none => exact absurd h2 h
      | some x => exact ⟨x :: t, by simp [h2, ht]⟩
    · rintro ⟨t, ht⟩
      cases t with
      | nil => simp at ht
      | cons x t =>
        simp only [List.map_cons, List.cons.injEq] at ht
        exact ⟨by simp [ht.1], t, ht.2⟩

/-- Looking up in a table of valid strings. -/
theorem stringAt_iff {raw : Proto.StringTable} {t : List Str} (h : raw.s.map Utf8.decode = t.map some) {i : Nat} {x : Str} :
    stringAt raw i = some x ↔ t[i]? = some x := by
  have h2 : (raw.s.map Utf8.decode)[i]? = (t.map some)[i]? := by rw [h]
  simp only [List.getElem?_map] at h2
  unfold stringAt
  rw [if_neg (by omega), Int.toNat_natCast]
  cases h3 : raw.s[i]? <;> cases h4 : t[i]? <;> simp_all

theorem stringAt_int {raw : Proto.StringTable} {t : List Str} (h : raw.s.map Utf8.decode = t.map some) {i : Int32} {x : Str} :
    stringAt raw i.toInt = some x ↔ indexI32 t i = .ok x := by
  unfold indexI32
  by_cases hi : i.toInt < 0
  · rw [if_pos hi]
    simp [stringAt, hi]
  · rw [if_neg hi, index_ok, ← stringAt_iff h, Int.toNat_of_nonneg (by omega)]

theorem stringAt_nat {raw : Proto.StringTable} {t : List Str} (h : raw.s.map Utf8.decode = t.map some) {i : Nat} {x : Str} :
    stringAt raw i = some x ↔ index t i = .ok x := by
  rw [index_ok, stringAt_iff h]

theorem index_some {t : List Str} {i : Nat} {o : Option Str} :
    index (t.map some) i = .ok o ↔ ∃ x, o = some x ∧ index t i = .ok x := by
  rw [index_ok, List.getElem?_map]
  cases h : t[i]? with
  | none => simp [index_ok, h]
  | some y =>
    simp only [index_ok, h, Option.map_some, Option.some.injEq]
    constructor
    · rintro rfl; exact ⟨y, rfl, rfl⟩
    · rintro ⟨_, rfl, rfl⟩; rfl

theorem indexI32_some {t : List Str} {i : Int32} {o : Option Str} :
    indexI32 (t.map some) i = .ok o ↔ ∃ x, o = some x ∧ indexI32 t i = .ok x := by
  unfold indexI32
  split
  · simp
  · exact index_some

/-! ## Tags of dense nodes -/

theorem str_denseTags_zero {t : List Str} {r : List Int32} : StringPbf.denseTags t (0 :: r) = .ok ([], r) := by
  rw [StringPbf.denseTags.eq_def]
  exact if_pos rfl

theorem str_denseTags_cons {t : List Str} {k v : Int32} {r : List Int32} (hk : k ≠ 0) {tags : List (Str × Str)} {r' : List Int32} :
    StringPbf.denseTags t (k :: v :: r) = .ok (tags, r') ↔ ∃ ks vs tags', indexI32 t k = .ok ks ∧ indexI32 t v = .ok vs ∧
      StringPbf.denseTags t r = .ok (tags', r') ∧ tags = (ks, vs) :: tags' := by
  rw [StringPbf.denseTags, if_neg hk]
  simp only [bind_ok]
  constructor
  · rintro ⟨ks, h1, vs, h2, ⟨tags', r''⟩, h3, h4⟩
    cases h4
    exact ⟨ks, vs, tags', h1, h2, h3, rfl⟩
  · rintro ⟨ks, vs, tags', h1, h2, h3, rfl⟩
    exact ⟨ks, h1, vs, h2, (tags', r'), h3, rfl⟩

theorem arc_densePairs_cons {k v : Int32} {r : List Int32} (hk : k ≠ 0) {ps : List (Int32 × Int32)} {r' : List Int32} :
    ArcPbf.densePairs (k :: v :: r) = .ok (ps, r') ↔ ∃ ps', ArcPbf.densePairs r = .ok (ps', r') ∧ ps = (k, v) :: ps' := by
  rw [ArcPbf.densePairs, if_neg hk]
  simp only [bind_ok]
  constructor
  · rintro ⟨⟨ps', r''⟩, h3, h4⟩
    cases h4
    exact ⟨ps', h3, rfl⟩
  · rintro ⟨ps', h3, rfl⟩
    exact ⟨(ps', r'), h3, rfl⟩

/-- The tags of the node whose segment comes next. -/
theorem str_denseTags_seg {raw : Proto.StringTable} {t : List Str} (h : raw.s.map Utf8.decode = t.map some)
    {seg : List (Int32 × Int32)} (hk : ∀ kv ∈ seg, kv.1 ≠ 0) {rest r' : List Int32} {tags : List (Str × Str)} :
    StringPbf.denseTags t (seg.flatMap (fun kv => [kv.1, kv.2]) ++ 0 :: rest) = .ok (tags, r') ↔
      r' = rest ∧ List.Forall₂ (fun (kv : Int32 × Int32) tag => PairAt raw kv.1.toInt kv.2.toInt tag) seg tags := by
  induction seg generalizing tags with
  | nil =>
    simp only [List.flatMap_nil, List.nil_append, str_denseTags_zero, Except.ok.injEq, Prod.mk.injEq, List.forall₂_nil_left_iff]
    constructor
    · rintro ⟨rfl, rfl⟩; exact ⟨rfl, rfl⟩
    · rintro ⟨rfl, rfl⟩; exact ⟨rfl, rfl⟩
  | cons kv seg ih =>
    simp only [List.flatMap_cons, List.cons_append, List.nil_append, List.append_assoc]
    rw [str_denseTags_cons (hk kv (by simp)), List.forall₂_cons_left_iff]
    have ih := fun {tags} => ih (tags := tags) (fun kv h => hk kv (by simp [h]))
    constructor
    · rintro ⟨ks, vs, tags', h1, h2, h3, rfl⟩
      obtain ⟨rfl, h4⟩ := ih.1 h3
      exact ⟨rfl, (ks, vs), tags', ⟨(stringAt_int h).2 h1, (stringAt_int h).2 h2⟩, h4, rfl⟩
    · rintro ⟨rfl, ⟨ks, vs⟩, tags', ⟨h1, h2⟩, h4, rfl⟩
      exact ⟨ks, vs, tags', (stringAt_int h).1 h1, (stringAt_int h).1 h2, ih.2 ⟨rfl, h4⟩, rfl⟩

/-- What is accepted begins with a segment. -/
theorem str_denseTags_form {t : List Str} {kvs r' : List Int32} {tags : List (Str × Str)}
    (h : StringPbf.denseTags t kvs = .ok (tags, r')) :
    ∃ seg : List (Int32 × Int32), (∀ kv ∈ seg, kv.1 ≠ 0) ∧ kvs = seg.flatMap (fun kv => [kv.1, kv.2]) ++ 0 :: r' := by
  induction hn : kvs.length using Nat.strongRecOn generalizing kvs tags with
  | _ n ih =>
    match kvs with
    | [] => cases h
    | [k] =>
      rw [StringPbf.denseTags] at h
      split at h
      · rename_i hk; cases h; exact ⟨[], by simp, by simp [hk]⟩
      · cases h
    | k :: v :: r =>
      by_cases hk : k = 0
      · rw [StringPbf.denseTags, if_pos hk] at h
        cases h
        exact ⟨[], by simp, by simp [hk]⟩
      · obtain ⟨ks, vs, tags', h1, h2, h3, rfl⟩ := (str_denseTags_cons hk).1 h
        obtain ⟨seg, a, b⟩ := ih r.length (by rw [← hn]; simp only [List.length_cons]; omega) h3 rfl
        refine ⟨(k, v) :: seg, ?_, by simp [b]⟩
        intro kv hkv
        rcases List.mem_cons.1 hkv with rfl | hkv
        · exact hk
        · exact a kv hkv

theorem arc_densePairs_form {kvs r' : List Int32} {seg : List (Int32 × Int32)} :
    ArcPbf.densePairs kvs = .ok (seg, r') ↔
      (∀ kv ∈ seg, kv.1 ≠ 0) ∧ kvs = seg.flatMap (fun kv => [kv.1, kv.2]) ++ 0 :: r' := by
  induction hn : kvs.length using Nat.strongRecOn generalizing kvs seg with
  | _ n ih =>
    match kvs with
    | [] =>
      constructor
      · intro h; cases h
      · rintro ⟨_, h⟩; simp at h
    | [k] =>
      rw [ArcPbf.densePairs]
      constructor
      · intro h
        split at h
        · rename_i hk; cases h; exact ⟨by simp, by simp [hk]⟩
        · cases h
      · rintro ⟨a, h⟩
        cases seg with
        | nil => simp only [List.flatMap_nil, List.nil_append, List.cons.injEq] at h; rw [if_pos h.1, h.2]
        | cons kv seg => simp at h
    | k :: v :: r =>
      by_cases hk : k = 0
      · rw [ArcPbf.densePairs, if_pos hk]
        constructor
        · intro h; cases h; exact ⟨by simp, by simp [hk]⟩
        · rintro ⟨a, h⟩
          cases seg with
          | nil => simp only [List.flatMap_nil, List.nil_append, List.cons.injEq] at h; rw [h.2]
          | cons kv seg =>
            simp only [List.flatMap_cons, List.cons_append, List.cons.injEq] at h
            exact absurd (h.1 ▸ hk) (a kv (by simp))
      · rw [arc_densePairs_cons hk]
        constructor
        · rintro ⟨ps', h3, rfl⟩
          obtain ⟨a, b⟩ := (ih r.length (by rw [← hn]; simp only [List.length_cons]; omega) rfl).1 h3
          refine ⟨?_, by simp [b]⟩
          intro kv hkv
          rcases List.mem_cons.1 hkv with rfl | hkv
          · exact hk
          · exact a kv hkv
        · rintro ⟨a, h⟩
          cases seg with
          | nil => simp only [List.flatMap_nil, List.nil_append, List.cons.injEq] at h; exact absurd h.1 hk
          | cons kv seg =>
            simp only [List.flatMap_cons, List.cons_append, List.nil_append, List.cons.injEq] at h
            obtain ⟨rfl, rfl, h⟩ := h
            exact ⟨seg, (ih r.length (by rw [← hn]; simp only [List.length_cons]; omega) rfl).2
              ⟨fun kv hkv => a kv (by simp [hkv]), h⟩, rfl⟩

theorem arc_denseTags {raw : Proto.StringTable} {t : List Str} (h : raw.s.map Utf8.decode = t.map some)
    {seg : List (Int32 × Int32)} {tags : List (Str × Str)} :
    ArcPbf.denseTags (t.map some) seg = .ok tags ↔
      List.Forall₂ (fun (kv : Int32 × Int32) tag => PairAt raw kv.1.toInt kv.2.toInt tag) seg tags := by
  induction seg generalizing tags with
  | nil => simp [ArcPbf.denseTags, eq_comm]
  | cons kv seg ih =>
    obtain ⟨k, v⟩ := kv
    simp only [ArcPbf.denseTags, bind_ok, List.forall₂_cons_left_iff, indexI32_some]
    constructor
    · rintro ⟨_, ⟨ks, rfl, h1⟩, _, ⟨vs, rfl, h2⟩, tags', h3, h4⟩
      cases h4
      exact ⟨(ks, vs), tags', ⟨(stringAt_int h).2 h1, (stringAt_int h).2 h2⟩, ih.1 h3, rfl⟩
    · rintro ⟨⟨ks, vs⟩, tags', ⟨h1, h2⟩, h4, rfl⟩
      exact ⟨_, ⟨ks, rfl, (stringAt_int h).1 h1⟩, _, ⟨vs, rfl, (stringAt_int h).1 h2⟩, tags', ih.2 h4, rfl⟩

/-- Both readers find the same tags. -/
theorem arc_nodeTags {raw : Proto.StringTable} {t : List Str} (h : raw.s.map Utf8.decode = t.map some) {kvs r' : List Int32}
    {o : Option (List (Str × Str))} :
    ArcPbf.nodeTags true (t.map some) kvs = .ok (o, r') ↔ ∃ tags, o = some tags ∧ StringPbf.denseTags t kvs = .ok (tags, r') := by
  simp only [ArcPbf.nodeTags, if_true, bind_ok]
  constructor
  · rintro ⟨⟨seg, r⟩, h1, tags, h2, h3⟩
    cases h3
    obtain ⟨a, rfl⟩ := arc_densePairs_form.1 h1
    exact ⟨tags, rfl, (str_denseTags_seg h a).2 ⟨rfl, (arc_denseTags h).1 h2⟩⟩
  · rintro ⟨tags, rfl, h1⟩
    obtain ⟨seg, a, rfl⟩ := str_denseTags_form h1
    exact ⟨(seg, r'), arc_densePairs_form.2 ⟨a, rfl⟩, tags, (arc_denseTags h).2 ((str_denseTags_seg h a).1 h1).2, rfl⟩

/-- The tags of all nodes, if `keys_vals` holds these segments. -/
theorem str_tags_loop {raw : Proto.StringTable} {t : List Str} (h : raw.s.map Utf8.decode = t.map some)
    {segs : List (List (Int32 × Int32))} (hk : ∀ seg ∈ segs, ∀ kv ∈ seg, kv.1 ≠ 0) {rest : List Int32} {i : Nat}
    {ts : List (List (Str × Str))} :
    loopR (fun _ kv => StringPbf.denseTags t kv) segs.length i (keysValsOf segs ++ rest) = .ok ts ↔
      List.Forall₂ (fun seg tags =>
        List.Forall₂ (fun (kv : Int32 × Int32) tag => PairAt raw kv.1.toInt kv.2.toInt tag) seg tags) segs ts := by
  induction segs generalizing ts i with
  | nil => simp [loopR, eq_comm]
  | cons seg segs ih =>
    rw [List.length_cons, loopR_succ, List.forall₂_cons_left_iff]
    have e : keysValsOf (seg :: segs) ++ rest = seg.flatMap (fun kv => [kv.1, kv.2]) ++ 0 :: (keysValsOf segs ++ rest) := by
      simp [keysValsOf]
    rw [e]
    have hk1 := hk seg (by simp)
    have ih := fun {ts i} => ih (ts := ts) (i := i) (fun seg h => hk seg (by simp [h]))
    constructor
    · rintro ⟨x, s', r, h1, h2, rfl⟩
      obtain ⟨rfl, h3⟩ := (str_denseTags_seg h hk1).1 h1
      exact ⟨x, r, h3, ih.1 h2, rfl⟩
    · rintro ⟨x, r, h3, h4, rfl⟩
      exact ⟨x, _, r, (str_denseTags_seg h hk1).2 ⟨rfl, h3⟩, ih.2 h4, rfl⟩

theorem str_tags_form {t : List Str} {n i : Nat} {kvs : List Int32} {ts : List (List (Str × Str))}
    (h : loopR (fun _ kv => StringPbf.denseTags t kv) n i kvs = .ok ts) :
    ∃ segs rest, segs.length = n ∧ (∀ seg ∈ segs, ∀ kv ∈ seg, kv.1 ≠ 0) ∧ kvs = keysValsOf segs ++ rest := by
  induction n generalizing i kvs ts with
  | zero => exact ⟨[], kvs, rfl, by simp, rfl⟩
  | succ n ih =>
    obtain ⟨x, s', r, h1, h2, rfl⟩ := loopR_succ.1 h
    obtain ⟨seg, a, rfl⟩ := str_denseTags_form h1
    obtain ⟨segs, rest, rfl, b, rfl⟩ := ih h2
    refine ⟨seg :: segs, rest, rfl, ?_, by simp [keysValsOf]⟩
    intro sg hs
    rcases List.mem_cons.1 hs with rfl | hs
    · exact a
    · exact b sg hs

/-- The tags of all nodes in the other reader. -/
theorem arc_tags_loop {raw : Proto.StringTable} {t : List Str} (h : raw.s.map Utf8.decode = t.map some) {n i : Nat}
    {kvs : List Int32} {ts : List (Option (List (Str × Str)))} :
    loopR (fun _ kv => ArcPbf.nodeTags true (t.map some) kv) n i kvs = .ok ts ↔
      ∃ ts', ts = ts'.map some ∧ loopR (fun _ kv => StringPbf.denseTags t kv) n i kvs = .ok ts' := by
  induction n generalizing i kvs ts with
  | zero =>
    simp only [loopR, Except.ok.injEq]
    constructor
    · rintro rfl; exact ⟨[], rfl, rfl⟩
    · rintro ⟨_, rfl, rfl⟩; rfl
  | succ n ih =>
    simp only [loopR_succ, arc_nodeTags h, ih]
    constructor
    · rintro ⟨x, s', r, ⟨tags, rfl, h1⟩, ⟨ts', rfl, h2⟩, rfl⟩
      exact ⟨tags :: ts', rfl, tags, s', ts', h1, h2, rfl⟩
    · rintro ⟨_, rfl, tags, s', ts', h1, h2, rfl⟩
      exact ⟨some tags, s', ts'.map some, ⟨tags, rfl, h1⟩, ⟨ts', rfl, h2⟩, rfl⟩

theorem arc_notags_loop {table : List (Option Str)} {n i : Nat} {kvs : List Int32} :
    loopR (fun _ kv => ArcPbf.nodeTags false table kv) n i kvs = .ok (List.replicate n none) := by
  induction n generalizing i with
  | zero => rfl
  | succ n ih => exact loopR_succ.2 ⟨none, kvs, _, rfl, ih, rfl⟩

/-! ## Tags of ways and relations -/

theorem str_zipTags {raw : Proto.StringTable} {t : List Str} (h : raw.s.map Utf8.decode = t.map some) {ks vs : List UInt32}
    {tags : List (Str × Str)} :
    StringPbf.zipTags t ks vs = .ok tags ↔
      List.Forall₂ (fun (kv : UInt32 × UInt32) tag => PairAt raw kv.1.toNat kv.2.toNat tag) (ks.zip vs) tags := by
  induction ks generalizing vs tags with
  | nil => cases vs <;> simp [StringPbf.zipTags, eq_comm]
  | cons k ks ih =>
    cases vs with
    | nil => simp [StringPbf.zipTags, eq_comm]
    | cons v vs =>
      simp only [StringPbf.zipTags, bind_ok, List.zip_cons_cons, List.forall₂_cons_left_iff]
      constructor
      · rintro ⟨a, h1, c, h2, tags', h3, h4⟩
        cases h4
        exact ⟨(a, c), tags', ⟨(stringAt_nat h).2 h1, (stringAt_nat h).2 h2⟩, ih.1 h3, rfl⟩
      · rintro ⟨⟨a, c⟩, tags', ⟨h1, h2⟩, h4, rfl⟩
        exact ⟨a, (stringAt_nat h).1 h1, c, (stringAt_nat h).1 h2, tags', ih.2 h4, rfl⟩

theorem surplus_ok {α β γ : Type} {f : α → Res β} {p : Bool} {l : List α} {r : List γ} :
    surplus f p l = .ok r ↔ r = [] ∧ (p = true → ∀ a l', l = a :: l' → ∃ x, f a = .ok x) := by
  cases l with
  | nil => simp [surplus, eq_comm]
  | cons a l =>
    cases p with
    | false => simp [surplus, eq_comm]
    | true =>
      simp only [surplus, if_true]
      constructor
      · intro h
        cases hf : f a with
        | error e => rw [hf] at h; cases h
        | ok x =>
          rw [hf] at h
          cases h
          refine ⟨rfl, fun _ a' l' he => ?_⟩
          cases he
          exact ⟨x, hf⟩
      · rintro ⟨rfl, h⟩
        obtain ⟨x, hx⟩ := h trivial a l rfl
        rw [hx]
        rfl

theorem arc_zipTags_nil (t : List (Option Str)) (ks : List UInt32) :
    ArcPbf.zipTags t ks [] = surplus (fun k => index t k.toNat) (zipPeeks false [ks.length, 0]) ks := by
  cases ks <;> rfl

theorem arc_zipTags_left (t : List (Option Str)) (vs : List UInt32) : ArcPbf.zipTags t [] vs = .ok [] := by
  cases vs <;> rfl

theorem arc_zipTags {t : List Str} {ks vs : List UInt32} {tags : List (Str × Str)} :
    ArcPbf.zipTags (t.map some) ks vs = .ok tags → StringPbf.zipTags t ks vs = .ok tags := by
  induction ks generalizing vs tags with
  | nil => rw [arc_zipTags_left]; cases vs <;> simp [StringPbf.zipTags]
  | cons k ks ih =>
    cases vs with
    | nil =>
      rw [arc_zipTags_nil, surplus_ok]
      rintro ⟨rfl, _⟩
      rfl
    | cons v vs =>
      simp only [StringPbf.zipTags, ArcPbf.zipTags, bind_ok, index_some]
      rintro ⟨_, ⟨a, rfl, h1⟩, _, ⟨c, rfl, h2⟩, tags', h3, h4⟩
      exact ⟨a, h1, c, h2, tags', ih h3, h4⟩

theorem arc_zipTags_of {t : List Str} {ks vs : List UInt32} (hl : ks.length = vs.length) {tags : List (Str × Str)} :
    StringPbf.zipTags t ks vs = .ok tags → ArcPbf.zipTags (t.map some) ks vs = .ok tags := by
  induction ks generalizing vs tags with
  | nil => rw [arc_zipTags_left]; cases vs <;> simp [StringPbf.zipTags]
  | cons k ks ih =>
    cases vs with
    | nil => simp at hl
    | cons v vs =>
      simp only [StringPbf.zipTags, ArcPbf.zipTags, bind_ok, index_some]
      rintro ⟨a, h1, c, h2, tags', h3, h4⟩
      exact ⟨_, ⟨a, rfl, h1⟩, _, ⟨c, rfl, h2⟩, tags', ih (by simpa using hl) h3, h4⟩

/-! ## Members -/

theorem memberType_ok {x : Int32} {t : OSMObjectType} : StringPbf.memberType x = .ok t ↔ memberKind t = x.toInt := by
  unfold StringPbf.memberType
  split_ifs with h1 h2 h3
  · cases t <;> simp [memberKind, h1]
  · cases t <;> simp [memberKind, h2]
  · cases t <;> simp [memberKind, h3]
  · cases t <;> simp [memberKind] <;> omega

theorem str_zipMembers_ok {raw : Proto.StringTable} {t : List Str} (h : raw.s.map Utf8.decode = t.map some) {ts : List Int32}
    {ids : List ObjId} {rs : List Int32} (h1 : ts.length = ids.length) (h2 : rs.length = ids.length)
    {ms : List (OSMObjectType × ObjId × Str)} :
    StringPbf.zipMembers t ts ids rs = .ok ms ↔
      ms.map (fun m => memberKind m.1) = ints32 ts ∧ ms.map (fun m => m.2.1) = ids ∧
        ms.map (fun m => some m.2.2) = rs.map (fun x => stringAt raw x.toInt) := by
  induction ts generalizing ids rs ms with
  | nil =>
    cases ids <;> simp at h1
    cases rs <;> simp at h2
    simp only [StringPbf.zipMembers, surplus, ints32, List.map_nil, List.map_eq_nil_iff, and_self, Except.ok.injEq]
    exact eq_comm
  | cons ty ts ih =>
    cases ids with
    | nil => simp at h1
    | cons id ids =>
      cases rs with
      | nil => simp at h2
      | cons r rs =>
        have ih := fun {ms} => ih (ids := ids) (rs := rs) (ms := ms) (by simpa using h1) (by simpa using h2)
        simp only [StringPbf.zipMembers, bind_ok]
        cases ms with
        | nil => simp [ints32]
        | cons m ms =>
          obtain ⟨mt, mi, mr⟩ := m
          simp only [ints32, List.map_cons, List.cons.injEq]
          constructor
          · rintro ⟨a, h3, c, h4, d, h5, h6⟩
            cases h6
            obtain ⟨e1, e2, e3⟩ := ih.1 h5
            exact ⟨⟨memberType_ok.1 h3, e1⟩, ⟨rfl, e2⟩, ((stringAt_int h).2 h4).symm, e3⟩
          · rintro ⟨⟨f1, e1⟩, ⟨rfl, e2⟩, f3, e3⟩
            exact ⟨mt, memberType_ok.2 f1, mr, (stringAt_int h).1 f3.symm, ms, ih.2 ⟨e1, e2, e3⟩, rfl⟩

/-- One of the lists has ended. -/
theorem str_zipMembers_end {t : List Str} {ts : List Int32} {ids : List ObjId} {rs : List Int32} (h : ts = [] ∨ ids = [] ∨ rs = []) :
    StringPbf.zipMembers t ts ids rs = surplus StringPbf.memberType (zipPeeks true [ts.length, ids.length, rs.length]) ts := by
  cases ts <;> cases ids <;> cases rs <;> first | rfl | simp at h

theorem arc_zipMembers_end {t : List (Option Str)} {ts : List Int32} {ids : List ObjId} {rs : List Int32}
    (h : ts = [] ∨ ids = [] ∨ rs = []) :
    ArcPbf.zipMembers t ts ids rs = surplus ArcPbf.memberType (zipPeeks false [ts.length, ids.length, rs.length]) ts := by
  cases ts <;> cases ids <;> cases rs <;> first | rfl | simp at h

/-- Three lists: one has ended, or none. -/
theorem three_lists {α β γ : Type} (a : List α) (b : List β) (c : List γ) :
    (a = [] ∨ b = [] ∨ c = []) ∨ ∃ x a' y b' z c', a = x :: a' ∧ b = y :: b' ∧ c = z :: c' := by
  cases a <;> cases b <;> cases c <;> simp

/-- The members a list of types, ids and roles stands for, as far as the shortest goes. -/
theorem str_of_arc_zipMembers {t : List Str} {ts : List Int32} {ids : List ObjId} {rs : List Int32}
    {ms : List (OSMObjectType × ObjId × Str)} (h : ArcPbf.zipMembers (t.map some) ts ids rs = .ok ms) :
    List.Forall₂ (fun (x : (Int32 × Int64) × Int32) m =>
      StringPbf.memberType x.1.1 = .ok m.1 ∧ m.2.1 = x.1.2 ∧ indexI32 t x.2 = .ok m.2.2) ((ts.zip ids).zip rs) ms := by
  induction ts generalizing ids rs ms with
  | nil =>
    rw [arc_zipMembers_end (.inl rfl), surplus_ok] at h
    rw [h.1]
    exact .nil
  | cons ty ts ih =>
    rcases three_lists (ty :: ts) ids rs with hn | ⟨x, a, id, ids', r, rs', e1, rfl, rfl⟩
    · rw [arc_zipMembers_end hn, surplus_ok] at h
      rw [h.1]
      rcases hn with hn | rfl | rfl
      · cases hn
      · exact .nil
      · rw [List.zip_nil_right]; exact .nil
    · simp only [ArcPbf.zipMembers, bind_ok, indexI32_some] at h
      obtain ⟨a, h3, _, ⟨c, rfl, h4⟩, d, h5, h6⟩ := h
      cases h6
      exact .cons ⟨h3, rfl, h4⟩ (ih h5)

theorem str_zipMembers_rel {t : List Str} {ts : List Int32} {ids : List ObjId} {rs : List Int32}
    {ms : List (OSMObjectType × ObjId × Str)} (h : StringPbf.zipMembers t ts ids rs = .ok ms) :
    List.Forall₂ (fun (x : (Int32 × Int64) × Int32) m =>
      StringPbf.memberType x.1.1 = .ok m.1 ∧ m.2.1 = x.1.2 ∧ indexI32 t x.2 = .ok m.2.2) ((ts.zip ids).zip rs) ms := by
  induction ts generalizing ids rs ms with
  | nil =>
    rw [str_zipMembers_end (.inl rfl), surplus_ok] at h
    rw [h.1]
    exact .nil
  | cons ty ts ih =>
    rcases three_lists (ty :: ts) ids rs with hn | ⟨x, a, id, ids', r, rs', e1, rfl, rfl⟩
    · rw [str_zipMembers_end hn, surplus_ok] at h
      rw [h.1]
      rcases hn with hn | rfl | rfl
      · cases hn
      · exact .nil
      · rw [List.zip_nil_right]; exact .nil
    · simp only [StringPbf.zipMembers, bind_ok] at h
      obtain ⟨a, h3, c, h4, d, h5, h6⟩ := h
      cases h6
      exact .cons ⟨h3, rfl, h4⟩ (ih h5)

theorem zipMembers_same {t : List Str} {ts : List Int32} {ids : List ObjId} {rs : List Int32}
    {ms ms' : List (OSMObjectType × ObjId × Str)} (h : StringPbf.zipMembers t ts ids rs = .ok ms)
    (h' : ArcPbf.zipMembers (t.map some) ts ids rs = .ok ms') : ms = ms' := by
  have h1 := str_zipMembers_rel h
  have h2 := str_of_arc_zipMembers h'
  clear h h'
  generalize (ts.zip ids).zip rs = l at h1 h2
  induction h1 generalizing ms' with
  | nil => cases h2; rfl
  | cons a _ ih =>
    cases h2 with
    | cons b h2 =>
      obtain ⟨a1, a2, a3⟩ := a
      obtain ⟨b1, b2, b3⟩ := b
      rw [a1] at b1
      rw [a3] at b3
      rw [ih h2]
      exact congrArg (· :: _) (Prod.ext (Except.ok.inj b1) (Prod.ext (a2.trans b2.symm) (Except.ok.inj b3)))

theorem arc_zipMembers_of {t : List Str} {ts : List Int32} {ids : List ObjId} {rs : List Int32}
    {ms : List (OSMObjectType × ObjId × Str)} (h1 : ts.length = ids.length) (h2 : rs.length = ids.length)
    (h : StringPbf.zipMembers t ts ids rs = .ok ms) : ArcPbf.zipMembers (t.map some) ts ids rs = .ok ms := by
  induction ts generalizing ids rs ms with
  | nil =>
    rw [str_zipMembers_end (.inl rfl), surplus_ok] at h
    rw [arc_zipMembers_end (.inl rfl), surplus_ok]
    exact ⟨h.1, by simp⟩
  | cons ty ts ih =>
    cases ids with
    | nil => simp at h1
    | cons id ids =>
      cases rs with
      | nil => simp at h2
      | cons r rs =>
        simp only [StringPbf.zipMembers, ArcPbf.zipMembers, bind_ok, indexI32_some] at h ⊢
        obtain ⟨a, h3, c, h4, d, h5, h6⟩ := h
        exact ⟨a, h3, _, ⟨c, rfl, h4⟩, d, ih (by simpa using h1) (by simpa using h2) h5, h6⟩

end Osmio
