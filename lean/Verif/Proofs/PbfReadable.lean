import Verif.Spec.PbfReadable
import Verif.Proofs.PbfBuilds
/-! # Proofs: which blocks the readers can read -/

namespace Osmio
open Spec.Pbf

/-! ## Look-ups -/

theorem index_exists {α : Type} {l : List α} {i : Nat} : (∃ x, index l i = .ok x) ↔ i < l.length := by
  simp only [index_ok]
  constructor
  · rintro ⟨x, h⟩; exact (List.getElem?_eq_some_iff.1 h).1
  · exact getElem?_of_lt

theorem indexI32_exists {α : Type} {l : List α} {i : Int32} : (∃ x, indexI32 l i = .ok x) ↔ 0 ≤ i.toInt ∧ i.toInt < l.length := by
  unfold indexI32
  split
  · simp; omega
  · rw [index_exists]; omega

/-- The table of the shared-string reader. -/
def decoded (t : Proto.StringTable) : List (Option Str) := t.s.map Utf8.decode

theorem decoded_length (t : Proto.StringTable) : (decoded t).length = t.s.length := List.length_map _

theorem decoded_of {t : Proto.StringTable} {l : List Str} (h : t.s.map Utf8.decode = l.map some) : decoded t = l.map some := h

theorem length_of {t : Proto.StringTable} {l : List Str} (h : t.s.map Utf8.decode = l.map some) : l.length = t.s.length := by
  have := congrArg List.length h
  simpa using this.symm

theorem decoded_nat {t : Proto.StringTable} {i : Nat} {x : Str} : index (decoded t) i = .ok (some x) ↔ stringAt t i = some x := by
  rw [index_ok, decoded, List.getElem?_map, stringAt, if_neg (by omega), Int.toNat_natCast]
  cases t.s[i]? <;> simp

theorem decoded_int {t : Proto.StringTable} {i : Int32} {x : Str} :
    indexI32 (decoded t) i = .ok (some x) ↔ stringAt t i.toInt = some x := by
  unfold indexI32
  by_cases hi : i.toInt < 0
  · rw [if_pos hi]; simp [stringAt, hi]
  · rw [if_neg hi, decoded_nat, Int.toNat_of_nonneg (by omega)]

theorem inTable_nat {t : Proto.StringTable} {i : Nat} : InTable t i ↔ i < (decoded t).length := by
  rw [decoded_length]; unfold InTable; omega

theorem inTable_int {t : Proto.StringTable} {i : Int32} : InTable t i.toInt ↔ ∃ x, indexI32 (decoded t) i = .ok x := by
  rw [indexI32_exists, decoded_length]; rfl

/-! ## Tags and members -/

theorem forall_get_cons {α : Type} {a : α} {l : List α} {p : Nat → α → Prop} :
    (∀ i x, (a :: l)[i]? = some x → p i x) ↔ p 0 a ∧ ∀ i x, l[i]? = some x → p (i + 1) x := by
  constructor
  · intro h; exact ⟨h 0 a rfl, fun i x hx => h (i + 1) x hx⟩
  · rintro ⟨h1, h2⟩ i x hx
    cases i with
    | zero => cases hx; exact h1
    | succ i => exact h2 i x hx

theorem arc_zipTags_exists {t : List (Option Str)} {ks vs : List UInt32} :
    (∃ tags, ArcPbf.zipTags t ks vs = .ok tags) ↔
      (∀ i k, ks[i]? = some k → i < vs.length → k.toNat < t.length) ∧
      (∀ i v, vs[i]? = some v → i < ks.length → v.toNat < t.length) ∧
      (∀ k, ks[vs.length]? = some k → zipPeeks false [ks.length - vs.length, 0] = true → k.toNat < t.length) := by
  induction ks generalizing vs with
  | nil => simp [arc_zipTags_left]
  | cons k ks ih =>
    cases vs with
    | nil =>
      simp only [arc_zipTags_nil, surplus_ok]
      constructor
      · rintro ⟨_, _, h⟩
        refine ⟨by simp, by simp, fun k' hk hp => ?_⟩
        obtain rfl : k = k' := by simpa using hk
        exact index_exists.1 (h (by simpa using hp) k ks rfl)
      · rintro ⟨_, _, h⟩
        refine ⟨[], rfl, fun hp a l' he => ?_⟩
        cases he
        exact index_exists.2 (h k (by simp) (by simpa using hp))
    | cons v vs =>
      simp only [ArcPbf.zipTags, bind_ok]
      rw [forall_get_cons, forall_get_cons]
      simp only [List.length_cons, Nat.add_lt_add_iff_right, List.getElem?_cons_succ, Nat.add_sub_add_right]
      constructor
      · rintro ⟨_, x, h, y, h1, r, h2, _⟩
        obtain ⟨a, c, e⟩ := ih.1 ⟨r, h2⟩
        exact ⟨⟨fun _ => index_exists.1 ⟨x, h⟩, a⟩, ⟨fun _ => index_exists.1 ⟨y, h1⟩, c⟩, e⟩
      · rintro ⟨⟨h, a⟩, ⟨h1, c⟩, e⟩
        obtain ⟨x, hx⟩ := index_exists.2 (h (by simp))
        obtain ⟨y, hy⟩ := index_exists.2 (h1 (by simp))
        obtain ⟨r, hr⟩ := ih.2 ⟨a, c, e⟩
        exact ⟨_, x, hx, y, hy, r, hr, rfl⟩

theorem arc_pairs {t : Proto.StringTable} {ks vs : List UInt32} :
    (∃ tags, ArcPbf.zipTags (decoded t) ks vs = .ok tags) ↔ PairsThere .shared t ks vs := by
  rw [arc_zipTags_exists]
  simp only [← inTable_nat]
  constructor
  · rintro ⟨a, c, e⟩; exact ⟨by simp, a, c, e⟩
  · rintro ⟨_, a, c, e⟩; exact ⟨a, c, e⟩

theorem str_pairs {t : Proto.StringTable} {l : List Str} (h : t.s.map Utf8.decode = l.map some) {ks vs : List UInt32} :
    (ks.length = vs.length ∧ ∃ tags, StringPbf.zipTags l ks vs = .ok tags) ↔ PairsThere .owned t ks vs := by
  have e := decoded_of h
  constructor
  · rintro ⟨hl, tags, ht⟩
    have := arc_zipTags_of hl ht
    rw [← e] at this
    obtain ⟨_, a, c, e'⟩ := arc_pairs.1 ⟨tags, this⟩
    exact ⟨fun _ => hl, a, c, e'⟩
  · rintro ⟨hl, a, c, e'⟩
    obtain ⟨tags, ht⟩ := arc_pairs.2 ⟨by simp, a, c, e'⟩
    rw [e] at ht
    exact ⟨hl rfl, tags, arc_zipTags ht⟩

theorem memberType_exists {x : Int32} : (∃ ty, ArcPbf.memberType x = .ok ty) ↔ 0 ≤ x.toInt ∧ x.toInt ≤ 2 := by
  unfold ArcPbf.memberType
  split_ifs <;> simp <;> omega

/-- The lists of members, element by element, for a function that goes as far as the shortest list. -/
theorem members_exist {P : List Int32 → List ObjId → List Int32 → Prop} {okType okRole : Int32 → Prop} {peeks : List Nat → Bool}
    (hend : ∀ ts ids rs, (ts = [] ∨ ids = [] ∨ rs = []) →
      (P ts ids rs ↔ (peeks [ts.length, ids.length, rs.length] = true → ∀ x l, ts = x :: l → okType x)))
    (hcons : ∀ x ts id ids y rs, P (x :: ts) (id :: ids) (y :: rs) ↔ okType x ∧ okRole y ∧ P ts ids rs)
    {ts : List Int32} {ids : List ObjId} {rs : List Int32} :
    P ts ids rs ↔ (∀ i x, ts[i]? = some x → i < ids.length → i < rs.length → okType x) ∧
      (∀ i x, rs[i]? = some x → i < ids.length → i < ts.length → okRole x) ∧
      (∀ n x, n = min ids.length rs.length → ts[n]? = some x →
        peeks [ts.length - n, ids.length - n, rs.length - n] = true → okType x) := by
  have key : ∀ (x : Int32) (ts : List Int32) (ids : List ObjId) (rs : List Int32), (ids = [] ∨ rs = []) →
      (P (x :: ts) ids rs ↔ (∀ i y, (x :: ts)[i]? = some y → i < ids.length → i < rs.length → okType y) ∧
      (∀ i y, rs[i]? = some y → i < ids.length → i < (x :: ts).length → okRole y) ∧
      (∀ n y, n = min ids.length rs.length → (x :: ts)[n]? = some y →
        peeks [(x :: ts).length - n, ids.length - n, rs.length - n] = true → okType y)) := by
    intro x ts ids rs he
    rw [hend _ _ _ (.inr he)]
    have hmin : min ids.length rs.length = 0 := by rcases he with rfl | rfl <;> simp
    constructor
    · intro h
      refine ⟨fun i y _ h1 h2 => by omega, fun i y hy h1 _ => ?_, fun n y hn hy hp => ?_⟩
      · have := (List.getElem?_eq_some_iff.1 hy).1
        omega
      · rw [hmin] at hn
        subst hn
        obtain rfl : x = y := by simpa using hy
        exact h (by simpa using hp) x ts rfl
    · rintro ⟨_, _, h⟩ hp y l hl
      cases hl
      exact h 0 x hmin.symm (by simp) (by simpa using hp)
  induction ts generalizing ids rs with
  | nil => rw [hend _ _ _ (.inl rfl)]; simp
  | cons x ts ih =>
    cases ids with
    | nil => exact key x ts [] rs (.inl rfl)
    | cons id ids =>
      cases rs with
      | nil => exact key x ts (id :: ids) [] (.inr rfl)
      | cons y rs =>
        refine (hcons x ts id ids y rs).trans ?_
        have ih := ih (ids := ids) (rs := rs)
        refine (and_congr_right fun _ => and_congr_right fun _ => ih).trans ?_
        rw [forall_get_cons, forall_get_cons]
        simp only [List.length_cons, Nat.add_lt_add_iff_right]
        constructor
        · rintro ⟨a, c, e1, e2, e3⟩
          refine ⟨⟨fun _ _ => a, e1⟩, ⟨fun _ _ => c, e2⟩, fun n z hn hz hp => ?_⟩
          obtain ⟨m, rfl⟩ : ∃ m, n = m + 1 := ⟨n - 1, by omega⟩
          exact e3 m z (by omega) (by simpa using hz) (by simpa using hp)
        · rintro ⟨⟨a, e1⟩, ⟨c, e2⟩, e3⟩
          refine ⟨a (by simp) (by simp), c (by simp) (by simp), e1, e2, fun n z hn hz hp => ?_⟩
          exact e3 (n + 1) z (by omega) (by simpa using hz) (by simpa using hp)

theorem arc_zipMembers_exists {t : Proto.StringTable} {ts : List Int32} {ids : List ObjId} {rs : List Int32} :
    (∃ ms, ArcPbf.zipMembers (decoded t) ts ids rs = .ok ms) ↔
      (∀ i x, ts[i]? = some x → i < ids.length → i < rs.length → 0 ≤ x.toInt ∧ x.toInt ≤ 2) ∧
      (∀ i x, rs[i]? = some x → i < ids.length → i < ts.length → InTable t x.toInt) ∧
      (∀ n x, n = min ids.length rs.length → ts[n]? = some x →
        zipPeeks false [ts.length - n, ids.length - n, rs.length - n] = true → 0 ≤ x.toInt ∧ x.toInt ≤ 2) := by
  refine members_exist (P := fun ts ids rs => ∃ ms, ArcPbf.zipMembers (decoded t) ts ids rs = .ok ms)
    (okType := fun x => 0 ≤ x.toInt ∧ x.toInt ≤ 2) (okRole := fun x => InTable t x.toInt) ?_ ?_
  · intro ts ids rs he
    simp only [arc_zipMembers_end he, surplus_ok, memberType_exists, exists_eq_left]
  · intro x ts id ids y rs
    simp only [ArcPbf.zipMembers, bind_ok, inTable_int, ← memberType_exists]
    constructor
    · rintro ⟨_, a, h1, c, h2, m, h3, _⟩
      exact ⟨⟨a, h1⟩, ⟨c, h2⟩, ⟨m, h3⟩⟩
    · rintro ⟨⟨a, h1⟩, ⟨c, h2⟩, ⟨m, h3⟩⟩
      exact ⟨_, a, h1, c, h2, m, h3, rfl⟩

theorem str_zipMembers_exists {t : Proto.StringTable} {l : List Str} (h : t.s.map Utf8.decode = l.map some) {ts : List Int32}
    {ids : List ObjId} {rs : List Int32} :
    (∃ ms, StringPbf.zipMembers l ts ids rs = .ok ms) ↔
      (∀ i x, ts[i]? = some x → i < ids.length → i < rs.length → 0 ≤ x.toInt ∧ x.toInt ≤ 2) ∧
      (∀ i x, rs[i]? = some x → i < ids.length → i < ts.length → InTable t x.toInt) ∧
      (∀ n x, n = min ids.length rs.length → ts[n]? = some x →
        zipPeeks true [ts.length - n, ids.length - n, rs.length - n] = true → 0 ≤ x.toInt ∧ x.toInt ≤ 2) := by
  have hm : ∀ x, (∃ ty, StringPbf.memberType x = .ok ty) ↔ 0 ≤ x.toInt ∧ x.toInt ≤ 2 := fun x => memberType_exists
  have hr : ∀ x : Int32, InTable t x.toInt ↔ ∃ s, indexI32 l x = .ok s := fun x => by
    rw [indexI32_exists, length_of h]; rfl
  refine members_exist (P := fun ts ids rs => ∃ ms, StringPbf.zipMembers l ts ids rs = .ok ms)
    (okType := fun x => 0 ≤ x.toInt ∧ x.toInt ≤ 2) (okRole := fun x => InTable t x.toInt) ?_ ?_
  · intro ts ids rs he
    simp only [str_zipMembers_end he, surplus_ok, hm, exists_eq_left]
  · intro x ts id ids y rs
    simp only [StringPbf.zipMembers, bind_ok, hr, ← hm]
    constructor
    · rintro ⟨_, a, h1, c, h2, m, h3, _⟩
      exact ⟨⟨a, h1⟩, ⟨c, h2⟩, ⟨m, h3⟩⟩
    · rintro ⟨⟨a, h1⟩, ⟨c, h2⟩, ⟨m, h3⟩⟩
      exact ⟨_, a, h1, c, h2, m, h3, rfl⟩

theorem i64_release (x : Int) : Build.release.i64 x = .ok (Int64.ofInt x) := by unfold Build.i64; split <;> rfl
theorem i32_release (x : Int) : Build.release.i32 x = .ok (Int32.ofInt x) := by unfold Build.i32; split <;> rfl

theorem runningSums_release (x : Int64) (l : List Int64) :
    ∃ r, StringPbf.runningSums .release x l = .ok r ∧ r.length = l.length := by
  induction l generalizing x with
  | nil => exact ⟨[], rfl, rfl⟩
  | cons d l ih =>
    obtain ⟨r, h, hl⟩ := ih (Int64.ofInt (x.toInt + d.toInt))
    exact ⟨_ :: r, bind_ok.2 ⟨_, i64_release _, bind_ok.2 ⟨r, h, rfl⟩⟩, by simp [hl]⟩

theorem undelta_release (l : List Int64) : ∃ r, StringPbf.undelta .release l = .ok r ∧ r.length = l.length := by
  cases l with
  | nil => exact ⟨[], rfl, rfl⟩
  | cons d l =>
    obtain ⟨r, h, hl⟩ := runningSums_release d l
    exact ⟨d :: r, bind_ok.2 ⟨r, h, rfl⟩, by simp [hl]⟩

/-! ## Ways and relations -/

theorem arc_info {t : Proto.StringTable} {i : Proto.Info} :
    (∃ ts vis cs uid sid ver user, InfoIs i ts cs uid sid ver ∧ i.visible = some vis ∧ index (decoded t) sid.toNat = .ok (some user)) ↔
      InfoThere .shared t i := by
  simp only [decoded_nat]
  constructor
  · rintro ⟨ts, vis, cs, uid, sid, ver, user, h, hv, hu⟩
    exact ⟨by simp [h.version], by simp [h.timestamp], by simp [h.changeset], by simp [h.uid], ⟨sid, h.userSid, user, hu⟩, by simp [hv]⟩
  · rintro ⟨h1, h2, h3, h4, ⟨sid, h5, user, hu⟩, h6⟩
    obtain ⟨ver, h1⟩ := Option.ne_none_iff_exists'.1 h1
    obtain ⟨ts, h2⟩ := Option.ne_none_iff_exists'.1 h2
    obtain ⟨cs, h3⟩ := Option.ne_none_iff_exists'.1 h3
    obtain ⟨uid, h4⟩ := Option.ne_none_iff_exists'.1 h4
    obtain ⟨vis, h6⟩ := Option.ne_none_iff_exists'.1 (h6 rfl)
    exact ⟨ts, vis, cs, uid, sid, ver, user, ⟨h2, h3, h4, h5, h1⟩, h6, hu⟩

theorem str_info {t : Proto.StringTable} {l : List Str} (h : t.s.map Utf8.decode = l.map some) {i : Proto.Info} :
    (∃ ts cs uid sid ver user, InfoIs i ts cs uid sid ver ∧ index l sid.toNat = .ok user) ↔ InfoThere .owned t i := by
  simp only [← stringAt_nat h]
  constructor
  · rintro ⟨ts, cs, uid, sid, ver, user, h, hu⟩
    exact ⟨by simp [h.version], by simp [h.timestamp], by simp [h.changeset], by simp [h.uid], ⟨sid, h.userSid, user, hu⟩, by simp⟩
  · rintro ⟨h1, h2, h3, h4, ⟨sid, h5, user, hu⟩, _⟩
    obtain ⟨ver, h1⟩ := Option.ne_none_iff_exists'.1 h1
    obtain ⟨ts, h2⟩ := Option.ne_none_iff_exists'.1 h2
    obtain ⟨cs, h3⟩ := Option.ne_none_iff_exists'.1 h3
    obtain ⟨uid, h4⟩ := Option.ne_none_iff_exists'.1 h4
    exact ⟨ts, cs, uid, sid, ver, user, ⟨h2, h3, h4, h5, h1⟩, hu⟩

theorem arc_way_readable {t : Proto.StringTable} {w : Proto.Way} :
    (∃ d, ArcWayIs .release (decoded t) w d) ↔ WayReadable .shared t w := by
  constructor
  · rintro ⟨d, h⟩
    obtain ⟨tags, nodes, ts, vis, cs, uid, sid, ver, user, h1, h2, h3, h4, h5, _⟩ := arc_decodeWay.1 h
    exact ⟨by simp, arc_pairs.1 ⟨_, h1⟩, arc_info.1 ⟨ts, vis, cs, uid, sid, ver, user, h3, h4, h5⟩⟩
  · rintro ⟨_, h1, h2⟩
    obtain ⟨tags, h1⟩ := arc_pairs.2 h1
    obtain ⟨ts, vis, cs, uid, sid, ver, user, h3, h4, h5⟩ := arc_info.2 h2
    obtain ⟨nodes, h6, _⟩ := undelta_release w.refs
    exact ⟨_, arc_decodeWay.2 ⟨tags, nodes, ts, vis, cs, uid, sid, ver, user, h1, h6, h3, h4, h5, rfl⟩⟩

theorem str_way_readable {t : Proto.StringTable} {l : List Str} (h : t.s.map Utf8.decode = l.map some) {w : Proto.Way} :
    (∃ d, StrWay .release l w d) ↔ WayReadable .owned t w := by
  constructor
  · rintro ⟨d, hd⟩
    obtain ⟨id, tags, nodes, ts, cs, uid, sid, ver, user, h1, h2, h3, h4, h5, h6, _⟩ := str_decodeWay.1 hd
    exact ⟨by simp [h1], (str_pairs h).1 ⟨h2, _, h3⟩, (str_info h).1 ⟨ts, cs, uid, sid, ver, user, h5, h6⟩⟩
  · rintro ⟨h0, h1, h2⟩
    obtain ⟨id, h0⟩ := Option.ne_none_iff_exists'.1 (h0 rfl)
    obtain ⟨hl, tags, h1⟩ := (str_pairs h).2 h1
    obtain ⟨ts, cs, uid, sid, ver, user, h3, h5⟩ := (str_info h).2 h2
    obtain ⟨nodes, h6, _⟩ := undelta_release w.refs
    exact ⟨_, str_decodeWay.2 ⟨id, tags, nodes, ts, cs, uid, sid, ver, user, h0, hl, h1, h6, h3, h5, rfl⟩⟩

theorem arc_rel_readable {t : Proto.StringTable} {w : Proto.Relation} :
    (∃ d, ArcRel .release (decoded t) w d) ↔ RelationReadable .shared t w := by
  obtain ⟨ids, hi, hl⟩ := undelta_release w.memids
  constructor
  · rintro ⟨d, h⟩
    obtain ⟨tags, ids', ms, ts, vis, cs, uid, sid, ver, user, h1, h2, hm, h3, h4, h5, _⟩ := arc_decodeRelation.1 h
    rw [hi] at h2; cases h2
    obtain ⟨a, c, e⟩ := arc_zipMembers_exists.1 ⟨ms, hm⟩
    rw [hl] at a c e
    exact ⟨arc_pairs.1 ⟨_, h1⟩, a, c, e, arc_info.1 ⟨ts, vis, cs, uid, sid, ver, user, h3, h4, h5⟩⟩
  · rintro ⟨h1, a, c, e, h2⟩
    obtain ⟨tags, h1⟩ := arc_pairs.2 h1
    obtain ⟨ts, vis, cs, uid, sid, ver, user, h3, h4, h5⟩ := arc_info.2 h2
    rw [← hl] at a c e
    obtain ⟨ms, hm⟩ := arc_zipMembers_exists.2 ⟨a, c, e⟩
    exact ⟨_, arc_decodeRelation.2 ⟨tags, ids, ms, ts, vis, cs, uid, sid, ver, user, h1, hi, hm, h3, h4, h5, rfl⟩⟩

theorem str_rel_readable {t : Proto.StringTable} {l : List Str} (h : t.s.map Utf8.decode = l.map some) {w : Proto.Relation} :
    (∃ d, StrRel .release l w d) ↔ RelationReadable .owned t w := by
  obtain ⟨ids, hi, hl⟩ := undelta_release w.memids
  constructor
  · rintro ⟨d, hd⟩
    obtain ⟨tags, ids', ms, ts, cs, uid, sid, ver, user, h1, h2, h3, hm, h4, h5, _⟩ := str_decodeRelation.1 hd
    rw [hi] at h3; cases h3
    obtain ⟨a, c, e⟩ := (str_zipMembers_exists h).1 ⟨ms, hm⟩
    rw [hl] at a c e
    exact ⟨(str_pairs h).1 ⟨h1, _, h2⟩, a, c, e, (str_info h).1 ⟨ts, cs, uid, sid, ver, user, h4, h5⟩⟩
  · rintro ⟨h1, a, c, e, h2⟩
    obtain ⟨hk, tags, h1⟩ := (str_pairs h).2 h1
    obtain ⟨ts, cs, uid, sid, ver, user, h3, h5⟩ := (str_info h).2 h2
    rw [← hl] at a c e
    obtain ⟨ms, hm⟩ := (str_zipMembers_exists h).2 ⟨a, c, e⟩
    exact ⟨_, str_decodeRelation.2 ⟨tags, ids, ms, ts, cs, uid, sid, ver, user, hk, h1, hi, hm, h3, h5, rfl⟩⟩

theorem forall₂_exists {α β : Type} {p : α → β → Prop} {l : List α} :
    (∃ r, List.Forall₂ p l r) ↔ ∀ a ∈ l, ∃ x, p a x := by
  induction l with
  | nil => simp
  | cons a l ih =>
    simp only [List.forall₂_cons_left_iff, List.mem_cons, forall_eq_or_imp, ← ih]
    constructor
    · rintro ⟨_, x, r, h1, h2, rfl⟩; exact ⟨⟨x, h1⟩, r, h2⟩
    · rintro ⟨⟨x, h1⟩, r, h2⟩; exact ⟨_, x, r, h1, h2, rfl⟩

/-! ## Dense nodes -/

/-- A loop whose rounds succeed or not whatever the rounds before gave. -/
theorem loopR_exists {σ α : Type} {step : Nat → σ → Res (α × σ)} {inv : Nat → σ → Prop} {p : Nat → Prop} {q : Nat → α → Prop}
    (hp : ∀ i s, inv i s → ((∃ x s', step i s = .ok (x, s')) ↔ p i))
    (hq : ∀ i s x s', inv i s → step i s = .ok (x, s') → inv (i + 1) s' ∧ q i x) {n i : Nat} {s : σ} (h0 : inv i s) :
    ((∃ l, loopR step n i s = .ok l) ↔ ∀ j < n, p (i + j)) ∧
      ∀ l, loopR step n i s = .ok l → ∀ j x, l[j]? = some x → q (i + j) x := by
  induction n generalizing i s with
  | zero =>
    refine ⟨⟨fun _ j hj => by omega, fun _ => ⟨[], rfl⟩⟩, ?_⟩
    intro l hl j x hx
    cases hl
    cases hx
  | succ n ih =>
    constructor
    · constructor
      · rintro ⟨l, hl⟩ j hj
        obtain ⟨x, s', r, h1, h2, rfl⟩ := loopR_succ.1 hl
        cases j with
        | zero => exact (hp i s h0).1 ⟨x, s', h1⟩
        | succ j =>
          have := (ih (hq i s x s' h0 h1).1).1.1 ⟨r, h2⟩ j (by omega)
          rwa [Nat.add_assoc, Nat.add_comm 1 j] at this
      · intro h
        obtain ⟨x, s', h1⟩ := (hp i s h0).2 (h 0 (by omega))
        obtain ⟨r, h2⟩ := (ih (hq i s x s' h0 h1).1).1.2 (fun j hj => by
          have := h (j + 1) (by omega)
          rwa [← Nat.add_assoc, Nat.add_right_comm] at this)
        exact ⟨x :: r, loopR_succ.2 ⟨x, s', r, h1, h2, rfl⟩⟩
    · intro l hl j y hy
      obtain ⟨x, s', r, h1, h2, rfl⟩ := loopR_succ.1 hl
      obtain ⟨h3, h4⟩ := hq i s x s' h0 h1
      cases j with
      | zero => cases hy; exact h4
      | succ j =>
        have := (ih h3).2 r h2 j y hy
        rwa [Nat.add_assoc, Nat.add_comm 1 j] at this

theorem forall_lt_iff {n m : Nat} : (∀ j < n, j < m) ↔ n ≤ m := by
  constructor
  · intro h
    rcases Nat.eq_zero_or_pos n with h0 | h0
    · omega
    · have := h (n - 1) (by omega); omega
  · intro h j hj; omega

theorem delta64_release {l : List Int64} {i : Nat} {last : Int64} (h : i < l.length) :
    ∃ y, StringPbf.delta64 .release l i last = .ok y := by
  obtain ⟨d, hd⟩ := getElem?_of_lt h
  exact ⟨_, bind_ok.2 ⟨d, index_ok.2 hd, i64_release _⟩⟩

theorem delta32_release {l : List Int32} {i : Nat} {last : Int32} (h : i < l.length) :
    ∃ y, StringPbf.delta32 .release l i last = .ok y := by
  obtain ⟨d, hd⟩ := getElem?_of_lt h
  exact ⟨_, bind_ok.2 ⟨d, index_ok.2 hd, i32_release _⟩⟩

theorem timestamp_release {g : Int32} {l : List Int64} {i : Nat} {last : Int32} (h : i < l.length) :
    ∃ y, StringPbf.denseTimestamp .release g l i last = .ok y := by
  obtain ⟨d, hd⟩ := getElem?_of_lt h
  exact ⟨_, bind_ok.2 ⟨d, index_ok.2 hd, bind_ok.2 ⟨_, i32_release _, i32_release _⟩⟩⟩

theorem internalCoord_release (g : Int32) (o : Int64) (r : Int32) : ∃ y, NodePos.internalCoord .release g o r = .ok y :=
  ⟨_, bind_ok.2 ⟨_, i32_release _, i32_release _⟩⟩

/-- When a position can be computed. -/
def PosThere (dense : Proto.DenseNodes) (i : Nat) : Prop :=
  i < dense.id.length ∧ i < dense.lat.length ∧ i < dense.lon.length ∧ FitsI32 (runningSum (ints dense.lat) i) ∧
    FitsI32 (runningSum (ints dense.lon) i)

theorem pos_step_exists {dense : Proto.DenseNodes} {g : Int32} {la lo : Int64} {i : Nat} {s : NodePos.State}
    (hs : PosState dense i s) :
    (∃ x s', NodePos.step .release dense g la lo i s = .ok (x, s')) ↔ PosThere dense i := by
  constructor
  · rintro ⟨x, s', h⟩
    obtain ⟨_, _, h1, h2⟩ := pos_step_ok hs h
    simp only [NodePos.step, bind_ok] at h
    obtain ⟨did, h3, id, _, dlat, h4, rl, _, dlon, h5, _⟩ := h
    exact ⟨index_exists.1 ⟨_, h3⟩, index_exists.1 ⟨_, h4⟩, index_exists.1 ⟨_, h5⟩, h1, h2⟩
  · rintro ⟨h1, h2, h3, h4, h5⟩
    obtain ⟨did, h1⟩ := getElem?_of_lt h1
    obtain ⟨dlat, h2⟩ := getElem?_of_lt h2
    obtain ⟨dlon, h3⟩ := getElem?_of_lt h3
    rw [runningSum_of (ints_get h2), ← hs.lat, Int.add_comm] at h4
    rw [runningSum_of (ints_get h3), ← hs.lon, Int.add_comm] at h5
    obtain ⟨lat, h6⟩ := internalCoord_release g la (Int32.ofInt (dlat.toInt + s.lastRawLat.toInt))
    obtain ⟨lon, h7⟩ := internalCoord_release g lo (Int32.ofInt (dlon.toInt + s.lastRawLon.toInt))
    have h : NodePos.step .release dense g la lo i s = .ok ((Int64.ofInt (did.toInt + s.lastId.toInt), (⟨lat⟩, ⟨lon⟩)),
        ⟨Int64.ofInt (did.toInt + s.lastId.toInt), Int32.ofInt (dlat.toInt + s.lastRawLat.toInt),
          Int32.ofInt (dlon.toInt + s.lastRawLon.toInt)⟩) := by
      simp only [NodePos.step, bind_ok]
      exact ⟨did, index_ok.2 h1, _, i64_release _, dlat, index_ok.2 h2, _, rawCoord_fits _ h4, dlon, index_ok.2 h3, _,
        rawCoord_fits _ h5, lat, h6, lon, h7, rfl⟩
    exact ⟨_, _, h⟩

theorem pos_loop_exists {dense : Proto.DenseNodes} {g : Int32} {la lo : Int64} :
    (∃ ps, loopR (NodePos.step .release dense g la lo) dense.id.length 0 {} = .ok ps) ↔ ∀ i < dense.id.length, PosThere dense i := by
  have := (loopR_exists (step := NodePos.step .release dense g la lo) (inv := PosState dense) (p := PosThere dense)
    (q := fun _ _ => True) (fun i s hs => pos_step_exists hs) (fun i s x s' hs h => ⟨(pos_step_ok hs h).2.1, trivial⟩)
    (n := dense.id.length) (posState_zero dense)).1
  simpa using this

/-- When the metadata of a dense node can be computed. -/
def MetaThere (info : Proto.DenseInfo) (i : Nat) : Prop :=
  i < info.changeset.length ∧ i < info.uid.length ∧ i < info.userSid.length ∧ i < info.timestamp.length ∧ i < info.version.length ∧
    wrap32 (runningSum (ints32 info.uid) i) ≠ 2147483647

/-- The state before node `i`. -/
structure SidState (info : Proto.DenseInfo) (i : Nat) (s : MState) : Prop where
  uid : s.lastUid = Int32.ofInt ((ints32 info.uid).take i).sum
  user : s.lastUserSid = Int32.ofInt ((ints32 info.userSid).take i).sum

theorem toInt_wrap32 (x : Int) : (Int32.ofInt x).toInt = wrap32 x := Int32.toInt_ofInt

theorem meta_there_ok {b : Build} {info : Proto.DenseInfo} {dg : Int32} {i : Nat} {s s' : MState} {m : Meta} (hs : SidState info i s)
    (h : metaStep b info dg i s = .ok (m, s')) :
    MetaThere info i ∧ SidState info (i + 1) s' ∧ m.userSid = Int32.ofInt (runningSum (ints32 info.userSid) i) := by
  simp only [metaStep, bind_ok] at h
  obtain ⟨cs, h1, uid, h2, us, h3, ts, h4, _, h5, ver, h6, h7⟩ := h
  cases h7
  obtain ⟨e2, l2⟩ := delta32_ok h2 hs.uid
  obtain ⟨e3, l3⟩ := delta32_ok h3 hs.user
  obtain ⟨_, h1, _⟩ := bind_ok.1 h1
  obtain ⟨_, h4, _⟩ := bind_ok.1 h4
  rw [assert_ok, decide_eq_true_iff, e2, toInt_wrap32] at h5
  exact ⟨⟨index_exists.1 ⟨_, h1⟩, l2, l3, index_exists.1 ⟨_, h4⟩, index_exists.1 ⟨_, h6⟩, by omega⟩, ⟨e2, e3⟩, e3⟩

theorem meta_step_exists {info : Proto.DenseInfo} {dg : Int32} {i : Nat} {s : MState} (hs : SidState info i s) :
    (∃ m s', metaStep .release info dg i s = .ok (m, s')) ↔ MetaThere info i := by
  constructor
  · rintro ⟨m, s', h⟩; exact (meta_there_ok hs h).1
  · rintro ⟨h1, h2, h3, h4, h5, h6⟩
    obtain ⟨cs, h1⟩ := delta64_release (last := s.lastChangeset) h1
    obtain ⟨uid, h2⟩ := delta32_release (last := s.lastUid) h2
    obtain ⟨us, h3⟩ := delta32_release (last := s.lastUserSid) h3
    obtain ⟨ts, h4⟩ := timestamp_release (g := dg) (last := s.lastTimestamp) h4
    obtain ⟨ver, h5⟩ := index_exists.2 h5
    have e := (delta32_ok h2 hs.uid).1
    have h : metaStep .release info dg i s = .ok (⟨cs, uid, us, ts, ver⟩, ⟨ts, cs, uid, us⟩) := by
      simp only [metaStep, bind_ok]
      refine ⟨cs, h1, uid, h2, us, h3, ts, h4, (), ?_, ver, h5, rfl⟩
      rw [assert_ok, decide_eq_true_iff]
      have := (fits32 uid).2
      rw [← toInt_wrap32, ← e] at h6
      omega
    exact ⟨_, _, h⟩

theorem meta_loop_exists {info : Proto.DenseInfo} {dg : Int32} {n : Nat} :
    ((∃ ms, loopR (metaStep .release info dg) n 0 {} = .ok ms) ↔ ∀ i < n, MetaThere info i) ∧
      ∀ ms, loopR (metaStep .release info dg) n 0 {} = .ok ms → ∀ i m, ms[i]? = some m →
        m.userSid = Int32.ofInt (runningSum (ints32 info.userSid) i) := by
  have := loopR_exists (step := metaStep .release info dg) (inv := SidState info) (p := MetaThere info)
    (q := fun i m => m.userSid = Int32.ofInt (runningSum (ints32 info.userSid) i)) (fun i s hs => meta_step_exists hs)
    (fun i s x s' hs h => (meta_there_ok hs h).2) (n := n) (i := 0) (s := {}) ⟨rfl, rfl⟩
  simpa using this

theorem arc_denseTags_exists {t : Proto.StringTable} {seg : List (Int32 × Int32)} :
    (∃ tags, ArcPbf.denseTags (decoded t) seg = .ok tags) ↔ ∀ kv ∈ seg, InTable t kv.1.toInt ∧ InTable t kv.2.toInt := by
  induction seg with
  | nil => simp [ArcPbf.denseTags]
  | cons kv seg ih =>
    obtain ⟨k, v⟩ := kv
    rw [List.forall_mem_cons, ← ih, inTable_int, inTable_int]
    simp only [ArcPbf.denseTags, bind_ok]
    constructor
    · rintro ⟨_, x, h1, y, h2, r, h3, _⟩; exact ⟨⟨⟨x, h1⟩, y, h2⟩, r, h3⟩
    · rintro ⟨⟨⟨x, h1⟩, y, h2⟩, r, h3⟩; exact ⟨_, x, h1, y, h2, r, h3, rfl⟩

/-- Tags of `n` nodes. -/
def TagsThere (t : Proto.StringTable) (n : Nat) (kvs : List Int32) : Prop :=
  ∃ (segs : List (List (Int32 × Int32))) (rest : List Int32), segs.length = n ∧ kvs = keysValsOf segs ++ rest ∧
    ∀ seg ∈ segs, ∀ kv ∈ seg, kv.1 ≠ 0 ∧ InTable t kv.1.toInt ∧ InTable t kv.2.toInt

theorem arc_tags_exists {t : Proto.StringTable} {n i : Nat} {kvs : List Int32} :
    (∃ ts, loopR (fun _ kv => ArcPbf.nodeTags true (decoded t) kv) n i kvs = .ok ts) ↔ TagsThere t n kvs := by
  induction n generalizing i kvs with
  | zero => exact ⟨fun _ => ⟨[], kvs, rfl, rfl, by simp⟩, fun _ => ⟨[], rfl⟩⟩
  | succ n ih =>
    constructor
    · rintro ⟨ts, h⟩
      obtain ⟨x, s', r, h1, h2, rfl⟩ := loopR_succ.1 h
      simp only [ArcPbf.nodeTags, if_true, bind_ok] at h1
      obtain ⟨⟨seg, r'⟩, h3, tags, h4, h5⟩ := h1
      cases h5
      obtain ⟨h6, rfl⟩ := arc_densePairs_form.1 h3
      obtain ⟨segs, rest, rfl, rfl, h7⟩ := ih.1 ⟨_, h2⟩
      refine ⟨seg :: segs, rest, rfl, by simp [keysValsOf], ?_⟩
      simp only [List.mem_cons, forall_eq_or_imp]
      exact ⟨fun kv hkv => ⟨h6 kv hkv, arc_denseTags_exists.1 ⟨tags, h4⟩ kv hkv⟩, h7⟩
    · rintro ⟨segs, rest, hl, rfl, h⟩
      cases segs with
      | nil => simp at hl
      | cons seg segs =>
        simp only [List.mem_cons, forall_eq_or_imp] at h
        obtain ⟨r, h2⟩ := (ih (i := i + 1) (kvs := keysValsOf segs ++ rest)).2 ⟨segs, rest, by simpa using hl, rfl, h.2⟩
        obtain ⟨tags, h4⟩ := arc_denseTags_exists.2 (fun kv hkv => (h.1 kv hkv).2)
        refine ⟨some tags :: r, loopR_succ.2 ⟨some tags, keysValsOf segs ++ rest, r, ?_, h2, rfl⟩⟩
        simp only [ArcPbf.nodeTags, if_true, bind_ok]
        exact ⟨(seg, _), arc_densePairs_form.2 ⟨fun kv hkv => (h.1 kv hkv).1, by simp [keysValsOf]⟩, tags, h4, rfl⟩

theorem str_tags_exists {t : Proto.StringTable} {l : List Str} (h : t.s.map Utf8.decode = l.map some) {n i : Nat}
    {kvs : List Int32} :
    (∃ ts, loopR (fun _ kv => StringPbf.denseTags l kv) n i kvs = .ok ts) ↔ TagsThere t n kvs := by
  rw [← arc_tags_exists (i := i), decoded_of h]
  simp only [arc_tags_loop h]
  constructor
  · rintro ⟨ts, h1⟩; exact ⟨_, ts, rfl, h1⟩
  · rintro ⟨_, ts, _, h1⟩; exact ⟨ts, h1⟩

/-- Positions and metadata. -/
theorem denseReadable_iff {r : Which} {t : Proto.StringTable} {dense : Proto.DenseNodes} {info : Proto.DenseInfo} :
    DenseReadable r t dense info ↔ (∀ i < dense.id.length, PosThere dense i) ∧ (∀ i < dense.id.length, MetaThere info i) ∧
      (∀ i < dense.id.length, TextAt t (wrap32 (runningSum (ints32 info.userSid) i))) ∧
      ((r = .shared ∧ dense.keysVals = []) ∨ TagsThere t dense.id.length dense.keysVals) := by
  constructor
  · intro h
    refine ⟨fun i hi => ⟨hi, ?_, ?_, h.latFits i hi, h.lonFits i hi⟩,
      fun i hi => ⟨?_, ?_, ?_, ?_, ?_, h.uidFits i hi⟩, h.user, h.tags⟩
    · have := h.lat; omega
    · have := h.lon; omega
    · have := h.changeset; omega
    · have := h.uid; omega
    · have := h.userSid; omega
    · have := h.timestamp; omega
    · have := h.version; omega
  · rintro ⟨h1, h2, h3, h4⟩
    exact ⟨forall_lt_iff.1 fun i hi => (h1 i hi).2.1, forall_lt_iff.1 fun i hi => (h1 i hi).2.2.1,
      forall_lt_iff.1 fun i hi => (h2 i hi).2.2.2.2.1, forall_lt_iff.1 fun i hi => (h2 i hi).2.2.2.1,
      forall_lt_iff.1 fun i hi => (h2 i hi).1, forall_lt_iff.1 fun i hi => (h2 i hi).2.1,
      forall_lt_iff.1 fun i hi => (h2 i hi).2.2.1, fun i hi => (h1 i hi).2.2.2.1, fun i hi => (h1 i hi).2.2.2.2,
      fun i hi => (h2 i hi).2.2.2.2.2, h3, h4⟩

/-- The users of the nodes. -/
theorem users_exist {info : Proto.DenseInfo} {n : Nat} {ms : List Meta} (hl : ms.length = n)
    (hm : ∀ i m, ms[i]? = some m → m.userSid = Int32.ofInt (runningSum (ints32 info.userSid) i)) {t : Proto.StringTable}
    {p : Int32 → Str → Prop} (hp : ∀ x u, p x u ↔ stringAt t x.toInt = some u) :
    (∃ us, List.Forall₂ (fun m u => p m.userSid u) ms us) ↔
      ∀ i < n, TextAt t (wrap32 (runningSum (ints32 info.userSid) i)) := by
  rw [forall₂_exists]
  subst hl
  constructor
  · intro h i hi
    obtain ⟨u, hu⟩ := h ms[i] (List.getElem_mem hi)
    rw [hp, hm i _ (List.getElem?_eq_getElem hi), toInt_wrap32] at hu
    exact ⟨u, hu⟩
  · intro h m hmem
    obtain ⟨i, hi⟩ := List.getElem?_of_mem hmem
    obtain ⟨u, hu⟩ := h i (List.getElem?_eq_some_iff.1 hi).1
    refine ⟨u, ?_⟩
    rw [hp, hm i m hi, toInt_wrap32]
    exact hu

theorem arc_dense_readable {block : Proto.PrimitiveBlock} {t : Proto.StringTable} {dense : Proto.DenseNodes} :
    (∃ ds, ArcDense .release block (decoded t) dense ds) ↔ DenseReadable .shared t dense (dense.denseinfo.getD {}) := by
  rw [denseReadable_iff]
  unfold ArcDense
  simp only [arc_loop]
  constructor
  · rintro ⟨_, ps, ms, ts, us, h1, h2, h3, h4, rfl⟩
    have hm := meta_loop_exists.2 ms h2
    refine ⟨pos_loop_exists.1 ⟨ps, h1⟩, meta_loop_exists.1.1 ⟨ms, h2⟩,
      (users_exist (loopR_length h2) hm (fun x u => decoded_int)).1 ⟨us, h4⟩, ?_⟩
    by_cases hk : dense.keysVals = []
    · exact .inl ⟨trivial, hk⟩
    · right
      rw [show (!dense.keysVals.isEmpty) = true by simp [hk]] at h3
      exact arc_tags_exists.1 ⟨ts, h3⟩
  · rintro ⟨h1, h2, h3, h4⟩
    obtain ⟨ps, h1⟩ := pos_loop_exists.2 h1
    obtain ⟨ms, h2⟩ := meta_loop_exists.1.2 h2
    have hm := meta_loop_exists.2 ms h2
    obtain ⟨us, h3⟩ := (users_exist (loopR_length h2) hm (fun x u => decoded_int)).2 h3
    have h5 : ∃ ts, loopR (fun _ kv => ArcPbf.nodeTags (!dense.keysVals.isEmpty) (decoded t) kv) dense.id.length 0 dense.keysVals =
        .ok ts := by
      by_cases hk : dense.keysVals = []
      · rw [show (!dense.keysVals.isEmpty) = false by simp [hk]]
        exact ⟨_, arc_notags_loop⟩
      · rw [show (!dense.keysVals.isEmpty) = true by simp [hk]]
        exact arc_tags_exists.2 (h4.resolve_left fun h => hk h.2)
    obtain ⟨ts, h5⟩ := h5
    exact ⟨_, ps, ms, ts, us, h1, h2, h5, h3, rfl⟩

theorem str_dense_readable {block : Proto.PrimitiveBlock} {t : Proto.StringTable} {l : List Str}
    (h : t.s.map Utf8.decode = l.map some) {dense : Proto.DenseNodes} :
    (∃ ds, StrDense .release block l dense ds) ↔ DenseReadable .owned t dense (dense.denseinfo.getD {}) := by
  rw [denseReadable_iff]
  unfold StrDense
  simp only [str_loop]
  constructor
  · rintro ⟨_, ps, ms, ts, us, h1, h2, h3, h4, rfl⟩
    have hm := meta_loop_exists.2 ms h2
    exact ⟨pos_loop_exists.1 ⟨ps, h1⟩, meta_loop_exists.1.1 ⟨ms, h2⟩,
      (users_exist (loopR_length h2) hm (fun x u => (stringAt_int h).symm)).1 ⟨us, h4⟩, .inr ((str_tags_exists h).1 ⟨ts, h3⟩)⟩
  · rintro ⟨h1, h2, h3, h4⟩
    obtain ⟨ps, h1⟩ := pos_loop_exists.2 h1
    obtain ⟨ms, h2⟩ := meta_loop_exists.1.2 h2
    have hm := meta_loop_exists.2 ms h2
    obtain ⟨us, h3⟩ := (users_exist (loopR_length h2) hm (fun x u => (stringAt_int h).symm)).2 h3
    obtain ⟨ts, h5⟩ := (str_tags_exists (i := 0) h).2 (h4.resolve_left fun h => by cases h.1)
    exact ⟨_, ps, ms, ts, us, h1, h2, h5, h3, rfl⟩

/-! ## Blocks -/

theorem str_group_readable {block : Proto.PrimitiveBlock} {t : Proto.StringTable} {g : Proto.PrimitiveGroup} :
    (∃ ds, StrGroup .release block t g ds) ↔ GroupReadable .owned t g := by
  constructor
  · rintro ⟨ds, h⟩
    cases h with
    | dense l dense hl h1 h2 h => exact .dense dense h1 h2 ((str_dense_readable hl).1 ⟨ds, h⟩) fun _ => tableValid_iff.2 ⟨l, hl⟩
    | ways l hl h1 h2 h3 h =>
      exact .ways h1 h2 h3 (fun w hw => (str_way_readable hl).1 (forall₂_exists.1 ⟨ds, h⟩ w hw)) fun _ => tableValid_iff.2 ⟨l, hl⟩
    | relations l hl h1 h2 h3 h4 h =>
      exact .relations h1 h2 h3 h4 (fun w hw => (str_rel_readable hl).1 (forall₂_exists.1 ⟨ds, h⟩ w hw))
        fun _ => tableValid_iff.2 ⟨l, hl⟩
    | empty h1 h2 h3 h4 => exact .empty rfl h1 h2 h3 h4
  · intro h
    cases h with
    | dense dense h1 h2 h hv =>
      obtain ⟨l, hl⟩ := tableValid_iff.1 (hv rfl)
      obtain ⟨ds, h⟩ := (str_dense_readable (block := block) hl).2 h
      exact ⟨ds, .dense l dense hl h1 h2 h⟩
    | ways h1 h2 h3 h hv =>
      obtain ⟨l, hl⟩ := tableValid_iff.1 (hv rfl)
      obtain ⟨ds, h⟩ := forall₂_exists.2 fun w hw => (str_way_readable hl).2 (h w hw)
      exact ⟨ds, .ways l hl h1 h2 h3 h⟩
    | relations h1 h2 h3 h4 h hv =>
      obtain ⟨l, hl⟩ := tableValid_iff.1 (hv rfl)
      obtain ⟨ds, h⟩ := forall₂_exists.2 fun w hw => (str_rel_readable hl).2 (h w hw)
      exact ⟨ds, .relations l hl h1 h2 h3 h4 h⟩
    | empty _ h1 h2 h3 h4 => exact ⟨[], .empty h1 h2 h3 h4 rfl⟩

theorem arc_group_readable {block : Proto.PrimitiveBlock} {t : Proto.StringTable} {g : Proto.PrimitiveGroup} :
    (∃ ds, ArcGroup .release block (decoded t) g ds) ↔ GroupReadable .shared t g := by
  constructor
  · rintro ⟨ds, h⟩
    cases h with
    | dense dense h1 h2 h => exact .dense dense h1 h2 (arc_dense_readable.1 ⟨ds, h⟩) (by simp)
    | ways h1 h2 h3 h => exact .ways h1 h2 h3 (fun w hw => arc_way_readable.1 (forall₂_exists.1 ⟨ds, h⟩ w hw)) (by simp)
    | relations h1 h2 h3 h4 h =>
      exact .relations h1 h2 h3 h4 (fun w hw => arc_rel_readable.1 (forall₂_exists.1 ⟨ds, h⟩ w hw)) (by simp)
  · intro h
    cases h with
    | dense dense h1 h2 h =>
      obtain ⟨ds, h⟩ := (arc_dense_readable (block := block)).2 h
      exact ⟨ds, .dense dense h1 h2 h⟩
    | ways h1 h2 h3 h =>
      obtain ⟨ds, h⟩ := forall₂_exists.2 fun w hw => arc_way_readable.2 (h w hw)
      exact ⟨ds, .ways h1 h2 h3 h⟩
    | relations h1 h2 h3 h4 h =>
      obtain ⟨ds, h⟩ := forall₂_exists.2 fun w hw => arc_rel_readable.2 (h w hw)
      exact ⟨ds, .relations h1 h2 h3 h4 h⟩
    | empty h => cases h

theorem block_readable {r : Which} {block : Proto.PrimitiveBlock} :
    (∃ ds, r.objects .release block = some ds) ↔ BlockReadable r block := by
  cases r with
  | owned =>
    simp only [owned_block]
    constructor
    · rintro ⟨ds, raw, g, h1, h2, h3⟩
      refine ⟨by simp [h1], by simp [h2], ?_⟩
      rw [h2, h1]
      intro g' hg'
      rw [List.mem_singleton] at hg'
      subst hg'
      exact str_group_readable.1 ⟨ds, h3⟩
    · rintro ⟨h1, h2, h3⟩
      obtain ⟨raw, h1⟩ := Option.ne_none_iff_exists'.1 (h1 rfl)
      obtain ⟨g, h2⟩ := List.length_eq_one_iff.1 (h2 rfl)
      have := h3 g (by simp [h2])
      rw [h1] at this
      obtain ⟨ds, h⟩ := (str_group_readable (block := block)).2 this
      exact ⟨ds, raw, g, h1, h2, h⟩
  | shared =>
    simp only [shared_block]
    have e : (∃ ds, ∃ dss, List.Forall₂ (ArcGroup .release block (ArcPbf.stringTable block)) block.primitivegroup dss ∧
        ds = dss.flatten) ↔ ∃ dss, List.Forall₂ (ArcGroup .release block (ArcPbf.stringTable block)) block.primitivegroup dss :=
      ⟨fun ⟨_, dss, h, _⟩ => ⟨dss, h⟩, fun ⟨dss, h⟩ => ⟨_, dss, h, rfl⟩⟩
    rw [e, forall₂_exists]
    constructor
    · intro h
      exact ⟨by simp, by simp, fun g hg => arc_group_readable.1 (h g hg)⟩
    · rintro ⟨_, _, h⟩ g hg
      exact arc_group_readable.2 (h g hg)

/-! ## Positions -/

theorem pos_group_readable {g : Proto.PrimitiveGroup} {gr : Int32} {la lo : Int64} :
    (∃ xs, NodePos.decodeGroup .release gr la lo g = (xs, none)) ↔ PosGroupReadable g := by
  unfold NodePos.decodeGroup
  by_cases h1 : g.nodes = []
  · rw [if_neg (by simp [h1])]
    by_cases h2 : g.ways ≠ [] ∨ g.relations ≠ []
    · rw [if_pos h2]
      exact ⟨fun _ => .other h1 h2, fun _ => ⟨[], rfl⟩⟩
    · rw [if_neg h2]
      have h2' := not_or.1 h2
      cases hd : g.dense with
      | none =>
        simp only [Prod.mk.injEq, reduceCtorEq, and_false, exists_false, false_iff]
        intro h
        cases h with
        | other _ h => exact h2 h
        | dense dense _ _ _ hd' => rw [hd] at hd'; cases hd'
      | some dense =>
        simp only [← toRes_ok, pos_loop, pos_loop_exists]
        constructor
        · intro h
          exact .dense dense h1 (not_not.1 h2'.1) (not_not.1 h2'.2) hd (forall_lt_iff.1 fun i hi => (h i hi).2.1)
            (forall_lt_iff.1 fun i hi => (h i hi).2.2.1) (fun i hi => (h i hi).2.2.2.1) (fun i hi => (h i hi).2.2.2.2)
        · intro h
          cases h with
          | other _ h => exact absurd h h2
          | dense dense' _ _ _ hd' a b c d =>
            rw [hd] at hd'; cases hd'
            exact fun i hi => ⟨hi, by omega, by omega, c i hi, d i hi⟩
  · rw [if_pos h1]
    simp only [Prod.mk.injEq, reduceCtorEq, and_false, exists_false, false_iff]
    intro h
    cases h with
    | other h => exact h1 h
    | dense _ h => exact h1 h

theorem pos_block_readable {block : Proto.PrimitiveBlock} :
    (∃ xs, positions .release block = some xs) ↔ ∀ g ∈ block.primitivegroup, PosGroupReadable g := by
  have e : (∃ xs, positions .release block = some xs) ↔ ∃ xs, NodePos.decodeBlock .release block = (xs, none) := by
    unfold positions
    cases h : NodePos.decodeBlock .release block with
    | mk xs p => cases p <;> simp
  rw [e]
  clear e
  unfold NodePos.decodeBlock
  induction block.primitivegroup with
  | nil => exact ⟨fun _ => by simp, fun _ => ⟨[], rfl⟩⟩
  | cons g gs ih =>
    simp only [List.mem_cons, forall_eq_or_imp]
    refine Iff.trans ?_ (and_congr
      (pos_group_readable (gr := block.granularityOr) (la := block.latOffsetOr) (lo := block.lonOffsetOr)) ih)
    rw [NodePos.decodeGroups]
    cases h : NodePos.decodeGroup .release block.granularityOr block.latOffsetOr block.lonOffsetOr g with
    | mk xs p =>
      cases p with
      | some p => simp
      | none =>
        simp only
        constructor
        · rintro ⟨_, h1⟩
          obtain ⟨_, h3⟩ := Prod.mk.inj h1
          exact ⟨⟨xs, rfl⟩, _, Prod.ext rfl h3⟩
        · rintro ⟨_, ys, h3⟩
          rw [h3]
          exact ⟨_, rfl⟩

end Osmio
