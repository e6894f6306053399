import Verif.Spec.PbfChecked
import Verif.Proofs.PbfReadable
/-! # Proofs: which blocks a build with overflow checks reads -/

namespace Osmio
open Spec.Pbf

/-! ## Ways and relations -/

theorem runningSums_checked {last : Int64} {ds : List Int64} (h : ∀ i < ds.length, FitsI64 (last.toInt + runningSum (ints ds) i)) :
    ∃ r, StringPbf.runningSums .debug last ds = .ok r := by
  induction ds generalizing last with
  | nil => exact ⟨[], rfl⟩
  | cons d ds ih =>
    have e : ints (d :: ds) = d.toInt :: ints ds := rfl
    have f : FitsI64 (last.toInt + d.toInt) := by simpa [runningSum, e] using h 0 (by simp)
    obtain ⟨r, hr⟩ := ih (last := Int64.ofInt (last.toInt + d.toInt)) fun i hi => by
      have := h (i + 1) (by simpa using hi)
      rw [toInt_ofInt64 f]
      rw [e] at this
      simpa only [runningSum, List.take_succ_cons, List.sum_cons, Int.add_assoc] using this
    exact ⟨_, bind_ok.2 ⟨_, i64_fits _ f, bind_ok.2 ⟨r, hr, rfl⟩⟩⟩

theorem undelta_checked {ds : List Int64} : (∃ r, StringPbf.undelta .debug ds = .ok r) ↔ ∀ x ∈ runningSums (ints ds), FitsI64 x := by
  refine ⟨fun ⟨r, h⟩ => undelta_debug h, fun h => ?_⟩
  cases ds with
  | nil => exact ⟨[], rfl⟩
  | cons d ds =>
    have e : ints (d :: ds) = d.toInt :: ints ds := rfl
    obtain ⟨r, hr⟩ := runningSums_checked (last := d) (ds := ds) fun i hi => by
      have := h (runningSum (ints (d :: ds)) (i + 1)) (List.mem_map.2 ⟨i + 1, by simpa [ints] using hi, rfl⟩)
      rw [e] at this
      simpa only [runningSum, List.take_succ_cons, List.sum_cons] using this
    exact ⟨_, bind_ok.2 ⟨r, hr, rfl⟩⟩

/-- If a build with checks gives a result it is that of the other. -/
theorem undelta_same {ds r : List Int64} (h : StringPbf.undelta .debug ds = .ok r) : StringPbf.undelta .release ds = .ok r := by
  rcases agree_undelta ds with e | e
  · rw [← e]; exact h
  · rw [h] at e; cases e

theorem undelta_debug_of {ds r : List Int64} (hf : ∀ x ∈ runningSums (ints ds), FitsI64 x) (h : StringPbf.undelta .release ds = .ok r) :
    StringPbf.undelta .debug ds = .ok r := by
  obtain ⟨r', h'⟩ := undelta_checked.2 hf
  rw [undelta_same h'] at h
  cases h
  exact h'

theorem arc_way_checked {t : List (Option Str)} {w : Proto.Way} {d : Spec.ObjData} :
    ArcWayIs .debug t w d ↔ ArcWayIs .release t w d ∧ ∀ x ∈ runningSums (ints w.refs), FitsI64 x := by
  unfold ArcWayIs
  constructor
  · intro h
    obtain ⟨tags, nodes, ts, vis, cs, uid, sid, ver, user, h1, h2, h3, h4, h5, h6⟩ := arc_decodeWay.1 h
    exact ⟨arc_decodeWay.2 ⟨tags, nodes, ts, vis, cs, uid, sid, ver, user, h1, undelta_same h2, h3, h4, h5, h6⟩, undelta_debug h2⟩
  · rintro ⟨h, hf⟩
    obtain ⟨tags, nodes, ts, vis, cs, uid, sid, ver, user, h1, h2, h3, h4, h5, h6⟩ := arc_decodeWay.1 h
    exact arc_decodeWay.2 ⟨tags, nodes, ts, vis, cs, uid, sid, ver, user, h1, undelta_debug_of hf h2, h3, h4, h5, h6⟩

theorem str_way_checked {t : List Str} {w : Proto.Way} {d : Spec.ObjData} :
    StrWay .debug t w d ↔ StrWay .release t w d ∧ ∀ x ∈ runningSums (ints w.refs), FitsI64 x := by
  unfold StrWay
  constructor
  · intro h
    obtain ⟨id, tags, nodes, ts, cs, uid, sid, ver, user, h1, h2, h3, h4, h5, h6, h7⟩ := str_decodeWay.1 h
    exact ⟨str_decodeWay.2 ⟨id, tags, nodes, ts, cs, uid, sid, ver, user, h1, h2, h3, undelta_same h4, h5, h6, h7⟩, undelta_debug h4⟩
  · rintro ⟨h, hf⟩
    obtain ⟨id, tags, nodes, ts, cs, uid, sid, ver, user, h1, h2, h3, h4, h5, h6, h7⟩ := str_decodeWay.1 h
    exact str_decodeWay.2 ⟨id, tags, nodes, ts, cs, uid, sid, ver, user, h1, h2, h3, undelta_debug_of hf h4, h5, h6, h7⟩

theorem arc_rel_checked {t : List (Option Str)} {w : Proto.Relation} {d : Spec.ObjData} :
    ArcRel .debug t w d ↔ ArcRel .release t w d ∧ ∀ x ∈ runningSums (ints w.memids), FitsI64 x := by
  unfold ArcRel
  constructor
  · intro h
    obtain ⟨tags, ids, ms, ts, vis, cs, uid, sid, ver, user, h1, h2, h3⟩ := arc_decodeRelation.1 h
    exact ⟨arc_decodeRelation.2 ⟨tags, ids, ms, ts, vis, cs, uid, sid, ver, user, h1, undelta_same h2, h3⟩, undelta_debug h2⟩
  · rintro ⟨h, hf⟩
    obtain ⟨tags, ids, ms, ts, vis, cs, uid, sid, ver, user, h1, h2, h3⟩ := arc_decodeRelation.1 h
    exact arc_decodeRelation.2 ⟨tags, ids, ms, ts, vis, cs, uid, sid, ver, user, h1, undelta_debug_of hf h2, h3⟩

theorem str_rel_checked {t : List Str} {w : Proto.Relation} {d : Spec.ObjData} :
    StrRel .debug t w d ↔ StrRel .release t w d ∧ ∀ x ∈ runningSums (ints w.memids), FitsI64 x := by
  unfold StrRel
  constructor
  · intro h
    obtain ⟨tags, ids, ms, ts, cs, uid, sid, ver, user, h1, h2, h3, h4⟩ := str_decodeRelation.1 h
    exact ⟨str_decodeRelation.2 ⟨tags, ids, ms, ts, cs, uid, sid, ver, user, h1, h2, undelta_same h3, h4⟩, undelta_debug h3⟩
  · rintro ⟨h, hf⟩
    obtain ⟨tags, ids, ms, ts, cs, uid, sid, ver, user, h1, h2, h3, h4⟩ := str_decodeRelation.1 h
    exact str_decodeRelation.2 ⟨tags, ids, ms, ts, cs, uid, sid, ver, user, h1, h2, undelta_debug_of hf h3, h4⟩

theorem forall2_checked {α β : Type} {p q : α → β → Prop} {c : α → Prop} (h : ∀ a x, p a x ↔ q a x ∧ c a) {l : List α} {r : List β} :
    List.Forall₂ p l r ↔ List.Forall₂ q l r ∧ ∀ a ∈ l, c a := by
  constructor
  · intro hp
    induction hp with
    | nil => exact ⟨.nil, by simp⟩
    | cons h1 _ ih => exact ⟨.cons ((h _ _).1 h1).1 ih.1, List.forall_mem_cons.2 ⟨((h _ _).1 h1).2, ih.2⟩⟩
  · rintro ⟨hq, hc⟩
    induction hq with
    | nil => exact .nil
    | cons h1 _ ih => exact .cons ((h _ _).2 ⟨h1, hc _ (.head _)⟩) (ih fun a ha => hc a (.tail _ ha))

/-! ## Dense nodes -/

/-- A loop in which each round of one build succeeds exactly if that of the other does and a condition holds. -/
theorem loopR_checked {σ α : Type} {step step' : Nat → σ → Res (α × σ)} {inv : Nat → σ → Prop} {p : Nat → Prop}
    (hp : ∀ i s x s', inv i s → (step i s = .ok (x, s') ↔ step' i s = .ok (x, s') ∧ p i))
    (hq : ∀ i s x s', inv i s → step i s = .ok (x, s') → inv (i + 1) s') {n i : Nat} {s : σ} (h0 : inv i s) {l : List α} :
    loopR step n i s = .ok l ↔ loopR step' n i s = .ok l ∧ ∀ j < n, p (i + j) := by
  induction n generalizing i s l with
  | zero => exact ⟨fun h => ⟨h, fun j hj => by omega⟩, fun h => h.1⟩
  | succ n ih =>
    constructor
    · intro hl
      obtain ⟨x, s', r, h1, h2, rfl⟩ := loopR_succ.1 hl
      obtain ⟨h3, h4⟩ := (hp _ _ _ _ h0).1 h1
      obtain ⟨h5, h6⟩ := (ih (hq _ _ _ _ h0 h1)).1 h2
      refine ⟨loopR_succ.2 ⟨x, s', r, h3, h5, rfl⟩, fun j hj => ?_⟩
      cases j with
      | zero => exact h4
      | succ j =>
        have := h6 j (by omega)
        rwa [Nat.add_assoc, Nat.add_comm 1 j] at this
    · rintro ⟨hl, hj⟩
      obtain ⟨x, s', r, h1, h2, rfl⟩ := loopR_succ.1 hl
      have h3 := (hp _ _ _ _ h0).2 ⟨h1, hj 0 (by omega)⟩
      refine loopR_succ.2 ⟨x, s', r, h3, (ih (hq _ _ _ _ h0 h3)).2 ⟨h2, fun j hj' => ?_⟩, rfl⟩
      have := hj (j + 1) (by omega)
      rwa [← Nat.add_assoc, Nat.add_right_comm] at this

/-- The same numbers in both builds, as long as they fit. -/
theorem i64_checked {x : Int} {y : Int64} : Build.debug.i64 x = .ok y ↔ Build.release.i64 x = .ok y ∧ FitsI64 x := by
  constructor
  · intro h
    exact ⟨by rw [i64_release, i64_ok h], i64_debug h⟩
  · rintro ⟨h, hf⟩
    rw [i64_fits _ hf, i64_ok h]

theorem i32_checked {x : Int} {y : Int32} : Build.debug.i32 x = .ok y ↔ Build.release.i32 x = .ok y ∧ FitsI32 x := by
  constructor
  · intro h
    exact ⟨by rw [i32_release, i32_ok h], i32_debug h⟩
  · rintro ⟨h, hf⟩
    rw [i32_fits _ hf, i32_ok h]

theorem rawCoord_checked {d : Int64} {last y : Int32} : NodePos.rawCoord .debug d last = .ok y ↔ NodePos.rawCoord .release d last = .ok y := by
  have key : ∀ b b', NodePos.rawCoord b d last = .ok y → NodePos.rawCoord b' d last = .ok y := by
    intro b b' h
    have e := rawCoord_ok h
    have f := fits32 y
    rw [e] at f
    rw [rawCoord_fits b' f, ← e, Int32.ofInt_toInt]
  exact ⟨key _ _, key _ _⟩

theorem internalCoord_checked {g : Int32} {off : Int64} {raw y : Int32} : NodePos.internalCoord .debug g off raw = .ok y ↔
    NodePos.internalCoord .release g off raw = .ok y ∧ FitsI32 (raw.toInt * g.toInt.tdiv 100) ∧
      FitsI32 (raw.toInt * g.toInt.tdiv 100 + wrap32 (off.toInt.tdiv 100)) := by
  constructor
  · intro h
    obtain ⟨h1, h2⟩ := internalCoord_debug h
    rw [toInt_wrap32] at h2
    refine ⟨?_, h1, h2⟩
    obtain ⟨x, a1, a2⟩ := bind_ok.1 h
    exact bind_ok.2 ⟨x, (i32_checked.1 a1).1, (i32_checked.1 a2).1⟩
  · rintro ⟨h, h1, h2⟩
    obtain ⟨x, a1, a2⟩ := bind_ok.1 h
    refine bind_ok.2 ⟨x, i32_checked.2 ⟨a1, h1⟩, i32_checked.2 ⟨a2, ?_⟩⟩
    rw [i32_ok a1, toInt_wrap32]
    have e : wrap32 (raw.toInt * g.toInt.tdiv COORD_PRECISION_NANOS) = raw.toInt * g.toInt.tdiv 100 := by
      rw [← toInt_wrap32]; exact toInt_ofInt32 h1
    rw [e, toInt_wrap32]
    exact h2

theorem pos_step_checked {block : Proto.PrimitiveBlock} {dense : Proto.DenseNodes} {i : Nat} {s s' : NodePos.State} {x : NodePos.NodeIdPos}
    (hs : PosExact dense i s) :
    NodePos.step .debug dense block.granularityOr block.latOffsetOr block.lonOffsetOr i s = .ok (x, s') ↔
      NodePos.step .release dense block.granularityOr block.latOffsetOr block.lonOffsetOr i s = .ok (x, s') ∧ PosFits block dense i := by
  simp only [NodePos.step, bind_ok]
  constructor
  · rintro ⟨did, h1, id, h2, dlat, h3, rl, h4, dlon, h5, rlo, h6, lat, h7, lon, h8, h9⟩
    have e1 : did.toInt + s.lastId.toInt = runningSum (ints dense.id) i := by
      rw [hs.id, runningSum_of (ints_get (index_ok.1 h1)), Int.add_comm]
    have e2 : rl.toInt = runningSum (ints dense.lat) i := by
      rw [rawCoord_ok h4, hs.lat, runningSum_of (ints_get (index_ok.1 h3)), Int.add_comm]
    have e3 : rlo.toInt = runningSum (ints dense.lon) i := by
      rw [rawCoord_ok h6, hs.lon, runningSum_of (ints_get (index_ok.1 h5)), Int.add_comm]
    obtain ⟨g2, f2⟩ := i64_checked.1 h2
    obtain ⟨g7, f7, f7'⟩ := internalCoord_checked.1 h7
    obtain ⟨g8, f8, f8'⟩ := internalCoord_checked.1 h8
    rw [e1] at f2
    rw [e2] at f7 f7'
    rw [e3] at f8 f8'
    exact ⟨⟨did, h1, id, g2, dlat, h3, rl, rawCoord_checked.1 h4, dlon, h5, rlo, rawCoord_checked.1 h6, lat, g7, lon, g8, h9⟩,
      ⟨f2, f7, f8, f7', f8'⟩⟩
  · rintro ⟨⟨did, h1, id, h2, dlat, h3, rl, h4, dlon, h5, rlo, h6, lat, h7, lon, h8, h9⟩, f⟩
    have e1 : did.toInt + s.lastId.toInt = runningSum (ints dense.id) i := by
      rw [hs.id, runningSum_of (ints_get (index_ok.1 h1)), Int.add_comm]
    have e2 : rl.toInt = runningSum (ints dense.lat) i := by
      rw [rawCoord_ok h4, hs.lat, runningSum_of (ints_get (index_ok.1 h3)), Int.add_comm]
    have e3 : rlo.toInt = runningSum (ints dense.lon) i := by
      rw [rawCoord_ok h6, hs.lon, runningSum_of (ints_get (index_ok.1 h5)), Int.add_comm]
    refine ⟨did, h1, id, i64_checked.2 ⟨h2, by rw [e1]; exact f.id⟩, dlat, h3, rl, rawCoord_checked.2 h4, dlon, h5, rlo, rawCoord_checked.2 h6,
      lat, internalCoord_checked.2 ⟨h7, ?_, ?_⟩, lon, internalCoord_checked.2 ⟨h8, ?_, ?_⟩, h9⟩
    · rw [e2]; exact f.latUnits
    · rw [e2]; exact f.lat
    · rw [e3]; exact f.lonUnits
    · rw [e3]; exact f.lon

theorem pos_loop_checked {block : Proto.PrimitiveBlock} {dense : Proto.DenseNodes} {n : Nat} {ps : List NodePos.NodeIdPos} :
    loopR (NodePos.step .debug dense block.granularityOr block.latOffsetOr block.lonOffsetOr) n 0 {} = .ok ps ↔
      loopR (NodePos.step .release dense block.granularityOr block.latOffsetOr block.lonOffsetOr) n 0 {} = .ok ps ∧
        ∀ i < n, PosFits block dense i := by
  have := loopR_checked (step := NodePos.step .debug dense block.granularityOr block.latOffsetOr block.lonOffsetOr)
    (step' := NodePos.step .release dense block.granularityOr block.latOffsetOr block.lonOffsetOr) (inv := PosExact dense)
    (p := PosFits block dense) (fun i s x s' hs => pos_step_checked hs) (fun i s x s' hs h => (pos_step_debug hs h).2) (n := n)
    (posExact_zero dense) (l := ps)
  simpa using this

/-- The state before node `i`, if no number was out of range. -/
structure MetaKnown (block : Proto.PrimitiveBlock) (info : Proto.DenseInfo) (i : Nat) (s : MState) : Prop where
  changeset : s.lastChangeset.toInt = ((ints info.changeset).take i).sum
  uid : s.lastUid.toInt = ((ints32 info.uid).take i).sum
  userSid : s.lastUserSid.toInt = ((ints32 info.userSid).take i).sum
  timestamp : s.lastTimestamp.toInt = compounded ((dateGranularity block).tdiv 1000) ((dateSteps info).take i)

theorem dateSeconds_toInt (block : Proto.PrimitiveBlock) : (dateSeconds block).toInt = (dateGranularity block).tdiv 1000 := by
  unfold dateSeconds
  have h := fits32 block.dateGranularityOr
  refine toInt_ofInt32 (x := block.dateGranularityOr.toInt.tdiv 1000) ?_
  rcases Int.le_total 0 block.dateGranularityOr.toInt with h0 | h0
  · rw [Int.tdiv_eq_ediv_of_nonneg h0]
    unfold FitsI32 at *
    omega
  · obtain ⟨n, hn⟩ : ∃ n, block.dateGranularityOr.toInt = -n := ⟨-block.dateGranularityOr.toInt, by omega⟩
    rw [hn] at h h0 ⊢
    rw [Int.neg_tdiv, Int.tdiv_eq_ediv_of_nonneg (by omega)]
    unfold FitsI32 at *
    omega

theorem dateSteps_get {info : Proto.DenseInfo} {i : Nat} {d : Int64} (h : info.timestamp[i]? = some d) :
    (dateSteps info)[i]? = some (wrap32 d.toInt) := by
  simp [dateSteps, ints, h]

theorem compounded_take {k : Int} {l : List Int} {i : Nat} {d : Int} (h : l[i]? = some d) :
    compounded k (l.take (i + 1)) = (compounded k (l.take i) + d) * k := by
  simp [compounded, List.take_add_one, h]

theorem delta64_checked {l : List Int64} {i : Nat} {last y : Int64} (hl : last.toInt = ((ints l).take i).sum) :
    StringPbf.delta64 .debug l i last = .ok y ↔ StringPbf.delta64 .release l i last = .ok y ∧ FitsI64 (runningSum (ints l) i) := by
  constructor
  · intro h
    refine ⟨?_, (delta64_debug hl h).1⟩
    obtain ⟨d, h1, h2⟩ := bind_ok.1 h
    exact bind_ok.2 ⟨d, h1, (i64_checked.1 h2).1⟩
  · rintro ⟨h, f⟩
    obtain ⟨d, h1, h2⟩ := bind_ok.1 h
    rw [runningSum_of (ints_get (index_ok.1 h1)), Int.add_comm, ← hl] at f
    exact bind_ok.2 ⟨d, h1, i64_checked.2 ⟨h2, f⟩⟩

theorem delta32_checked {l : List Int32} {i : Nat} {last y : Int32} (hl : last.toInt = ((ints32 l).take i).sum) :
    StringPbf.delta32 .debug l i last = .ok y ↔ StringPbf.delta32 .release l i last = .ok y ∧ FitsI32 (runningSum (ints32 l) i) := by
  constructor
  · intro h
    refine ⟨?_, (delta32_debug hl h).1⟩
    obtain ⟨d, h1, h2⟩ := bind_ok.1 h
    exact bind_ok.2 ⟨d, h1, (i32_checked.1 h2).1⟩
  · rintro ⟨h, f⟩
    obtain ⟨d, h1, h2⟩ := bind_ok.1 h
    rw [runningSum_of (ints32_get (index_ok.1 h1)), Int.add_comm, ← hl] at f
    exact bind_ok.2 ⟨d, h1, i32_checked.2 ⟨h2, f⟩⟩

/-- The conditions on the date of a node. -/
def DateFits (k : Int) (l : List Int) (i : Nat) : Prop :=
  (∀ d, l[i]? = some d → FitsI32 (compounded k (l.take i) + d)) ∧ FitsI32 (compounded k (l.take (i + 1)))

theorem date_checked {block : Proto.PrimitiveBlock} {info : Proto.DenseInfo} {i : Nat} {last y : Int32}
    (hl : last.toInt = compounded ((dateGranularity block).tdiv 1000) ((dateSteps info).take i)) :
    (StringPbf.denseTimestamp .debug (dateSeconds block) info.timestamp i last = .ok y ↔
      StringPbf.denseTimestamp .release (dateSeconds block) info.timestamp i last = .ok y ∧
        DateFits ((dateGranularity block).tdiv 1000) (dateSteps info) i) ∧
    (StringPbf.denseTimestamp .debug (dateSeconds block) info.timestamp i last = .ok y →
      y.toInt = compounded ((dateGranularity block).tdiv 1000) ((dateSteps info).take (i + 1))) := by
  have key : ∀ d t, info.timestamp[i]? = some d → Build.debug.i32 ((Int32.ofInt d.toInt).toInt + last.toInt) = .ok t →
      t.toInt * (dateSeconds block).toInt = compounded ((dateGranularity block).tdiv 1000) ((dateSteps info).take (i + 1)) := by
    intro d t h1 h2
    rw [i32_ok h2, toInt_ofInt32 (i32_debug h2), dateSeconds_toInt, compounded_take (dateSteps_get h1), ← hl, toInt_wrap32, Int.add_comm]
  refine ⟨⟨fun h => ?_, ?_⟩, fun h => ?_⟩
  · obtain ⟨d, h1, h⟩ := bind_ok.1 h
    obtain ⟨t, h2, h3⟩ := bind_ok.1 h
    obtain ⟨g2, f2⟩ := i32_checked.1 h2
    obtain ⟨g3, f3⟩ := i32_checked.1 h3
    refine ⟨bind_ok.2 ⟨d, h1, bind_ok.2 ⟨t, g2, g3⟩⟩, fun d' hd' => ?_, ?_⟩
    · rw [dateSteps_get (index_ok.1 h1)] at hd'
      cases hd'
      rwa [← hl, Int.add_comm, ← toInt_wrap32]
    · rwa [← key d t (index_ok.1 h1) h2]
  · rintro ⟨h, f2, f3⟩
    obtain ⟨d, h1, h⟩ := bind_ok.1 h
    obtain ⟨t, h2, h3⟩ := bind_ok.1 h
    have f := f2 _ (dateSteps_get (index_ok.1 h1))
    rw [← hl, Int.add_comm, ← toInt_wrap32] at f
    have g := i32_checked.2 ⟨h2, f⟩
    refine bind_ok.2 ⟨d, h1, bind_ok.2 ⟨t, g, i32_checked.2 ⟨h3, ?_⟩⟩⟩
    rwa [key d t (index_ok.1 h1) g]
  · obtain ⟨d, h1, h⟩ := bind_ok.1 h
    obtain ⟨t, h2, h3⟩ := bind_ok.1 h
    rw [i32_ok h3, toInt_ofInt32 (i32_debug h3)]
    exact key d t (index_ok.1 h1) h2

theorem meta_step_checked {block : Proto.PrimitiveBlock} {info : Proto.DenseInfo} {i : Nat} {s s' : MState} {m : Meta}
    (hs : MetaKnown block info i s) :
    (metaStep .debug info (dateSeconds block) i s = .ok (m, s') ↔
      metaStep .release info (dateSeconds block) i s = .ok (m, s') ∧ MetaFits block info i) ∧
    (metaStep .debug info (dateSeconds block) i s = .ok (m, s') → MetaKnown block info (i + 1) s') := by
  simp only [metaStep, bind_ok]
  refine ⟨⟨?_, ?_⟩, ?_⟩
  · rintro ⟨cs, h1, uid, h2, us, h3, ts, h4, u, h5, v, h6, h7⟩
    obtain ⟨g1, f1⟩ := (delta64_checked hs.changeset).1 h1
    obtain ⟨g2, f2⟩ := (delta32_checked hs.uid).1 h2
    obtain ⟨g3, f3⟩ := (delta32_checked hs.userSid).1 h3
    obtain ⟨g4, f4, f5⟩ := (date_checked hs.timestamp).1.1 h4
    exact ⟨⟨cs, g1, uid, g2, us, g3, ts, g4, u, h5, v, h6, h7⟩, ⟨f1, f2, f3, f4, f5⟩⟩
  · rintro ⟨⟨cs, h1, uid, h2, us, h3, ts, h4, u, h5, v, h6, h7⟩, f⟩
    exact ⟨cs, (delta64_checked hs.changeset).2 ⟨h1, f.changeset⟩, uid, (delta32_checked hs.uid).2 ⟨h2, f.uid⟩,
      us, (delta32_checked hs.userSid).2 ⟨h3, f.user⟩, ts, (date_checked hs.timestamp).1.2 ⟨h4, f.dateSum, f.date⟩, u, h5, v, h6, h7⟩
  · rintro ⟨cs, h1, uid, h2, us, h3, ts, h4, u, h5, v, h6, h7⟩
    cases h7
    exact ⟨(delta64_debug hs.changeset h1).2, (delta32_debug hs.uid h2).2, (delta32_debug hs.userSid h3).2,
      (date_checked hs.timestamp).2 h4⟩

theorem meta_loop_checked {block : Proto.PrimitiveBlock} {info : Proto.DenseInfo} {n : Nat} {ms : List Meta} :
    loopR (metaStep .debug info (dateSeconds block)) n 0 {} = .ok ms ↔
      loopR (metaStep .release info (dateSeconds block)) n 0 {} = .ok ms ∧ ∀ i < n, MetaFits block info i := by
  have := loopR_checked (step := metaStep .debug info (dateSeconds block)) (step' := metaStep .release info (dateSeconds block))
    (inv := MetaKnown block info) (p := MetaFits block info) (fun i s x s' hs => (meta_step_checked hs).1)
    (fun i s x s' hs h => (meta_step_checked hs).2 h) (n := n) (i := 0) (s := {}) ⟨rfl, rfl, rfl, rfl⟩ (l := ms)
  simpa using this

/-- What a build with checks needs for a list of dense nodes. -/
def DenseFits (block : Proto.PrimitiveBlock) (dense : Proto.DenseNodes) : Prop :=
  ∀ i < dense.id.length, PosFits block dense i ∧ MetaFits block (dense.denseinfo.getD {}) i

theorem arc_dense_checked {block : Proto.PrimitiveBlock} {t : List (Option Str)} {dense : Proto.DenseNodes} {ds : List Spec.ObjData} :
    ArcDense .debug block t dense ds ↔ ArcDense .release block t dense ds ∧ DenseFits block dense := by
  unfold ArcDense
  simp only [arc_loop]
  constructor
  · rintro ⟨ps, ms, ts, us, h1, h2, h3⟩
    obtain ⟨h1, f1⟩ := pos_loop_checked.1 h1
    obtain ⟨h2, f2⟩ := meta_loop_checked.1 h2
    exact ⟨⟨ps, ms, ts, us, h1, h2, h3⟩, fun i hi => ⟨f1 i hi, f2 i hi⟩⟩
  · rintro ⟨⟨ps, ms, ts, us, h1, h2, h3⟩, f⟩
    exact ⟨ps, ms, ts, us, pos_loop_checked.2 ⟨h1, fun i hi => (f i hi).1⟩, meta_loop_checked.2 ⟨h2, fun i hi => (f i hi).2⟩, h3⟩

theorem str_dense_checked {block : Proto.PrimitiveBlock} {t : List Str} {dense : Proto.DenseNodes} {ds : List Spec.ObjData} :
    StrDense .debug block t dense ds ↔ StrDense .release block t dense ds ∧ DenseFits block dense := by
  unfold StrDense
  simp only [str_loop]
  constructor
  · rintro ⟨ps, ms, ts, us, h1, h2, h3⟩
    obtain ⟨h1, f1⟩ := pos_loop_checked.1 h1
    obtain ⟨h2, f2⟩ := meta_loop_checked.1 h2
    exact ⟨⟨ps, ms, ts, us, h1, h2, h3⟩, fun i hi => ⟨f1 i hi, f2 i hi⟩⟩
  · rintro ⟨⟨ps, ms, ts, us, h1, h2, h3⟩, f⟩
    exact ⟨ps, ms, ts, us, pos_loop_checked.2 ⟨h1, fun i hi => (f i hi).1⟩, meta_loop_checked.2 ⟨h2, fun i hi => (f i hi).2⟩, h3⟩

/-! ## Groups and blocks -/

theorem groupFits_dense {block : Proto.PrimitiveBlock} {g : Proto.PrimitiveGroup} {dense : Proto.DenseNodes} (h : g.dense = some dense) :
    GroupFits block g ↔ DenseFits block dense := by
  refine ⟨fun f => f.dense dense h, fun f => ⟨fun d hd => ?_, by simp [h], by simp [h]⟩⟩
  rw [h] at hd; cases hd; exact f

theorem groupFits_ways {block : Proto.PrimitiveBlock} {g : Proto.PrimitiveGroup} (h : g.dense = none) (hw : g.ways ≠ []) :
    GroupFits block g ↔ ∀ w ∈ g.ways, ∀ x ∈ runningSums (ints w.refs), FitsI64 x :=
  ⟨fun f => f.ways h, fun f => ⟨by simp [h], fun _ => f, fun _ e => absurd e hw⟩⟩

theorem groupFits_relations {block : Proto.PrimitiveBlock} {g : Proto.PrimitiveGroup} (h : g.dense = none) (hw : g.ways = []) :
    GroupFits block g ↔ ∀ w ∈ g.relations, ∀ x ∈ runningSums (ints w.memids), FitsI64 x :=
  ⟨fun f => f.relations h hw, fun f => ⟨by simp [h], by simp [hw], fun _ _ => f⟩⟩

theorem str_group_checked {block : Proto.PrimitiveBlock} {t : Proto.StringTable} {g : Proto.PrimitiveGroup} {ds : List Spec.ObjData} :
    StrGroup .debug block t g ds ↔ StrGroup .release block t g ds ∧ GroupFits block g := by
  constructor
  · intro h
    cases h with
    | dense l dense hl h1 h2 h =>
      obtain ⟨h, f⟩ := str_dense_checked.1 h
      exact ⟨.dense l dense hl h1 h2 h, (groupFits_dense h2).2 f⟩
    | ways l hl h1 h2 h3 h =>
      obtain ⟨h, f⟩ := (forall2_checked (p := StrWay .debug l) (q := StrWay .release l) fun _ _ => str_way_checked).1 h
      exact ⟨.ways l hl h1 h2 h3 h, (groupFits_ways h2 h3).2 f⟩
    | relations l hl h1 h2 h3 h4 h =>
      obtain ⟨h, f⟩ := (forall2_checked (p := StrRel .debug l) (q := StrRel .release l) fun _ _ => str_rel_checked).1 h
      exact ⟨.relations l hl h1 h2 h3 h4 h, (groupFits_relations h2 h3).2 f⟩
    | empty h1 h2 h3 h4 h => exact ⟨.empty h1 h2 h3 h4 h, (groupFits_relations h2 h3).2 (by simp [h4])⟩
  · rintro ⟨h, f⟩
    cases h with
    | dense l dense hl h1 h2 h => exact .dense l dense hl h1 h2 (str_dense_checked.2 ⟨h, (groupFits_dense h2).1 f⟩)
    | ways l hl h1 h2 h3 h =>
      exact .ways l hl h1 h2 h3 ((forall2_checked (p := StrWay .debug l) (q := StrWay .release l) fun _ _ => str_way_checked).2 ⟨h, (groupFits_ways h2 h3).1 f⟩)
    | relations l hl h1 h2 h3 h4 h =>
      exact .relations l hl h1 h2 h3 h4 ((forall2_checked (p := StrRel .debug l) (q := StrRel .release l) fun _ _ => str_rel_checked).2 ⟨h, (groupFits_relations h2 h3).1 f⟩)
    | empty h1 h2 h3 h4 h => exact .empty h1 h2 h3 h4 h

theorem arc_group_checked {block : Proto.PrimitiveBlock} {t : List (Option Str)} {g : Proto.PrimitiveGroup} {ds : List Spec.ObjData} :
    ArcGroup .debug block t g ds ↔ ArcGroup .release block t g ds ∧ GroupFits block g := by
  constructor
  · intro h
    cases h with
    | dense dense h1 h2 h =>
      obtain ⟨h, f⟩ := arc_dense_checked.1 h
      exact ⟨.dense dense h1 h2 h, (groupFits_dense h2).2 f⟩
    | ways h1 h2 h3 h =>
      obtain ⟨h, f⟩ := (forall2_checked (p := ArcWayIs .debug t) (q := ArcWayIs .release t) fun _ _ => arc_way_checked).1 h
      exact ⟨.ways h1 h2 h3 h, (groupFits_ways h2 h3).2 f⟩
    | relations h1 h2 h3 h4 h =>
      obtain ⟨h, f⟩ := (forall2_checked (p := ArcRel .debug t) (q := ArcRel .release t) fun _ _ => arc_rel_checked).1 h
      exact ⟨.relations h1 h2 h3 h4 h, (groupFits_relations h2 h3).2 f⟩
  · rintro ⟨h, f⟩
    cases h with
    | dense dense h1 h2 h => exact .dense dense h1 h2 (arc_dense_checked.2 ⟨h, (groupFits_dense h2).1 f⟩)
    | ways h1 h2 h3 h => exact .ways h1 h2 h3 ((forall2_checked (p := ArcWayIs .debug t) (q := ArcWayIs .release t) fun _ _ => arc_way_checked).2 ⟨h, (groupFits_ways h2 h3).1 f⟩)
    | relations h1 h2 h3 h4 h =>
      exact .relations h1 h2 h3 h4 ((forall2_checked (p := ArcRel .debug t) (q := ArcRel .release t) fun _ _ => arc_rel_checked).2 ⟨h, (groupFits_relations h2 h3).1 f⟩)

/-- A build with checks reads the blocks the other reads, if all numbers fit, and gives the same. -/
theorem block_checked {r : Which} {block : Proto.PrimitiveBlock} {ds : List Spec.ObjData} :
    r.objects .debug block = some ds ↔ r.objects .release block = some ds ∧ BlockFits block := by
  cases r with
  | owned =>
    simp only [owned_block, str_group_checked]
    constructor
    · rintro ⟨raw, g, h1, h2, h3, f⟩
      exact ⟨⟨raw, g, h1, h2, h3⟩, by simpa [BlockFits, h2] using f⟩
    · rintro ⟨⟨raw, g, h1, h2, h3⟩, f⟩
      exact ⟨raw, g, h1, h2, h3, f g (by simp [h2])⟩
  | shared =>
    simp only [shared_block]
    constructor
    · rintro ⟨dss, h, e⟩
      obtain ⟨h, f⟩ := (forall2_checked (p := ArcGroup .debug block (ArcPbf.stringTable block)) (q := ArcGroup .release block (ArcPbf.stringTable block)) fun _ _ => arc_group_checked).1 h
      exact ⟨⟨dss, h, e⟩, f⟩
    · rintro ⟨⟨dss, h, e⟩, f⟩
      exact ⟨dss, (forall2_checked (p := ArcGroup .debug block (ArcPbf.stringTable block)) (q := ArcGroup .release block (ArcPbf.stringTable block)) fun _ _ => arc_group_checked).2 ⟨h, f⟩, e⟩

/-! ## Positions -/

theorem pos_group_checked {block : Proto.PrimitiveBlock} {g : Proto.PrimitiveGroup} {xs : List NodePos.NodeIdPos} :
    NodePos.decodeGroup .debug block.granularityOr block.latOffsetOr block.lonOffsetOr g = (xs, none) ↔
      NodePos.decodeGroup .release block.granularityOr block.latOffsetOr block.lonOffsetOr g = (xs, none) ∧ PosGroupFits block g := by
  unfold NodePos.decodeGroup
  by_cases h1 : g.nodes = []
  · rw [if_neg (not_not.2 h1), if_neg (not_not.2 h1)]
    by_cases h2 : g.ways ≠ [] ∨ g.relations ≠ []
    · rw [if_pos h2, if_pos h2]
      refine ⟨fun h => ⟨h, fun e1 e2 => ?_⟩, fun h => h.1⟩
      rcases h2 with h2 | h2
      · exact absurd e1 h2
      · exact absurd e2 h2
    · rw [if_neg h2, if_neg h2]
      have h2' := not_or.1 h2
      cases hd : g.dense with
      | none => simp
      | some dense =>
        simp only [← toRes_ok, pos_loop, pos_loop_checked]
        refine and_congr_right fun _ => ⟨fun f _ _ d e => ?_, fun f => f (not_not.1 h2'.1) (not_not.1 h2'.2) dense hd⟩
        rw [hd] at e; cases e; exact f
  · rw [if_pos h1, if_pos h1]
    simp

theorem pos_block_checked {block : Proto.PrimitiveBlock} {xs : List NodePos.NodeIdPos} :
    positions .debug block = some xs ↔ positions .release block = some xs ∧ ∀ g ∈ block.primitivegroup, PosGroupFits block g := by
  have e : ∀ b, positions b block = some xs ↔ NodePos.decodeBlock b block = (xs, none) := by
    intro b
    unfold positions
    cases h : NodePos.decodeBlock b block with
    | mk xs p => cases p <;> simp
  rw [e, e]
  clear e
  unfold NodePos.decodeBlock
  have key : ∀ b, ∀ gs xs, NodePos.decodeGroups (NodePos.decodeGroup b block.granularityOr block.latOffsetOr block.lonOffsetOr) gs = (xs, none) ↔
      ∃ xss, List.Forall₂ (fun g ys => NodePos.decodeGroup b block.granularityOr block.latOffsetOr block.lonOffsetOr g = (ys, none)) gs xss ∧
        xs = xss.flatten := by
    intro b gs
    induction gs with
    | nil =>
      intro xs
      constructor
      · intro h; cases h; exact ⟨[], .nil, rfl⟩
      · rintro ⟨_, h, rfl⟩; cases h; rfl
    | cons g gs ih =>
      intro xs
      rw [NodePos.decodeGroups]
      cases h : NodePos.decodeGroup b block.granularityOr block.latOffsetOr block.lonOffsetOr g with
      | mk ys p =>
        cases p with
        | some p =>
          simp only [List.forall₂_cons_left_iff, Prod.mk.injEq, reduceCtorEq, and_false, false_iff]
          rintro ⟨_, ⟨zs, _, h1, _⟩, _⟩
          rw [h] at h1; cases h1
        | none =>
          simp only
          constructor
          · intro h1
            obtain ⟨e1, e2⟩ := Prod.mk.inj h1
            obtain ⟨xss, h3, h4⟩ := (ih _).1 (Prod.ext rfl e2)
            exact ⟨ys :: xss, .cons h h3, by rw [← e1]; exact congrArg (ys ++ ·) h4⟩
          · rintro ⟨_, h1, rfl⟩
            cases h1 with
            | cons h1 h2 =>
              rw [h] at h1; cases h1
              rw [(ih _).2 ⟨_, h2, rfl⟩]; rfl
  have hc := fun r => forall2_checked (p := fun g ys => NodePos.decodeGroup .debug block.granularityOr block.latOffsetOr block.lonOffsetOr g = (ys, none))
    (q := fun g ys => NodePos.decodeGroup .release block.granularityOr block.latOffsetOr block.lonOffsetOr g = (ys, none))
    (fun _ _ => pos_group_checked) (l := block.primitivegroup) (r := r)
  rw [key, key]
  constructor
  · rintro ⟨dss, h, e⟩
    obtain ⟨h, f⟩ := (hc _).1 h
    exact ⟨⟨dss, h, e⟩, f⟩
  · rintro ⟨⟨dss, h, e⟩, f⟩
    exact ⟨dss, (hc _).2 ⟨h, f⟩, e⟩

/-! ## Both builds -/

theorem readable_in {b : Build} {r : Which} {block : Proto.PrimitiveBlock} : (∃ ds, r.objects b block = some ds) ↔ ReadableIn b r block := by
  unfold ReadableIn
  cases b with
  | release => simp [block_readable]
  | debug =>
    simp only [block_checked, ← block_readable]
    exact ⟨fun ⟨ds, h, f⟩ => ⟨⟨ds, h⟩, fun _ => f⟩, fun ⟨⟨ds, h⟩, f⟩ => ⟨ds, h, f trivial⟩⟩

theorem pos_group_in {b : Build} {block : Proto.PrimitiveBlock} {g : Proto.PrimitiveGroup} :
    (∃ xs, NodePos.decodeGroup b block.granularityOr block.latOffsetOr block.lonOffsetOr g = (xs, none)) ↔ PosReadableIn b block g := by
  unfold PosReadableIn
  cases b with
  | release => simp [pos_group_readable]
  | debug =>
    simp only [pos_group_checked, ← pos_group_readable (gr := block.granularityOr) (la := block.latOffsetOr) (lo := block.lonOffsetOr)]
    exact ⟨fun ⟨ds, h, f⟩ => ⟨⟨ds, h⟩, fun _ => f⟩, fun ⟨⟨ds, h⟩, f⟩ => ⟨ds, h, f trivial⟩⟩

theorem pos_readable_in {b : Build} {block : Proto.PrimitiveBlock} :
    (∃ xs, positions b block = some xs) ↔ ∀ g ∈ block.primitivegroup, PosReadableIn b block g := by
  unfold PosReadableIn
  cases b with
  | release => simp [pos_block_readable]
  | debug =>
    simp only [pos_block_checked, forall_true_left]
    rw [exists_and_right, pos_block_readable]
    exact ⟨fun ⟨h, f⟩ g hg => ⟨h g hg, f g hg⟩, fun h => ⟨fun g hg => (h g hg).1, fun g hg => (h g hg).2⟩⟩

end Osmio
