import Verif.Proofs.PbfDecode
/-! # Proofs: running sums, coordinates and metadata of dense nodes -/

namespace Osmio
open Spec.Pbf

/-! ## Machine integers -/

theorem i64_ok {b : Build} {x : Int} {y : Int64} (h : b.i64 x = .ok y) : y = Int64.ofInt x := by
  unfold Build.i64 at h
  split at h
  · cases h; rfl
  · cases b <;> cases h; rfl

theorem i32_ok {b : Build} {x : Int} {y : Int32} (h : b.i32 x = .ok y) : y = Int32.ofInt x := by
  unfold Build.i32 at h
  split at h
  · cases h; rfl
  · cases b <;> cases h; rfl

theorem i64_fits (b : Build) {x : Int} (h : FitsI64 x) : b.i64 x = .ok (Int64.ofInt x) := if_pos h
theorem i32_fits (b : Build) {x : Int} (h : FitsI32 x) : b.i32 x = .ok (Int32.ofInt x) := if_pos h

theorem toInt_ofInt64 {x : Int} (h : FitsI64 x) : (Int64.ofInt x).toInt = x :=
  Int64.toInt_ofInt_of_le h.1 (by have := h.2; omega)
theorem toInt_ofInt32 {x : Int} (h : FitsI32 x) : (Int32.ofInt x).toInt = x :=
  Int32.toInt_ofInt_of_le h.1 (by have := h.2; omega)

theorem fits64 (x : Int64) : FitsI64 x.toInt := ⟨x.le_toInt, by have := x.toInt_lt; omega⟩
theorem fits32 (x : Int32) : FitsI32 x.toInt := ⟨x.le_toInt, by have := x.toInt_lt; omega⟩

theorem i64_of_i32 {x : Int} (h : FitsI32 x) : FitsI64 x := by
  unfold FitsI32 at h; unfold FitsI64; omega

theorem expectI32_ok {x : Int64} {y : Int32} (h : expectI32 x = .ok y) : y.toInt = x.toInt := by
  unfold expectI32 at h
  split at h
  · rename_i h1
    cases h
    exact toInt_ofInt32 h1
  · cases h

theorem index_ok {α : Type} {l : List α} {i : Nat} {a : α} : index l i = .ok a ↔ l[i]? = some a := by
  unfold index
  cases l[i]? <;> simp

theorem ofInt64_wrap (x y : Int) : Int64.ofInt ((Int64.ofInt x).toInt + y) = Int64.ofInt (x + y) := by
  rw [Int64.ofInt_add, Int64.ofInt_toInt, ← Int64.ofInt_add]
theorem ofInt32_wrap (x y : Int) : Int32.ofInt ((Int32.ofInt x).toInt + y) = Int32.ofInt (x + y) := by
  rw [Int32.ofInt_add, Int32.ofInt_toInt, ← Int32.ofInt_add]

/-- The sum of a coordinate and its difference is never wrapped unnoticed, in any build. -/
theorem rawCoord_ok {b : Build} {d : Int64} {last y : Int32} (h : NodePos.rawCoord b d last = .ok y) :
    y.toInt = d.toInt + last.toInt := by
  obtain ⟨x, h1, h2⟩ := bind_ok.1 h
  have h3 := expectI32_ok h2
  have h4 := i64_ok h1
  subst h4
  have hd := fits64 d
  have hl := fits32 last
  have hy := fits32 y
  have h5 : (Int64.ofInt (d.toInt + last.toInt)).toInt = Int.bmod (d.toInt + last.toInt) Int64.size := Int64.toInt_ofInt
  rw [h5] at h3
  clear h h1 h2 h5
  unfold FitsI64 at hd; unfold FitsI32 at hl hy
  simp only [Int64.size, Int.bmod_def] at *
  omega

theorem internalCoord_ok {b : Build} {g : Int32} {off : Int64} {raw y : Int32} (h : NodePos.internalCoord b g off raw = .ok y) :
    y = Int32.ofInt (raw.toInt * g.toInt.tdiv 100 + off.toInt.tdiv 100) := by
  obtain ⟨x, h1, h2⟩ := bind_ok.1 h
  rw [i32_ok h2, i32_ok h1, ofInt32_wrap, Int.add_comm, ofInt32_wrap, Int.add_comm]
  rfl

theorem rawCoord_fits (b : Build) {d : Int64} {last : Int32} (h : FitsI32 (d.toInt + last.toInt)) :
    NodePos.rawCoord b d last = .ok (Int32.ofInt (d.toInt + last.toInt)) := by
  refine bind_ok.2 ⟨_, i64_fits b (i64_of_i32 h), ?_⟩
  unfold expectI32
  rw [toInt_ofInt64 (i64_of_i32 h)]
  exact if_pos h

theorem internalCoord_fits (b : Build) {g : Int32} {off : Int64} {raw : Int32} (h1 : FitsI32 (raw.toInt * g.toInt.tdiv 100))
    (h2 : FitsI32 (off.toInt.tdiv 100)) (h3 : FitsI32 (raw.toInt * g.toInt.tdiv 100 + off.toInt.tdiv 100)) :
    NodePos.internalCoord b g off raw = .ok (Int32.ofInt (raw.toInt * g.toInt.tdiv 100 + off.toInt.tdiv 100)) := by
  refine bind_ok.2 ⟨_, i32_fits b h1, ?_⟩
  show b.i32 ((Int32.ofInt (raw.toInt * g.toInt.tdiv 100)).toInt + (Int32.ofInt (off.toInt.tdiv 100)).toInt) = _
  rw [toInt_ofInt32 h1, toInt_ofInt32 h2]
  exact i32_fits b h3

/-! ## Running sums -/

theorem runningSum_of {l : List Int} {i : Nat} {a : Int} (h : l[i]? = some a) : runningSum l i = (l.take i).sum + a := by
  obtain ⟨hi, rfl⟩ := List.getElem?_eq_some_iff.1 h
  unfold runningSum
  rw [List.take_succ_eq_append_getElem hi, List.sum_append]
  simp

theorem take_succ_sum (l : List Int) (i : Nat) : (l.take (i + 1)).sum = runningSum l i := rfl

theorem ints_get {l : List Int64} {i : Nat} {a : Int64} (h : l[i]? = some a) : (ints l)[i]? = some a.toInt := by
  simp [ints, h]
theorem ints32_get {l : List Int32} {i : Nat} {a : Int32} (h : l[i]? = some a) : (ints32 l)[i]? = some a.toInt := by
  simp [ints32, h]

theorem getElem?_of_lt {α : Type} {l : List α} {i : Nat} (h : i < l.length) : ∃ a, l[i]? = some a :=
  ⟨l[i], List.getElem?_eq_getElem h⟩

theorem delta64_ok {b : Build} {l : List Int64} {i : Nat} {last y : Int64} (h : StringPbf.delta64 b l i last = .ok y)
    (hl : last = Int64.ofInt ((ints l).take i).sum) : y = Int64.ofInt (runningSum (ints l) i) ∧ i < l.length := by
  obtain ⟨d, h1, h2⟩ := bind_ok.1 h
  rw [index_ok] at h1
  refine ⟨?_, (List.getElem?_eq_some_iff.1 h1).1⟩
  rw [i64_ok h2, hl, Int.add_comm, ofInt64_wrap, runningSum_of (ints_get h1)]

theorem delta32_ok {b : Build} {l : List Int32} {i : Nat} {last y : Int32} (h : StringPbf.delta32 b l i last = .ok y)
    (hl : last = Int32.ofInt ((ints32 l).take i).sum) : y = Int32.ofInt (runningSum (ints32 l) i) ∧ i < l.length := by
  obtain ⟨d, h1, h2⟩ := bind_ok.1 h
  rw [index_ok] at h1
  refine ⟨?_, (List.getElem?_eq_some_iff.1 h1).1⟩
  rw [i32_ok h2, hl, Int.add_comm, ofInt32_wrap, runningSum_of (ints32_get h1)]

theorem timestamp_ok {b : Build} {l : List Int64} {i : Nat} {last y : Int32} (h : StringPbf.denseTimestamp b 1 l i last = .ok y)
    (hl : last = Int32.ofInt ((ints l).take i).sum) : y = Int32.ofInt (runningSum (ints l) i) ∧ i < l.length := by
  obtain ⟨d, h1, h2⟩ := bind_ok.1 h
  obtain ⟨t, h3, h4⟩ := bind_ok.1 h2
  rw [index_ok] at h1
  refine ⟨?_, (List.getElem?_eq_some_iff.1 h1).1⟩
  rw [i32_ok h4, i32_ok h3, hl, ofInt32_wrap, Int.add_comm, ofInt32_wrap, runningSum_of (ints_get h1)]
  rw [show (1 : Int32).toInt = 1 from rfl, Int.mul_one, Int32.ofInt_toInt, Int.add_comm]

theorem ofInt32_mul_wrap (x y : Int) : Int32.ofInt ((Int32.ofInt x).toInt * y) = Int32.ofInt (x * y) := by
  rw [Int32.ofInt_mul, Int32.ofInt_toInt, ← Int32.ofInt_mul]

theorem compounded_of {k : Int} {l : List Int} {i : Nat} {x : Int} (h : l[i]? = some x) :
    compounded k (l.take (i + 1)) = (compounded k (l.take i) + x) * k := by
  obtain ⟨hi, e⟩ := List.getElem?_eq_some_iff.1 h
  rw [List.take_succ_eq_append_getElem hi, e]
  simp [compounded, List.foldl_append]

theorem timestamp_compounded {b : Build} {k : Int32} {l : List Int64} {i : Nat} {last y : Int32}
    (h : StringPbf.denseTimestamp b k l i last = .ok y) (hl : last = Int32.ofInt (compounded k.toInt ((ints l).take i))) :
    y = Int32.ofInt (compounded k.toInt ((ints l).take (i + 1))) := by
  obtain ⟨d, h1, h2⟩ := bind_ok.1 h
  obtain ⟨t, h3, h4⟩ := bind_ok.1 h2
  rw [index_ok] at h1
  rw [i32_ok h4, i32_ok h3, hl, ofInt32_mul_wrap, compounded_of (ints_get h1)]
  rw [← ofInt32_mul_wrap (_ + _), ← ofInt32_mul_wrap (_ + _), ofInt32_wrap, Int.add_comm, ofInt32_wrap]

theorem delta64_fits (b : Build) {l : List Int64} {i : Nat} {last : Int64} (hl : last.toInt = ((ints l).take i).sum)
    (hi : i < l.length) (h : FitsI64 (runningSum (ints l) i)) :
    StringPbf.delta64 b l i last = .ok (Int64.ofInt (runningSum (ints l) i)) := by
  obtain ⟨d, hd⟩ := getElem?_of_lt hi
  have e := runningSum_of (ints_get hd)
  refine bind_ok.2 ⟨d, index_ok.2 hd, ?_⟩
  rw [hl, Int.add_comm, ← e]
  exact i64_fits b h

theorem delta32_fits (b : Build) {l : List Int32} {i : Nat} {last : Int32} (hl : last.toInt = ((ints32 l).take i).sum)
    (hi : i < l.length) (h : FitsI32 (runningSum (ints32 l) i)) :
    StringPbf.delta32 b l i last = .ok (Int32.ofInt (runningSum (ints32 l) i)) := by
  obtain ⟨d, hd⟩ := getElem?_of_lt hi
  have e := runningSum_of (ints32_get hd)
  refine bind_ok.2 ⟨d, index_ok.2 hd, ?_⟩
  rw [hl, Int.add_comm, ← e]
  exact i32_fits b h

theorem timestamp_fits (b : Build) {l : List Int64} {i : Nat} {last : Int32} (hl : last.toInt = ((ints l).take i).sum)
    (hi : i < l.length) (hx : ∀ x ∈ l, FitsI32 x.toInt) (h : FitsI32 (runningSum (ints l) i)) :
    StringPbf.denseTimestamp b 1 l i last = .ok (Int32.ofInt (runningSum (ints l) i)) := by
  obtain ⟨d, hd⟩ := getElem?_of_lt hi
  have e := runningSum_of (ints_get hd)
  have hd' := hx d (List.mem_of_getElem? hd)
  refine bind_ok.2 ⟨d, index_ok.2 hd, bind_ok.2 ⟨Int32.ofInt (runningSum (ints l) i), ?_, ?_⟩⟩
  · rw [toInt_ofInt32 hd', hl, Int.add_comm, ← e]
    exact i32_fits b h
  · rw [toInt_ofInt32 h, show (1 : Int32).toInt = 1 from rfl, Int.mul_one]
    exact i32_fits b h

/-! ## Positions -/

/-- The position of a dense node. -/
def posAt (dense : Proto.DenseNodes) (g : Int32) (la lo : Int64) (i : Nat) : NodePos.NodeIdPos :=
  (Int64.ofInt (runningSum (ints dense.id) i),
    (⟨Int32.ofInt (runningSum (ints dense.lat) i * g.toInt.tdiv 100 + la.toInt.tdiv 100)⟩,
     ⟨Int32.ofInt (runningSum (ints dense.lon) i * g.toInt.tdiv 100 + lo.toInt.tdiv 100)⟩))

/-- The state before node `i`. -/
structure PosState (dense : Proto.DenseNodes) (i : Nat) (s : NodePos.State) : Prop where
  id : s.lastId = Int64.ofInt ((ints dense.id).take i).sum
  lat : s.lastRawLat.toInt = ((ints dense.lat).take i).sum
  lon : s.lastRawLon.toInt = ((ints dense.lon).take i).sum

theorem posState_zero (dense : Proto.DenseNodes) : PosState dense 0 {} := ⟨rfl, rfl, rfl⟩

theorem pos_step_ok {b : Build} {dense : Proto.DenseNodes} {g : Int32} {la lo : Int64} {i : Nat} {s s' : NodePos.State}
    {p : NodePos.NodeIdPos} (hs : PosState dense i s) (h : NodePos.step b dense g la lo i s = .ok (p, s')) :
    p = posAt dense g la lo i ∧ PosState dense (i + 1) s' ∧ FitsI32 (runningSum (ints dense.lat) i) ∧
      FitsI32 (runningSum (ints dense.lon) i) := by
  simp only [NodePos.step, bind_ok] at h
  obtain ⟨did, h1, id, h2, dlat, h3, rl, h4, dlon, h5, rlo, h6, lat, h7, lon, h8, h9⟩ := h
  cases h9
  rw [index_ok] at h1 h3 h5
  have e1 : id = Int64.ofInt (runningSum (ints dense.id) i) :=
    (delta64_ok (b := b) (bind_ok.2 ⟨did, index_ok.2 h1, h2⟩) hs.id).1
  have e2 : rl.toInt = runningSum (ints dense.lat) i := by
    rw [rawCoord_ok h4, hs.lat, runningSum_of (ints_get h3), Int.add_comm]
  have e3 : rlo.toInt = runningSum (ints dense.lon) i := by
    rw [rawCoord_ok h6, hs.lon, runningSum_of (ints_get h5), Int.add_comm]
  refine ⟨?_, ⟨e1, e2, e3⟩, e2 ▸ fits32 rl, e3 ▸ fits32 rlo⟩
  unfold posAt
  rw [e1, internalCoord_ok h7, internalCoord_ok h8, e2, e3]

theorem pos_loop_ok {b : Build} {dense : Proto.DenseNodes} {g : Int32} {la lo : Int64} {n i : Nat} {s : NodePos.State}
    {ps : List NodePos.NodeIdPos} (hs : PosState dense i s) (h : loopR (NodePos.step b dense g la lo) n i s = .ok ps) :
    ∀ j p, ps[j]? = some p → p = posAt dense g la lo (i + j) ∧ FitsI32 (runningSum (ints dense.lat) (i + j)) ∧
      FitsI32 (runningSum (ints dense.lon) (i + j)) := by
  induction n generalizing i s ps with
  | zero => cases h; intro j p hj; cases hj
  | succ n ih =>
    obtain ⟨x, s', r, h1, h2, rfl⟩ := loopR_succ.1 h
    obtain ⟨e, hs', f⟩ := pos_step_ok hs h1
    intro j p hj
    cases j with
    | zero => cases hj; exact ⟨e, f⟩
    | succ j =>
      have := ih hs' h2 j p hj
      rw [Nat.add_assoc, Nat.add_comm 1 j] at this
      exact this

/-- The numbers of the first `n` dense nodes are in range. -/
structure PosRange (dense : Proto.DenseNodes) (g : Int32) (la lo : Int64) (n : Nat) : Prop where
  ids : n ≤ dense.id.length
  lats : n ≤ dense.lat.length
  lons : n ≤ dense.lon.length
  id : ∀ i < n, FitsI64 (runningSum (ints dense.id) i)
  latOff : FitsI32 (la.toInt.tdiv 100)
  lonOff : FitsI32 (lo.toInt.tdiv 100)
  lat : ∀ i < n, FitsI32 (runningSum (ints dense.lat) i) ∧ FitsI32 (runningSum (ints dense.lat) i * g.toInt.tdiv 100) ∧
    FitsI32 (runningSum (ints dense.lat) i * g.toInt.tdiv 100 + la.toInt.tdiv 100)
  lon : ∀ i < n, FitsI32 (runningSum (ints dense.lon) i) ∧ FitsI32 (runningSum (ints dense.lon) i * g.toInt.tdiv 100) ∧
    FitsI32 (runningSum (ints dense.lon) i * g.toInt.tdiv 100 + lo.toInt.tdiv 100)

/-- The state before node `i`, exactly. -/
structure PosExact (dense : Proto.DenseNodes) (i : Nat) (s : NodePos.State) : Prop where
  id : s.lastId.toInt = ((ints dense.id).take i).sum
  lat : s.lastRawLat.toInt = ((ints dense.lat).take i).sum
  lon : s.lastRawLon.toInt = ((ints dense.lon).take i).sum

theorem posExact_zero (dense : Proto.DenseNodes) : PosExact dense 0 {} := ⟨rfl, rfl, rfl⟩

theorem pos_step_fits (b : Build) {dense : Proto.DenseNodes} {g : Int32} {la lo : Int64} {n i : Nat} {s : NodePos.State}
    (hr : PosRange dense g la lo n) (hi : i < n) (hs : PosExact dense i s) :
    ∃ s', NodePos.step b dense g la lo i s = .ok (posAt dense g la lo i, s') ∧ PosExact dense (i + 1) s' := by
  obtain ⟨did, h1⟩ := getElem?_of_lt (Nat.lt_of_lt_of_le hi hr.ids)
  obtain ⟨dlat, h2⟩ := getElem?_of_lt (Nat.lt_of_lt_of_le hi hr.lats)
  obtain ⟨dlon, h3⟩ := getElem?_of_lt (Nat.lt_of_lt_of_le hi hr.lons)
  have e1 := runningSum_of (ints_get h1)
  have e2 := runningSum_of (ints_get h2)
  have e3 := runningSum_of (ints_get h3)
  have f1 := hr.id i hi
  obtain ⟨f2, f3, f4⟩ := hr.lat i hi
  obtain ⟨f5, f6, f7⟩ := hr.lon i hi
  have g2 : dlat.toInt + s.lastRawLat.toInt = runningSum (ints dense.lat) i := by rw [hs.lat, e2, Int.add_comm]
  have g3 : dlon.toInt + s.lastRawLon.toInt = runningSum (ints dense.lon) i := by rw [hs.lon, e3, Int.add_comm]
  refine ⟨⟨Int64.ofInt (runningSum (ints dense.id) i), Int32.ofInt (runningSum (ints dense.lat) i),
    Int32.ofInt (runningSum (ints dense.lon) i)⟩, ?_, ⟨toInt_ofInt64 f1, toInt_ofInt32 f2, toInt_ofInt32 f5⟩⟩
  simp only [NodePos.step, bind_ok]
  refine ⟨did, index_ok.2 h1, Int64.ofInt (runningSum (ints dense.id) i), ?_, dlat, index_ok.2 h2,
    Int32.ofInt (runningSum (ints dense.lat) i), ?_, dlon, index_ok.2 h3, Int32.ofInt (runningSum (ints dense.lon) i), ?_,
    Int32.ofInt (runningSum (ints dense.lat) i * g.toInt.tdiv 100 + la.toInt.tdiv 100), ?_,
    Int32.ofInt (runningSum (ints dense.lon) i * g.toInt.tdiv 100 + lo.toInt.tdiv 100), ?_, rfl⟩
  · rw [hs.id, Int.add_comm, ← e1]; exact i64_fits b f1
  · rw [rawCoord_fits b (by rw [g2]; exact f2), g2]
  · rw [rawCoord_fits b (by rw [g3]; exact f5), g3]
  · rw [internalCoord_fits b (by rw [toInt_ofInt32 f2]; exact f3) hr.latOff (by rw [toInt_ofInt32 f2]; exact f4), toInt_ofInt32 f2]
  · rw [internalCoord_fits b (by rw [toInt_ofInt32 f5]; exact f6) hr.lonOff (by rw [toInt_ofInt32 f5]; exact f7), toInt_ofInt32 f5]

theorem pos_loop_fits (b : Build) {dense : Proto.DenseNodes} {g : Int32} {la lo : Int64} {n k i : Nat} {s : NodePos.State}
    (hr : PosRange dense g la lo n) (hk : i + k ≤ n) (hs : PosExact dense i s) :
    loopR (NodePos.step b dense g la lo) k i s = .ok ((List.range' i k).map (posAt dense g la lo)) := by
  induction k generalizing i s with
  | zero => rfl
  | succ k ih =>
    obtain ⟨s', h1, h2⟩ := pos_step_fits b hr (by omega) hs
    exact loopR_succ.2 ⟨_, s', _, h1, ih (by omega) h2, rfl⟩

/-! ## Metadata -/

/-- The metadata of a dense node (with `date_granularity` 1000). -/
structure IsMeta (info : Proto.DenseInfo) (i : Nat) (m : Meta) : Prop where
  changeset : m.changeset = Int64.ofInt (runningSum (ints info.changeset) i)
  uid : m.uid = Int32.ofInt (runningSum (ints32 info.uid) i)
  userSid : m.userSid = Int32.ofInt (runningSum (ints32 info.userSid) i)
  version : info.version[i]? = some m.version

structure MetaState (info : Proto.DenseInfo) (i : Nat) (s : MState) : Prop where
  changeset : s.lastChangeset = Int64.ofInt ((ints info.changeset).take i).sum
  uid : s.lastUid = Int32.ofInt ((ints32 info.uid).take i).sum
  userSid : s.lastUserSid = Int32.ofInt ((ints32 info.userSid).take i).sum

theorem metaState_zero (info : Proto.DenseInfo) : MetaState info 0 {} := ⟨rfl, rfl, rfl⟩

theorem meta_step_ok {b : Build} {info : Proto.DenseInfo} {dg : Int32} {i : Nat} {s s' : MState} {m : Meta}
    (hs : MetaState info i s) (h : metaStep b info dg i s = .ok (m, s')) :
    IsMeta info i m ∧ MetaState info (i + 1) s' ∧
    (dg = 1 → s.lastTimestamp = Int32.ofInt ((ints info.timestamp).take i).sum →
      m.timestamp = Int32.ofInt (runningSum (ints info.timestamp) i) ∧
      s'.lastTimestamp = Int32.ofInt ((ints info.timestamp).take (i + 1)).sum) := by
  simp only [metaStep, bind_ok] at h
  obtain ⟨cs, h1, uid, h2, us, h3, ts, h4, _, h5, v, h6, h7⟩ := h
  cases h7
  have e1 := (delta64_ok h1 hs.changeset).1
  have e2 := (delta32_ok h2 hs.uid).1
  have e3 := (delta32_ok h3 hs.userSid).1
  refine ⟨⟨e1, e2, e3, index_ok.1 h6⟩, ⟨e1, e2, e3⟩, ?_⟩
  rintro rfl ht
  exact ⟨(timestamp_ok h4 ht).1, (timestamp_ok h4 ht).1⟩

theorem meta_loop_ok {b : Build} {info : Proto.DenseInfo} {dg : Int32} {n i : Nat} {s : MState} {ms : List Meta}
    (hs : MetaState info i s) (h : loopR (metaStep b info dg) n i s = .ok ms) :
    ∀ j m, ms[j]? = some m → IsMeta info (i + j) m := by
  induction n generalizing i s ms with
  | zero => cases h; intro j p hj; cases hj
  | succ n ih =>
    obtain ⟨x, s', r, h1, h2, rfl⟩ := loopR_succ.1 h
    obtain ⟨e, hs', f⟩ := meta_step_ok hs h1
    intro j p hj
    cases j with
    | zero => cases hj; exact e
    | succ j =>
      have := ih hs' h2 j p hj
      rw [Nat.add_assoc, Nat.add_comm 1 j] at this
      exact this

theorem meta_loop_timestamp {b : Build} {info : Proto.DenseInfo} {n i : Nat} {s : MState} {ms : List Meta}
    (hs : MetaState info i s) (ht : s.lastTimestamp = Int32.ofInt ((ints info.timestamp).take i).sum)
    (h : loopR (metaStep b info 1) n i s = .ok ms) :
    ∀ j m, ms[j]? = some m → m.timestamp = Int32.ofInt (runningSum (ints info.timestamp) (i + j)) := by
  induction n generalizing i s ms with
  | zero => cases h; intro j p hj; cases hj
  | succ n ih =>
    obtain ⟨x, s', r, h1, h2, rfl⟩ := loopR_succ.1 h
    obtain ⟨e, hs', f⟩ := meta_step_ok hs h1
    obtain ⟨f1, f2⟩ := f rfl ht
    intro j p hj
    cases j with
    | zero => cases hj; exact f1
    | succ j =>
      have := ih hs' f2 h2 j p hj
      rw [Nat.add_assoc, Nat.add_comm 1 j] at this
      exact this

theorem meta_step_compounded {b : Build} {info : Proto.DenseInfo} {dg : Int32} {i : Nat} {s s' : MState} {m : Meta}
    (ht : s.lastTimestamp = Int32.ofInt (compounded dg.toInt ((ints info.timestamp).take i)))
    (h : metaStep b info dg i s = .ok (m, s')) :
    m.timestamp = Int32.ofInt (compounded dg.toInt ((ints info.timestamp).take (i + 1))) ∧ s'.lastTimestamp = m.timestamp := by
  simp only [metaStep, bind_ok] at h
  obtain ⟨cs, h1, uid, h2, us, h3, ts, h4, _, h5, v, h6, h7⟩ := h
  cases h7
  exact ⟨timestamp_compounded h4 ht, rfl⟩

theorem meta_loop_compounded {b : Build} {info : Proto.DenseInfo} {dg : Int32} {n i : Nat} {s : MState} {ms : List Meta}
    (ht : s.lastTimestamp = Int32.ofInt (compounded dg.toInt ((ints info.timestamp).take i)))
    (h : loopR (metaStep b info dg) n i s = .ok ms) :
    ∀ j m, ms[j]? = some m → m.timestamp = Int32.ofInt (compounded dg.toInt ((ints info.timestamp).take (i + j + 1))) := by
  induction n generalizing i s ms with
  | zero => cases h; intro j p hj; cases hj
  | succ n ih =>
    obtain ⟨x, s', r, h1, h2, rfl⟩ := loopR_succ.1 h
    obtain ⟨f1, f2⟩ := meta_step_compounded ht h1
    intro j p hj
    cases j with
    | zero => cases hj; exact f1
    | succ j =>
      have := ih (f2.trans f1) h2 j p hj
      rwa [Nat.add_assoc i, Nat.add_comm 1 j] at this

/-- The metadata of the first `n` dense nodes is in range. -/
structure MetaRange (info : Proto.DenseInfo) (n : Nat) : Prop where
  changesets : n ≤ info.changeset.length
  uids : n ≤ info.uid.length
  users : n ≤ info.userSid.length
  timestamps : n ≤ info.timestamp.length
  versions : n ≤ info.version.length
  delta : ∀ x ∈ info.timestamp, FitsI32 x.toInt
  changeset : ∀ i < n, FitsI64 (runningSum (ints info.changeset) i)
  uid : ∀ i < n, FitsI32 (runningSum (ints32 info.uid) i) ∧ runningSum (ints32 info.uid) i < 2147483647
  user : ∀ i < n, FitsI32 (runningSum (ints32 info.userSid) i)
  timestamp : ∀ i < n, FitsI32 (runningSum (ints info.timestamp) i)

structure MetaExact (info : Proto.DenseInfo) (i : Nat) (s : MState) : Prop where
  changeset : s.lastChangeset.toInt = ((ints info.changeset).take i).sum
  uid : s.lastUid.toInt = ((ints32 info.uid).take i).sum
  userSid : s.lastUserSid.toInt = ((ints32 info.userSid).take i).sum
  timestamp : s.lastTimestamp.toInt = ((ints info.timestamp).take i).sum

theorem metaExact_zero (info : Proto.DenseInfo) : MetaExact info 0 {} := ⟨rfl, rfl, rfl, rfl⟩

/-- The metadata of a dense node. -/
def metaAt (info : Proto.DenseInfo) (i : Nat) : Meta :=
  ⟨Int64.ofInt (runningSum (ints info.changeset) i), Int32.ofInt (runningSum (ints32 info.uid) i),
   Int32.ofInt (runningSum (ints32 info.userSid) i), Int32.ofInt (runningSum (ints info.timestamp) i), info.version[i]?.getD 0⟩

theorem meta_step_fits (b : Build) {info : Proto.DenseInfo} {n i : Nat} {s : MState}
    (hr : MetaRange info n) (hi : i < n) (hs : MetaExact info i s) :
    ∃ s', metaStep b info 1 i s = .ok (metaAt info i, s') ∧ MetaExact info (i + 1) s' := by
  have f1 := hr.changeset i hi
  have f2 := hr.uid i hi
  have f3 := hr.user i hi
  have f4 := hr.timestamp i hi
  obtain ⟨v, hv⟩ := getElem?_of_lt (Nat.lt_of_lt_of_le hi hr.versions)
  refine ⟨⟨Int32.ofInt (runningSum (ints info.timestamp) i), Int64.ofInt (runningSum (ints info.changeset) i),
    Int32.ofInt (runningSum (ints32 info.uid) i), Int32.ofInt (runningSum (ints32 info.userSid) i)⟩, ?_,
    ⟨toInt_ofInt64 f1, toInt_ofInt32 f2.1, toInt_ofInt32 f3, toInt_ofInt32 f4⟩⟩
  simp only [metaStep, bind_ok]
  refine ⟨_, delta64_fits b hs.changeset (Nat.lt_of_lt_of_le hi hr.changesets) f1,
    _, delta32_fits b hs.uid (Nat.lt_of_lt_of_le hi hr.uids) f2.1,
    _, delta32_fits b hs.userSid (Nat.lt_of_lt_of_le hi hr.users) f3,
    _, timestamp_fits b hs.timestamp (Nat.lt_of_lt_of_le hi hr.timestamps) hr.delta f4, (), ?_, v, index_ok.2 hv, ?_⟩
  · rw [toInt_ofInt32 f2.1, StringPbf.assert, decide_eq_true f2.2]; rfl
  · rw [metaAt, hv]; rfl

theorem meta_loop_fits (b : Build) {info : Proto.DenseInfo} {n k i : Nat} {s : MState}
    (hr : MetaRange info n) (hk : i + k ≤ n) (hs : MetaExact info i s) :
    loopR (metaStep b info 1) k i s = .ok ((List.range' i k).map (metaAt info)) := by
  induction k generalizing i s with
  | zero => rfl
  | succ k ih =>
    obtain ⟨s', h1, h2⟩ := meta_step_fits b hr (by omega) hs
    exact loopR_succ.2 ⟨_, s', _, h1, ih (by omega) h2, rfl⟩

/-! ## Encoders -/

theorem differences_sum (last : Int) (l : List Int) (i : Nat) (h : i < l.length) :
    runningSum (differences last l) i = l[i] - last := by
  induction l generalizing last i with
  | nil => simp at h
  | cons x l ih =>
    unfold runningSum
    rw [differences, List.take_succ_cons, List.sum_cons]
    cases i with
    | zero => simp
    | succ i =>
      have := ih x i (by simpa using h)
      unfold runningSum at this
      rw [this]
      simp only [List.getElem_cons_succ]
      omega

theorem differences_length (last : Int) (l : List Int) : (differences last l).length = l.length := by
  induction l generalizing last with
  | nil => rfl
  | cons x l ih => simp [differences, ih]

theorem runningSums_differences (l : List Int) : runningSums (differences 0 l) = l := by
  unfold runningSums
  apply List.ext_getElem
  · simp [differences_length]
  · intro i h1 h2
    simp only [List.getElem_map, List.getElem_range]
    rw [differences_sum 0 l i h2]
    omega

/-! ## Running sums of a list of references -/

theorem runningSums_ok {b : Build} {last : Int64} {ds r : List Int64} (h : StringPbf.runningSums b last ds = .ok r) :
    r.length = ds.length ∧ ∀ (i : Nat) x, r[i]? = some x → x = Int64.ofInt (last.toInt + runningSum (ints ds) i) := by
  induction ds generalizing last r with
  | nil => cases h; simp
  | cons d ds ih =>
    simp only [StringPbf.runningSums, bind_ok] at h
    obtain ⟨x, h1, r', h2, h3⟩ := h
    cases h3
    obtain ⟨l1, l2⟩ := ih h2
    refine ⟨by simp [l1], ?_⟩
    intro i y hy
    have e : ints (d :: ds) = d.toInt :: ints ds := rfl
    cases i with
    | zero =>
      cases hy
      rw [i64_ok h1, e]
      simp [runningSum]
    | succ i =>
      rw [l2 i y hy, i64_ok h1, e, ofInt64_wrap]
      simp only [runningSum, List.take_succ_cons, List.sum_cons, Int.add_assoc]

theorem undelta_ok {b : Build} {ds r : List Int64} (h : StringPbf.undelta b ds = .ok r) :
    r = (runningSums (ints ds)).map Int64.ofInt := by
  cases ds with
  | nil => cases h; rfl
  | cons d ds =>
    simp only [StringPbf.undelta, bind_ok] at h
    obtain ⟨r', h2, h3⟩ := h
    cases h3
    obtain ⟨l1, l2⟩ := runningSums_ok h2
    have e : ints (d :: ds) = d.toInt :: ints ds := rfl
    apply List.ext_getElem
    · simp [runningSums, ints, l1]
    · intro i h3 h4
      simp only [runningSums, List.getElem_map, List.getElem_range]
      rw [e]
      cases i with
      | zero => simp [runningSum]
      | succ i =>
        have h5 : i < r'.length := by simpa using h3
        rw [List.getElem_cons_succ, l2 i r'[i] (List.getElem?_eq_getElem h5)]
        simp only [runningSum, List.take_succ_cons, List.sum_cons]

theorem runningSums_fits (b : Build) {last : Int64} {ds : List Int64}
    (h : ∀ i < ds.length, FitsI64 (last.toInt + runningSum (ints ds) i)) :
    ∃ r, StringPbf.runningSums b last ds = .ok r := by
  induction ds generalizing last with
  | nil => exact ⟨[], rfl⟩
  | cons d ds ih =>
    have e : ints (d :: ds) = d.toInt :: ints ds := rfl
    have h0 := h 0 (by simp)
    rw [e] at h0
    simp only [runningSum, List.take_succ_cons, List.sum_cons, List.take_zero, List.sum_nil, Int.add_zero] at h0
    obtain ⟨r, hr⟩ := ih (last := Int64.ofInt (last.toInt + d.toInt)) (fun i hi => by
      have := h (i + 1) (by simpa using hi)
      rw [e] at this
      simp only [runningSum, List.take_succ_cons, List.sum_cons] at this
      rw [toInt_ofInt64 h0, Int.add_assoc]
      exact this)
    exact ⟨_ :: r, bind_ok.2 ⟨_, i64_fits b h0, bind_ok.2 ⟨r, hr, rfl⟩⟩⟩

theorem undelta_fits (b : Build) {ds : List Int64} (h : ∀ i < ds.length, FitsI64 (runningSum (ints ds) i)) :
    StringPbf.undelta b ds = .ok ((runningSums (ints ds)).map Int64.ofInt) := by
  cases ds with
  | nil => rfl
  | cons d ds =>
    obtain ⟨r, hr⟩ := runningSums_fits b (last := d) (ds := ds) (fun i hi => by
      have := h (i + 1) (by simpa using hi)
      have e : ints (d :: ds) = d.toInt :: ints ds := rfl
      rw [e] at this
      simpa only [runningSum, List.take_succ_cons, List.sum_cons] using this)
    have h1 : StringPbf.undelta b (d :: ds) = .ok (d :: r) := bind_ok.2 ⟨r, hr, rfl⟩
    rw [h1, undelta_ok h1]

end Osmio
