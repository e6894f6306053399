import Verif.Spec.PbfFile
/-! # Proofs: the dense loop in three parts (position, metadata, tags) -/

namespace Osmio
open Spec.Pbf

theorem bind_ok {α β : Type} {x : Res α} {f : α → Res β} {y : β} :
    (x >>= f) = Except.ok y ↔ ∃ a, x = .ok a ∧ f a = .ok y := by
  cases x with
  | error e => simp [bind, Except.bind]
  | ok a => simp [bind, Except.bind]

theorem map_ok {α β : Type} {x : Res α} {f : α → β} {y : β} :
    x.map f = Except.ok y ↔ ∃ a, x = .ok a ∧ f a = y := by
  cases x with
  | error e => simp [Except.map]
  | ok a => simp [Except.map]

/-- The outcome of a computation with a sink. -/
def toRes {α : Type} (x : List α × Option Panic) : Res (List α) :=
  match x.2 with
  | none => .ok x.1
  | some p => .error p

theorem toRes_ok {α : Type} {x : List α × Option Panic} {l : List α} : toRes x = .ok l ↔ x = (l, none) := by
  obtain ⟨a, b⟩ := x
  cases b <;> simp [toRes]

/-- A loop with a state. -/
def loopR {σ α : Type} (step : Nat → σ → Res (α × σ)) : Nat → Nat → σ → Res (List α)
  | 0, _, _ => .ok []
  | n + 1, i, s => do
    let (x, s) ← step i s
    let r ← loopR step n (i + 1) s
    .ok (x :: r)

theorem loopR_succ {σ α : Type} {step : Nat → σ → Res (α × σ)} {n i : Nat} {s : σ} {l : List α} :
    loopR step (n + 1) i s = .ok l ↔ ∃ x s' r, step i s = .ok (x, s') ∧ loopR step n (i + 1) s' = .ok r ∧ l = x :: r := by
  simp only [loopR, bind_ok]
  constructor
  · rintro ⟨⟨x, s'⟩, h, r, h1, h2⟩
    cases h2
    exact ⟨x, s', r, h, h1, rfl⟩
  · rintro ⟨x, s', r, h, h1, rfl⟩
    exact ⟨(x, s'), h, r, h1, rfl⟩

theorem str_denseLoop {step : Nat → StringPbf.DenseState → Res (StringNode × StringPbf.DenseState)} {n i : Nat}
    {s : StringPbf.DenseState} :
    toRes (StringPbf.denseLoop step n i s) = (loopR step n i s).map (List.map .node) := by
  induction n generalizing i s with
  | zero => rfl
  | succ n ih =>
    simp only [StringPbf.denseLoop, loopR]
    cases h : step i s with
    | error p => rfl
    | ok x =>
      obtain ⟨x, s'⟩ := x
      have := ih (i := i + 1) (s := s')
      simp only [bind, Except.bind]
      cases h2 : loopR step n (i + 1) s' with
      | error p =>
        rw [h2] at this
        cases h3 : StringPbf.denseLoop step n (i + 1) s' with
        | mk a b => rw [h3] at this; cases b <;> simp_all [toRes, Except.map]
      | ok r =>
        rw [h2] at this
        cases h3 : StringPbf.denseLoop step n (i + 1) s' with
        | mk a b => rw [h3] at this; cases b <;> simp_all [toRes, Except.map]

theorem pos_loop {step : Nat → NodePos.State → Res (NodePos.NodeIdPos × NodePos.State)} {n i : Nat} {s : NodePos.State} :
    toRes (NodePos.loop step n i s) = loopR step n i s := by
  induction n generalizing i s with
  | zero => rfl
  | succ n ih =>
    simp only [NodePos.loop, loopR]
    cases h : step i s with
    | error p => rfl
    | ok x =>
      obtain ⟨x, s'⟩ := x
      have := ih (i := i + 1) (s := s')
      simp only [bind, Except.bind]
      cases h2 : loopR step n (i + 1) s' with
      | error p =>
        rw [h2] at this
        cases h3 : NodePos.loop step n (i + 1) s' with
        | mk a b => rw [h3] at this; cases b <;> simp_all [toRes]
      | ok r =>
        rw [h2] at this
        cases h3 : NodePos.loop step n (i + 1) s' with
        | mk a b => rw [h3] at this; cases b <;> simp_all [toRes]

theorem arc_denseLoop {step : Nat → ArcPbf.DenseState → Res (ArcNode × ArcPbf.DenseState)} {n i : Nat}
    {s : ArcPbf.DenseState} :
    ArcPbf.denseLoop step n i s = (loopR step n i s).map (List.map .node) := by
  induction n generalizing i s with
  | zero => rfl
  | succ n ih =>
    simp only [ArcPbf.denseLoop, loopR]
    cases h : step i s with
    | error p => rfl
    | ok x =>
      obtain ⟨x, s'⟩ := x
      have := ih (i := i + 1) (s := s')
      simp only [bind, Except.bind, this]
      cases h2 : loopR step n (i + 1) s' <;> rfl

theorem toRes_runAll {α β : Type} (f : α → Res β) (l : List α) : toRes (runAll f l) = ArcPbf.forAll f l := by
  induction l with
  | nil => rfl
  | cons a l ih =>
    simp only [runAll, ArcPbf.forAll]
    cases h : f a with
    | error p => rfl
    | ok x =>
      simp only [bind, Except.bind, ← ih]
      cases h2 : runAll f l with
      | mk a b => cases b <;> rfl

theorem forAll_ok {α β : Type} {f : α → Res β} {l : List α} {r : List β} :
    ArcPbf.forAll f l = .ok r ↔ List.Forall₂ (fun a x => f a = .ok x) l r := by
  induction l generalizing r with
  | nil => simp [ArcPbf.forAll, eq_comm]
  | cons a l ih =>
    simp only [ArcPbf.forAll, bind_ok, List.forall₂_cons_left_iff]
    constructor
    · rintro ⟨x, h, r', h1, h2⟩
      cases h2
      exact ⟨x, r', h, ih.1 h1, rfl⟩
    · rintro ⟨x, r', h, h1, rfl⟩
      exact ⟨x, h, r', ih.2 h1, rfl⟩

/-! ## One round in parts -/

structure MState where
  lastTimestamp : Int32 := 0
  lastChangeset : Int64 := 0
  lastUid : Int32 := 0
  lastUserSid : Int32 := 0

structure Meta where
  changeset : Int64
  uid : Int32
  userSid : Int32
  timestamp : Int32
  version : Int32

open StringPbf in
def metaStep (b : Build) (info : Proto.DenseInfo) (dg : Int32) (i : Nat) (s : MState) : Res (Meta × MState) := do
  let changeset ← delta64 b info.changeset i s.lastChangeset
  let uid ← delta32 b info.uid i s.lastUid
  let userSid ← delta32 b info.userSid i s.lastUserSid
  let timestamp ← denseTimestamp b dg info.timestamp i s.lastTimestamp
  assert (decide (uid.toInt < 2147483647))
  let version ← index info.version i
  .ok (⟨changeset, uid, userSid, timestamp, version⟩, ⟨timestamp, changeset, uid, userSid⟩)

def StringPbf.DenseState.pos (s : StringPbf.DenseState) : NodePos.State := ⟨s.lastId, s.lastRawLat, s.lastRawLon⟩
def StringPbf.DenseState.md (s : StringPbf.DenseState) : MState := ⟨s.lastTimestamp, s.lastChangeset, s.lastUid, s.lastUserSid⟩
def ArcPbf.DenseState.pos (s : ArcPbf.DenseState) : NodePos.State := ⟨s.lastId, s.lastRawLat, s.lastRawLon⟩
def ArcPbf.DenseState.md (s : ArcPbf.DenseState) : MState := ⟨s.lastTimestamp, s.lastChangeset, s.lastUid, s.lastUserSid⟩

/-- What the getters of a dense node show. -/
def nodeData (p : NodePos.NodeIdPos) (m : Meta) (tags : List (Str × Str)) (user : Str) (deleted : Bool) : Spec.ObjData :=
  { view := { id := p.1, version := some (UInt32.ofInt m.version.toInt), deleted := deleted
              changesetId := some (UInt32.ofInt m.changeset.toInt), timestamp := some (.epoch (Int64.ofInt m.timestamp.toInt))
              uid := some (UInt32.ofInt m.uid.toInt), user := some user, tags := tags, kind := .node }
    pos := some p.2, nodes := [], members := [] }

theorem str_denseNode {b : Build} {dense : Proto.DenseNodes} {g : Int32} {la lo : Int64} {dg : Int32} {table : List Str} {i : Nat}
    {s s' : StringPbf.DenseState} {node : StringNode} :
    StringPbf.denseNode b dense g la lo dg table i s = .ok (node, s') ↔
      ∃ p m tags user, NodePos.step b dense g la lo i s.pos = .ok (p, s'.pos) ∧
        StringPbf.denseTags table s.keysVals = .ok (tags, s'.keysVals) ∧
        metaStep b (dense.denseinfo.getD {}) dg i s.md = .ok (m, s'.md) ∧ indexI32 table m.userSid = .ok user ∧
        node = { id_ := p.1, tags_ := tags, latLon_ := some p.2, deleted_ := !((dense.denseinfo.getD {}).visible[i]?.getD true)
                 changesetId_ := some (UInt32.ofInt m.changeset.toInt), uid_ := some (UInt32.ofInt m.uid.toInt)
                 user_ := some user, version_ := some (UInt32.ofInt m.version.toInt)
                 timestamp_ := some (.epoch (Int64.ofInt m.timestamp.toInt)) } := by
  simp only [StringPbf.denseNode, NodePos.step, metaStep, bind_ok, StringPbf.delta64]
  constructor
  · rintro ⟨id, ⟨did, h1, h2⟩, dlat, h3, rl, h4, dlon, h5, rlo, h6, lat, h7, lon, h8, ⟨tags, kv⟩, h9, cs, ⟨dcs, h10, h11⟩, uid, h12,
      us, h13, ts, h14, _, h15, user, h16, ver, h17, h18⟩
    cases h18
    exact ⟨(id, (⟨lat⟩, ⟨lon⟩)), ⟨cs, uid, us, ts, ver⟩, tags, user,
      ⟨did, h1, id, h2, dlat, h3, rl, h4, dlon, h5, rlo, h6, lat, h7, lon, h8, rfl⟩, h9,
      ⟨cs, ⟨dcs, h10, h11⟩, uid, h12, us, h13, ts, h14, (), h15, ver, h17, rfl⟩, h16, rfl⟩
  · rintro ⟨p, m, tags, user, ⟨did, h1, id, h2, dlat, h3, rl, h4, dlon, h5, rlo, h6, lat, h7, lon, h8, h⟩, h9,
      ⟨cs, ⟨dcs, h10, h11⟩, uid, h12, us, h13, ts, h14, _, h15, ver, h17, h'⟩, h16, rfl⟩
    obtain ⟨kv, a, b, c, d, e, f, g⟩ := s'
    simp only [StringPbf.DenseState.pos, StringPbf.DenseState.md, Except.ok.injEq, Prod.mk.injEq, NodePos.State.mk.injEq,
      MState.mk.injEq] at h h'
    obtain ⟨rfl, rfl, rfl, rfl⟩ := h
    obtain ⟨rfl, rfl, rfl, rfl, rfl⟩ := h'
    exact ⟨id, ⟨did, h1, h2⟩, dlat, h3, rl, h4, dlon, h5, rlo, h6, lat, h7, lon, h8, (tags, kv), h9, cs, ⟨dcs, h10, h11⟩, uid, h12,
      us, h13, ts, h14, (), h15, user, h16, ver, h17, rfl⟩

theorem arc_denseNode {b : Build} {dense : Proto.DenseNodes} {g : Int32} {la lo : Int64} {dg : Int32} {table : List (Option Str)}
    {i : Nat} {s s' : ArcPbf.DenseState} {node : ArcNode} :
    ArcPbf.denseNode b dense g la lo dg table i s = .ok (node, s') ↔
      ∃ p m tags user, NodePos.step b dense g la lo i s.pos = .ok (p, s'.pos) ∧
        ArcPbf.nodeTags (!dense.keysVals.isEmpty) table s.keysVals = .ok (tags, s'.keysVals) ∧
        metaStep b (dense.denseinfo.getD {}) dg i s.md = .ok (m, s'.md) ∧ indexI32 table m.userSid = .ok (some user) ∧
        node = { id_ := p.1, tags_ := tags, latLon_ := some p.2, deleted_ := !((dense.denseinfo.getD {}).visible[i]?.getD true)
                 changesetId_ := some (UInt32.ofInt m.changeset.toInt), uid_ := some (UInt32.ofInt m.uid.toInt)
                 user_ := some user, version_ := some (UInt32.ofInt m.version.toInt)
                 timestamp_ := some (.epoch (Int64.ofInt m.timestamp.toInt)) } := by
  simp only [ArcPbf.denseNode, NodePos.step, metaStep, bind_ok, ArcPbf.delta64, StringPbf.delta64]
  constructor
  · rintro ⟨id, ⟨did, h1, h2⟩, dlat, h3, rl, h4, dlon, h5, rlo, h6, lat, h7, lon, h8, ⟨tags, kv⟩, h9, cs, ⟨dcs, h10, h11⟩, uid, h12,
      us, h13, ts, h14, _, h15, user, h16, user', h16', ver, h17, h18⟩
    cases user with
    | none => cases h16'
    | some u =>
      cases h16'
      cases h18
      exact ⟨(id, (⟨lat⟩, ⟨lon⟩)), ⟨cs, uid, us, ts, ver⟩, tags, user',
        ⟨did, h1, id, h2, dlat, h3, rl, h4, dlon, h5, rlo, h6, lat, h7, lon, h8, rfl⟩, h9,
        ⟨cs, ⟨dcs, h10, h11⟩, uid, h12, us, h13, ts, h14, (), h15, ver, h17, rfl⟩, h16, rfl⟩
  · rintro ⟨p, m, tags, user, ⟨did, h1, id, h2, dlat, h3, rl, h4, dlon, h5, rlo, h6, lat, h7, lon, h8, h⟩, h9,
      ⟨cs, ⟨dcs, h10, h11⟩, uid, h12, us, h13, ts, h14, _, h15, ver, h17, h'⟩, h16, rfl⟩
    obtain ⟨kv, a, b, c, d, e, f, g⟩ := s'
    simp only [ArcPbf.DenseState.pos, ArcPbf.DenseState.md, Except.ok.injEq, Prod.mk.injEq, NodePos.State.mk.injEq,
      MState.mk.injEq] at h h'
    obtain ⟨rfl, rfl, rfl, rfl⟩ := h
    obtain ⟨rfl, rfl, rfl, rfl, rfl⟩ := h'
    exact ⟨id, ⟨did, h1, h2⟩, dlat, h3, rl, h4, dlon, h5, rlo, h6, lat, h7, lon, h8, (tags, kv), h9, cs, ⟨dcs, h10, h11⟩, uid, h12,
      us, h13, ts, h14, (), h15, some user, h16, user, rfl, ver, h17, rfl⟩

/-- Objects from their parts; `i` counts. -/
def combine {P M T U N : Type} (mk : Nat → P → M → T → U → N) : Nat → List P → List M → List T → List U → List N
  | i, p :: ps, m :: ms, t :: ts, u :: us => mk i p m t u :: combine mk (i + 1) ps ms ts us
  | _, _, _, _, _ => []

theorem combine_getElem? {P M T U N : Type} (mk : Nat → P → M → T → U → N) {i j : Nat} {ps : List P} {ms : List M} {ts : List T}
    {us : List U} {x : N} :
    (combine mk i ps ms ts us)[j]? = some x ↔
      ∃ p m t u, ps[j]? = some p ∧ ms[j]? = some m ∧ ts[j]? = some t ∧ us[j]? = some u ∧ x = mk (i + j) p m t u := by
  induction j generalizing i ps ms ts us with
  | zero =>
    cases ps <;> cases ms <;> cases ts <;> cases us <;> simp [combine, eq_comm]
  | succ j ih =>
    cases ps <;> cases ms <;> cases ts <;> cases us <;> simp only [combine, List.getElem?_cons_succ, List.getElem?_nil, reduceCtorEq,
      false_and, and_false, exists_false]
    rw [ih]
    simp only [Nat.add_comm j 1, Nat.add_assoc]

/-- The visible flag of a dense node. -/
def visibleAt (info : Proto.DenseInfo) (i : Nat) : Bool := info.visible[i]?.getD true

theorem loopR_length {σ α : Type} {step : Nat → σ → Res (α × σ)} {n i : Nat} {s : σ} {l : List α}
    (h : loopR step n i s = .ok l) : l.length = n := by
  induction n generalizing i s l with
  | zero => cases h; rfl
  | succ n ih =>
    obtain ⟨x, s', r, _, h2, rfl⟩ := loopR_succ.1 h
    simp [ih h2]

theorem str_loop {b : Build} {dense : Proto.DenseNodes} {g : Int32} {la lo : Int64} {dg : Int32} {table : List Str} {n i : Nat}
    {s : StringPbf.DenseState} {ds : List Spec.ObjData} :
    (∃ xs, loopR (StringPbf.denseNode b dense g la lo dg table) n i s = .ok xs ∧
      xs.map (fun x => objData (StringOSMObj.node x)) = ds) ↔
      ∃ ps ms ts us, loopR (NodePos.step b dense g la lo) n i s.pos = .ok ps ∧
        loopR (metaStep b (dense.denseinfo.getD {}) dg) n i s.md = .ok ms ∧
        loopR (fun _ kv => StringPbf.denseTags table kv) n i s.keysVals = .ok ts ∧
        List.Forall₂ (fun m u => indexI32 table m.userSid = .ok u) ms us ∧
        ds = combine (fun j p m t u => nodeData p m t u (!visibleAt (dense.denseinfo.getD {}) j)) i ps ms ts us := by
  induction n generalizing i s ds with
  | zero =>
    constructor
    · rintro ⟨xs, h, rfl⟩
      cases h
      exact ⟨[], [], [], [], rfl, rfl, rfl, .nil, rfl⟩
    · rintro ⟨ps, ms, ts, us, h1, h2, h3, h4, rfl⟩
      cases h1; cases h2; cases h3; cases h4
      exact ⟨[], rfl, rfl⟩
  | succ n ih =>
    constructor
    · rintro ⟨xs, h, rfl⟩
      obtain ⟨x, s', r, h1, h2, rfl⟩ := loopR_succ.1 h
      obtain ⟨p, m, tags, user, a1, a2, a3, a4, rfl⟩ := str_denseNode.1 h1
      obtain ⟨ps, ms, ts, us, b1, b2, b3, b4, b5⟩ := ih.1 ⟨r, h2, rfl⟩
      refine ⟨p :: ps, m :: ms, tags :: ts, user :: us, loopR_succ.2 ⟨p, _, ps, a1, b1, rfl⟩, loopR_succ.2 ⟨m, _, ms, a3, b2, rfl⟩,
        loopR_succ.2 ⟨tags, _, ts, a2, b3, rfl⟩, .cons a4 b4, ?_⟩
      rw [List.map_cons, b5]
      rfl
    · rintro ⟨ps, ms, ts, us, h1, h2, h3, h4, rfl⟩
      obtain ⟨p, p', ps, a1, b1, rfl⟩ := loopR_succ.1 h1
      obtain ⟨m, m', ms, a2, b2, rfl⟩ := loopR_succ.1 h2
      obtain ⟨t, t', ts, a3, b3, rfl⟩ := loopR_succ.1 h3
      obtain _ | ⟨a4, b4⟩ := h4
      rename_i u us
      obtain ⟨r, c1, c2⟩ := (ih (i := i + 1) (s := ⟨t', p'.lastId, p'.lastRawLat, p'.lastRawLon, m'.lastTimestamp, m'.lastChangeset,
        m'.lastUid, m'.lastUserSid⟩)).2 ⟨ps, ms, ts, us, b1, b2, b3, b4, rfl⟩
      exact ⟨_ :: r, loopR_succ.2 ⟨_, ⟨t', p'.lastId, p'.lastRawLat, p'.lastRawLon, m'.lastTimestamp, m'.lastChangeset,
        m'.lastUid, m'.lastUserSid⟩, r, str_denseNode.2 ⟨p, m, t, u, a1, a3, a2, a4, rfl⟩, c1, rfl⟩, by
        rw [List.map_cons, c2]; rfl⟩

theorem arc_loop {b : Build} {dense : Proto.DenseNodes} {g : Int32} {la lo : Int64} {dg : Int32} {table : List (Option Str)}
    {n i : Nat} {s : ArcPbf.DenseState} {ds : List Spec.ObjData} :
    (∃ xs, loopR (ArcPbf.denseNode b dense g la lo dg table) n i s = .ok xs ∧
      xs.map (fun x => objData (ArcOSMObj.node x)) = ds) ↔
      ∃ ps ms ts us, loopR (NodePos.step b dense g la lo) n i s.pos = .ok ps ∧
        loopR (metaStep b (dense.denseinfo.getD {}) dg) n i s.md = .ok ms ∧
        loopR (fun _ kv => ArcPbf.nodeTags (!dense.keysVals.isEmpty) table kv) n i s.keysVals = .ok ts ∧
        List.Forall₂ (fun m u => indexI32 table m.userSid = .ok (some u)) ms us ∧
        ds = combine (fun j p m t u => nodeData p m (t.getD []) u (!visibleAt (dense.denseinfo.getD {}) j)) i ps ms ts us := by
  induction n generalizing i s ds with
  | zero =>
    constructor
    · rintro ⟨xs, h, rfl⟩
      cases h
      exact ⟨[], [], [], [], rfl, rfl, rfl, .nil, rfl⟩
    · rintro ⟨ps, ms, ts, us, h1, h2, h3, h4, rfl⟩
      cases h1; cases h2; cases h3; cases h4
      exact ⟨[], rfl, rfl⟩
  | succ n ih =>
    constructor
    · rintro ⟨xs, h, rfl⟩
      obtain ⟨x, s', r, h1, h2, rfl⟩ := loopR_succ.1 h
      obtain ⟨p, m, tags, user, a1, a2, a3, a4, rfl⟩ := arc_denseNode.1 h1
      obtain ⟨ps, ms, ts, us, b1, b2, b3, b4, b5⟩ := ih.1 ⟨r, h2, rfl⟩
      refine ⟨p :: ps, m :: ms, tags :: ts, user :: us, loopR_succ.2 ⟨p, _, ps, a1, b1, rfl⟩, loopR_succ.2 ⟨m, _, ms, a3, b2, rfl⟩,
        loopR_succ.2 ⟨tags, _, ts, a2, b3, rfl⟩, .cons a4 b4, ?_⟩
      rw [List.map_cons, b5]
      cases tags <;> rfl
    · rintro ⟨ps, ms, ts, us, h1, h2, h3, h4, rfl⟩
      obtain ⟨p, p', ps, a1, b1, rfl⟩ := loopR_succ.1 h1
      obtain ⟨m, m', ms, a2, b2, rfl⟩ := loopR_succ.1 h2
      obtain ⟨t, t', ts, a3, b3, rfl⟩ := loopR_succ.1 h3
      obtain _ | ⟨a4, b4⟩ := h4
      rename_i u us
      obtain ⟨r, c1, c2⟩ := (ih (i := i + 1) (s := ⟨t', p'.lastId, p'.lastRawLat, p'.lastRawLon, m'.lastTimestamp, m'.lastChangeset,
        m'.lastUid, m'.lastUserSid⟩)).2 ⟨ps, ms, ts, us, b1, b2, b3, b4, rfl⟩
      exact ⟨_ :: r, loopR_succ.2 ⟨_, ⟨t', p'.lastId, p'.lastRawLat, p'.lastRawLon, m'.lastTimestamp, m'.lastChangeset,
        m'.lastUid, m'.lastUserSid⟩, r, arc_denseNode.2 ⟨p, m, t, u, a1, a3, a2, a4, rfl⟩, c1, rfl⟩, by
        rw [List.map_cons, c2]; cases t <;> rfl⟩

end Osmio
