import Verif.Proofs.PbfFacts
import Verif.Proofs.PbfAgree
import Verif.Proofs.PbfBuilds
/-!
# Properties of the decoders of PBF blocks (C35–C40, C48, C49)

`r.objects b block = some ds`: the reader `r` (`.owned`: `stringpbf::PBFReader`, `.shared`: `arcpbf::PBFReader`), in a build with or
without overflow checks, accepts the block and shows the objects `ds`. `EachObject D W R block ds` relates each object to the message it
is made from.
-/

namespace Osmio
open Spec.Pbf
open Spec (ObjData)

deriving instance DecidableEq for Spec.View, Spec.ObjData

/-! ## Examples -/

namespace PbfEx

/-- "", "highway", "primary", "u" and "Ä". -/
def table : Proto.StringTable := { s := [[], [104, 105, 103, 104, 119, 97, 121], [112, 114, 105, 109, 97, 114, 121], [117], [0xC3, 0x84]] }

/-- Three nodes with ids 5, 3 and 10, the first and last with a tag. -/
def dense : Proto.DenseNodes :=
  { id := [5, -2, 7], lat := [100, 1, -50], lon := [-100, 0, 7], keysVals := [1, 2, 0, 0, 1, 4, 0]
    denseinfo := some { version := [1, 2, 3], timestamp := [1000, 5, -10], changeset := [7, 1, 1], uid := [9, 0, -1],
                        userSid := [3, 0, 1] } }

/-- Their granularity and offsets are not the usual ones. -/
def nodes : Proto.PrimitiveBlock :=
  { stringtable := some table, primitivegroup := [{ dense := some dense }], granularity := some 200, latOffset := some 1000,
    lonOffset := some (-500) }

def info : Proto.Info :=
  { version := some 4, timestamp := some 77, changeset := some 8, uid := some 2, userSid := some 3, visible := some true }

def way : Proto.Way := { id := some 20, keys := [1], vals := [2], info := some info, refs := [5, -2, 7, -5] }
def ways : Proto.PrimitiveBlock := { stringtable := some table, primitivegroup := [{ ways := [way, { way with id := some (-21) }] }] }

def relation : Proto.Relation :=
  { id := some 30, keys := [1], vals := [4], info := some { info with visible := some false }, rolesSid := [0, 4, 3],
    memids := [5, 15, -10], types := [0, 1, 2] }
def relations : Proto.PrimitiveBlock := { stringtable := some table, primitivegroup := [{ relations := [relation] }] }

/-- Two groups in one block. -/
def both : Proto.PrimitiveBlock :=
  { stringtable := some table, primitivegroup := [{ dense := some dense }, { ways := [way] }] }

def view (kind : OSMObjectType) (id : ObjId) (tags : List (Str × Str)) (version changeset uid : UInt32) (ts : Int64) (user : Str) :
    Spec.View :=
  { id := id, version := some version, deleted := false, changesetId := some changeset, timestamp := some (.epoch ts),
    uid := some uid, user := some user, tags := tags, kind := kind }

def nodesData : List ObjData :=
  [{ view := view .node 5 [(str% "highway", str% "primary")] 1 7 9 1000 (str% "u"), pos := some (⟨210⟩, ⟨-205⟩), nodes := [],
     members := [] },
   { view := view .node 3 [] 2 8 9 1005 (str% "u"), pos := some (⟨212⟩, ⟨-205⟩), nodes := [], members := [] },
   { view := view .node 10 [(str% "highway", str% "Ä")] 3 9 8 995 (str% "Ä"), pos := some (⟨112⟩, ⟨-191⟩), nodes := [],
     members := [] }]

def waysData : List ObjData :=
  [{ view := view .way 20 [(str% "highway", str% "primary")] 4 8 2 77 (str% "u"), pos := none, nodes := [5, 3, 10, 5], members := [] },
   { view := view .way (-21) [(str% "highway", str% "primary")] 4 8 2 77 (str% "u"), pos := none, nodes := [5, 3, 10, 5], members := [] }]

def relationsData : List ObjData :=
  [{ view := { view .relation 30 [(str% "highway", str% "Ä")] 4 8 2 77 (str% "u") with deleted := true }, pos := none, nodes := [],
     members := [(.node, 5, []), (.way, 20, str% "Ä"), (.relation, 10, str% "u")] }]

/-- Both readers accept these blocks, in both builds: the hypotheses of the theorems below are met. -/
theorem accepted (r : Which) (b : Build) : r.objects b nodes = some nodesData ∧ r.objects b ways = some waysData ∧
    r.objects b relations = some relationsData := by
  cases r <;> cases b <;> decide +kernel

end PbfEx

variable {r : Which} {b : Build} {block : Proto.PrimitiveBlock} {ds : List ObjData}

/-! ## C35 -/

/-- **C35.** In every accepted block the ids of dense nodes, the nodes of ways and the members of relations are the running sums of
the stored differences, in a build with overflow checks always, without them whenever the sums are in the range of `i64`. (The list of
members ends with the shortest of the three lists it is stored in. With a string table that is not text the shared-string reader leaves
out members.) -/
theorem C35_running_sums (h : r.objects b block = some ds) :
    EachObject
      (fun dense ds => ∀ i d, ds[i]? = some d → (b = .debug ∨ FitsI64 (runningSum (ints dense.id) i)) →
        d.view.id.toInt = runningSum (ints dense.id) i)
      (fun w d => (b = .debug ∨ ∀ x ∈ runningSums (ints w.refs), FitsI64 x) → d.nodes.map Int64.toInt = runningSums (ints w.refs))
      (fun rel d => TableValid (block.stringtable.getD {}) → (b = .debug ∨ ∀ x ∈ runningSums (ints rel.memids), FitsI64 x) →
        d.members.map (fun m => m.2.1.toInt) = (runningSums (ints rel.memids)).take (min rel.types.length rel.rolesSid.length))
      block ds := by
  have key : ∀ l : List Int, (∀ x ∈ l, FitsI64 x) → (l.map Int64.ofInt).map Int64.toInt = l := by
    intro l hl
    rw [List.map_map]
    conv_rhs => rw [← List.map_id l]
    exact List.map_congr_left fun x hx => toInt_ofInt64 (hl x hx)
  refine (block_facts h).mono (fun dense ds hD i d hd hf => ?_) (fun w d hW hf => ?_) (fun rel d hR ht hf => ?_)
  · have hn := hD.node i d hd
    have f : FitsI64 (runningSum (ints dense.id) i) := hf.elim (fun e => (hn.posChecked e).id) id
    rw [hn.id]
    exact toInt_ofInt64 f
  · rw [hW.nodes]
    exact key _ (hf.elim hW.checked id)
  · have e : d.members.map (fun m => m.2.1.toInt) = (d.members.map (fun m => m.2.1)).map Int64.toInt := by
      rw [List.map_map]; rfl
    rw [e, hR.ids ht, ← List.map_take]
    exact key _ fun x hx => hf.elim hR.checked id x (List.mem_of_mem_take hx)

/-- **C35.** An encoder that stores differences is inverted exactly, whatever the ids and the build. -/
theorem C35_inverse (h : r.objects b block = some ds) :
    EachObject
      (fun dense ds => ∀ ids : List Int64, ints dense.id = differences 0 (ints ids) → ds.map (·.view.id) = ids)
      (fun w d => ∀ ids : List Int64, ints w.refs = differences 0 (ints ids) → d.nodes = ids)
      (fun rel d => TableValid (block.stringtable.getD {}) → rel.types.length = rel.memids.length →
        rel.rolesSid.length = rel.memids.length →
        ∀ ids : List Int64, ints rel.memids = differences 0 (ints ids) → d.members.map (·.2.1) = ids) block ds := by
  have key : ∀ ids : List Int64, (ints ids).map Int64.ofInt = ids := by
    intro ids
    rw [ints, List.map_map]
    conv_rhs => rw [← List.map_id ids]
    exact List.map_congr_left fun x _ => Int64.ofInt_toInt x
  have hl : ∀ (ids l : List Int64), ints l = differences 0 (ints ids) → runningSums (ints l) = ints ids := by
    intro ids l h
    rw [h, runningSums_differences]
  obtain ⟨dss, h1, rfl⟩ := block_facts h
  refine ⟨dss, h1.imp fun g ds hg => ?_, rfl⟩
  cases hg with
  | dense dense hd hlen hD =>
    refine .dense dense hd hlen fun ids hi => ?_
    have hs := hl _ _ hi
    apply List.ext_getElem?
    intro i
    have hlen' : ds.length = ids.length := by
      have := congrArg List.length hs
      simp only [runningSums, ints, List.length_map, List.length_range] at this
      omega
    rw [List.getElem?_map]
    cases hd' : ds[i]? with
    | none =>
      rw [List.getElem?_eq_none_iff] at hd'
      rw [List.getElem?_eq_none (by omega)]; rfl
    | some d =>
      have hi' : i < ds.length := (List.getElem?_eq_some_iff.1 hd').1
      have e1 := (hD.node i d hd').id
      have e2 : (runningSums (ints dense.id))[i]? = (ints ids)[i]? := by rw [hs]
      have hr : (runningSums (ints dense.id))[i]? = some (runningSum (ints dense.id) i) := by
        have : i < dense.id.length := by omega
        simp [runningSums, ints, this]
      rw [hr] at e2
      have e3 : ids[i]? = ((ints ids).map Int64.ofInt)[i]? := by rw [key]
      rw [e3, List.getElem?_map, ← e2]
      simp only [Option.map_some]
      rw [e1]; rfl
  | ways hd hw hW =>
    refine .ways hd hw (hW.imp fun w d hw ids hi => ?_)
    rw [hw.nodes, hl _ _ hi, key]
  | relations hd hw hr hR =>
    refine .relations hd hw hr (hR.imp fun w d hw ht e1 e2 ids hi => ?_)
    rw [hw.ids ht, hl _ _ hi, key, e1, e2, Nat.min_self]
    have : w.memids.length = ids.length := by
      have := congrArg List.length (hl _ _ hi)
      simpa [runningSums, ints] using this
    rw [this, List.take_length]
  | empty hd hw hr he => exact .empty hd hw hr he

/-- Storing differences: the ids of the example blocks. -/
example : ints PbfEx.dense.id = differences 0 [5, 3, 10] ∧ ints PbfEx.way.refs = differences 0 [5, 3, 10, 5] ∧
    ints PbfEx.relation.memids = differences 0 [5, 20, 10] ∧ PbfEx.relation.types.length = PbfEx.relation.memids.length ∧
    PbfEx.relation.rolesSid.length = PbfEx.relation.memids.length ∧
    (∀ i < 3, FitsI64 (runningSum (ints PbfEx.dense.id) i)) := by decide

/-! ## C36 -/

theorem coord_iff {off gran s : Int} (hs : FitsI32 s) :
    (Int32.ofInt (s * gran.tdiv 100 + off.tdiv 100)).toInt * 100 = off + gran * s ↔
      FitsI32 ((off + gran * s) / 100) ∧ off.tmod 100 + s * gran.tmod 100 = 0 := by
  have e : off + gran * s = (s * gran.tdiv 100 + off.tdiv 100) * 100 + (off.tmod 100 + s * gran.tmod 100) := by
    have h1 := Int.tmod_add_mul_tdiv off 100
    have h2 := Int.tmod_add_mul_tdiv gran 100
    generalize off.tdiv 100 = a at *
    generalize gran.tdiv 100 = c at *
    generalize off.tmod 100 = p at *
    generalize gran.tmod 100 = q at *
    subst h1 h2
    rw [Int.add_mul, Int.mul_comm s q, Int.mul_comm s c, Int.mul_assoc 100 c s]
    omega
  have ht : -429496729600 < off.tmod 100 + s * gran.tmod 100 ∧ off.tmod 100 + s * gran.tmod 100 < 429496729600 := by
    have h1 : -99 ≤ off.tmod 100 ∧ off.tmod 100 ≤ 99 := by
      have := Int.tmod_lt_of_pos off (b := 100) (by decide)
      have := Int.lt_tmod_of_pos off (b := 100) (by decide)
      omega
    have h2 : -99 ≤ gran.tmod 100 ∧ gran.tmod 100 ≤ 99 := by
      have := Int.tmod_lt_of_pos gran (b := 100) (by decide)
      have := Int.lt_tmod_of_pos gran (b := 100) (by decide)
      omega
    obtain ⟨s1, s2⟩ := hs
    generalize gran.tmod 100 = q at *
    have b1 : s * q ≤ 2147483648 * 99 := by
      rcases Int.le_total 0 q with hq | hq
      · exact Int.le_trans (Int.mul_le_mul_of_nonneg_right (by omega : s ≤ 2147483648) hq) (by omega)
      · have := Int.mul_le_mul_of_nonneg_right (by omega : -s ≤ 2147483648) (by omega : 0 ≤ -q)
        rw [Int.neg_mul_neg] at this
        omega
    have b2 : -(2147483648 * 99) ≤ s * q := by
      rcases Int.le_total 0 q with hq | hq
      · have := Int.mul_le_mul_of_nonneg_right (by omega : -2147483648 ≤ s) hq
        omega
      · have := Int.mul_le_mul_of_nonneg_right (by omega : s ≤ 2147483648) (by omega : 0 ≤ -q)
        rw [Int.mul_neg] at this
        omega
    generalize s * q = t at *
    omega
  rw [e]
  generalize s * gran.tdiv 100 + off.tdiv 100 = m at *
  generalize off.tmod 100 + s * gran.tmod 100 = t at *
  have hm : (Int32.ofInt m).toInt = Int.bmod m 4294967296 := Int32.toInt_ofInt
  rw [hm, Int.bmod_def]
  unfold FitsI32
  constructor
  · intro h
    omega
  · rintro ⟨h1, rfl⟩
    omega

/-- **C36.** What a reader shows as the coordinates of the `i`-th dense node of any accepted block, with any granularity and offset: the
quotients of granularity and offset by 100 are rounded before they are used. -/
theorem C36_formula (h : r.objects b block = some ds) :
    EachObject
      (fun dense ds => ∀ (i : Nat) (d : ObjData), ds[i]? = some d → d.pos = some
        (⟨Int32.ofInt (runningSum (ints dense.lat) i * (granularity block).tdiv 100 + (latOffset block).tdiv 100)⟩,
         ⟨Int32.ofInt (runningSum (ints dense.lon) i * (granularity block).tdiv 100 + (lonOffset block).tdiv 100)⟩))
      (fun _ d => d.pos = none) (fun _ d => d.pos = none) block ds :=
  (block_facts h).mono (fun _ _ hD i d hd => (hD.node i d hd).pos) (fun _ _ hW => hW.pos) (fun _ _ hR => hR.pos)

/-- The numbers that make the coordinates of a block whole multiples of 100 nanodegrees: granularity and offsets are. -/
def Spec.Pbf.WholeUnits (block : Proto.PrimitiveBlock) : Prop :=
  granularity block % 100 = 0 ∧ latOffset block % 100 = 0 ∧ lonOffset block % 100 = 0

/-- **C36.** If granularity and offsets are multiples of 100 nanodegrees, the coordinates shown are those the format defines, as long as
they are in the range of the type that holds them. -/
theorem C36_partial (h : r.objects b block = some ds) (hu : WholeUnits block) :
    EachObject
      (fun dense ds => ∀ i d, ds[i]? = some d → FitsI32 (nanoLat block dense i / 100) → FitsI32 (nanoLon block dense i / 100) →
        ∃ p, d.pos = some p ∧ p.1.inner.toInt * 100 = nanoLat block dense i ∧ p.2.inner.toInt * 100 = nanoLon block dense i)
      (fun _ d => d.pos = none) (fun _ d => d.pos = none) block ds := by
  obtain ⟨hg, hla, hlo⟩ := hu
  refine (C36_formula h).mono (fun dense ds hD i d hd f1 f2 => ?_) (fun _ _ h => h) (fun _ _ h => h)
  refine ⟨_, hD i d hd, ?_, ?_⟩
  · have e := coord_eq (s := runningSum (ints dense.lat) i) hla hg
    unfold nanoLat at f1 ⊢
    rw [e] at f1 ⊢
    rw [Int.mul_ediv_cancel _ (by decide)] at f1
    rw [toInt_ofInt32 f1]
  · have e := coord_eq (s := runningSum (ints dense.lon) i) hlo hg
    unfold nanoLon at f2 ⊢
    rw [e] at f2 ⊢
    rw [Int.mul_ediv_cancel _ (by decide)] at f2
    rw [toInt_ofInt32 f2]

/-- **C36.** Exactly when a coordinate is the one the format defines, for any granularity and offset: it fits the type that holds it, and
what is lost by rounding granularity and offset separately adds up to nothing. -/
theorem C36_iff (h : r.objects b block = some ds) :
    EachObject
      (fun dense ds => ∀ i d, ds[i]? = some d → ∃ p, d.pos = some p ∧
        (p.1.inner.toInt * 100 = nanoLat block dense i ↔ FitsI32 (nanoLat block dense i / 100) ∧
          (latOffset block).tmod 100 + runningSum (ints dense.lat) i * (granularity block).tmod 100 = 0) ∧
        (p.2.inner.toInt * 100 = nanoLon block dense i ↔ FitsI32 (nanoLon block dense i / 100) ∧
          (lonOffset block).tmod 100 + runningSum (ints dense.lon) i * (granularity block).tmod 100 = 0))
      (fun _ d => d.pos = none) (fun _ d => d.pos = none) block ds := by
  refine (block_facts h).mono (fun dense ds hD i d hd => ?_) (fun _ _ hW => hW.pos) (fun _ _ hR => hR.pos)
  have hN := hD.node i d hd
  exact ⟨_, hN.pos, coord_iff hN.latFits, coord_iff hN.lonFits⟩

/-- With a granularity of 150 and an offset of -50 the two errors cancel for a stored 1, and not for a stored 3. -/
example (r : Which) (b : Build) : ∃ block ds, r.objects b block = some ds ∧ granularity block = 150 ∧ latOffset block = -50 ∧
      (∃ g dense, block.primitivegroup = [g] ∧ g.dense = some dense ∧ nanoLat block dense 0 = 100 ∧ nanoLat block dense 1 = 400) ∧
      ds.map (·.pos) = [some (⟨1⟩, ⟨0⟩), some (⟨3⟩, ⟨0⟩)] := by
  refine ⟨{ stringtable := some PbfEx.table, granularity := some 150, latOffset := some (-50), primitivegroup := [{ dense := some {
      id := [1, 1], lat := [1, 2], lon := [0, 0], keysVals := [0, 0], denseinfo := some {
        version := [1, 1], timestamp := [1, 0], changeset := [1, 0], uid := [1, 0], userSid := [1, 0] } } }] },
    [{ view := PbfEx.view .node 1 [] 1 1 1 1 (str% "highway"), pos := some (⟨1⟩, ⟨0⟩), nodes := [], members := [] },
     { view := PbfEx.view .node 2 [] 1 1 1 1 (str% "highway"), pos := some (⟨3⟩, ⟨0⟩), nodes := [], members := [] }],
    ?_, by decide, by decide, ⟨_, _, rfl, rfl, by decide, by decide⟩, by decide⟩
  cases r <;> cases b <;> decide +kernel

/-- **C36.** In a build with overflow checks a coordinate out of that range is never shown: the block is not accepted. (Offsets out of
the range of the type, more than 214 degrees, are not noticed.) -/
theorem C36_checked (h : r.objects .debug block = some ds) (hu : WholeUnits block)
    (ho : FitsI32 (latOffset block / 100) ∧ FitsI32 (lonOffset block / 100)) :
    EachObject
      (fun dense ds => ∀ i d, ds[i]? = some d → FitsI32 (nanoLat block dense i / 100) ∧ FitsI32 (nanoLon block dense i / 100))
      (fun _ _ => True) (fun _ _ => True) block ds := by
  obtain ⟨hg, hla, hlo⟩ := hu
  refine (block_facts h).mono (fun dense ds hD i d hd => ?_) (fun _ _ _ => trivial) (fun _ _ _ => trivial)
  have hc := (hD.node i d hd).posChecked rfl
  constructor
  · have e := coord_eq (s := runningSum (ints dense.lat) i) hla hg
    have := hc.lat
    have e2 : block.latOffsetOr.toInt.tdiv 100 = latOffset block / 100 := tdiv_of_mod hla
    rw [e2, toInt_ofInt32 ho.1, ← e2] at this
    unfold nanoLat
    rw [e, Int.mul_ediv_cancel _ (by decide)]
    exact this
  · have e := coord_eq (s := runningSum (ints dense.lon) i) hlo hg
    have := hc.lon
    have e2 : block.lonOffsetOr.toInt.tdiv 100 = lonOffset block / 100 := tdiv_of_mod hlo
    rw [e2, toInt_ofInt32 ho.2, ← e2] at this
    unfold nanoLon
    rw [e, Int.mul_ediv_cancel _ (by decide)]
    exact this

/-- The example block has granularity 200 and offsets. -/
example : WholeUnits PbfEx.nodes ∧ granularity PbfEx.nodes = 200 ∧ latOffset PbfEx.nodes = 1000 ∧
    FitsI32 (latOffset PbfEx.nodes / 100) ∧ FitsI32 (lonOffset PbfEx.nodes / 100) ∧
    ∀ i < 3, FitsI32 (nanoLat PbfEx.nodes PbfEx.dense i / 100) ∧ FitsI32 (nanoLon PbfEx.nodes PbfEx.dense i / 100) := by
  refine ⟨⟨?_, ?_, ?_⟩, ?_, ?_, ?_, ?_, ?_⟩ <;> decide

/-- **C36 fails** for every granularity below 100: all nodes of the block are shown at one place, whatever their coordinates. -/
theorem C36_fails (h : r.objects b block = some ds) (h0 : 0 ≤ granularity block) (h100 : granularity block < 100) :
    EachObject
      (fun _ ds => ∀ (i : Nat) (d : ObjData), ds[i]? = some d →
        d.pos = some (⟨Int32.ofInt ((latOffset block).tdiv 100)⟩, ⟨Int32.ofInt ((lonOffset block).tdiv 100)⟩))
      (fun _ _ => True) (fun _ _ => True) block ds := by
  refine (C36_formula h).mono (fun dense ds hD i d hd => ?_) (fun _ _ _ => trivial) (fun _ _ _ => trivial)
  rw [hD i d hd, Int.tdiv_eq_zero_of_lt h0 h100]
  simp

/-- Such blocks are accepted: 21 degrees north at a granularity of 50 nanodegrees is shown as 0. -/
theorem C36_fails_witness (r : Which) (b : Build) :
    ∃ block ds, r.objects b block = some ds ∧ granularity block = 50 ∧
      (∃ g dense, block.primitivegroup = [g] ∧ g.dense = some dense ∧ nanoLat block dense 0 = 21000000000) ∧
      ds.map (·.pos) = [some (⟨0⟩, ⟨0⟩)] := by
  refine ⟨{ stringtable := some PbfEx.table, granularity := some 50, primitivegroup := [{ dense := some {
      id := [1], lat := [420000000], lon := [0], keysVals := [0], denseinfo := some {
        version := [1], timestamp := [1], changeset := [1], uid := [1], userSid := [1] } } }] },
    [{ view := PbfEx.view .node 1 [] 1 1 1 1 (str% "highway"), pos := some (⟨0⟩, ⟨0⟩), nodes := [], members := [] }], ?_, by decide,
    ⟨_, _, rfl, rfl, by decide⟩, by decide⟩
  cases r <;> cases b <;> decide +kernel

/-! ## C37 -/

/-- **C37.** With the default date granularity (1000 milliseconds) timestamps are those the format defines, for dense nodes as long as
they are within the range of `i32` (until 2038). -/
theorem C37_partial (h : r.objects b block = some ds) (hg : dateGranularity block = 1000) :
    EachObject
      (fun dense ds => ∀ i d, ds[i]? = some d → FitsI32 (runningSum (ints (dense.denseinfo.getD {}).timestamp) i) →
        ∃ x, d.view.timestamp = some (.epoch x) ∧
          x.toInt * 1000 = runningSum (ints (dense.denseinfo.getD {}).timestamp) i * dateGranularity block)
      (fun w d => ∃ x y, (w.info.getD {}).timestamp = some y ∧ d.view.timestamp = some (.epoch x) ∧
        x.toInt * 1000 = y.toInt * dateGranularity block)
      (fun w d => ∃ x y, (w.info.getD {}).timestamp = some y ∧ d.view.timestamp = some (.epoch x) ∧
        x.toInt * 1000 = y.toInt * dateGranularity block) block ds := by
  refine (block_facts h).mono (fun dense ds hD i d hd hf => ?_) (fun w d hW => ?_) (fun w d hW => ?_)
  · refine ⟨_, (hD.node i d hd).timestamp (dateSeconds_of hg), ?_⟩
    have f := hf
    unfold FitsI32 at f
    rw [toInt_ofInt64, toInt_ofInt32 hf, hg]
    rw [toInt_ofInt32 hf]
    unfold FitsI64
    omega
  · obtain ⟨x, h1, h2⟩ := hW.info.timestamp
    exact ⟨x, x, h1, h2, by rw [hg]⟩
  · obtain ⟨x, h1, h2⟩ := hW.info.timestamp
    exact ⟨x, x, h1, h2, by rw [hg]⟩

example : dateGranularity PbfEx.nodes = 1000 ∧ dateGranularity PbfEx.ways = 1000 ∧
    ∀ i < 3, FitsI32 (runningSum (ints (PbfEx.dense.denseinfo.getD {}).timestamp) i) := by decide

/-- **C37.** What is shown as the timestamp of the `i`-th dense node, whatever the granularity: it is rounded down to seconds first, and the
product of each node is the start of the sum of the next one. A way or a relation shows the stored number of its own. -/
theorem C37_formula (h : r.objects b block = some ds) :
    EachObject
      (fun dense ds => ∀ (i : Nat) (d : ObjData), ds[i]? = some d → ∃ x, d.view.timestamp = some (.epoch x) ∧
        x.toInt = Int.bmod (compounded ((dateGranularity block).tdiv 1000)
          ((ints (dense.denseinfo.getD {}).timestamp).take (i + 1))) 4294967296)
      (fun w d => ∃ y, (w.info.getD {}).timestamp = some y ∧ d.view.timestamp = some (.epoch y))
      (fun w d => ∃ y, (w.info.getD {}).timestamp = some y ∧ d.view.timestamp = some (.epoch y)) block ds := by
  refine (block_facts h).mono (fun dense ds hD i d hd => ⟨_, (hD.node i d hd).compounded, ?_⟩) (fun w d hW => hW.info.timestamp)
    (fun w d hW => hW.info.timestamp)
  have e : (dateSeconds block).toInt = (dateGranularity block).tdiv 1000 := by
    unfold dateSeconds
    refine toInt_ofInt32 ?_
    have h1 := (block.dateGranularityOr).le_toInt
    have h2 := (block.dateGranularityOr).toInt_lt
    have h3 := Int.mul_tdiv_add_tmod block.dateGranularityOr.toInt 1000
    have h4 := Int.tmod_lt_of_pos block.dateGranularityOr.toInt (b := 1000) (by decide)
    have h5 := Int.lt_tmod_of_pos block.dateGranularityOr.toInt (b := 1000) (by decide)
    unfold FitsI32
    omega
  have hm : ∀ m, (Int32.ofInt m).toInt = Int.bmod m 4294967296 := fun m => Int32.toInt_ofInt
  rw [e, toInt_ofInt64, hm]
  rw [hm, Int.bmod_def]
  unfold FitsI64
  omega

/-- The sum for a granularity of two seconds is 10·2² + 10·2 where it should be 20·2. -/
example : compounded 2 [10, 10] = 60 ∧ compounded 1 [10, 10] = 20 ∧ compounded 0 [10, 10] = 0 := by decide

/-- **C37.** Ways and relations: a timestamp is right exactly if it is 0 or the granularity is one second. -/
theorem C37_ways_iff (h : r.objects b block = some ds) :
    EachObject (fun _ _ => True)
      (fun w d => ∃ x y, (w.info.getD {}).timestamp = some y ∧ d.view.timestamp = some (.epoch x) ∧
        (x.toInt * 1000 = y.toInt * dateGranularity block ↔ y = 0 ∨ dateGranularity block = 1000))
      (fun w d => ∃ x y, (w.info.getD {}).timestamp = some y ∧ d.view.timestamp = some (.epoch x) ∧
        (x.toInt * 1000 = y.toInt * dateGranularity block ↔ y = 0 ∨ dateGranularity block = 1000)) block ds := by
  have key : ∀ y : Int64, y.toInt * 1000 = y.toInt * dateGranularity block ↔ y = 0 ∨ dateGranularity block = 1000 := by
    intro y
    constructor
    · intro e
      by_cases hy0 : y.toInt = 0
      · exact .inl (Int64.toInt_inj.1 (by rw [hy0]; rfl))
      · exact .inr (Int.eq_of_mul_eq_mul_left hy0 e).symm
    · rintro (rfl | e)
      · simp
      · rw [e]
  refine (block_facts h).mono (fun _ _ _ => trivial) (fun w d hW => ?_) (fun w d hW => ?_)
  all_goals
    obtain ⟨x, h1, h2⟩ := hW.info.timestamp
    exact ⟨x, x, h1, h2, key x⟩

/-- **C37 fails** for ways and relations with any other granularity: it is ignored, and every timestamp but 0 is wrong. -/
theorem C37_ways_fail (h : r.objects b block = some ds) (hg : dateGranularity block ≠ 1000) :
    EachObject (fun _ _ => True)
      (fun w d => ∃ x y, (w.info.getD {}).timestamp = some y ∧ d.view.timestamp = some (.epoch x) ∧
        (y ≠ 0 → x.toInt * 1000 ≠ y.toInt * dateGranularity block))
      (fun w d => ∃ x y, (w.info.getD {}).timestamp = some y ∧ d.view.timestamp = some (.epoch x) ∧
        (y ≠ 0 → x.toInt * 1000 ≠ y.toInt * dateGranularity block)) block ds := by
  have key : ∀ y : Int64, y ≠ 0 → y.toInt * 1000 ≠ y.toInt * dateGranularity block := by
    intro y hy e
    have hy0 : y.toInt ≠ 0 := fun e => hy (Int64.toInt_inj.1 (by rw [e]; rfl))
    exact hg (Int.eq_of_mul_eq_mul_left hy0 e).symm
  refine (block_facts h).mono (fun _ _ _ => trivial) (fun w d hW => ?_) (fun w d hW => ?_)
  all_goals
    obtain ⟨x, h1, h2⟩ := hW.info.timestamp
    exact ⟨x, x, h1, h2, key x⟩

example (r : Which) (b : Build) : ∃ block ds, r.objects b block = some ds ∧ dateGranularity block = 1 ∧ ds.length = 2 := by
  refine ⟨{ PbfEx.ways with dateGranularity := some 1 }, PbfEx.waysData, ?_, by decide, rfl⟩
  cases r <;> cases b <;> decide +kernel

/-- A block with two nodes, both with a stored difference of 10. -/
def PbfEx.dated (g : Int32) : Proto.PrimitiveBlock :=
  { stringtable := some PbfEx.table, dateGranularity := some g, primitivegroup := [{ dense := some {
      id := [1, 1], lat := [0, 0], lon := [0, 0], keysVals := [0, 0], denseinfo := some {
        version := [1, 1], timestamp := [10, 10], changeset := [1, 1], uid := [1, 1], userSid := [1, 0] } } }] }

/-- **C37 fails** for dense nodes. With a granularity of 2000 the second timestamp is 60 where it should be 40: the product is used as the
start of the next sum. With 1999 the granularity is taken as 1000, with 999 as 0. -/
theorem C37_dense_fails (r : Which) (b : Build) :
    ((r.objects b (PbfEx.dated 2000)).map fun ds => ds.map (·.view.timestamp)) = some [some (.epoch 20), some (.epoch 60)] ∧
    ((r.objects b (PbfEx.dated 1999)).map fun ds => ds.map (·.view.timestamp)) = some [some (.epoch 10), some (.epoch 20)] ∧
    ((r.objects b (PbfEx.dated 999)).map fun ds => ds.map (·.view.timestamp)) = some [some (.epoch 0), some (.epoch 0)] := by
  cases r <;> cases b <;> decide +kernel

/-! ## C38 -/

/-- These nodes have the tags of `keys_vals`: it is made of one zero terminated list of keys and values for each node (and perhaps
something after that), or it is empty and no node has tags. -/
def Spec.Pbf.DenseTags (t : Proto.StringTable) (keysVals : List Int32) (ds : List ObjData) : Prop :=
  ∃ (segs : List (List (Int32 × Int32))) (rest : List Int32), (∀ seg ∈ segs, ∀ kv ∈ seg, kv.1 ≠ 0) ∧
    (keysVals = keysValsOf segs ++ rest ∨ (keysVals = [] ∧ ∀ seg ∈ segs, seg = [])) ∧
    List.Forall₂ (fun seg d =>
      List.Forall₂ (fun (kv : Int32 × Int32) tag => PairAt t kv.1.toInt kv.2.toInt tag) seg d.view.tags) segs ds

/-- **C38.** In every accepted block whose string table is text, each dense node has exactly the tags of its own segment, in order. -/
theorem C38_partial (h : r.objects b block = some ds) (ht : TableValid (block.stringtable.getD {})) :
    EachObject (fun dense ds => DenseTags (block.stringtable.getD {}) dense.keysVals ds) (fun _ _ => True) (fun _ _ => True) block ds :=
  (block_facts h).mono (fun _ _ hD => hD.tags ht) (fun _ _ _ => trivial) (fun _ _ _ => trivial)

theorem keysValsOf_cons (seg : List (Int32 × Int32)) (segs : List (List (Int32 × Int32))) :
    keysValsOf (seg :: segs) = seg.flatMap (fun kv => [kv.1, kv.2]) ++ 0 :: keysValsOf segs := by
  simp [keysValsOf]

theorem segment_inj {s s' : List (Int32 × Int32)} (h : ∀ kv ∈ s, kv.1 ≠ 0) (h' : ∀ kv ∈ s', kv.1 ≠ 0) {l l' : List Int32}
    (e : s.flatMap (fun kv => [kv.1, kv.2]) ++ 0 :: l = s'.flatMap (fun kv => [kv.1, kv.2]) ++ 0 :: l') : s = s' ∧ l = l' := by
  induction s generalizing s' with
  | nil =>
    cases s' with
    | nil => simpa using e
    | cons kv s' =>
      simp only [List.flatMap_nil, List.nil_append, List.flatMap_cons, List.cons_append, List.cons.injEq] at e
      exact absurd e.1.symm (h' kv (by simp))
  | cons kv s ih =>
    cases s' with
    | nil =>
      simp only [List.flatMap_nil, List.nil_append, List.flatMap_cons, List.cons_append, List.cons.injEq] at e
      exact absurd e.1 (h kv (by simp))
    | cons kv' s' =>
      simp only [List.flatMap_cons, List.cons_append, List.nil_append, List.cons.injEq] at e
      obtain ⟨e1, e2, e3⟩ := e
      obtain ⟨rfl, rfl⟩ := ih (fun x hx => h x (by simp [hx])) (fun x hx => h' x (by simp [hx])) e3
      exact ⟨by rw [Prod.ext e1 e2], rfl⟩

theorem segments_inj {segs segs' : List (List (Int32 × Int32))} {rest rest' : List Int32} (hl : segs.length = segs'.length)
    (h : ∀ s ∈ segs, ∀ kv ∈ s, kv.1 ≠ 0) (h' : ∀ s ∈ segs', ∀ kv ∈ s, kv.1 ≠ 0)
    (e : keysValsOf segs ++ rest = keysValsOf segs' ++ rest') : segs = segs' := by
  induction segs generalizing segs' with
  | nil => cases segs' with
    | nil => rfl
    | cons _ _ => simp at hl
  | cons s segs ih =>
    cases segs' with
    | nil => simp at hl
    | cons s' segs' =>
      rw [keysValsOf_cons, keysValsOf_cons, List.append_assoc, List.append_assoc] at e
      obtain ⟨rfl, e2⟩ := segment_inj (h s (by simp)) (h' s' (by simp)) e
      rw [ih (by simpa using hl) (fun x hx => h x (by simp [hx])) (fun x hx => h' x (by simp [hx])) e2]

theorem keysValsOf_eq_nil {segs : List (List (Int32 × Int32))} {rest : List Int32} (h : keysValsOf segs ++ rest = []) : segs = [] := by
  cases segs with
  | nil => rfl
  | cons s segs => rw [keysValsOf_cons] at h; simp at h

theorem pairAt_unique {t : Proto.StringTable} {k v : Int} {x y : Str × Str} (h : PairAt t k v x) (h' : PairAt t k v y) : x = y := by
  unfold PairAt at h h'
  rw [h.1, h.2] at h'
  exact Prod.ext (Option.some.inj h'.1) (Option.some.inj h'.2)

/-- **C38.** There is only one way to read `keys_vals`: the tags of the nodes are determined. -/
theorem C38_determined {t : Proto.StringTable} {keysVals : List Int32} {ds ds' : List ObjData} (h : DenseTags t keysVals ds)
    (h' : DenseTags t keysVals ds') (hl : ds.length = ds'.length) : ds.map (·.view.tags) = ds'.map (·.view.tags) := by
  obtain ⟨segs, rest, hk, hs, h1⟩ := h
  obtain ⟨segs', rest', hk', hs', h1'⟩ := h'
  have hlen : segs.length = segs'.length := by rw [h1.length_eq, h1'.length_eq, hl]
  have e : segs = segs' := by
    rcases hs with hs | ⟨hs, hn⟩ <;> rcases hs' with hs' | ⟨hs', hn'⟩
    · exact segments_inj hlen hk hk' (hs ▸ hs')
    · have := keysValsOf_eq_nil (hs.symm.trans hs'); subst this
      exact (List.length_eq_zero_iff.1 hlen.symm).symm
    · have := keysValsOf_eq_nil (hs'.symm.trans hs); subst this
      exact List.length_eq_zero_iff.1 hlen
    · exact List.ext_getElem hlen fun i h1 h2 => by rw [hn _ (List.getElem_mem h1), hn' _ (List.getElem_mem h2)]
  subst e
  clear hlen hs hs' hk hk'
  induction h1 generalizing ds' with
  | nil => cases h1'; rfl
  | cons h _ ih =>
    cases h1' with
    | cons h2 h3 =>
      rw [List.map_cons, List.map_cons, ih (by simpa using hl) h3, forall2_right_unique
        (R := fun (kv : Int32 × Int32) tag => PairAt t kv.1.toInt kv.2.toInt tag) (fun _ _ _ h h' => pairAt_unique h h') h h2]

/-- The tags of the example block: one each on the first and the third node. -/
example : PbfEx.dense.keysVals = keysValsOf [[(1, 2)], [], [(1, 4)]] ∧ TableValid (PbfEx.nodes.stringtable.getD {}) ∧
    PbfEx.nodesData.map (fun d => d.view.tags.length) = [1, 0, 1] := by
  refine ⟨by decide, ?_, by decide⟩
  intro s hs
  revert s
  decide +kernel

/-- **C38 fails** in the owned-string reader: it accepts no block with dense nodes but without any tags (`keys_vals` is empty). -/
theorem C38_owned_fails (b : Build) {g : Proto.PrimitiveGroup} {dense : Proto.DenseNodes} (hg : g ∈ block.primitivegroup)
    (hd : g.dense = some dense) (hi : dense.id ≠ []) (hk : dense.keysVals = []) : Which.owned.objects b block = none := by
  cases h : Which.owned.objects b block with
  | none => rfl
  | some ds =>
    obtain ⟨raw, g', h1, h2, h3⟩ := owned_block.1 h
    rw [h2, List.mem_singleton] at hg
    subst hg
    cases h3 with
    | dense t dense' ht _ hd' h =>
      rw [hd] at hd'
      cases hd'
      obtain ⟨ps, ms, ts, us, _, _, h3, _, rfl⟩ := str_loop.1 h
      obtain ⟨segs, rest, hs, _, hkv⟩ := str_tags_form h3
      have hkv' : dense.keysVals = keysValsOf segs ++ rest := hkv
      rw [hk] at hkv'
      rw [keysValsOf_eq_nil hkv'.symm] at hs
      exact absurd (List.length_eq_zero_iff.1 hs.symm) hi
    | ways _ _ _ hd' => rw [hd] at hd'; cases hd'
    | relations _ _ _ hd' => rw [hd] at hd'; cases hd'
    | empty _ hd' => rw [hd] at hd'; cases hd'

/-- A block with two nodes without tags, and no `keys_vals`. -/
def PbfEx.untagged : Proto.PrimitiveBlock :=
  { stringtable := some PbfEx.table, primitivegroup := [{ dense := some {
      id := [1, 1], lat := [0, 0], lon := [0, 0], denseinfo := some {
        version := [1, 1], timestamp := [10, 10], changeset := [1, 1], uid := [1, 1], userSid := [1, 0] } } }] }

/-- The shared-string reader accepts it. -/
example (b : Build) : ((Which.shared.objects b PbfEx.untagged).map fun ds => ds.map (·.view.tags)) = some [[], []] := by
  cases b <;> decide +kernel

/-- Without the hypothesis on the string table **C38 fails** in the shared-string reader: tags with a string that is not text are left
out. (The owned-string reader does not accept the block.) -/
theorem C38_shared_fails (b : Build) : ∃ block, Which.owned.objects b block = none ∧
    ((Which.shared.objects b block).map fun ds => ds.map (·.view.tags)) = some [[(str% "highway", str% "primary")]] ∧
    (∃ g dense, block.primitivegroup = [g] ∧ g.dense = some dense ∧ dense.keysVals = [1, 2, 1, 3, 0]) := by
  refine ⟨{ stringtable := some { s := [[], [104, 105, 103, 104, 119, 97, 121], [112, 114, 105, 109, 97, 114, 121], [0xC3]] }
            primitivegroup := [{ dense := some {
      id := [1], lat := [0], lon := [0], keysVals := [1, 2, 1, 3, 0], denseinfo := some {
        version := [1], timestamp := [10], changeset := [1], uid := [1], userSid := [1] } } }] }, ?_, ?_, _, _, rfl, rfl, rfl⟩
  · cases b <;> decide +kernel
  · cases b <;> decide +kernel

/-! ## C39 -/

/-- **C39.** Both readers, in both builds, show exactly what a well formed block says. (The owned-string reader accepts only blocks with one
group, C48, and with `keys_vals`, C38.) -/
theorem C39_well_formed (b : Build) (h : IsBlock block ds) :
    Which.shared.objects b block = some ds ∧
      ∀ g, block.primitivegroup = [g] → (∀ d, g.dense = some d → d.keysVals ≠ [] ∨ d.id = []) → Which.owned.objects b block = some ds :=
  ⟨shared_complete b h, fun _ hg hk => owned_complete b h hg hk⟩

/-- A number shown as `u32`: the right one, if it is in the range. -/
def Spec.Pbf.AsU32 (x : Int) (v : Option UInt32) : Prop := ∃ y, v = some y ∧ (FitsU32 x → (y.toNat : Int) = x)

/-- What an `Info` message says, without the flag `visible` (C40). -/
structure Spec.Pbf.ShowsInfo (t : Proto.StringTable) (i : Proto.Info) (v : Spec.View) : Prop where
  version : ∃ x, i.version = some x ∧ AsU32 x.toInt v.version
  timestamp : ∃ x, i.timestamp = some x ∧ v.timestamp = some (.epoch x)
  changeset : ∃ x, i.changeset = some x ∧ AsU32 x.toInt v.changesetId
  uid : ∃ x, i.uid = some x ∧ AsU32 x.toInt v.uid
  user : ∃ x s, i.userSid = some x ∧ stringAt t x.toNat = some s ∧ v.user = some s

theorem asU32 (x : Int) : AsU32 x (some (UInt32.ofInt x)) := by
  refine ⟨_, rfl, fun h => ?_⟩
  unfold FitsU32 at h
  rw [UInt32.ofInt, UInt32.toNat_ofNat']
  omega

theorem InfoFacts.shows {t : Proto.StringTable} {i : Proto.Info} {v : Spec.View} (h : InfoFacts r t i v) : ShowsInfo t i v := by
  refine ⟨?_, h.timestamp, ?_, ?_, h.user⟩
  · obtain ⟨x, h1, h2⟩ := h.version; exact ⟨x, h1, h2 ▸ asU32 _⟩
  · obtain ⟨x, h1, h2⟩ := h.changeset; exact ⟨x, h1, h2 ▸ asU32 _⟩
  · obtain ⟨x, h1, h2⟩ := h.uid; exact ⟨x, h1, h2 ▸ asU32 _⟩

/-- **C39.** The ways and relations of any accepted block whose string table is text (well formed or not) show the metadata, tags, nodes
and members their messages store; lists of different lengths end with the shorter. -/
theorem C39_accepted (h : r.objects b block = some ds) (ht : TableValid (block.stringtable.getD {})) :
    EachObject (fun _ ds => ∀ d ∈ ds, d.view.kind = .node ∧ d.nodes = [] ∧ d.members = [])
      (fun w d => d.view.kind = .way ∧ d.view.id = w.id.getD 0 ∧ d.pos = none ∧ d.members = [] ∧
        ShowsInfo (block.stringtable.getD {}) (w.info.getD {}) d.view ∧
        List.Forall₂ (fun (kv : UInt32 × UInt32) tag => PairAt (block.stringtable.getD {}) kv.1.toNat kv.2.toNat tag)
          (w.keys.zip w.vals) d.view.tags ∧
        d.nodes = (runningSums (ints w.refs)).map Int64.ofInt)
      (fun w d => d.view.kind = .relation ∧ d.view.id = w.id.getD 0 ∧ d.pos = none ∧ d.nodes = [] ∧
        ShowsInfo (block.stringtable.getD {}) (w.info.getD {}) d.view ∧
        List.Forall₂ (fun (kv : UInt32 × UInt32) tag => PairAt (block.stringtable.getD {}) kv.1.toNat kv.2.toNat tag)
          (w.keys.zip w.vals) d.view.tags ∧
        List.Forall₂ (fun (x : (Int32 × Int64) × Int32) m =>
          memberKind m.1 = x.1.1.toInt ∧ m.2.1 = x.1.2 ∧ stringAt (block.stringtable.getD {}) x.2.toInt = some m.2.2)
            ((w.types.zip ((runningSums (ints w.memids)).map Int64.ofInt)).zip w.rolesSid) d.members)
      block ds := by
  refine (block_facts h).mono (fun dense ds hD d hd => ?_) (fun w d hW => ?_) (fun w d hR => ?_)
  · obtain ⟨i, hi⟩ := List.getElem?_of_mem hd
    exact ⟨(hD.node i d hi).kind, (hD.node i d hi).nodes, (hD.node i d hi).members⟩
  · exact ⟨hW.kind, hW.id, hW.pos, hW.members, hW.info.shows, hW.tags ht, hW.nodes⟩
  · exact ⟨hR.kind, hR.id, hR.pos, hR.nodes, hR.info.shows, hR.tags ht, hR.parts ht⟩

namespace PbfEx

theorem tableValid : TableValid table := by
  intro s hs
  revert s
  decide +kernel

theorem hasInfo (v : Spec.View) (id : ObjId) (k : OSMObjectType) (tags : List (Str × Str))
    (h : v = view k id tags 4 8 2 77 (str% "u")) : HasInfo table info v := by
  subst h
  exact ⟨⟨4, 4, rfl, rfl, by decide⟩, ⟨77, rfl, rfl⟩, ⟨8, 8, rfl, rfl, by decide⟩, ⟨2, 2, rfl, rfl, by decide⟩,
    ⟨3, str% "u", rfl, by decide +kernel, rfl⟩, ⟨true, rfl, rfl⟩⟩

theorem pair12 : PairAt table (1 : Nat) (2 : Nat) (str% "highway", str% "primary") := by
  constructor <;> decide +kernel
theorem pair14 : PairAt table (1 : Nat) (4 : Nat) (str% "highway", str% "Ä") := by
  constructor <;> decide +kernel

/-- The example blocks are well formed. -/
theorem ways_wellFormed : IsBlock ways waysData := by
  refine ⟨table, rfl, tableValid, [waysData], .cons ?_ .nil, rfl⟩
  have tags : HasPairs table [1] [2] [(str% "highway", str% "primary")] := ⟨rfl, .cons pair12 .nil⟩
  refine .ways rfl rfl (by simp) rfl (.cons ?_ (.cons ?_ .nil))
  · exact ⟨rfl, rfl, tags, ⟨info, rfl, hasInfo _ _ _ _ rfl⟩, by decide, rfl, rfl⟩
  · exact ⟨rfl, rfl, tags, ⟨info, rfl, hasInfo _ _ _ _ rfl⟩, by decide, rfl, rfl⟩

theorem relations_wellFormed : IsBlock relations relationsData := by
  refine ⟨table, rfl, tableValid, [relationsData], .cons ?_ .nil, rfl⟩
  have tags : HasPairs table [1] [4] [(str% "highway", str% "Ä")] := ⟨rfl, .cons pair14 .nil⟩
  refine .relations rfl rfl rfl (by simp) (.cons ?_ .nil)
  refine ⟨rfl, rfl, tags, ⟨_, rfl, ?_⟩, by decide, by decide, by decide +kernel, rfl, rfl⟩
  exact ⟨⟨4, 4, rfl, rfl, by decide⟩, ⟨77, rfl, rfl⟩, ⟨8, 8, rfl, rfl, by decide⟩, ⟨2, 2, rfl, rfl, by decide⟩,
    ⟨3, str% "u", rfl, by decide +kernel, rfl⟩, ⟨false, rfl, rfl⟩⟩

theorem nodes_wellFormed : IsBlock nodes nodesData := by
  refine ⟨table, rfl, tableValid, [nodesData], .cons ?_ .nil, rfl⟩
  refine .dense dense _ [[(1, 2)], [], [(1, 4)]] rfl rfl rfl rfl ⟨rfl, ?_, ⟨by decide, .inl (by decide)⟩, rfl, rfl, ?_⟩
  · constructor <;> decide
  · intro i seg d h1 h2
    rcases i with _ | _ | _ | i
    · cases h1; cases h2
      exact ⟨rfl, by decide, ⟨_, rfl, by decide, by decide⟩, .cons pair12 .nil, ⟨1, 1, rfl, rfl, by decide⟩, ⟨1000, rfl, by decide⟩,
        ⟨7, rfl, by decide⟩, ⟨9, rfl, by decide⟩, ⟨str% "u", by decide +kernel, rfl⟩, rfl, rfl, rfl⟩
    · cases h1; cases h2
      exact ⟨rfl, by decide, ⟨_, rfl, by decide, by decide⟩, .nil, ⟨2, 2, rfl, rfl, by decide⟩, ⟨1005, rfl, by decide⟩,
        ⟨8, rfl, by decide⟩, ⟨9, rfl, by decide⟩, ⟨str% "u", by decide +kernel, rfl⟩, rfl, rfl, rfl⟩
    · cases h1; cases h2
      exact ⟨rfl, by decide, ⟨_, rfl, by decide, by decide⟩, .cons pair14 .nil, ⟨3, 3, rfl, rfl, by decide⟩, ⟨995, rfl, by decide⟩,
        ⟨9, rfl, by decide⟩, ⟨8, rfl, by decide⟩, ⟨str% "Ä", by decide +kernel, rfl⟩, rfl, rfl, rfl⟩
    · simp at h1

end PbfEx

/-! ## C40 -/

/-- **C40.** A dense node is deleted just if the block says so: without a flag for it, it is not. -/
theorem C40_partial (h : r.objects b block = some ds) :
    EachObject (fun dense ds => ∀ (i : Nat) (d : ObjData), ds[i]? = some d →
        d.view.deleted = !((dense.denseinfo.getD {}).visible[i]?.getD true))
      (fun w d => ∀ x, (w.info.getD {}).visible = some x → d.view.deleted = !x)
      (fun w d => ∀ x, (w.info.getD {}).visible = some x → d.view.deleted = !x) block ds := by
  have key : ∀ {t : Proto.StringTable} {i : Proto.Info} {v : Spec.View}, InfoFacts r t i v → ∀ x, i.visible = some x → v.deleted = !x := by
    intro t i v h x hx
    cases r with
    | owned => rw [h.owned rfl, hx]; rfl
    | shared =>
      obtain ⟨y, h1, h2⟩ := h.shared rfl
      rw [hx] at h1; cases h1; exact h2
  exact (block_facts h).mono (fun _ _ hD i d hd => (hD.node i d hd).visible) (fun _ _ hW => key hW.info) (fun _ _ hR => key hR.info)

/-- **C40 fails** in the owned-string reader: every way and every relation without the flag is reported as deleted. -/
theorem C40_owned_fails (h : Which.owned.objects b block = some ds) :
    EachObject (fun _ _ => True) (fun w d => (w.info.getD {}).visible = none → d.view.deleted = true)
      (fun w d => (w.info.getD {}).visible = none → d.view.deleted = true) block ds :=
  (block_facts h).mono (fun _ _ _ => trivial) (fun _ _ hW hv => by rw [hW.info.owned rfl, hv]; rfl)
    (fun _ _ hR hv => by rw [hR.info.owned rfl, hv]; rfl)

/-- Such blocks are accepted. -/
example (b : Build) : ((Which.owned.objects b { PbfEx.ways with primitivegroup := [{ ways := [{ PbfEx.way with
    info := some { PbfEx.info with visible := none } }] }] }).map fun ds => ds.map (·.view.deleted)) = some [true] := by
  cases b <;> decide +kernel

/-- **C40 fails** in the shared-string reader: it accepts no block with a way or a relation without the flag. -/
theorem C40_shared_fails (b : Build) {g : Proto.PrimitiveGroup} (hg : g ∈ block.primitivegroup) (hd : g.dense = none)
    (hv : (∃ w ∈ g.ways, (w.info.getD {}).visible = none) ∨ (g.ways = [] ∧ ∃ w ∈ g.relations, (w.info.getD {}).visible = none)) :
    Which.shared.objects b block = none := by
  cases h : Which.shared.objects b block with
  | none => rfl
  | some ds =>
    obtain ⟨dss, h1, he⟩ := shared_block.1 h
    clear he
    obtain ⟨ds', _, h2⟩ : ∃ ds' ∈ dss, ArcGroup b block (ArcPbf.stringTable block) g ds' := by
      clear h
      generalize block.primitivegroup = gs at hg h1
      induction h1 with
      | nil => cases hg
      | cons hx _ ih =>
        rcases List.mem_cons.1 hg with rfl | hg
        · exact ⟨_, by simp, hx⟩
        · obtain ⟨d, hd, h⟩ := ih hg
          exact ⟨d, by simp [hd], h⟩
    obtain ⟨h3, h4⟩ := arcGroup_stated h2 hd
    rcases hv with ⟨w, hw, hv⟩ | ⟨hn, w, hw, hv⟩
    · exact absurd hv (h3 (List.ne_nil_of_mem hw) w hw)
    · exact absurd hv ((h4 hn).2 w hw)

/-! ## C48 -/

theorem arcGroup_congr {block' : Proto.PrimitiveBlock} (e1 : block'.granularity = block.granularity)
    (e2 : block'.latOffset = block.latOffset) (e3 : block'.lonOffset = block.lonOffset)
    (e4 : block'.dateGranularity = block.dateGranularity) {t : List (Option Str)} {g : Proto.PrimitiveGroup}
    (h : ArcGroup b block t g ds) : ArcGroup b block' t g ds := by
  cases h with
  | dense dense hn hd h =>
    refine .dense dense hn hd ?_
    unfold ArcDense dateSeconds Proto.PrimitiveBlock.granularityOr Proto.PrimitiveBlock.latOffsetOr Proto.PrimitiveBlock.lonOffsetOr
      Proto.PrimitiveBlock.dateGranularityOr at h ⊢
    rw [e1, e2, e3, e4]
    exact h
  | ways hn hd hw h => exact .ways hn hd hw h
  | relations hn hd hw hr h => exact .relations hn hd hw hr h

/-- **C48.** The shared-string reader shows the objects of all groups of a block, in order: those it shows for the blocks that have only
one of the groups. -/
theorem C48_shared_partial : Which.shared.objects b block = some ds ↔
    ∃ dss, List.Forall₂ (fun g ds => Which.shared.objects b { block with primitivegroup := [g] } = some ds) block.primitivegroup dss ∧
      ds = dss.flatten := by
  have key : ∀ g ds, Which.shared.objects b { block with primitivegroup := [g] } = some ds ↔
      ArcGroup b block (ArcPbf.stringTable block) g ds := by
    intro g ds
    rw [shared_single (g := g) rfl]
    exact ⟨fun h => arcGroup_congr (by rfl) (by rfl) (by rfl) (by rfl) h, fun h => arcGroup_congr (by rfl) (by rfl) (by rfl) (by rfl) h⟩
  simp only [key]
  exact shared_block

/-- A block with nodes and ways. -/
example (b : Build) : ((Which.shared.objects b PbfEx.both).map fun ds => ds.map (·.view.id)) = some [5, 3, 10, 20] := by
  cases b <;> decide +kernel

/-- **C48 fails** in the owned-string reader: it accepts no block with more (or fewer) groups than one. -/
theorem C48_owned_fails (b : Build) (h : block.primitivegroup.length ≠ 1) : Which.owned.objects b block = none := by
  cases he : Which.owned.objects b block with
  | none => rfl
  | some ds =>
    obtain ⟨raw, g, _, h2, _⟩ := owned_block.1 he
    rw [h2] at h
    exact absurd rfl h

/-! ## C49 -/

/-- **C49.** A block that a build with overflow checks accepts is shown alike by a build without. -/
theorem C49_block (h : r.objects .debug block = some ds) : r.objects .release block = some ds := by
  cases r with
  | owned =>
    unfold Which.objects at h ⊢
    rcases agree_str_block block (true, true, true) with e | ⟨e, _⟩
    · simp only at h ⊢
      rw [← e]; exact h
    · simp only at h
      split at h
      · rename_i os he; rw [he] at e; cases e
      · cases h
  | shared =>
    unfold Which.objects at h ⊢
    rcases agree_arc_block block with e | e
    · simp only at h ⊢
      rw [← e]; exact h
    · simp only [e] at h
      cases h

/-- **C49.** If only the build without checks accepts a block, the other stops with an overflow. -/
theorem C49_block_overflow (h : r.objects .release block = some ds) (h' : r.objects .debug block = none) :
    match r with
    | .owned => (StringPbf.decodeBlock .debug block (true, true, true)).2 = some .overflow
    | .shared => ArcPbf.decodeBlock .debug block = .error .overflow := by
  cases r with
  | owned =>
    rcases agree_str_block block (true, true, true) with e | ⟨e, _⟩
    · unfold Which.objects at h h'
      simp only at h h'
      rw [e, h] at h'
      cases h'
    · exact e
  | shared =>
    rcases agree_arc_block block with e | e
    · unfold Which.objects at h h'
      simp only at h h'
      rw [e, h] at h'
      cases h'
    · exact e

/-- **C49.** What a build with checks accepts has no sum that is out of the range of its type. -/
theorem C49_checked_partial (h : r.objects .debug block = some ds) :
    EachObject
      (fun dense ds => ∀ (i : Nat) (d : ObjData), ds[i]? = some d → FitsI64 (runningSum (ints dense.id) i) ∧
        FitsI32 (runningSum (ints dense.lat) i) ∧ FitsI32 (runningSum (ints dense.lon) i) ∧
        FitsI64 (runningSum (ints (dense.denseinfo.getD {}).changeset) i) ∧
        FitsI32 (runningSum (ints32 (dense.denseinfo.getD {}).uid) i) ∧
        FitsI32 (runningSum (ints32 (dense.denseinfo.getD {}).userSid) i))
      (fun w _ => ∀ x ∈ runningSums (ints w.refs), FitsI64 x)
      (fun w _ => ∀ x ∈ runningSums (ints w.memids), FitsI64 x) block ds := by
  refine (block_facts h).mono (fun dense ds hD i d hd => ?_) (fun w d hW => hW.checked rfl) (fun w d hR => hR.checked rfl)
  have hn := hD.node i d hd
  exact ⟨(hn.posChecked rfl).id, hn.latFits, hn.lonFits, (hn.metaChecked rfl).changeset, (hn.metaChecked rfl).uid,
    (hn.metaChecked rfl).user⟩

/-- A block whose second id is out of range: one build stops, the other shows a wrong id. -/
theorem C49_overflow_witness (r : Which) : ∃ block, r.objects .debug block = none ∧
    ((r.objects .release block).map fun ds => ds.map (·.nodes)) = some [[9223372036854775807, -9223372036854775808]] := by
  refine ⟨{ PbfEx.ways with primitivegroup := [{ ways := [{ PbfEx.way with refs := [9223372036854775807, 1] }] }] }, ?_, ?_⟩
  all_goals cases r <;> decide +kernel

/-- **C49 fails** for conversions: a changeset number of 2^32 + 5 is shown as 5, a version of -1 as 4294967295, by both builds. -/
theorem C49_cast_fails (r : Which) (b : Build) : ∃ block, ((r.objects b block).map fun ds => ds.map fun d =>
      (d.view.changesetId, d.view.version)) = some [(some 5, some 4294967295)] ∧
    (∃ g w i, block.primitivegroup = [g] ∧ g.ways = [w] ∧ w.info = some i ∧ i.changeset = some 4294967301 ∧ i.version = some (-1)) := by
  refine ⟨{ PbfEx.ways with primitivegroup := [{ ways := [{ PbfEx.way with
    info := some { PbfEx.info with changeset := some 4294967301, version := some (-1) } }] }] }, ?_, _, _, _, rfl, rfl, rfl, rfl, rfl⟩
  cases r <;> cases b <;> decide +kernel

end Osmio
