import Verif.Proofs.PbfPositions
import Verif.Props.Proto
import Verif.Model.Reader
/-! # Proofs: whole files -/

namespace Osmio
open Spec.Pbf Spec

/-! ## Evaluating examples -/

/-- At most so many calls of `next`. -/
def readN {σ α : Type} (next : σ → Res (Option α) × σ) : Nat → σ → Option (List α × Option Panic)
  | 0, _ => none
  | n + 1, s =>
    match next s with
    | (.ok none, _) => some ([], none)
    | (.error p, _) => some ([], some p)
    | (.ok (some o), s) => (readN next n s).map fun x => (o :: x.1, x.2)

theorem readN_drain {σ α : Type} {next : σ → Res (Option α) × σ} {n : Nat} {s : σ} {os : List α} {e : Option Panic}
    (h : readN next n s = some (os, e)) : ∃ t, Drain next s os e t := by
  induction n generalizing s os with
  | zero => cases h
  | succ n ih =>
    unfold readN at h
    split at h
    · cases h; exact ⟨_, .done ‹_›⟩
    · cases h; exact ⟨_, .panic ‹_›⟩
    · rename_i o s1 h1
      cases h2 : readN next n s1 with
      | none => rw [h2] at h; cases h
      | some x =>
        rw [h2] at h
        cases h
        obtain ⟨t, ht⟩ := ih (os := x.1) h2
        exact ⟨t, .more h1 ht⟩

theorem readN_owned {zlib : Proto.Bytes → Option Proto.Bytes} {b : Build} {n : Nat} {src : Source} {ds : List ObjData} {e : Option Panic}
    (h : (readN (StringPbf.PBFReader.next zlib b) n (StringPbf.PBFReader.new src)).map (fun x => (x.1.map objData, x.2)) = some (ds, e)) :
    Reads .owned zlib b src ds e := by
  obtain ⟨⟨os, e'⟩, h1, h2⟩ := Option.map_eq_some_iff.1 h
  cases h2
  obtain ⟨t, ht⟩ := readN_drain h1
  exact ⟨os, t, ht, rfl⟩

theorem readN_shared {zlib : Proto.Bytes → Option Proto.Bytes} {b : Build} {n : Nat} {src : Source} {ds : List ObjData} {e : Option Panic}
    (h : (readN (ArcPbf.PBFReader.next zlib b) n (ArcPbf.PBFReader.new src)).map (fun x => (x.1.map objData, x.2)) = some (ds, e)) :
    Reads .shared zlib b src ds e := by
  obtain ⟨⟨os, e'⟩, h1, h2⟩ := Option.map_eq_some_iff.1 h
  cases h2
  obtain ⟨t, ht⟩ := readN_drain h1
  exact ⟨os, t, ht, rfl⟩

/-! ## Drains -/

/-- The inverse of `drain_map`. -/
theorem drain_unmap {α σ τ : Type} {n1 : σ → Res (Option α) × σ} {n2 : τ → Res (Option α) × τ} {φ : σ → τ}
    (h : ∀ s, n2 (φ s) = ((n1 s).1, φ (n1 s).2)) {s : σ} {t' : τ} {os : List α} {e : Option Panic} (hd : Drain n2 (φ s) os e t') :
    ∃ s', Drain n1 s os e s' ∧ t' = φ s' := by
  generalize hs : φ s = t at hd
  induction hd generalizing s with
  | done h1 =>
    subst hs
    rw [h] at h1
    exact ⟨(n1 s).2, .done (Prod.ext (Prod.mk.inj h1).1 rfl), (Prod.mk.inj h1).2.symm⟩
  | panic h1 =>
    subst hs
    rw [h] at h1
    exact ⟨(n1 s).2, .panic (Prod.ext (Prod.mk.inj h1).1 rfl), (Prod.mk.inj h1).2.symm⟩
  | more h1 _ ih =>
    subst hs
    rw [h] at h1
    obtain ⟨s', h2, h3⟩ := ih (Prod.mk.inj h1).2
    exact ⟨s', .more (Prod.ext (Prod.mk.inj h1).1 rfl) h2, h3⟩

/-- Calls of `next` on a reader that goes on to report the end. -/
theorem calls_drain {α σ : Type} {next : σ → Res (Option α) × σ} {s t : σ} {os : List α} (h : Drain next s os none t)
    (ht : next t = (.ok none, t)) (k : Nat) :
    (calls next k s).1 = (os.map (fun o => Except.ok (some o)) ++ List.replicate k (Except.ok none)).take k := by
  generalize he : (none : Option Panic) = e at h
  induction h generalizing k with
  | done h1 =>
    cases k with
    | zero => rfl
    | succ k =>
      simp only [calls, h1, List.map_nil, List.nil_append]
      rw [calls_fixed ht, List.take_of_length_le (by simp), List.replicate_succ]
  | panic h1 => cases he
  | more h1 _ ih =>
    cases k with
    | zero => rfl
    | succ k =>
      simp only [calls, h1, List.map_cons, List.cons_append, List.take_succ_cons]
      rw [ih ht k he]
      congr 1
      rw [List.replicate_succ', ← List.append_assoc]
      exact (List.take_append_of_le_length (by simp)).symm

/-- A reader as one whose `next` does not panic. Used only where it does not. -/
def ReaderT.ofRes {σ α : Type} (next : σ → Res (Option α) × σ) : ReaderT σ α :=
  ⟨fun s => match next s with
    | (.ok x, s') => (x, s')
    | (.error _, s') => (none, s')⟩

theorem drain_objects {σ α : Type} {next : σ → Res (Option α) × σ} {s t : σ} {os : List α} (h : Drain next s os none t) :
    ObjectsDrain (ReaderT.ofRes next) s os t := by
  generalize he : (none : Option Panic) = e at h
  induction h with
  | done h1 => exact .done (by simp only [ReaderT.ofRes, h1])
  | panic => cases he
  | more h1 _ ih => exact .more (by simp only [ReaderT.ofRes, h1]) (ih he)

/-! ## Written files -/

theorem frameOf_framed {type_ : Str} {blob : Proto.Blob} (h : (frameOf type_ blob).Fits) :
    Framed (frameOf type_ blob) { type_ := some type_, datasize := some (Int32.ofNat (encodeBlob blob).length) } := by
  obtain ⟨h1, h2⟩ := h
  refine ⟨by omega, C50_blobHeader_roundtrip _ ⟨by simp, by simp⟩ h1, _, rfl, ?_⟩
  have : (encodeBlob blob).length ≤ 2147483647 := h2
  show (Int32.ofNat (encodeBlob blob).length).toInt = ((encodeBlob blob).length : Int)
  rw [Int32.toInt_ofNat_of_lt (by omega)]

theorem frameOf_other {stored : Proto.Blob → Proto.Bytes → Prop} {type_ : Str} {blob : Proto.Blob} (ht : type_ ≠ str% "OSMData")
    (h : (frameOf type_ blob).Fits) : FrameIs stored (frameOf type_ blob) none :=
  .other _ (frameOf_framed h) (by simpa using ht)

theorem frameOf_block {stored : Proto.Blob → Proto.Bytes → Prop} {blob : Proto.Blob} {data : Proto.Bytes} {block : Proto.PrimitiveBlock}
    (h : (frameOf (str% "OSMData") blob).Fits) (hs : stored blob data)
    (hp : Proto.PrimitiveBlock.parseFromBytes data = some block) : FrameIs stored (frameOf (str% "OSMData") blob) (some block) :=
  .block _ blob data block (frameOf_framed h) rfl (C50_blob_roundtrip _ trivial h.2) hs hp

theorem zlibBlob_stored {zlib : Proto.Bytes → Option Proto.Bytes} {deflate : Proto.Bytes → Proto.Bytes}
    (hz : ∀ x, zlib (deflate x) = some x) {block : Proto.PrimitiveBlock} (h : (encodePrimitiveBlock block).length ≤ 2147483647) :
    ZlibStored zlib (zlibBlob deflate block) (encodePrimitiveBlock block) := by
  refine ⟨_, _, rfl, rfl, hz _, rfl, ?_⟩
  rw [Int32.toInt_ofNat_of_lt (by omega)]

theorem written_is {zlib : Proto.Bytes → Option Proto.Bytes} {deflate : Proto.Bytes → Proto.Bytes}
    (hz : ∀ x, zlib (deflate x) = some x) {f : Frame} {o : Option Proto.PrimitiveBlock} {ds : List ObjData} (h : Written deflate f o ds) :
    FrameIs (ZlibStored zlib) f o := by
  cases h with
  | other t blob h1 h2 => exact frameOf_other h1 h2
  | block block ds h1 h2 h3 h4 => exact frameOf_block h4 (zlibBlob_stored hz h3) (C50_primitiveBlock_roundtrip _ h1 h3)

theorem written_reads {r : Which} {zlib : Proto.Bytes → Option Proto.Bytes} {deflate : Proto.Bytes → Proto.Bytes} {b : Build}
    (hz : ∀ x, zlib (deflate x) = some x) {f : Frame} {o : Option Proto.PrimitiveBlock} {ds : List ObjData} (h : Written deflate f o ds)
    (hr : r = .shared ∨ ∀ block, o = some block → ∃ g, block.primitivegroup = [g] ∧ ∀ d, g.dense = some d → d.keysVals ≠ [] ∨ d.id = []) :
    FrameReads r zlib b f ds := by
  have hi := written_is hz h
  cases h with
  | other t blob h1 h2 => exact .other hi
  | block block ds h1 h2 h3 h4 =>
    refine .block block ds hi ?_
    cases r with
    | shared => exact shared_complete b h2
    | owned =>
      rcases hr with hr | hr
      · cases hr
      · obtain ⟨g, hg, hk⟩ := hr block rfl
        exact owned_complete b h2 hg hk

/-! ## Encodings -/

/-- A blob holds data in one of the two ways. -/
def Stored (zlib : Proto.Bytes → Option Proto.Bytes) (blob : Proto.Blob) (data : Proto.Bytes) : Prop :=
  ZlibStored zlib blob data ∨ RawStored blob data

theorem shared_stored {zlib : Proto.Bytes → Option Proto.Bytes} {b : Build} {blob : Proto.Blob} {data : Proto.Bytes}
    {block : Proto.PrimitiveBlock} (h : Stored zlib blob data) (hp : Proto.PrimitiveBlock.parseFromBytes data = some block) :
    blobData .shared zlib b blob = match ArcPbf.decodeBlock b block with
      | .ok os => (os.map objData, none)
      | .error p => ([], some p) := by
  have e : ArcPbf.blobRawData zlib blob = .ok (some data) := h.elim arc_zlibStored arc_rawStored
  simp only [blobData, arcDecode, ArcPbf.decodeBlob, e, hp, bind, Except.bind, unwrap]
  cases ArcPbf.decodeBlock b block <;> rfl

theorem runBlobs_forall {α : Type} {decode : Proto.Blob → List α × Option Panic} {f : Proto.PrimitiveBlock → List α × Option Panic}
    {e : Option Panic} {bs bs' : List Proto.Blob} {blocks : List Proto.PrimitiveBlock}
    (h : List.Forall₂ (fun b block => decode b = f block) bs blocks) (h' : List.Forall₂ (fun b block => decode b = f block) bs' blocks) :
    runBlobs decode e bs = runBlobs decode e bs' := by
  induction h generalizing bs' with
  | nil => cases h'; rfl
  | cons h1 _ ih =>
    cases h' with
    | cons h2 h3 => simp only [runBlobs, h1, h2, ih h3]

/-! ## Filters -/

theorem group_passes {b : Build} {g : Proto.PrimitiveGroup} {gr : Int32} {la lo : Int64} {dg : Int32} {raw : Proto.StringTable}
    {f : StringPbf.ObjectFilter} : ∀ o ∈ (StringPbf.decodeGroup b g gr la lo dg raw f).1, Passes f o = true := by
  intro o ho
  simp only [StringPbf.decodeGroup] at ho
  split at ho
  · unfold StringPbf.withTable at ho
    split at ho <;> cases ho
  · split at ho
    · rename_i h
      obtain ⟨x, rfl⟩ := withTable_all (P := fun o => ∃ x, o = StringOSMObj.node x) (fun t => denseLoop_nodes) o ho
      exact h.2
    · split at ho
      · rename_i h
        obtain ⟨x, rfl⟩ := withTable_all (P := fun o => ∃ x, o = StringOSMObj.way x) (fun t => runAll_map) o ho
        exact h.2
      · split at ho
        · rename_i h
          obtain ⟨x, rfl⟩ := withTable_all (P := fun o => ∃ x, o = StringOSMObj.relation x) (fun t => runAll_map) o ho
          exact h.2
        · cases ho

theorem blob_passes {zlib : Proto.Bytes → Option Proto.Bytes} {b : Build} {blob : Proto.Blob} {f : StringPbf.ObjectFilter} :
    ∀ o ∈ (StringPbf.decodeBlob zlib b f blob).1, Passes f o = true := by
  intro o ho
  unfold StringPbf.decodeBlob at ho
  split at ho
  · cases ho
  · split at ho
    · cases ho
    · split at ho
      · cases ho
      · unfold StringPbf.decodeBlock at ho
        split at ho
        · cases ho
        · split at ho
          · exact group_passes o ho
          · cases ho

theorem runBlobs_all {α : Type} {P : α → Prop} {decode : Proto.Blob → List α × Option Panic} (h : ∀ b, ∀ o ∈ (decode b).1, P o)
    {e : Option Panic} (bs : List Proto.Blob) : ∀ o ∈ (runBlobs decode e bs).1, P o := by
  induction bs with
  | nil => intro o ho; cases ho
  | cons b bs ih =>
    intro o ho
    simp only [runBlobs] at ho
    have hb := h b
    split at ho
    · rename_i he
      rw [he] at hb
      rcases List.mem_append.1 ho with ho | ho
      · exact hb o ho
      · exact ih o ho
    · cases ho

end Osmio
