import Verif.Proofs.ProtoDecode
import Verif.Spec.PbfDecode
/-! # What each message is decoded to, field by field (generated by `tools/gendecode.py`) -/

namespace Osmio.Proto

open Spec.Wire Spec.Pbf

theorem BlobHeader.merge_steps (m : BlobHeader) (f : Field) (m' : BlobHeader) : BlobHeader.merge m f = some m' ↔
      StepOne 10 (fun f => f.string) m.type_ f m'.type_ ∧
      StepOne 18 (fun f => f.bytes) m.indexdata f m'.indexdata ∧
      StepOne 24 (fun f => f.num asInt32) m.datasize f m'.datasize := by
  by_cases h0 : f.tag = 10
  · have e : BlobHeader.merge m f = (f.string).map fun v => { m with type_ := some v } := by
      unfold BlobHeader.merge
      rw [if_pos h0]
    rw [e, Option.map_eq_some_iff]
    constructor
    · rintro ⟨v, hv, rfl⟩
      exact ⟨(StepOne.hit h0).2 ⟨v, hv, rfl⟩, (StepOne.miss (by omega)).2 rfl, (StepOne.miss (by omega)).2 rfl⟩
    · rintro ⟨s0, s1, s2⟩
      obtain ⟨v, hv, e0⟩ := (StepOne.hit h0).1 s0
      refine ⟨v, hv, ?_⟩
      cases m'
      simp only [BlobHeader.mk.injEq]
      exact ⟨e0.symm, ((StepOne.miss (by omega)).1 s1).symm, ((StepOne.miss (by omega)).1 s2).symm⟩
  by_cases h1 : f.tag = 18
  · have e : BlobHeader.merge m f = (f.bytes).map fun v => { m with indexdata := some v } := by
      unfold BlobHeader.merge
      rw [if_neg (by omega), if_pos h1]
    rw [e, Option.map_eq_some_iff]
    constructor
    · rintro ⟨v, hv, rfl⟩
      exact ⟨(StepOne.miss (by omega)).2 rfl, (StepOne.hit h1).2 ⟨v, hv, rfl⟩, (StepOne.miss (by omega)).2 rfl⟩
    · rintro ⟨s0, s1, s2⟩
      obtain ⟨v, hv, e1⟩ := (StepOne.hit h1).1 s1
      refine ⟨v, hv, ?_⟩
      cases m'
      simp only [BlobHeader.mk.injEq]
      exact ⟨((StepOne.miss (by omega)).1 s0).symm, e1.symm, ((StepOne.miss (by omega)).1 s2).symm⟩
  by_cases h2 : f.tag = 24
  · have e : BlobHeader.merge m f = (f.num asInt32).map fun v => { m with datasize := some v } := by
      unfold BlobHeader.merge
      rw [if_neg (by omega), if_neg (by omega), if_pos h2]
    rw [e, Option.map_eq_some_iff]
    constructor
    · rintro ⟨v, hv, rfl⟩
      exact ⟨(StepOne.miss (by omega)).2 rfl, (StepOne.miss (by omega)).2 rfl, (StepOne.hit h2).2 ⟨v, hv, rfl⟩⟩
    · rintro ⟨s0, s1, s2⟩
      obtain ⟨v, hv, e2⟩ := (StepOne.hit h2).1 s2
      refine ⟨v, hv, ?_⟩
      cases m'
      simp only [BlobHeader.mk.injEq]
      exact ⟨((StepOne.miss (by omega)).1 s0).symm, ((StepOne.miss (by omega)).1 s1).symm, e2.symm⟩
  have e : BlobHeader.merge m f = some m := by
    unfold BlobHeader.merge
    rw [if_neg h0, if_neg h1, if_neg h2]
  rw [e, Option.some_inj]
  constructor
  · rintro rfl
    exact ⟨(StepOne.miss (by omega)).2 rfl, (StepOne.miss (by omega)).2 rfl, (StepOne.miss (by omega)).2 rfl⟩
  · rintro ⟨s0, s1, s2⟩
    cases m'
    cases m
    simp only [BlobHeader.mk.injEq]
    exact ⟨((StepOne.miss (by omega)).1 s0).symm, ((StepOne.miss (by omega)).1 s1).symm, ((StepOne.miss (by omega)).1 s2).symm⟩

theorem BlobHeader.merge_runs (fs : List Field) : ∀ m m' : BlobHeader, mergeAll BlobHeader.merge m fs = some m' ↔
      Run (StepOne 10 (fun f => f.string)) m.type_ fs m'.type_ ∧
      Run (StepOne 18 (fun f => f.bytes)) m.indexdata fs m'.indexdata ∧
      Run (StepOne 24 (fun f => f.num asInt32)) m.datasize fs m'.datasize := by
  induction fs with
  | nil =>
    intro m m'
    simp only [mergeAll, Run, Option.some_inj]
    constructor
    · rintro rfl
      exact ⟨rfl, rfl, rfl⟩
    · rintro ⟨s0, s1, s2⟩
      cases m'
      cases m
      simp only [BlobHeader.mk.injEq]
      exact ⟨s0.symm, s1.symm, s2.symm⟩
  | cons f fs ih =>
    intro m m'
    rw [mergeAll, Option.bind_eq_some_iff]
    constructor
    · rintro ⟨m1, h1, h2⟩
      obtain ⟨s0, s1, s2⟩ := (BlobHeader.merge_steps m f m1).1 h1
      obtain ⟨r0, r1, r2⟩ := (ih m1 m').1 h2
      exact ⟨⟨_, s0, r0⟩, ⟨_, s1, r1⟩, ⟨_, s2, r2⟩⟩
    · rintro ⟨⟨x0, s0, r0⟩, ⟨x1, s1, r1⟩, ⟨x2, s2, r2⟩⟩
      exact ⟨{ type_ := x0, indexdata := x1, datasize := x2 }, (BlobHeader.merge_steps _ _ _).2 ⟨s0, s1, s2⟩, (ih _ _).2 ⟨r0, r1, r2⟩⟩

theorem BlobHeader.parse_decodes (bs : Bytes) (m : BlobHeader) : parse BlobHeader.merge {} bs = some m ↔ DecodesBlobHeader bs m :=
  parse_iff (C := saysBlobHeader) (fun fs hf m => (BlobHeader.merge_runs fs {} m).trans (and_congr (run_one' (number := 1) string_iff rfl) (and_congr (run_one' (number := 2) bytes_iff rfl) (run_oneNumber (number := 3) hf asInt32_iff rfl)))) (fun _ _ => Iff.rfl) bs m

theorem Blob.merge_steps (m : Blob) (f : Field) (m' : Blob) : Blob.merge m f = some m' ↔
      StepOne 10 (fun f => f.bytes) m.raw f m'.raw ∧
      StepOne 16 (fun f => f.num asInt32) m.rawSize f m'.rawSize ∧
      StepOne 26 (fun f => f.bytes) m.zlibData f m'.zlibData ∧
      StepOne 34 (fun f => f.bytes) m.lzmaData f m'.lzmaData ∧
      StepOne 42 (fun f => f.bytes) m.obsoleteBzip2Data f m'.obsoleteBzip2Data := by
  by_cases h0 : f.tag = 10
  · have e : Blob.merge m f = (f.bytes).map fun v => { m with raw := some v } := by
      unfold Blob.merge
      rw [if_pos h0]
    rw [e, Option.map_eq_some_iff]
    constructor
    · rintro ⟨v, hv, rfl⟩
      exact ⟨(StepOne.hit h0).2 ⟨v, hv, rfl⟩, (StepOne.miss (by omega)).2 rfl, (StepOne.miss (by omega)).2 rfl, (StepOne.miss (by omega)).2 rfl, (StepOne.miss (by omega)).2 rfl⟩
    · rintro ⟨s0, s1, s2, s3, s4⟩
      obtain ⟨v, hv, e0⟩ := (StepOne.hit h0).1 s0
      refine ⟨v, hv, ?_⟩
      cases m'
      simp only [Blob.mk.injEq]
      exact ⟨e0.symm, ((StepOne.miss (by omega)).1 s1).symm, ((StepOne.miss (by omega)).1 s2).symm, ((StepOne.miss (by omega)).1 s3).symm, ((StepOne.miss (by omega)).1 s4).symm⟩
  by_cases h1 : f.tag = 16
  · have e : Blob.merge m f = (f.num asInt32).map fun v => { m with rawSize := some v } := by
      unfold Blob.merge
      rw [if_neg (by omega), if_pos h1]
    rw [e, Option.map_eq_some_iff]
    constructor
    · rintro ⟨v, hv, rfl⟩
      exact ⟨(StepOne.miss (by omega)).2 rfl, (StepOne.hit h1).2 ⟨v, hv, rfl⟩, (StepOne.miss (by omega)).2 rfl, (StepOne.miss (by omega)).2 rfl, (StepOne.miss (by omega)).2 rfl⟩
    · rintro ⟨s0, s1, s2, s3, s4⟩
      obtain ⟨v, hv, e1⟩ := (StepOne.hit h1).1 s1
      refine ⟨v, hv, ?_⟩
      cases m'
      simp only [Blob.mk.injEq]
      exact ⟨((StepOne.miss (by omega)).1 s0).symm, e1.symm, ((StepOne.miss (by omega)).1 s2).symm, ((StepOne.miss (by omega)).1 s3).symm, ((StepOne.miss (by omega)).1 s4).symm⟩
  by_cases h2 : f.tag = 26
  · have e : Blob.merge m f = (f.bytes).map fun v => { m with zlibData := some v } := by
      unfold Blob.merge
      rw [if_neg (by omega), if_neg (by omega), if_pos h2]
    rw [e, Option.map_eq_some_iff]
    constructor
    · rintro ⟨v, hv, rfl⟩
      exact ⟨(StepOne.miss (by omega)).2 rfl, (StepOne.miss (by omega)).2 rfl, (StepOne.hit h2).2 ⟨v, hv, rfl⟩, (StepOne.miss (by omega)).2 rfl, (StepOne.miss (by omega)).2 rfl⟩
    · rintro ⟨s0, s1, s2, s3, s4⟩
      obtain ⟨v, hv, e2⟩ := (StepOne.hit h2).1 s2
      refine ⟨v, hv, ?_⟩
      cases m'
      simp only [Blob.mk.injEq]
      exact ⟨((StepOne.miss (by omega)).1 s0).symm, ((StepOne.miss (by omega)).1 s1).symm, e2.symm, ((StepOne.miss (by omega)).1 s3).symm, ((StepOne.miss (by omega)).1 s4).symm⟩
  by_cases h3 : f.tag = 34
  · have e : Blob.merge m f = (f.bytes).map fun v => { m with lzmaData := some v } := by
      unfold Blob.merge
      rw [if_neg (by omega), if_neg (by omega), if_neg (by omega), if_pos h3]
    rw [e, Option.map_eq_some_iff]
    constructor
    · rintro ⟨v, hv, rfl⟩
      exact ⟨(StepOne.miss (by omega)).2 rfl, (StepOne.miss (by omega)).2 rfl, (StepOne.miss (by omega)).2 rfl, (StepOne.hit h3).2 ⟨v, hv, rfl⟩, (StepOne.miss (by omega)).2 rfl⟩
    · rintro ⟨s0, s1, s2, s3, s4⟩
      obtain ⟨v, hv, e3⟩ := (StepOne.hit h3).1 s3
      refine ⟨v, hv, ?_⟩
      cases m'
      simp only [Blob.mk.injEq]
      exact ⟨((StepOne.miss (by omega)).1 s0).symm, ((StepOne.miss (by omega)).1 s1).symm, ((StepOne.miss (by omega)).1 s2).symm, e3.symm, ((StepOne.miss (by omega)).1 s4).symm⟩
  by_cases h4 : f.tag = 42
  · have e : Blob.merge m f = (f.bytes).map fun v => { m with obsoleteBzip2Data := some v } := by
      unfold Blob.merge
      rw [if_neg (by omega), if_neg (by omega), if_neg (by omega), if_neg (by omega), if_pos h4]
    rw [e, Option.map_eq_some_iff]
    constructor
    · rintro ⟨v, hv, rfl⟩
      exact ⟨(StepOne.miss (by omega)).2 rfl, (StepOne.miss (by omega)).2 rfl, (StepOne.miss (by omega)).2 rfl, (StepOne.miss (by omega)).2 rfl, (StepOne.hit h4).2 ⟨v, hv, rfl⟩⟩
    · rintro ⟨s0, s1, s2, s3, s4⟩
      obtain ⟨v, hv, e4⟩ := (StepOne.hit h4).1 s4
      refine ⟨v, hv, ?_⟩
      cases m'
      simp only [Blob.mk.injEq]
      exact ⟨((StepOne.miss (by omega)).1 s0).symm, ((StepOne.miss (by omega)).1 s1).symm, ((StepOne.miss (by omega)).1 s2).symm, ((StepOne.miss (by omega)).1 s3).symm, e4.symm⟩
  have e : Blob.merge m f = some m := by
    unfold Blob.merge
    rw [if_neg h0, if_neg h1, if_neg h2, if_neg h3, if_neg h4]
  rw [e, Option.some_inj]
  constructor
  · rintro rfl
    exact ⟨(StepOne.miss (by omega)).2 rfl, (StepOne.miss (by omega)).2 rfl, (StepOne.miss (by omega)).2 rfl, (StepOne.miss (by omega)).2 rfl, (StepOne.miss (by omega)).2 rfl⟩
  · rintro ⟨s0, s1, s2, s3, s4⟩
    cases m'
    cases m
    simp only [Blob.mk.injEq]
    exact ⟨((StepOne.miss (by omega)).1 s0).symm, ((StepOne.miss (by omega)).1 s1).symm, ((StepOne.miss (by omega)).1 s2).symm, ((StepOne.miss (by omega)).1 s3).symm, ((StepOne.miss (by omega)).1 s4).symm⟩

theorem Blob.merge_runs (fs : List Field) : ∀ m m' : Blob, mergeAll Blob.merge m fs = some m' ↔
      Run (StepOne 10 (fun f => f.bytes)) m.raw fs m'.raw ∧
      Run (StepOne 16 (fun f => f.num asInt32)) m.rawSize fs m'.rawSize ∧
      Run (StepOne 26 (fun f => f.bytes)) m.zlibData fs m'.zlibData ∧
      Run (StepOne 34 (fun f => f.bytes)) m.lzmaData fs m'.lzmaData ∧
      Run (StepOne 42 (fun f => f.bytes)) m.obsoleteBzip2Data fs m'.obsoleteBzip2Data := by
  induction fs with
  | nil =>
    intro m m'
    simp only [mergeAll, Run, Option.some_inj]
    constructor
    · rintro rfl
      exact ⟨rfl, rfl, rfl, rfl, rfl⟩
    · rintro ⟨s0, s1, s2, s3, s4⟩
      cases m'
      cases m
      simp only [Blob.mk.injEq]
      exact ⟨s0.symm, s1.symm, s2.symm, s3.symm, s4.symm⟩
  | cons f fs ih =>
    intro m m'
    rw [mergeAll, Option.bind_eq_some_iff]
    constructor
    · rintro ⟨m1, h1, h2⟩
      obtain ⟨s0, s1, s2, s3, s4⟩ := (Blob.merge_steps m f m1).1 h1
      obtain ⟨r0, r1, r2, r3, r4⟩ := (ih m1 m').1 h2
      exact ⟨⟨_, s0, r0⟩, ⟨_, s1, r1⟩, ⟨_, s2, r2⟩, ⟨_, s3, r3⟩, ⟨_, s4, r4⟩⟩
    · rintro ⟨⟨x0, s0, r0⟩, ⟨x1, s1, r1⟩, ⟨x2, s2, r2⟩, ⟨x3, s3, r3⟩, ⟨x4, s4, r4⟩⟩
      exact ⟨{ raw := x0, rawSize := x1, zlibData := x2, lzmaData := x3, obsoleteBzip2Data := x4 }, (Blob.merge_steps _ _ _).2 ⟨s0, s1, s2, s3, s4⟩, (ih _ _).2 ⟨r0, r1, r2, r3, r4⟩⟩

theorem Blob.parse_decodes (bs : Bytes) (m : Blob) : parse Blob.merge {} bs = some m ↔ DecodesBlob bs m :=
  parse_iff (C := saysBlob) (fun fs hf m => (Blob.merge_runs fs {} m).trans (and_congr (run_one' (number := 1) bytes_iff rfl) (and_congr (run_oneNumber (number := 2) hf asInt32_iff rfl) (and_congr (run_one' (number := 3) bytes_iff rfl) (and_congr (run_one' (number := 4) bytes_iff rfl) (run_one' (number := 5) bytes_iff rfl)))))) (fun _ _ => Iff.rfl) bs m

theorem HeaderBBox.merge_steps (m : HeaderBBox) (f : Field) (m' : HeaderBBox) : HeaderBBox.merge m f = some m' ↔
      StepOne 8 (fun f => f.num zigZag64) m.left f m'.left ∧
      StepOne 16 (fun f => f.num zigZag64) m.right f m'.right ∧
      StepOne 24 (fun f => f.num zigZag64) m.top f m'.top ∧
      StepOne 32 (fun f => f.num zigZag64) m.bottom f m'.bottom := by
  by_cases h0 : f.tag = 8
  · have e : HeaderBBox.merge m f = (f.num zigZag64).map fun v => { m with left := some v } := by
      unfold HeaderBBox.merge
      rw [if_pos h0]
    rw [e, Option.map_eq_some_iff]
    constructor
    · rintro ⟨v, hv, rfl⟩
      exact ⟨(StepOne.hit h0).2 ⟨v, hv, rfl⟩, (StepOne.miss (by omega)).2 rfl, (StepOne.miss (by omega)).2 rfl, (StepOne.miss (by omega)).2 rfl⟩
    · rintro ⟨s0, s1, s2, s3⟩
      obtain ⟨v, hv, e0⟩ := (StepOne.hit h0).1 s0
      refine ⟨v, hv, ?_⟩
      cases m'
      simp only [HeaderBBox.mk.injEq]
      exact ⟨e0.symm, ((StepOne.miss (by omega)).1 s1).symm, ((StepOne.miss (by omega)).1 s2).symm, ((StepOne.miss (by omega)).1 s3).symm⟩
  by_cases h1 : f.tag = 16
  · have e : HeaderBBox.merge m f = (f.num zigZag64).map fun v => { m with right := some v } := by
      unfold HeaderBBox.merge
      rw [if_neg (by omega), if_pos h1]
    rw [e, Option.map_eq_some_iff]
    constructor
    · rintro ⟨v, hv, rfl⟩
      exact ⟨(StepOne.miss (by omega)).2 rfl, (StepOne.hit h1).2 ⟨v, hv, rfl⟩, (StepOne.miss (by omega)).2 rfl, (StepOne.miss (by omega)).2 rfl⟩
    · rintro ⟨s0, s1, s2, s3⟩
      obtain ⟨v, hv, e1⟩ := (StepOne.hit h1).1 s1
      refine ⟨v, hv, ?_⟩
      cases m'
      simp only [HeaderBBox.mk.injEq]
      exact ⟨((StepOne.miss (by omega)).1 s0).symm, e1.symm, ((StepOne.miss (by omega)).1 s2).symm, ((StepOne.miss (by omega)).1 s3).symm⟩
  by_cases h2 : f.tag = 24
  · have e : HeaderBBox.merge m f = (f.num zigZag64).map fun v => { m with top := some v } := by
      unfold HeaderBBox.merge
      rw [if_neg (by omega), if_neg (by omega), if_pos h2]
    rw [e, Option.map_eq_some_iff]
    constructor
    · rintro ⟨v, hv, rfl⟩
      exact ⟨(StepOne.miss (by omega)).2 rfl, (StepOne.miss (by omega)).2 rfl, (StepOne.hit h2).2 ⟨v, hv, rfl⟩, (StepOne.miss (by omega)).2 rfl⟩
    · rintro ⟨s0, s1, s2, s3⟩
      obtain ⟨v, hv, e2⟩ := (StepOne.hit h2).1 s2
      refine ⟨v, hv, ?_⟩
      cases m'
      simp only [HeaderBBox.mk.injEq]
      exact ⟨((StepOne.miss (by omega)).1 s0).symm, ((StepOne.miss (by omega)).1 s1).symm, e2.symm, ((StepOne.miss (by omega)).1 s3).symm⟩
  by_cases h3 : f.tag = 32
  · have e : HeaderBBox.merge m f = (f.num zigZag64).map fun v => { m with bottom := some v } := by
      unfold HeaderBBox.merge
      rw [if_neg (by omega), if_neg (by omega), if_neg (by omega), if_pos h3]
    rw [e, Option.map_eq_some_iff]
    constructor
    · rintro ⟨v, hv, rfl⟩
      exact ⟨(StepOne.miss (by omega)).2 rfl, (StepOne.miss (by omega)).2 rfl, (StepOne.miss (by omega)).2 rfl, (StepOne.hit h3).2 ⟨v, hv, rfl⟩⟩
    · rintro ⟨s0, s1, s2, s3⟩
      obtain ⟨v, hv, e3⟩ := (StepOne.hit h3).1 s3
      refine ⟨v, hv, ?_⟩
      cases m'
      simp only [HeaderBBox.mk.injEq]
      exact ⟨((StepOne.miss (by omega)).1 s0).symm, ((StepOne.miss (by omega)).1 s1).symm, ((StepOne.miss (by omega)).1 s2).symm, e3.symm⟩
  have e : HeaderBBox.merge m f = some m := by
    unfold HeaderBBox.merge
    rw [if_neg h0, if_neg h1, if_neg h2, if_neg h3]
  rw [e, Option.some_inj]
  constructor
  · rintro rfl
    exact ⟨(StepOne.miss (by omega)).2 rfl, (StepOne.miss (by omega)).2 rfl, (StepOne.miss (by omega)).2 rfl, (StepOne.miss (by omega)).2 rfl⟩
  · rintro ⟨s0, s1, s2, s3⟩
    cases m'
    cases m
    simp only [HeaderBBox.mk.injEq]
    exact ⟨((StepOne.miss (by omega)).1 s0).symm, ((StepOne.miss (by omega)).1 s1).symm, ((StepOne.miss (by omega)).1 s2).symm, ((StepOne.miss (by omega)).1 s3).symm⟩

theorem HeaderBBox.merge_runs (fs : List Field) : ∀ m m' : HeaderBBox, mergeAll HeaderBBox.merge m fs = some m' ↔
      Run (StepOne 8 (fun f => f.num zigZag64)) m.left fs m'.left ∧
      Run (StepOne 16 (fun f => f.num zigZag64)) m.right fs m'.right ∧
      Run (StepOne 24 (fun f => f.num zigZag64)) m.top fs m'.top ∧
      Run (StepOne 32 (fun f => f.num zigZag64)) m.bottom fs m'.bottom := by
  induction fs with
  | nil =>
    intro m m'
    simp only [mergeAll, Run, Option.some_inj]
    constructor
    · rintro rfl
      exact ⟨rfl, rfl, rfl, rfl⟩
    · rintro ⟨s0, s1, s2, s3⟩
      cases m'
      cases m
      simp only [HeaderBBox.mk.injEq]
      exact ⟨s0.symm, s1.symm, s2.symm, s3.symm⟩
  | cons f fs ih =>
    intro m m'
    rw [mergeAll, Option.bind_eq_some_iff]
    constructor
    · rintro ⟨m1, h1, h2⟩
      obtain ⟨s0, s1, s2, s3⟩ := (HeaderBBox.merge_steps m f m1).1 h1
      obtain ⟨r0, r1, r2, r3⟩ := (ih m1 m').1 h2
      exact ⟨⟨_, s0, r0⟩, ⟨_, s1, r1⟩, ⟨_, s2, r2⟩, ⟨_, s3, r3⟩⟩
    · rintro ⟨⟨x0, s0, r0⟩, ⟨x1, s1, r1⟩, ⟨x2, s2, r2⟩, ⟨x3, s3, r3⟩⟩
      exact ⟨{ left := x0, right := x1, top := x2, bottom := x3 }, (HeaderBBox.merge_steps _ _ _).2 ⟨s0, s1, s2, s3⟩, (ih _ _).2 ⟨r0, r1, r2, r3⟩⟩

theorem HeaderBBox.parse_decodes (bs : Bytes) (m : HeaderBBox) : parse HeaderBBox.merge {} bs = some m ↔ DecodesHeaderBBox bs m :=
  parse_iff (C := saysHeaderBBox) (fun fs hf m => (HeaderBBox.merge_runs fs {} m).trans (and_congr (run_oneNumber (number := 1) hf zigZag64_iff rfl) (and_congr (run_oneNumber (number := 2) hf zigZag64_iff rfl) (and_congr (run_oneNumber (number := 3) hf zigZag64_iff rfl) (run_oneNumber (number := 4) hf zigZag64_iff rfl))))) (fun _ _ => Iff.rfl) bs m

theorem HeaderBlock.merge_steps (m : HeaderBlock) (f : Field) (m' : HeaderBlock) : HeaderBlock.merge m f = some m' ↔
      StepOne 10 (fun f => f.message HeaderBBox.merge {}) m.bbox f m'.bbox ∧
      StepMany 34 (fun f => (f.string).map fun v => [v]) m.requiredFeatures f m'.requiredFeatures ∧
      StepMany 42 (fun f => (f.string).map fun v => [v]) m.optionalFeatures f m'.optionalFeatures ∧
      StepOne 130 (fun f => f.string) m.writingprogram f m'.writingprogram ∧
      StepOne 138 (fun f => f.string) m.source f m'.source ∧
      StepOne 256 (fun f => f.num asInt64) m.osmosisReplicationTimestamp f m'.osmosisReplicationTimestamp ∧
      StepOne 264 (fun f => f.num asInt64) m.osmosisReplicationSequenceNumber f m'.osmosisReplicationSequenceNumber ∧
      StepOne 274 (fun f => f.string) m.osmosisReplicationBaseUrl f m'.osmosisReplicationBaseUrl := by
  by_cases h0 : f.tag = 10
  · have e : HeaderBlock.merge m f = (f.message HeaderBBox.merge {}).map fun v => { m with bbox := some v } := by
      unfold HeaderBlock.merge
      rw [if_pos h0]
    rw [e, Option.map_eq_some_iff]
    constructor
    · rintro ⟨v, hv, rfl⟩
      exact ⟨(StepOne.hit h0).2 ⟨v, hv, rfl⟩, (StepMany.miss (by omega)).2 rfl, (StepMany.miss (by omega)).2 rfl, (StepOne.miss (by omega)).2 rfl, (StepOne.miss (by omega)).2 rfl, (StepOne.miss (by omega)).2 rfl, (StepOne.miss (by omega)).2 rfl, (StepOne.miss (by omega)).2 rfl⟩
    · rintro ⟨s0, s1, s2, s3, s4, s5, s6, s7⟩
      obtain ⟨v, hv, e0⟩ := (StepOne.hit h0).1 s0
      refine ⟨v, hv, ?_⟩
      cases m'
      simp only [HeaderBlock.mk.injEq]
      exact ⟨e0.symm, ((StepMany.miss (by omega)).1 s1).symm, ((StepMany.miss (by omega)).1 s2).symm, ((StepOne.miss (by omega)).1 s3).symm, ((StepOne.miss (by omega)).1 s4).symm, ((StepOne.miss (by omega)).1 s5).symm, ((StepOne.miss (by omega)).1 s6).symm, ((StepOne.miss (by omega)).1 s7).symm⟩
  by_cases h1 : f.tag = 34
  · have e : HeaderBlock.merge m f = (f.string).map fun v => { m with requiredFeatures := m.requiredFeatures ++ [v] } := by
      unfold HeaderBlock.merge
      rw [if_neg (by omega), if_pos h1]
    rw [e, Option.map_eq_some_iff]
    constructor
    · rintro ⟨v, hv, rfl⟩
      exact ⟨(StepOne.miss (by omega)).2 rfl, (StepMany.hit h1).2 ⟨[v], Option.map_eq_some_iff.2 ⟨v, hv, rfl⟩, rfl⟩, (StepMany.miss (by omega)).2 rfl, (StepOne.miss (by omega)).2 rfl, (StepOne.miss (by omega)).2 rfl, (StepOne.miss (by omega)).2 rfl, (StepOne.miss (by omega)).2 rfl, (StepOne.miss (by omega)).2 rfl⟩
    · rintro ⟨s0, s1, s2, s3, s4, s5, s6, s7⟩
      obtain ⟨_, hw, e1⟩ := (StepMany.hit h1).1 s1
      obtain ⟨v, hv, rfl⟩ := Option.map_eq_some_iff.1 hw
      refine ⟨v, hv, ?_⟩
      cases m'
      simp only [HeaderBlock.mk.injEq]
      exact ⟨((StepOne.miss (by omega)).1 s0).symm, e1.symm, ((StepMany.miss (by omega)).1 s2).symm, ((StepOne.miss (by omega)).1 s3).symm, ((StepOne.miss (by omega)).1 s4).symm, ((StepOne.miss (by omega)).1 s5).symm, ((StepOne.miss (by omega)).1 s6).symm, ((StepOne.miss (by omega)).1 s7).symm⟩
  by_cases h2 : f.tag = 42
  · have e : HeaderBlock.merge m f = (f.string).map fun v => { m with optionalFeatures := m.optionalFeatures ++ [v] } := by
      unfold HeaderBlock.merge
      rw [if_neg (by omega), if_neg (by omega), if_pos h2]
    rw [e, Option.map_eq_some_iff]
    constructor
    · rintro ⟨v, hv, rfl⟩
      exact ⟨(StepOne.miss (by omega)).2 rfl, (StepMany.miss (by omega)).2 rfl, (StepMany.hit h2).2 ⟨[v], Option.map_eq_some_iff.2 ⟨v, hv, rfl⟩, rfl⟩, (StepOne.miss (by omega)).2 rfl, (StepOne.miss (by omega)).2 rfl, (StepOne.miss (by omega)).2 rfl, (StepOne.miss (by omega)).2 rfl, (StepOne.miss (by omega)).2 rfl⟩
    · rintro ⟨s0, s1, s2, s3, s4, s5, s6, s7⟩
      obtain ⟨_, hw, e2⟩ := (StepMany.hit h2).1 s2
      obtain ⟨v, hv, rfl⟩ := Option.map_eq_some_iff.1 hw
      refine ⟨v, hv, ?_⟩
      cases m'
      simp only [HeaderBlock.mk.injEq]
      exact ⟨((StepOne.miss (by omega)).1 s0).symm, ((StepMany.miss (by omega)).1 s1).symm, e2.symm, ((StepOne.miss (by omega)).1 s3).symm, ((StepOne.miss (by omega)).1 s4).symm, ((StepOne.miss (by omega)).1 s5).symm, ((StepOne.miss (by omega)).1 s6).symm, ((StepOne.miss (by omega)).1 s7).symm⟩
  by_cases h3 : f.tag = 130
  · have e : HeaderBlock.merge m f = (f.string).map fun v => { m with writingprogram := some v } := by
      unfold HeaderBlock.merge
      rw [if_neg (by omega), if_neg (by omega), if_neg (by omega), if_pos h3]
    rw [e, Option.map_eq_some_iff]
    constructor
    · rintro ⟨v, hv, rfl⟩
      exact ⟨(StepOne.miss (by omega)).2 rfl, (StepMany.miss (by omega)).2 rfl, (StepMany.miss (by omega)).2 rfl, (StepOne.hit h3).2 ⟨v, hv, rfl⟩, (StepOne.miss (by omega)).2 rfl, (StepOne.miss (by omega)).2 rfl, (StepOne.miss (by omega)).2 rfl, (StepOne.miss (by omega)).2 rfl⟩
    · rintro ⟨s0, s1, s2, s3, s4, s5, s6, s7⟩
      obtain ⟨v, hv, e3⟩ := (StepOne.hit h3).1 s3
      refine ⟨v, hv, ?_⟩
      cases m'
      simp only [HeaderBlock.mk.injEq]
      exact ⟨((StepOne.miss (by omega)).1 s0).symm, ((StepMany.miss (by omega)).1 s1).symm, ((StepMany.miss (by omega)).1 s2).symm, e3.symm, ((StepOne.miss (by omega)).1 s4).symm, ((StepOne.miss (by omega)).1 s5).symm, ((StepOne.miss (by omega)).1 s6).symm, ((StepOne.miss (by omega)).1 s7).symm⟩
  by_cases h4 : f.tag = 138
  · have e : HeaderBlock.merge m f = (f.string).map fun v => { m with source := some v } := by
      unfold HeaderBlock.merge
      rw [if_neg (by omega), if_neg (by omega), if_neg (by omega), if_neg (by omega), if_pos h4]
    rw [e, Option.map_eq_some_iff]
    constructor
    · rintro ⟨v, hv, rfl⟩
      exact ⟨(StepOne.miss (by omega)).2 rfl, (StepMany.miss (by omega)).2 rfl, (StepMany.miss (by omega)).2 rfl, (StepOne.miss (by omega)).2 rfl, (StepOne.hit h4).2 ⟨v, hv, rfl⟩, (StepOne.miss (by omega)).2 rfl, (StepOne.miss (by omega)).2 rfl, (StepOne.miss (by omega)).2 rfl⟩
    · rintro ⟨s0, s1, s2, s3, s4, s5, s6, s7⟩
      obtain ⟨v, hv, e4⟩ := (StepOne.hit h4).1 s4
      refine ⟨v, hv, ?_⟩
      cases m'
      simp only [HeaderBlock.mk.injEq]
      exact ⟨((StepOne.miss (by omega)).1 s0).symm, ((StepMany.miss (by omega)).1 s1).symm, ((StepMany.miss (by omega)).1 s2).symm, ((StepOne.miss (by omega)).1 s3).symm, e4.symm, ((StepOne.miss (by omega)).1 s5).symm, ((StepOne.miss (by omega)).1 s6).symm, ((StepOne.miss (by omega)).1 s7).symm⟩
  by_cases h5 : f.tag = 256
  · have e : HeaderBlock.merge m f = (f.num asInt64).map fun v => { m with osmosisReplicationTimestamp := some v } := by
      unfold HeaderBlock.merge
      rw [if_neg (by omega), if_neg (by omega), if_neg (by omega), if_neg (by omega), if_neg (by omega), if_pos h5]
    rw [e, Option.map_eq_some_iff]
    constructor
    · rintro ⟨v, hv, rfl⟩
      exact ⟨(StepOne.miss (by omega)).2 rfl, (StepMany.miss (by omega)).2 rfl, (StepMany.miss (by omega)).2 rfl, (StepOne.miss (by omega)).2 rfl, (StepOne.miss (by omega)).2 rfl, (StepOne.hit h5).2 ⟨v, hv, rfl⟩, (StepOne.miss (by omega)).2 rfl, (StepOne.miss (by omega)).2 rfl⟩
    · rintro ⟨s0, s1, s2, s3, s4, s5, s6, s7⟩
      obtain ⟨v, hv, e5⟩ := (StepOne.hit h5).1 s5
      refine ⟨v, hv, ?_⟩
      cases m'
      simp only [HeaderBlock.mk.injEq]
      exact ⟨((StepOne.miss (by omega)).1 s0).symm, ((StepMany.miss (by omega)).1 s1).symm, ((StepMany.miss (by omega)).1 s2).symm, ((StepOne.miss (by omega)).1 s3).symm, ((StepOne.miss (by omega)).1 s4).symm, e5.symm, ((StepOne.miss (by omega)).1 s6).symm, ((StepOne.miss (by omega)).1 s7).symm⟩
  by_cases h6 : f.tag = 264
  · have e : HeaderBlock.merge m f = (f.num asInt64).map fun v => { m with osmosisReplicationSequenceNumber := some v } := by
      unfold HeaderBlock.merge
      rw [if_neg (by omega), if_neg (by omega), if_neg (by omega), if_neg (by omega), if_neg (by omega), if_neg (by omega), if_pos h6]
    rw [e, Option.map_eq_some_iff]
    constructor
    · rintro ⟨v, hv, rfl⟩
      exact ⟨(StepOne.miss (by omega)).2 rfl, (StepMany.miss (by omega)).2 rfl, (StepMany.miss (by omega)).2 rfl, (StepOne.miss (by omega)).2 rfl, (StepOne.miss (by omega)).2 rfl, (StepOne.miss (by omega)).2 rfl, (StepOne.hit h6).2 ⟨v, hv, rfl⟩, (StepOne.miss (by omega)).2 rfl⟩
    · rintro ⟨s0, s1, s2, s3, s4, s5, s6, s7⟩
      obtain ⟨v, hv, e6⟩ := (StepOne.hit h6).1 s6
      refine ⟨v, hv, ?_⟩
      cases m'
      simp only [HeaderBlock.mk.injEq]
      exact ⟨((StepOne.miss (by omega)).1 s0).symm, ((StepMany.miss (by omega)).1 s1).symm, ((StepMany.miss (by omega)).1 s2).symm, ((StepOne.miss (by omega)).1 s3).symm, ((StepOne.miss (by omega)).1 s4).symm, ((StepOne.miss (by omega)).1 s5).symm, e6.symm, ((StepOne.miss (by omega)).1 s7).symm⟩
  by_cases h7 : f.tag = 274
  · have e : HeaderBlock.merge m f = (f.string).map fun v => { m with osmosisReplicationBaseUrl := some v } := by
      unfold HeaderBlock.merge
      rw [if_neg (by omega), if_neg (by omega), if_neg (by omega), if_neg (by omega), if_neg (by omega), if_neg (by omega), if_neg (by omega), if_pos h7]
    rw [e, Option.map_eq_some_iff]
    constructor
    · rintro ⟨v, hv, rfl⟩
      exact ⟨(StepOne.miss (by omega)).2 rfl, (StepMany.miss (by omega)).2 rfl, (StepMany.miss (by omega)).2 rfl, (StepOne.miss (by omega)).2 rfl, (StepOne.miss (by omega)).2 rfl, (StepOne.miss (by omega)).2 rfl, (StepOne.miss (by omega)).2 rfl, (StepOne.hit h7).2 ⟨v, hv, rfl⟩⟩
    · rintro ⟨s0, s1, s2, s3, s4, s5, s6, s7⟩
      obtain ⟨v, hv, e7⟩ := (StepOne.hit h7).1 s7
      refine ⟨v, hv, ?_⟩
      cases m'
      simp only [HeaderBlock.mk.injEq]
      exact ⟨((StepOne.miss (by omega)).1 s0).symm, ((StepMany.miss (by omega)).1 s1).symm, ((StepMany.miss (by omega)).1 s2).symm, ((StepOne.miss (by omega)).1 s3).symm, ((StepOne.miss (by omega)).1 s4).symm, ((StepOne.miss (by omega)).1 s5).symm, ((StepOne.miss (by omega)).1 s6).symm, e7.symm⟩
  have e : HeaderBlock.merge m f = some m := by
    unfold HeaderBlock.merge
    rw [if_neg h0, if_neg h1, if_neg h2, if_neg h3, if_neg h4, if_neg h5, if_neg h6, if_neg h7]
  rw [e, Option.some_inj]
  constructor
  · rintro rfl
    exact ⟨(StepOne.miss (by omega)).2 rfl, (StepMany.miss (by omega)).2 rfl, (StepMany.miss (by omega)).2 rfl, (StepOne.miss (by omega)).2 rfl, (StepOne.miss (by omega)).2 rfl, (StepOne.miss (by omega)).2 rfl, (StepOne.miss (by omega)).2 rfl, (StepOne.miss (by omega)).2 rfl⟩
  · rintro ⟨s0, s1, s2, s3, s4, s5, s6, s7⟩
    cases m'
    cases m
    simp only [HeaderBlock.mk.injEq]
    exact ⟨((StepOne.miss (by omega)).1 s0).symm, ((StepMany.miss (by omega)).1 s1).symm, ((StepMany.miss (by omega)).1 s2).symm, ((StepOne.miss (by omega)).1 s3).symm, ((StepOne.miss (by omega)).1 s4).symm, ((StepOne.miss (by omega)).1 s5).symm, ((StepOne.miss (by omega)).1 s6).symm, ((StepOne.miss (by omega)).1 s7).symm⟩

theorem HeaderBlock.merge_runs (fs : List Field) : ∀ m m' : HeaderBlock, mergeAll HeaderBlock.merge m fs = some m' ↔
      Run (StepOne 10 (fun f => f.message HeaderBBox.merge {})) m.bbox fs m'.bbox ∧
      Run (StepMany 34 (fun f => (f.string).map fun v => [v])) m.requiredFeatures fs m'.requiredFeatures ∧
      Run (StepMany 42 (fun f => (f.string).map fun v => [v])) m.optionalFeatures fs m'.optionalFeatures ∧
      Run (StepOne 130 (fun f => f.string)) m.writingprogram fs m'.writingprogram ∧
      Run (StepOne 138 (fun f => f.string)) m.source fs m'.source ∧
      Run (StepOne 256 (fun f => f.num asInt64)) m.osmosisReplicationTimestamp fs m'.osmosisReplicationTimestamp ∧
      Run (StepOne 264 (fun f => f.num asInt64)) m.osmosisReplicationSequenceNumber fs m'.osmosisReplicationSequenceNumber ∧
      Run (StepOne 274 (fun f => f.string)) m.osmosisReplicationBaseUrl fs m'.osmosisReplicationBaseUrl := by
  induction fs with
  | nil =>
    intro m m'
    simp only [mergeAll, Run, Option.some_inj]
    constructor
    · rintro rfl
      exact ⟨rfl, rfl, rfl, rfl, rfl, rfl, rfl, rfl⟩
    · rintro ⟨s0, s1, s2, s3, s4, s5, s6, s7⟩
      cases m'
      cases m
      simp only [HeaderBlock.mk.injEq]
      exact ⟨s0.symm, s1.symm, s2.symm, s3.symm, s4.symm, s5.symm, s6.symm, s7.symm⟩
  | cons f fs ih =>
    intro m m'
    rw [mergeAll, Option.bind_eq_some_iff]
    constructor
    · rintro ⟨m1, h1, h2⟩
      obtain ⟨s0, s1, s2, s3, s4, s5, s6, s7⟩ := (HeaderBlock.merge_steps m f m1).1 h1
      obtain ⟨r0, r1, r2, r3, r4, r5, r6, r7⟩ := (ih m1 m').1 h2
      exact ⟨⟨_, s0, r0⟩, ⟨_, s1, r1⟩, ⟨_, s2, r2⟩, ⟨_, s3, r3⟩, ⟨_, s4, r4⟩, ⟨_, s5, r5⟩, ⟨_, s6, r6⟩, ⟨_, s7, r7⟩⟩
    · rintro ⟨⟨x0, s0, r0⟩, ⟨x1, s1, r1⟩, ⟨x2, s2, r2⟩, ⟨x3, s3, r3⟩, ⟨x4, s4, r4⟩, ⟨x5, s5, r5⟩, ⟨x6, s6, r6⟩, ⟨x7, s7, r7⟩⟩
      exact ⟨{ bbox := x0, requiredFeatures := x1, optionalFeatures := x2, writingprogram := x3, source := x4, osmosisReplicationTimestamp := x5, osmosisReplicationSequenceNumber := x6, osmosisReplicationBaseUrl := x7 }, (HeaderBlock.merge_steps _ _ _).2 ⟨s0, s1, s2, s3, s4, s5, s6, s7⟩, (ih _ _).2 ⟨r0, r1, r2, r3, r4, r5, r6, r7⟩⟩

theorem HeaderBlock.parse_decodes (bs : Bytes) (m : HeaderBlock) : parse HeaderBlock.merge {} bs = some m ↔ DecodesHeaderBlock bs m :=
  parse_iff (C := saysHeaderBlock) (fun fs hf m => (HeaderBlock.merge_runs fs {} m).trans (and_congr (run_one' (number := 1) (message_iff HeaderBBox.parse_decodes) rfl) (and_congr (run_many' (number := 4) string_iff rfl) (and_congr (run_many' (number := 5) string_iff rfl) (and_congr (run_one' (number := 16) string_iff rfl) (and_congr (run_one' (number := 17) string_iff rfl) (and_congr (run_oneNumber (number := 32) hf asInt64_iff rfl) (and_congr (run_oneNumber (number := 33) hf asInt64_iff rfl) (run_one' (number := 34) string_iff rfl))))))))) (fun _ _ => Iff.rfl) bs m

theorem StringTable.merge_steps (m : StringTable) (f : Field) (m' : StringTable) : StringTable.merge m f = some m' ↔
      StepMany 10 (fun f => (f.bytes).map fun v => [v]) m.s f m'.s := by
  by_cases h0 : f.tag = 10
  · have e : StringTable.merge m f = (f.bytes).map fun v => { m with s := m.s ++ [v] } := by
      unfold StringTable.merge
      rw [if_pos h0]
    rw [e, Option.map_eq_some_iff]
    constructor
    · rintro ⟨v, hv, rfl⟩
      exact (StepMany.hit h0).2 ⟨[v], Option.map_eq_some_iff.2 ⟨v, hv, rfl⟩, rfl⟩
    · rintro s0
      obtain ⟨_, hw, e0⟩ := (StepMany.hit h0).1 s0
      obtain ⟨v, hv, rfl⟩ := Option.map_eq_some_iff.1 hw
      refine ⟨v, hv, ?_⟩
      cases m'
      simp only [StringTable.mk.injEq]
      exact e0.symm
  have e : StringTable.merge m f = some m := by
    unfold StringTable.merge
    rw [if_neg h0]
  rw [e, Option.some_inj]
  constructor
  · rintro rfl
    exact (StepMany.miss (by omega)).2 rfl
  · rintro s0
    cases m'
    cases m
    simp only [StringTable.mk.injEq]
    exact ((StepMany.miss (by omega)).1 s0).symm

theorem StringTable.merge_runs (fs : List Field) : ∀ m m' : StringTable, mergeAll StringTable.merge m fs = some m' ↔
      Run (StepMany 10 (fun f => (f.bytes).map fun v => [v])) m.s fs m'.s := by
  induction fs with
  | nil =>
    intro m m'
    simp only [mergeAll, Run, Option.some_inj]
    constructor
    · rintro rfl
      exact rfl
    · rintro s0
      cases m'
      cases m
      simp only [StringTable.mk.injEq]
      exact s0.symm
  | cons f fs ih =>
    intro m m'
    rw [mergeAll, Option.bind_eq_some_iff]
    constructor
    · rintro ⟨m1, h1, h2⟩
      have s0 := (StringTable.merge_steps m f m1).1 h1
      have r0 := (ih m1 m').1 h2
      exact ⟨_, s0, r0⟩
    · rintro ⟨x0, s0, r0⟩
      exact ⟨{ s := x0 }, (StringTable.merge_steps _ _ _).2 s0, (ih _ _).2 r0⟩

theorem StringTable.parse_decodes (bs : Bytes) (m : StringTable) : parse StringTable.merge {} bs = some m ↔ DecodesStringTable bs m :=
  parse_iff (C := saysStringTable) (fun fs hf m => (StringTable.merge_runs fs {} m).trans (run_many' (number := 1) bytes_iff rfl)) (fun _ _ => Iff.rfl) bs m

theorem Info.merge_steps (m : Info) (f : Field) (m' : Info) : Info.merge m f = some m' ↔
      StepOne 8 (fun f => f.num asInt32) m.version f m'.version ∧
      StepOne 16 (fun f => f.num asInt64) m.timestamp f m'.timestamp ∧
      StepOne 24 (fun f => f.num asInt64) m.changeset f m'.changeset ∧
      StepOne 32 (fun f => f.num asInt32) m.uid f m'.uid ∧
      StepOne 40 (fun f => f.num asUInt32) m.userSid f m'.userSid ∧
      StepOne 48 (fun f => f.num asBool) m.visible f m'.visible := by
  by_cases h0 : f.tag = 8
  · have e : Info.merge m f = (f.num asInt32).map fun v => { m with version := some v } := by
      unfold Info.merge
      rw [if_pos h0]
    rw [e, Option.map_eq_some_iff]
    constructor
    · rintro ⟨v, hv, rfl⟩
      exact ⟨(StepOne.hit h0).2 ⟨v, hv, rfl⟩, (StepOne.miss (by omega)).2 rfl, (StepOne.miss (by omega)).2 rfl, (StepOne.miss (by omega)).2 rfl, (StepOne.miss (by omega)).2 rfl, (StepOne.miss (by omega)).2 rfl⟩
    · rintro ⟨s0, s1, s2, s3, s4, s5⟩
      obtain ⟨v, hv, e0⟩ := (StepOne.hit h0).1 s0
      refine ⟨v, hv, ?_⟩
      cases m'
      simp only [Info.mk.injEq]
      exact ⟨e0.symm, ((StepOne.miss (by omega)).1 s1).symm, ((StepOne.miss (by omega)).1 s2).symm, ((StepOne.miss (by omega)).1 s3).symm, ((StepOne.miss (by omega)).1 s4).symm, ((StepOne.miss (by omega)).1 s5).symm⟩
  by_cases h1 : f.tag = 16
  · have e : Info.merge m f = (f.num asInt64).map fun v => { m with timestamp := some v } := by
      unfold Info.merge
      rw [if_neg (by omega), if_pos h1]
    rw [e, Option.map_eq_some_iff]
    constructor
    · rintro ⟨v, hv, rfl⟩
      exact ⟨(StepOne.miss (by omega)).2 rfl, (StepOne.hit h1).2 ⟨v, hv, rfl⟩, (StepOne.miss (by omega)).2 rfl, (StepOne.miss (by omega)).2 rfl, (StepOne.miss (by omega)).2 rfl, (StepOne.miss (by omega)).2 rfl⟩
    · rintro ⟨s0, s1, s2, s3, s4, s5⟩
      obtain ⟨v, hv, e1⟩ := (StepOne.hit h1).1 s1
      refine ⟨v, hv, ?_⟩
      cases m'
      simp only [Info.mk.injEq]
      exact ⟨((StepOne.miss (by omega)).1 s0).symm, e1.symm, ((StepOne.miss (by omega)).1 s2).symm, ((StepOne.miss (by omega)).1 s3).symm, ((StepOne.miss (by omega)).1 s4).symm, ((StepOne.miss (by omega)).1 s5).symm⟩
  by_cases h2 : f.tag = 24
  · have e : Info.merge m f = (f.num asInt64).map fun v => { m with changeset := some v } := by
      unfold Info.merge
      rw [if_neg (by omega), if_neg (by omega), if_pos h2]
    rw [e, Option.map_eq_some_iff]
    constructor
    · rintro ⟨v, hv, rfl⟩
      exact ⟨(StepOne.miss (by omega)).2 rfl, (StepOne.miss (by omega)).2 rfl, (StepOne.hit h2).2 ⟨v, hv, rfl⟩, (StepOne.miss (by omega)).2 rfl, (StepOne.miss (by omega)).2 rfl, (StepOne.miss (by omega)).2 rfl⟩
    · rintro ⟨s0, s1, s2, s3, s4, s5⟩
      obtain ⟨v, hv, e2⟩ := (StepOne.hit h2).1 s2
      refine ⟨v, hv, ?_⟩
      cases m'
      simp only [Info.mk.injEq]
      exact ⟨((StepOne.miss (by omega)).1 s0).symm, ((StepOne.miss (by omega)).1 s1).symm, e2.symm, ((StepOne.miss (by omega)).1 s3).symm, ((StepOne.miss (by omega)).1 s4).symm, ((StepOne.miss (by omega)).1 s5).symm⟩
  by_cases h3 : f.tag = 32
  · have e : Info.merge m f = (f.num asInt32).map fun v => { m with uid := some v } := by
      unfold Info.merge
      rw [if_neg (by omega), if_neg (by omega), if_neg (by omega), if_pos h3]
    rw [e, Option.map_eq_some_iff]
    constructor
    · rintro ⟨v, hv, rfl⟩
      exact ⟨(StepOne.miss (by omega)).2 rfl, (StepOne.miss (by omega)).2 rfl, (StepOne.miss (by omega)).2 rfl, (StepOne.hit h3).2 ⟨v, hv, rfl⟩, (StepOne.miss (by omega)).2 rfl, (StepOne.miss (by omega)).2 rfl⟩
    · rintro ⟨s0, s1, s2, s3, s4, s5⟩
      obtain ⟨v, hv, e3⟩ := (StepOne.hit h3).1 s3
      refine ⟨v, hv, ?_⟩
      cases m'
      simp only [Info.mk.injEq]
      exact ⟨((StepOne.miss (by omega)).1 s0).symm, ((StepOne.miss (by omega)).1 s1).symm, ((StepOne.miss (by omega)).1 s2).symm, e3.symm, ((StepOne.miss (by omega)).1 s4).symm, ((StepOne.miss (by omega)).1 s5).symm⟩
  by_cases h4 : f.tag = 40
  · have e : Info.merge m f = (f.num asUInt32).map fun v => { m with userSid := some v } := by
      unfold Info.merge
      rw [if_neg (by omega), if_neg (by omega), if_neg (by omega), if_neg (by omega), if_pos h4]
    rw [e, Option.map_eq_some_iff]
    constructor
    · rintro ⟨v, hv, rfl⟩
      exact ⟨(StepOne.miss (by omega)).2 rfl, (StepOne.miss (by omega)).2 rfl, (StepOne.miss (by omega)).2 rfl, (StepOne.miss (by omega)).2 rfl, (StepOne.hit h4).2 ⟨v, hv, rfl⟩, (StepOne.miss (by omega)).2 rfl⟩
    · rintro ⟨s0, s1, s2, s3, s4, s5⟩
      obtain ⟨v, hv, e4⟩ := (StepOne.hit h4).1 s4
      refine ⟨v, hv, ?_⟩
      cases m'
      simp only [Info.mk.injEq]
      exact ⟨((StepOne.miss (by omega)).1 s0).symm, ((StepOne.miss (by omega)).1 s1).symm, ((StepOne.miss (by omega)).1 s2).symm, ((StepOne.miss (by omega)).1 s3).symm, e4.symm, ((StepOne.miss (by omega)).1 s5).symm⟩
  by_cases h5 : f.tag = 48
  · have e : Info.merge m f = (f.num asBool).map fun v => { m with visible := some v } := by
      unfold Info.merge
      rw [if_neg (by omega), if_neg (by omega), if_neg (by omega), if_neg (by omega), if_neg (by omega), if_pos h5]
    rw [e, Option.map_eq_some_iff]
    constructor
    · rintro ⟨v, hv, rfl⟩
      exact ⟨(StepOne.miss (by omega)).2 rfl, (StepOne.miss (by omega)).2 rfl, (StepOne.miss (by omega)).2 rfl, (StepOne.miss (by omega)).2 rfl, (StepOne.miss (by omega)).2 rfl, (StepOne.hit h5).2 ⟨v, hv, rfl⟩⟩
    · rintro ⟨s0, s1, s2, s3, s4, s5⟩
      obtain ⟨v, hv, e5⟩ := (StepOne.hit h5).1 s5
      refine ⟨v, hv, ?_⟩
      cases m'
      simp only [Info.mk.injEq]
      exact ⟨((StepOne.miss (by omega)).1 s0).symm, ((StepOne.miss (by omega)).1 s1).symm, ((StepOne.miss (by omega)).1 s2).symm, ((StepOne.miss (by omega)).1 s3).symm, ((StepOne.miss (by omega)).1 s4).symm, e5.symm⟩
  have e : Info.merge m f = some m := by
    unfold Info.merge
    rw [if_neg h0, if_neg h1, if_neg h2, if_neg h3, if_neg h4, if_neg h5]
  rw [e, Option.some_inj]
  constructor
  · rintro rfl
    exact ⟨(StepOne.miss (by omega)).2 rfl, (StepOne.miss (by omega)).2 rfl, (StepOne.miss (by omega)).2 rfl, (StepOne.miss (by omega)).2 rfl, (StepOne.miss (by omega)).2 rfl, (StepOne.miss (by omega)).2 rfl⟩
  · rintro ⟨s0, s1, s2, s3, s4, s5⟩
    cases m'
    cases m
    simp only [Info.mk.injEq]
    exact ⟨((StepOne.miss (by omega)).1 s0).symm, ((StepOne.miss (by omega)).1 s1).symm, ((StepOne.miss (by omega)).1 s2).symm, ((StepOne.miss (by omega)).1 s3).symm, ((StepOne.miss (by omega)).1 s4).symm, ((StepOne.miss (by omega)).1 s5).symm⟩

theorem Info.merge_runs (fs : List Field) : ∀ m m' : Info, mergeAll Info.merge m fs = some m' ↔
      Run (StepOne 8 (fun f => f.num asInt32)) m.version fs m'.version ∧
      Run (StepOne 16 (fun f => f.num asInt64)) m.timestamp fs m'.timestamp ∧
      Run (StepOne 24 (fun f => f.num asInt64)) m.changeset fs m'.changeset ∧
      Run (StepOne 32 (fun f => f.num asInt32)) m.uid fs m'.uid ∧
      Run (StepOne 40 (fun f => f.num asUInt32)) m.userSid fs m'.userSid ∧
      Run (StepOne 48 (fun f => f.num asBool)) m.visible fs m'.visible := by
  induction fs with
  | nil =>
    intro m m'
    simp only [mergeAll, Run, Option.some_inj]
    constructor
    · rintro rfl
      exact ⟨rfl, rfl, rfl, rfl, rfl, rfl⟩
    · rintro ⟨s0, s1, s2, s3, s4, s5⟩
      cases m'
      cases m
      simp only [Info.mk.injEq]
      exact ⟨s0.symm, s1.symm, s2.symm, s3.symm, s4.symm, s5.symm⟩
  | cons f fs ih =>
    intro m m'
    rw [mergeAll, Option.bind_eq_some_iff]
    constructor
    · rintro ⟨m1, h1, h2⟩
      obtain ⟨s0, s1, s2, s3, s4, s5⟩ := (Info.merge_steps m f m1).1 h1
      obtain ⟨r0, r1, r2, r3, r4, r5⟩ := (ih m1 m').1 h2
      exact ⟨⟨_, s0, r0⟩, ⟨_, s1, r1⟩, ⟨_, s2, r2⟩, ⟨_, s3, r3⟩, ⟨_, s4, r4⟩, ⟨_, s5, r5⟩⟩
    · rintro ⟨⟨x0, s0, r0⟩, ⟨x1, s1, r1⟩, ⟨x2, s2, r2⟩, ⟨x3, s3, r3⟩, ⟨x4, s4, r4⟩, ⟨x5, s5, r5⟩⟩
      exact ⟨{ version := x0, timestamp := x1, changeset := x2, uid := x3, userSid := x4, visible := x5 }, (Info.merge_steps _ _ _).2 ⟨s0, s1, s2, s3, s4, s5⟩, (ih _ _).2 ⟨r0, r1, r2, r3, r4, r5⟩⟩

theorem Info.parse_decodes (bs : Bytes) (m : Info) : parse Info.merge {} bs = some m ↔ DecodesInfo bs m :=
  parse_iff (C := saysInfo) (fun fs hf m => (Info.merge_runs fs {} m).trans (and_congr (run_oneNumber (number := 1) hf asInt32_iff rfl) (and_congr (run_oneNumber (number := 2) hf asInt64_iff rfl) (and_congr (run_oneNumber (number := 3) hf asInt64_iff rfl) (and_congr (run_oneNumber (number := 4) hf asInt32_iff rfl) (and_congr (run_oneNumber (number := 5) hf (fun _ => asUInt32_iff _) rfl) (run_oneNumber (number := 6) hf (fun _ => asBool_iff _) rfl))))))) (fun _ _ => Iff.rfl) bs m

theorem Node.merge_steps (m : Node) (f : Field) (m' : Node) : Node.merge m f = some m' ↔
      StepOne 8 (fun f => f.num zigZag64) m.id f m'.id ∧
      StepPack 18 16 (fun f => f.packed asUInt32) (fun f => (f.num asUInt32).map fun v => [v]) m.keys f m'.keys ∧
      StepPack 26 24 (fun f => f.packed asUInt32) (fun f => (f.num asUInt32).map fun v => [v]) m.vals f m'.vals ∧
      StepOne 34 (fun f => f.message Info.merge {}) m.info f m'.info ∧
      StepOne 64 (fun f => f.num zigZag64) m.lat f m'.lat ∧
      StepOne 72 (fun f => f.num zigZag64) m.lon f m'.lon := by
  by_cases h0 : f.tag = 8
  · have e : Node.merge m f = (f.num zigZag64).map fun v => { m with id := some v } := by
      unfold Node.merge
      rw [if_pos h0]
    rw [e, Option.map_eq_some_iff]
    constructor
    · rintro ⟨v, hv, rfl⟩
      exact ⟨(StepOne.hit h0).2 ⟨v, hv, rfl⟩, (StepPack.miss (by omega) (by omega)).2 rfl, (StepPack.miss (by omega) (by omega)).2 rfl, (StepOne.miss (by omega)).2 rfl, (StepOne.miss (by omega)).2 rfl, (StepOne.miss (by omega)).2 rfl⟩
    · rintro ⟨s0, s1, s2, s3, s4, s5⟩
      obtain ⟨v, hv, e0⟩ := (StepOne.hit h0).1 s0
      refine ⟨v, hv, ?_⟩
      cases m'
      simp only [Node.mk.injEq]
      exact ⟨e0.symm, ((StepPack.miss (by omega) (by omega)).1 s1).symm, ((StepPack.miss (by omega) (by omega)).1 s2).symm, ((StepOne.miss (by omega)).1 s3).symm, ((StepOne.miss (by omega)).1 s4).symm, ((StepOne.miss (by omega)).1 s5).symm⟩
  by_cases h1 : f.tag = 18
  · have e : Node.merge m f = (f.packed asUInt32).map fun v => { m with keys := m.keys ++ v } := by
      unfold Node.merge
      rw [if_neg (by omega), if_pos h1]
    rw [e, Option.map_eq_some_iff]
    constructor
    · rintro ⟨v, hv, rfl⟩
      exact ⟨(StepOne.miss (by omega)).2 rfl, (StepPack.hit h1).2 ⟨v, hv, rfl⟩, (StepPack.miss (by omega) (by omega)).2 rfl, (StepOne.miss (by omega)).2 rfl, (StepOne.miss (by omega)).2 rfl, (StepOne.miss (by omega)).2 rfl⟩
    · rintro ⟨s0, s1, s2, s3, s4, s5⟩
      obtain ⟨v, hv, e1⟩ := (StepPack.hit h1).1 s1
      refine ⟨v, hv, ?_⟩
      cases m'
      simp only [Node.mk.injEq]
      exact ⟨((StepOne.miss (by omega)).1 s0).symm, e1.symm, ((StepPack.miss (by omega) (by omega)).1 s2).symm, ((StepOne.miss (by omega)).1 s3).symm, ((StepOne.miss (by omega)).1 s4).symm, ((StepOne.miss (by omega)).1 s5).symm⟩
  by_cases h2 : f.tag = 16
  · have e : Node.merge m f = (f.num asUInt32).map fun v => { m with keys := m.keys ++ [v] } := by
      unfold Node.merge
      rw [if_neg (by omega), if_neg (by omega), if_pos h2]
    rw [e, Option.map_eq_some_iff]
    constructor
    · rintro ⟨v, hv, rfl⟩
      exact ⟨(StepOne.miss (by omega)).2 rfl, (StepPack.hit2 (by omega) h2).2 ⟨[v], Option.map_eq_some_iff.2 ⟨v, hv, rfl⟩, rfl⟩, (StepPack.miss (by omega) (by omega)).2 rfl, (StepOne.miss (by omega)).2 rfl, (StepOne.miss (by omega)).2 rfl, (StepOne.miss (by omega)).2 rfl⟩
    · rintro ⟨s0, s1, s2, s3, s4, s5⟩
      obtain ⟨_, hw, e1⟩ := (StepPack.hit2 (by omega) h2).1 s1
      obtain ⟨v, hv, rfl⟩ := Option.map_eq_some_iff.1 hw
      refine ⟨v, hv, ?_⟩
      cases m'
      simp only [Node.mk.injEq]
      exact ⟨((StepOne.miss (by omega)).1 s0).symm, e1.symm, ((StepPack.miss (by omega) (by omega)).1 s2).symm, ((StepOne.miss (by omega)).1 s3).symm, ((StepOne.miss (by omega)).1 s4).symm, ((StepOne.miss (by omega)).1 s5).symm⟩
  by_cases h3 : f.tag = 26
  · have e : Node.merge m f = (f.packed asUInt32).map fun v => { m with vals := m.vals ++ v } := by
      unfold Node.merge
      rw [if_neg (by omega), if_neg (by omega), if_neg (by omega), if_pos h3]
    rw [e, Option.map_eq_some_iff]
    constructor
    · rintro ⟨v, hv, rfl⟩
      exact ⟨(StepOne.miss (by omega)).2 rfl, (StepPack.miss (by omega) (by omega)).2 rfl, (StepPack.hit h3).2 ⟨v, hv, rfl⟩, (StepOne.miss (by omega)).2 rfl, (StepOne.miss (by omega)).2 rfl, (StepOne.miss (by omega)).2 rfl⟩
    · rintro ⟨s0, s1, s2, s3, s4, s5⟩
      obtain ⟨v, hv, e2⟩ := (StepPack.hit h3).1 s2
      refine ⟨v, hv, ?_⟩
      cases m'
      simp only [Node.mk.injEq]
      exact ⟨((StepOne.miss (by omega)).1 s0).symm, ((StepPack.miss (by omega) (by omega)).1 s1).symm, e2.symm, ((StepOne.miss (by omega)).1 s3).symm, ((StepOne.miss (by omega)).1 s4).symm, ((StepOne.miss (by omega)).1 s5).symm⟩
  by_cases h4 : f.tag = 24
  · have e : Node.merge m f = (f.num asUInt32).map fun v => { m with vals := m.vals ++ [v] } := by
      unfold Node.merge
      rw [if_neg (by omega), if_neg (by omega), if_neg (by omega), if_neg (by omega), if_pos h4]
    rw [e, Option.map_eq_some_iff]
    constructor
    · rintro ⟨v, hv, rfl⟩
      exact ⟨(StepOne.miss (by omega)).2 rfl, (StepPack.miss (by omega) (by omega)).2 rfl, (StepPack.hit2 (by omega) h4).2 ⟨[v], Option.map_eq_some_iff.2 ⟨v, hv, rfl⟩, rfl⟩, (StepOne.miss (by omega)).2 rfl, (StepOne.miss (by omega)).2 rfl, (StepOne.miss (by omega)).2 rfl⟩
    · rintro ⟨s0, s1, s2, s3, s4, s5⟩
      obtain ⟨_, hw, e2⟩ := (StepPack.hit2 (by omega) h4).1 s2
      obtain ⟨v, hv, rfl⟩ := Option.map_eq_some_iff.1 hw
      refine ⟨v, hv, ?_⟩
      cases m'
      simp only [Node.mk.injEq]
      exact ⟨((StepOne.miss (by omega)).1 s0).symm, ((StepPack.miss (by omega) (by omega)).1 s1).symm, e2.symm, ((StepOne.miss (by omega)).1 s3).symm, ((StepOne.miss (by omega)).1 s4).symm, ((StepOne.miss (by omega)).1 s5).symm⟩
  by_cases h5 : f.tag = 34
  · have e : Node.merge m f = (f.message Info.merge {}).map fun v => { m with info := some v } := by
      unfold Node.merge
      rw [if_neg (by omega), if_neg (by omega), if_neg (by omega), if_neg (by omega), if_neg (by omega), if_pos h5]
    rw [e, Option.map_eq_some_iff]
    constructor
    · rintro ⟨v, hv, rfl⟩
      exact ⟨(StepOne.miss (by omega)).2 rfl, (StepPack.miss (by omega) (by omega)).2 rfl, (StepPack.miss (by omega) (by omega)).2 rfl, (StepOne.hit h5).2 ⟨v, hv, rfl⟩, (StepOne.miss (by omega)).2 rfl, (StepOne.miss (by omega)).2 rfl⟩
    · rintro ⟨s0, s1, s2, s3, s4, s5⟩
      obtain ⟨v, hv, e3⟩ := (StepOne.hit h5).1 s3
      refine ⟨v, hv, ?_⟩
      cases m'
      simp only [Node.mk.injEq]
      exact ⟨((StepOne.miss (by omega)).1 s0).symm, ((StepPack.miss (by omega) (by omega)).1 s1).symm, ((StepPack.miss (by omega) (by omega)).1 s2).symm, e3.symm, ((StepOne.miss (by omega)).1 s4).symm, ((StepOne.miss (by omega)).1 s5).symm⟩
  by_cases h6 : f.tag = 64
  · have e : Node.merge m f = (f.num zigZag64).map fun v => { m with lat := some v } := by
      unfold Node.merge
      rw [if_neg (by omega), if_neg (by omega), if_neg (by omega), if_neg (by omega), if_neg (by omega), if_neg (by omega), if_pos h6]
    rw [e, Option.map_eq_some_iff]
    constructor
    · rintro ⟨v, hv, rfl⟩
      exact ⟨(StepOne.miss (by omega)).2 rfl, (StepPack.miss (by omega) (by omega)).2 rfl, (StepPack.miss (by omega) (by omega)).2 rfl, (StepOne.miss (by omega)).2 rfl, (StepOne.hit h6).2 ⟨v, hv, rfl⟩, (StepOne.miss (by omega)).2 rfl⟩
    · rintro ⟨s0, s1, s2, s3, s4, s5⟩
      obtain ⟨v, hv, e4⟩ := (StepOne.hit h6).1 s4
      refine ⟨v, hv, ?_⟩
      cases m'
      simp only [Node.mk.injEq]
      exact ⟨((StepOne.miss (by omega)).1 s0).symm, ((StepPack.miss (by omega) (by omega)).1 s1).symm, ((StepPack.miss (by omega) (by omega)).1 s2).symm, ((StepOne.miss (by omega)).1 s3).symm, e4.symm, ((StepOne.miss (by omega)).1 s5).symm⟩
  by_cases h7 : f.tag = 72
  · have e : Node.merge m f = (f.num zigZag64).map fun v => { m with lon := some v } := by
      unfold Node.merge
      rw [if_neg (by omega), if_neg (by omega), if_neg (by omega), if_neg (by omega), if_neg (by omega), if_neg (by omega), if_neg (by omega), if_pos h7]
    rw [e, Option.map_eq_some_iff]
    constructor
    · rintro ⟨v, hv, rfl⟩
      exact ⟨(StepOne.miss (by omega)).2 rfl, (StepPack.miss (by omega) (by omega)).2 rfl, (StepPack.miss (by omega) (by omega)).2 rfl, (StepOne.miss (by omega)).2 rfl, (StepOne.miss (by omega)).2 rfl, (StepOne.hit h7).2 ⟨v, hv, rfl⟩⟩
    · rintro ⟨s0, s1, s2, s3, s4, s5⟩
      obtain ⟨v, hv, e5⟩ := (StepOne.hit h7).1 s5
      refine ⟨v, hv, ?_⟩
      cases m'
      simp only [Node.mk.injEq]
      exact ⟨((StepOne.miss (by omega)).1 s0).symm, ((StepPack.miss (by omega) (by omega)).1 s1).symm, ((StepPack.miss (by omega) (by omega)).1 s2).symm, ((StepOne.miss (by omega)).1 s3).symm, ((StepOne.miss (by omega)).1 s4).symm, e5.symm⟩
  have e : Node.merge m f = some m := by
    unfold Node.merge
    rw [if_neg h0, if_neg h1, if_neg h2, if_neg h3, if_neg h4, if_neg h5, if_neg h6, if_neg h7]
  rw [e, Option.some_inj]
  constructor
  · rintro rfl
    exact ⟨(StepOne.miss (by omega)).2 rfl, (StepPack.miss (by omega) (by omega)).2 rfl, (StepPack.miss (by omega) (by omega)).2 rfl, (StepOne.miss (by omega)).2 rfl, (StepOne.miss (by omega)).2 rfl, (StepOne.miss (by omega)).2 rfl⟩
  · rintro ⟨s0, s1, s2, s3, s4, s5⟩
    cases m'
    cases m
    simp only [Node.mk.injEq]
    exact ⟨((StepOne.miss (by omega)).1 s0).symm, ((StepPack.miss (by omega) (by omega)).1 s1).symm, ((StepPack.miss (by omega) (by omega)).1 s2).symm, ((StepOne.miss (by omega)).1 s3).symm, ((StepOne.miss (by omega)).1 s4).symm, ((StepOne.miss (by omega)).1 s5).symm⟩

theorem Node.merge_runs (fs : List Field) : ∀ m m' : Node, mergeAll Node.merge m fs = some m' ↔
      Run (StepOne 8 (fun f => f.num zigZag64)) m.id fs m'.id ∧
      Run (StepPack 18 16 (fun f => f.packed asUInt32) (fun f => (f.num asUInt32).map fun v => [v])) m.keys fs m'.keys ∧
      Run (StepPack 26 24 (fun f => f.packed asUInt32) (fun f => (f.num asUInt32).map fun v => [v])) m.vals fs m'.vals ∧
      Run (StepOne 34 (fun f => f.message Info.merge {})) m.info fs m'.info ∧
      Run (StepOne 64 (fun f => f.num zigZag64)) m.lat fs m'.lat ∧
      Run (StepOne 72 (fun f => f.num zigZag64)) m.lon fs m'.lon := by
  induction fs with
  | nil =>
    intro m m'
    simp only [mergeAll, Run, Option.some_inj]
    constructor
    · rintro rfl
      exact ⟨rfl, rfl, rfl, rfl, rfl, rfl⟩
    · rintro ⟨s0, s1, s2, s3, s4, s5⟩
      cases m'
      cases m
      simp only [Node.mk.injEq]
      exact ⟨s0.symm, s1.symm, s2.symm, s3.symm, s4.symm, s5.symm⟩
  | cons f fs ih =>
    intro m m'
    rw [mergeAll, Option.bind_eq_some_iff]
    constructor
    · rintro ⟨m1, h1, h2⟩
      obtain ⟨s0, s1, s2, s3, s4, s5⟩ := (Node.merge_steps m f m1).1 h1
      obtain ⟨r0, r1, r2, r3, r4, r5⟩ := (ih m1 m').1 h2
      exact ⟨⟨_, s0, r0⟩, ⟨_, s1, r1⟩, ⟨_, s2, r2⟩, ⟨_, s3, r3⟩, ⟨_, s4, r4⟩, ⟨_, s5, r5⟩⟩
    · rintro ⟨⟨x0, s0, r0⟩, ⟨x1, s1, r1⟩, ⟨x2, s2, r2⟩, ⟨x3, s3, r3⟩, ⟨x4, s4, r4⟩, ⟨x5, s5, r5⟩⟩
      exact ⟨{ id := x0, keys := x1, vals := x2, info := x3, lat := x4, lon := x5 }, (Node.merge_steps _ _ _).2 ⟨s0, s1, s2, s3, s4, s5⟩, (ih _ _).2 ⟨r0, r1, r2, r3, r4, r5⟩⟩

theorem Node.parse_decodes (bs : Bytes) (m : Node) : parse Node.merge {} bs = some m ↔ DecodesNode bs m :=
  parse_iff (C := saysNode) (fun fs hf m => (Node.merge_runs fs {} m).trans (and_congr (run_oneNumber (number := 1) hf zigZag64_iff rfl) (and_congr (run_manyNumbers (number := 2) hf (fun _ => asUInt32_iff _) rfl rfl) (and_congr (run_manyNumbers (number := 3) hf (fun _ => asUInt32_iff _) rfl rfl) (and_congr (run_one' (number := 4) (message_iff Info.parse_decodes) rfl) (and_congr (run_oneNumber (number := 8) hf zigZag64_iff rfl) (run_oneNumber (number := 9) hf zigZag64_iff rfl))))))) (fun _ _ => Iff.rfl) bs m

theorem DenseInfo.merge_steps (m : DenseInfo) (f : Field) (m' : DenseInfo) : DenseInfo.merge m f = some m' ↔
      StepPack 10 8 (fun f => f.packed asInt32) (fun f => (f.num asInt32).map fun v => [v]) m.version f m'.version ∧
      StepPack 18 16 (fun f => f.packed zigZag64) (fun f => (f.num zigZag64).map fun v => [v]) m.timestamp f m'.timestamp ∧
      StepPack 26 24 (fun f => f.packed zigZag64) (fun f => (f.num zigZag64).map fun v => [v]) m.changeset f m'.changeset ∧
      StepPack 34 32 (fun f => f.packed zigZag32) (fun f => (f.num zigZag32).map fun v => [v]) m.uid f m'.uid ∧
      StepPack 42 40 (fun f => f.packed zigZag32) (fun f => (f.num zigZag32).map fun v => [v]) m.userSid f m'.userSid ∧
      StepPack 50 48 (fun f => f.packed asBool) (fun f => (f.num asBool).map fun v => [v]) m.visible f m'.visible := by
  by_cases h0 : f.tag = 10
  · have e : DenseInfo.merge m f = (f.packed asInt32).map fun v => { m with version := m.version ++ v } := by
      unfold DenseInfo.merge
      rw [if_pos h0]
    rw [e, Option.map_eq_some_iff]
    constructor
    · rintro ⟨v, hv, rfl⟩
      exact ⟨(StepPack.hit h0).2 ⟨v, hv, rfl⟩, (StepPack.miss (by omega) (by omega)).2 rfl, (StepPack.miss (by omega) (by omega)).2 rfl, (StepPack.miss (by omega) (by omega)).2 rfl, (StepPack.miss (by omega) (by omega)).2 rfl, (StepPack.miss (by omega) (by omega)).2 rfl⟩
    · rintro ⟨s0, s1, s2, s3, s4, s5⟩
      obtain ⟨v, hv, e0⟩ := (StepPack.hit h0).1 s0
      refine ⟨v, hv, ?_⟩
      cases m'
      simp only [DenseInfo.mk.injEq]
      exact ⟨e0.symm, ((StepPack.miss (by omega) (by omega)).1 s1).symm, ((StepPack.miss (by omega) (by omega)).1 s2).symm, ((StepPack.miss (by omega) (by omega)).1 s3).symm, ((StepPack.miss (by omega) (by omega)).1 s4).symm, ((StepPack.miss (by omega) (by omega)).1 s5).symm⟩
  by_cases h1 : f.tag = 8
  · have e : DenseInfo.merge m f = (f.num asInt32).map fun v => { m with version := m.version ++ [v] } := by
      unfold DenseInfo.merge
      rw [if_neg (by omega), if_pos h1]
    rw [e, Option.map_eq_some_iff]
    constructor
    · rintro ⟨v, hv, rfl⟩
      exact ⟨(StepPack.hit2 (by omega) h1).2 ⟨[v], Option.map_eq_some_iff.2 ⟨v, hv, rfl⟩, rfl⟩, (StepPack.miss (by omega) (by omega)).2 rfl, (StepPack.miss (by omega) (by omega)).2 rfl, (StepPack.miss (by omega) (by omega)).2 rfl, (StepPack.miss (by omega) (by omega)).2 rfl, (StepPack.miss (by omega) (by omega)).2 rfl⟩
    · rintro ⟨s0, s1, s2, s3, s4, s5⟩
      obtain ⟨_, hw, e0⟩ := (StepPack.hit2 (by omega) h1).1 s0
      obtain ⟨v, hv, rfl⟩ := Option.map_eq_some_iff.1 hw
      refine ⟨v, hv, ?_⟩
      cases m'
      simp only [DenseInfo.mk.injEq]
      exact ⟨e0.symm, ((StepPack.miss (by omega) (by omega)).1 s1).symm, ((StepPack.miss (by omega) (by omega)).1 s2).symm, ((StepPack.miss (by omega) (by omega)).1 s3).symm, ((StepPack.miss (by omega) (by omega)).1 s4).symm, ((StepPack.miss (by omega) (by omega)).1 s5).symm⟩
  by_cases h2 : f.tag = 18
  · have e : DenseInfo.merge m f = (f.packed zigZag64).map fun v => { m with timestamp := m.timestamp ++ v } := by
      unfold DenseInfo.merge
      rw [if_neg (by omega), if_neg (by omega), if_pos h2]
    rw [e, Option.map_eq_some_iff]
    constructor
    · rintro ⟨v, hv, rfl⟩
      exact ⟨(StepPack.miss (by omega) (by omega)).2 rfl, (StepPack.hit h2).2 ⟨v, hv, rfl⟩, (StepPack.miss (by omega) (by omega)).2 rfl, (StepPack.miss (by omega) (by omega)).2 rfl, (StepPack.miss (by omega) (by omega)).2 rfl, (StepPack.miss (by omega) (by omega)).2 rfl⟩
    · rintro ⟨s0, s1, s2, s3, s4, s5⟩
      obtain ⟨v, hv, e1⟩ := (StepPack.hit h2).1 s1
      refine ⟨v, hv, ?_⟩
      cases m'
      simp only [DenseInfo.mk.injEq]
      exact ⟨((StepPack.miss (by omega) (by omega)).1 s0).symm, e1.symm, ((StepPack.miss (by omega) (by omega)).1 s2).symm, ((StepPack.miss (by omega) (by omega)).1 s3).symm, ((StepPack.miss (by omega) (by omega)).1 s4).symm, ((StepPack.miss (by omega) (by omega)).1 s5).symm⟩
  by_cases h3 : f.tag = 16
  · have e : DenseInfo.merge m f = (f.num zigZag64).map fun v => { m with timestamp := m.timestamp ++ [v] } := by
      unfold DenseInfo.merge
      rw [if_neg (by omega), if_neg (by omega), if_neg (by omega), if_pos h3]
    rw [e, Option.map_eq_some_iff]
    constructor
    · rintro ⟨v, hv, rfl⟩
      exact ⟨(StepPack.miss (by omega) (by omega)).2 rfl, (StepPack.hit2 (by omega) h3).2 ⟨[v], Option.map_eq_some_iff.2 ⟨v, hv, rfl⟩, rfl⟩, (StepPack.miss (by omega) (by omega)).2 rfl, (StepPack.miss (by omega) (by omega)).2 rfl, (StepPack.miss (by omega) (by omega)).2 rfl, (StepPack.miss (by omega) (by omega)).2 rfl⟩
    · rintro ⟨s0, s1, s2, s3, s4, s5⟩
      obtain ⟨_, hw, e1⟩ := (StepPack.hit2 (by omega) h3).1 s1
      obtain ⟨v, hv, rfl⟩ := Option.map_eq_some_iff.1 hw
      refine ⟨v, hv, ?_⟩
      cases m'
      simp only [DenseInfo.mk.injEq]
      exact ⟨((StepPack.miss (by omega) (by omega)).1 s0).symm, e1.symm, ((StepPack.miss (by omega) (by omega)).1 s2).symm, ((StepPack.miss (by omega) (by omega)).1 s3).symm, ((StepPack.miss (by omega) (by omega)).1 s4).symm, ((StepPack.miss (by omega) (by omega)).1 s5).symm⟩
  by_cases h4 : f.tag = 26
  · have e : DenseInfo.merge m f = (f.packed zigZag64).map fun v => { m with changeset := m.changeset ++ v } := by
      unfold DenseInfo.merge
      rw [if_neg (by omega), if_neg (by omega), if_neg (by omega), if_neg (by omega), if_pos h4]
    rw [e, Option.map_eq_some_iff]
    constructor
    · rintro ⟨v, hv, rfl⟩
      exact ⟨(StepPack.miss (by omega) (by omega)).2 rfl, (StepPack.miss (by omega) (by omega)).2 rfl, (StepPack.hit h4).2 ⟨v, hv, rfl⟩, (StepPack.miss (by omega) (by omega)).2 rfl, (StepPack.miss (by omega) (by omega)).2 rfl, (StepPack.miss (by omega) (by omega)).2 rfl⟩
    · rintro ⟨s0, s1, s2, s3, s4, s5⟩
      obtain ⟨v, hv, e2⟩ := (StepPack.hit h4).1 s2
      refine ⟨v, hv, ?_⟩
      cases m'
      simp only [DenseInfo.mk.injEq]
      exact ⟨((StepPack.miss (by omega) (by omega)).1 s0).symm, ((StepPack.miss (by omega) (by omega)).1 s1).symm, e2.symm, ((StepPack.miss (by omega) (by omega)).1 s3).symm, ((StepPack.miss (by omega) (by omega)).1 s4).symm, ((StepPack.miss (by omega) (by omega)).1 s5).symm⟩
  by_cases h5 : f.tag = 24
  · have e : DenseInfo.merge m f = (f.num zigZag64).map fun v => { m with changeset := m.changeset ++ [v] } := by
      unfold DenseInfo.merge
      rw [if_neg (by omega), if_neg (by omega), if_neg (by omega), if_neg (by omega), if_neg (by omega), if_pos h5]
    rw [e, Option.map_eq_some_iff]
    constructor
    · rintro ⟨v, hv, rfl⟩
      exact ⟨(StepPack.miss (by omega) (by omega)).2 rfl, (StepPack.miss (by omega) (by omega)).2 rfl, (StepPack.hit2 (by omega) h5).2 ⟨[v], Option.map_eq_some_iff.2 ⟨v, hv, rfl⟩, rfl⟩, (StepPack.miss (by omega) (by omega)).2 rfl, (StepPack.miss (by omega) (by omega)).2 rfl, (StepPack.miss (by omega) (by omega)).2 rfl⟩
    · rintro ⟨s0, s1, s2, s3, s4, s5⟩
      obtain ⟨_, hw, e2⟩ := (StepPack.hit2 (by omega) h5).1 s2
      obtain ⟨v, hv, rfl⟩ := Option.map_eq_some_iff.1 hw
      refine ⟨v, hv, ?_⟩
      cases m'
      simp only [DenseInfo.mk.injEq]
      exact ⟨((StepPack.miss (by omega) (by omega)).1 s0).symm, ((StepPack.miss (by omega) (by omega)).1 s1).symm, e2.symm, ((StepPack.miss (by omega) (by omega)).1 s3).symm, ((StepPack.miss (by omega) (by omega)).1 s4).symm, ((StepPack.miss (by omega) (by omega)).1 s5).symm⟩
  by_cases h6 : f.tag = 34
  · have e : DenseInfo.merge m f = (f.packed zigZag32).map fun v => { m with uid := m.uid ++ v } := by
      unfold DenseInfo.merge
      rw [if_neg (by omega), if_neg (by omega), if_neg (by omega), if_neg (by omega), if_neg (by omega), if_neg (by omega), if_pos h6]
    rw [e, Option.map_eq_some_iff]
    constructor
    · rintro ⟨v, hv, rfl⟩
      exact ⟨(StepPack.miss (by omega) (by omega)).2 rfl, (StepPack.miss (by omega) (by omega)).2 rfl, (StepPack.miss (by omega) (by omega)).2 rfl, (StepPack.hit h6).2 ⟨v, hv, rfl⟩, (StepPack.miss (by omega) (by omega)).2 rfl, (StepPack.miss (by omega) (by omega)).2 rfl⟩
    · rintro ⟨s0, s1, s2, s3, s4, s5⟩
      obtain ⟨v, hv, e3⟩ := (StepPack.hit h6).1 s3
      refine ⟨v, hv, ?_⟩
      cases m'
      simp only [DenseInfo.mk.injEq]
      exact ⟨((StepPack.miss (by omega) (by omega)).1 s0).symm, ((StepPack.miss (by omega) (by omega)).1 s1).symm, ((StepPack.miss (by omega) (by omega)).1 s2).symm, e3.symm, ((StepPack.miss (by omega) (by omega)).1 s4).symm, ((StepPack.miss (by omega) (by omega)).1 s5).symm⟩
  by_cases h7 : f.tag = 32
  · have e : DenseInfo.merge m f = (f.num zigZag32).map fun v => { m with uid := m.uid ++ [v] } := by
      unfold DenseInfo.merge
      rw [if_neg (by omega), if_neg (by omega), if_neg (by omega), if_neg (by omega), if_neg (by omega), if_neg (by omega), if_neg (by omega), if_pos h7]
    rw [e, Option.map_eq_some_iff]
    constructor
    · rintro ⟨v, hv, rfl⟩
      exact ⟨(StepPack.miss (by omega) (by omega)).2 rfl, (StepPack.miss (by omega) (by omega)).2 rfl, (StepPack.miss (by omega) (by omega)).2 rfl, (StepPack.hit2 (by omega) h7).2 ⟨[v], Option.map_eq_some_iff.2 ⟨v, hv, rfl⟩, rfl⟩, (StepPack.miss (by omega) (by omega)).2 rfl, (StepPack.miss (by omega) (by omega)).2 rfl⟩
    · rintro ⟨s0, s1, s2, s3, s4, s5⟩
      obtain ⟨_, hw, e3⟩ := (StepPack.hit2 (by omega) h7).1 s3
      obtain ⟨v, hv, rfl⟩ := Option.map_eq_some_iff.1 hw
      refine ⟨v, hv, ?_⟩
      cases m'
      simp only [DenseInfo.mk.injEq]
      exact ⟨((StepPack.miss (by omega) (by omega)).1 s0).symm, ((StepPack.miss (by omega) (by omega)).1 s1).symm, ((StepPack.miss (by omega) (by omega)).1 s2).symm, e3.symm, ((StepPack.miss (by omega) (by omega)).1 s4).symm, ((StepPack.miss (by omega) (by omega)).1 s5).symm⟩
  by_cases h8 : f.tag = 42
  · have e : DenseInfo.merge m f = (f.packed zigZag32).map fun v => { m with userSid := m.userSid ++ v } := by
      unfold DenseInfo.merge
      rw [if_neg (by omega), if_neg (by omega), if_neg (by omega), if_neg (by omega), if_neg (by omega), if_neg (by omega), if_neg (by omega), if_neg (by omega), if_pos h8]
    rw [e, Option.map_eq_some_iff]
    constructor
    · rintro ⟨v, hv, rfl⟩
      exact ⟨(StepPack.miss (by omega) (by omega)).2 rfl, (StepPack.miss (by omega) (by omega)).2 rfl, (StepPack.miss (by omega) (by omega)).2 rfl, (StepPack.miss (by omega) (by omega)).2 rfl, (StepPack.hit h8).2 ⟨v, hv, rfl⟩, (StepPack.miss (by omega) (by omega)).2 rfl⟩
    · rintro ⟨s0, s1, s2, s3, s4, s5⟩
      obtain ⟨v, hv, e4⟩ := (StepPack.hit h8).1 s4
      refine ⟨v, hv, ?_⟩
      cases m'
      simp only [DenseInfo.mk.injEq]
      exact ⟨((StepPack.miss (by omega) (by omega)).1 s0).symm, ((StepPack.miss (by omega) (by omega)).1 s1).symm, ((StepPack.miss (by omega) (by omega)).1 s2).symm, ((StepPack.miss (by omega) (by omega)).1 s3).symm, e4.symm, ((StepPack.miss (by omega) (by omega)).1 s5).symm⟩
  by_cases h9 : f.tag = 40
  · have e : DenseInfo.merge m f = (f.num zigZag32).map fun v => { m with userSid := m.userSid ++ [v] } := by
      unfold DenseInfo.merge
      rw [if_neg (by omega), if_neg (by omega), if_neg (by omega), if_neg (by omega), if_neg (by omega), if_neg (by omega), if_neg (by omega), if_neg (by omega), if_neg (by omega), if_pos h9]
    rw [e, Option.map_eq_some_iff]
    constructor
    · rintro ⟨v, hv, rfl⟩
      exact ⟨(StepPack.miss (by omega) (by omega)).2 rfl, (StepPack.miss (by omega) (by omega)).2 rfl, (StepPack.miss (by omega) (by omega)).2 rfl, (StepPack.miss (by omega) (by omega)).2 rfl, (StepPack.hit2 (by omega) h9).2 ⟨[v], Option.map_eq_some_iff.2 ⟨v, hv, rfl⟩, rfl⟩, (StepPack.miss (by omega) (by omega)).2 rfl⟩
    · rintro ⟨s0, s1, s2, s3, s4, s5⟩
      obtain ⟨_, hw, e4⟩ := (StepPack.hit2 (by omega) h9).1 s4
      obtain ⟨v, hv, rfl⟩ := Option.map_eq_some_iff.1 hw
      refine ⟨v, hv, ?_⟩
      cases m'
      simp only [DenseInfo.mk.injEq]
      exact ⟨((StepPack.miss (by omega) (by omega)).1 s0).symm, ((StepPack.miss (by omega) (by omega)).1 s1).symm, ((StepPack.miss (by omega) (by omega)).1 s2).symm, ((StepPack.miss (by omega) (by omega)).1 s3).symm, e4.symm, ((StepPack.miss (by omega) (by omega)).1 s5).symm⟩
  by_cases h10 : f.tag = 50
  · have e : DenseInfo.merge m f = (f.packed asBool).map fun v => { m with visible := m.visible ++ v } := by
      unfold DenseInfo.merge
      rw [if_neg (by omega), if_neg (by omega), if_neg (by omega), if_neg (by omega), if_neg (by omega), if_neg (by omega), if_neg (by omega), if_neg (by omega), if_neg (by omega), if_neg (by omega), if_pos h10]
    rw [e, Option.map_eq_some_iff]
    constructor
    · rintro ⟨v, hv, rfl⟩
      exact ⟨(StepPack.miss (by omega) (by omega)).2 rfl, (StepPack.miss (by omega) (by omega)).2 rfl, (StepPack.miss (by omega) (by omega)).2 rfl, (StepPack.miss (by omega) (by omega)).2 rfl, (StepPack.miss (by omega) (by omega)).2 rfl, (StepPack.hit h10).2 ⟨v, hv, rfl⟩⟩
    · rintro ⟨s0, s1, s2, s3, s4, s5⟩
      obtain ⟨v, hv, e5⟩ := (StepPack.hit h10).1 s5
      refine ⟨v, hv, ?_⟩
      cases m'
      simp only [DenseInfo.mk.injEq]
      exact ⟨((StepPack.miss (by omega) (by omega)).1 s0).symm, ((StepPack.miss (by omega) (by omega)).1 s1).symm, ((StepPack.miss (by omega) (by omega)).1 s2).symm, ((StepPack.miss (by omega) (by omega)).1 s3).symm, ((StepPack.miss (by omega) (by omega)).1 s4).symm, e5.symm⟩
  by_cases h11 : f.tag = 48
  · have e : DenseInfo.merge m f = (f.num asBool).map fun v => { m with visible := m.visible ++ [v] } := by
      unfold DenseInfo.merge
      rw [if_neg (by omega), if_neg (by omega), if_neg (by omega), if_neg (by omega), if_neg (by omega), if_neg (by omega), if_neg (by omega), if_neg (by omega), if_neg (by omega), if_neg (by omega), if_neg (by omega), if_pos h11]
    rw [e, Option.map_eq_some_iff]
    constructor
    · rintro ⟨v, hv, rfl⟩
      exact ⟨(StepPack.miss (by omega) (by omega)).2 rfl, (StepPack.miss (by omega) (by omega)).2 rfl, (StepPack.miss (by omega) (by omega)).2 rfl, (StepPack.miss (by omega) (by omega)).2 rfl, (StepPack.miss (by omega) (by omega)).2 rfl, (StepPack.hit2 (by omega) h11).2 ⟨[v], Option.map_eq_some_iff.2 ⟨v, hv, rfl⟩, rfl⟩⟩
    · rintro ⟨s0, s1, s2, s3, s4, s5⟩
      obtain ⟨_, hw, e5⟩ := (StepPack.hit2 (by omega) h11).1 s5
      obtain ⟨v, hv, rfl⟩ := Option.map_eq_some_iff.1 hw
      refine ⟨v, hv, ?_⟩
      cases m'
      simp only [DenseInfo.mk.injEq]
      exact ⟨((StepPack.miss (by omega) (by omega)).1 s0).symm, ((StepPack.miss (by omega) (by omega)).1 s1).symm, ((StepPack.miss (by omega) (by omega)).1 s2).symm, ((StepPack.miss (by omega) (by omega)).1 s3).symm, ((StepPack.miss (by omega) (by omega)).1 s4).symm, e5.symm⟩
  have e : DenseInfo.merge m f = some m := by
    unfold DenseInfo.merge
    rw [if_neg h0, if_neg h1, if_neg h2, if_neg h3, if_neg h4, if_neg h5, if_neg h6, if_neg h7, if_neg h8, if_neg h9, if_neg h10, if_neg h11]
  rw [e, Option.some_inj]
  constructor
  · rintro rfl
    exact ⟨(StepPack.miss (by omega) (by omega)).2 rfl, (StepPack.miss (by omega) (by omega)).2 rfl, (StepPack.miss (by omega) (by omega)).2 rfl, (StepPack.miss (by omega) (by omega)).2 rfl, (StepPack.miss (by omega) (by omega)).2 rfl, (StepPack.miss (by omega) (by omega)).2 rfl⟩
  · rintro ⟨s0, s1, s2, s3, s4, s5⟩
    cases m'
    cases m
    simp only [DenseInfo.mk.injEq]
    exact ⟨((StepPack.miss (by omega) (by omega)).1 s0).symm, ((StepPack.miss (by omega) (by omega)).1 s1).symm, ((StepPack.miss (by omega) (by omega)).1 s2).symm, ((StepPack.miss (by omega) (by omega)).1 s3).symm, ((StepPack.miss (by omega) (by omega)).1 s4).symm, ((StepPack.miss (by omega) (by omega)).1 s5).symm⟩

theorem DenseInfo.merge_runs (fs : List Field) : ∀ m m' : DenseInfo, mergeAll DenseInfo.merge m fs = some m' ↔
      Run (StepPack 10 8 (fun f => f.packed asInt32) (fun f => (f.num asInt32).map fun v => [v])) m.version fs m'.version ∧
      Run (StepPack 18 16 (fun f => f.packed zigZag64) (fun f => (f.num zigZag64).map fun v => [v])) m.timestamp fs m'.timestamp ∧
      Run (StepPack 26 24 (fun f => f.packed zigZag64) (fun f => (f.num zigZag64).map fun v => [v])) m.changeset fs m'.changeset ∧
      Run (StepPack 34 32 (fun f => f.packed zigZag32) (fun f => (f.num zigZag32).map fun v => [v])) m.uid fs m'.uid ∧
      Run (StepPack 42 40 (fun f => f.packed zigZag32) (fun f => (f.num zigZag32).map fun v => [v])) m.userSid fs m'.userSid ∧
      Run (StepPack 50 48 (fun f => f.packed asBool) (fun f => (f.num asBool).map fun v => [v])) m.visible fs m'.visible := by
  induction fs with
  | nil =>
    intro m m'
    simp only [mergeAll, Run, Option.some_inj]
    constructor
    · rintro rfl
      exact ⟨rfl, rfl, rfl, rfl, rfl, rfl⟩
    · rintro ⟨s0, s1, s2, s3, s4, s5⟩
      cases m'
      cases m
      simp only [DenseInfo.mk.injEq]
      exact ⟨s0.symm, s1.symm, s2.symm, s3.symm, s4.symm, s5.symm⟩
  | cons f fs ih =>
    intro m m'
    rw [mergeAll, Option.bind_eq_some_iff]
    constructor
    · rintro ⟨m1, h1, h2⟩
      obtain ⟨s0, s1, s2, s3, s4, s5⟩ := (DenseInfo.merge_steps m f m1).1 h1
      obtain ⟨r0, r1, r2, r3, r4, r5⟩ := (ih m1 m').1 h2
      exact ⟨⟨_, s0, r0⟩, ⟨_, s1, r1⟩, ⟨_, s2, r2⟩, ⟨_, s3, r3⟩, ⟨_, s4, r4⟩, ⟨_, s5, r5⟩⟩
    · rintro ⟨⟨x0, s0, r0⟩, ⟨x1, s1, r1⟩, ⟨x2, s2, r2⟩, ⟨x3, s3, r3⟩, ⟨x4, s4, r4⟩, ⟨x5, s5, r5⟩⟩
      exact ⟨{ version := x0, timestamp := x1, changeset := x2, uid := x3, userSid := x4, visible := x5 }, (DenseInfo.merge_steps _ _ _).2 ⟨s0, s1, s2, s3, s4, s5⟩, (ih _ _).2 ⟨r0, r1, r2, r3, r4, r5⟩⟩

theorem DenseInfo.parse_decodes (bs : Bytes) (m : DenseInfo) : parse DenseInfo.merge {} bs = some m ↔ DecodesDenseInfo bs m :=
  parse_iff (C := saysDenseInfo) (fun fs hf m => (DenseInfo.merge_runs fs {} m).trans (and_congr (run_manyNumbers (number := 1) hf asInt32_iff rfl rfl) (and_congr (run_manyNumbers (number := 2) hf zigZag64_iff rfl rfl) (and_congr (run_manyNumbers (number := 3) hf zigZag64_iff rfl rfl) (and_congr (run_manyNumbers (number := 4) hf (fun _ => zigZag32_iff _) rfl rfl) (and_congr (run_manyNumbers (number := 5) hf (fun _ => zigZag32_iff _) rfl rfl) (run_manyNumbers (number := 6) hf (fun _ => asBool_iff _) rfl rfl))))))) (fun _ _ => Iff.rfl) bs m

theorem DenseNodes.merge_steps (m : DenseNodes) (f : Field) (m' : DenseNodes) : DenseNodes.merge m f = some m' ↔
      StepPack 10 8 (fun f => f.packed zigZag64) (fun f => (f.num zigZag64).map fun v => [v]) m.id f m'.id ∧
      StepOne 42 (fun f => f.message DenseInfo.merge {}) m.denseinfo f m'.denseinfo ∧
      StepPack 66 64 (fun f => f.packed zigZag64) (fun f => (f.num zigZag64).map fun v => [v]) m.lat f m'.lat ∧
      StepPack 74 72 (fun f => f.packed zigZag64) (fun f => (f.num zigZag64).map fun v => [v]) m.lon f m'.lon ∧
      StepPack 82 80 (fun f => f.packed asInt32) (fun f => (f.num asInt32).map fun v => [v]) m.keysVals f m'.keysVals := by
  by_cases h0 : f.tag = 10
  · have e : DenseNodes.merge m f = (f.packed zigZag64).map fun v => { m with id := m.id ++ v } := by
      unfold DenseNodes.merge
      rw [if_pos h0]
    rw [e, Option.map_eq_some_iff]
    constructor
    · rintro ⟨v, hv, rfl⟩
      exact ⟨(StepPack.hit h0).2 ⟨v, hv, rfl⟩, (StepOne.miss (by omega)).2 rfl, (StepPack.miss (by omega) (by omega)).2 rfl, (StepPack.miss (by omega) (by omega)).2 rfl, (StepPack.miss (by omega) (by omega)).2 rfl⟩
    · rintro ⟨s0, s1, s2, s3, s4⟩
      obtain ⟨v, hv, e0⟩ := (StepPack.hit h0).1 s0
      refine ⟨v, hv, ?_⟩
      cases m'
      simp only [DenseNodes.mk.injEq]
      exact ⟨e0.symm, ((StepOne.miss (by omega)).1 s1).symm, ((StepPack.miss (by omega) (by omega)).1 s2).symm, ((StepPack.miss (by omega) (by omega)).1 s3).symm, ((StepPack.miss (by omega) (by omega)).1 s4).symm⟩
  by_cases h1 : f.tag = 8
  · have e : DenseNodes.merge m f = (f.num zigZag64).map fun v => { m with id := m.id ++ [v] } := by
      unfold DenseNodes.merge
      rw [if_neg (by omega), if_pos h1]
    rw [e, Option.map_eq_some_iff]
    constructor
    · rintro ⟨v, hv, rfl⟩
      exact ⟨(StepPack.hit2 (by omega) h1).2 ⟨[v], Option.map_eq_some_iff.2 ⟨v, hv, rfl⟩, rfl⟩, (StepOne.miss (by omega)).2 rfl, (StepPack.miss (by omega) (by omega)).2 rfl, (StepPack.miss (by omega) (by omega)).2 rfl, (StepPack.miss (by omega) (by omega)).2 rfl⟩
    · rintro ⟨s0, s1, s2, s3, s4⟩
      obtain ⟨_, hw, e0⟩ := (StepPack.hit2 (by omega) h1).1 s0
      obtain ⟨v, hv, rfl⟩ := Option.map_eq_some_iff.1 hw
      refine ⟨v, hv, ?_⟩
      cases m'
      simp only [DenseNodes.mk.injEq]
      exact ⟨e0.symm, ((StepOne.miss (by omega)).1 s1).symm, ((StepPack.miss (by omega) (by omega)).1 s2).symm, ((StepPack.miss (by omega) (by omega)).1 s3).symm, ((StepPack.miss (by omega) (by omega)).1 s4).symm⟩
  by_cases h2 : f.tag = 42
  · have e : DenseNodes.merge m f = (f.message DenseInfo.merge {}).map fun v => { m with denseinfo := some v } := by
      unfold DenseNodes.merge
      rw [if_neg (by omega), if_neg (by omega), if_pos h2]
    rw [e, Option.map_eq_some_iff]
    constructor
    · rintro ⟨v, hv, rfl⟩
      exact ⟨(StepPack.miss (by omega) (by omega)).2 rfl, (StepOne.hit h2).2 ⟨v, hv, rfl⟩, (StepPack.miss (by omega) (by omega)).2 rfl, (StepPack.miss (by omega) (by omega)).2 rfl, (StepPack.miss (by omega) (by omega)).2 rfl⟩
    · rintro ⟨s0, s1, s2, s3, s4⟩
      obtain ⟨v, hv, e1⟩ := (StepOne.hit h2).1 s1
      refine ⟨v, hv, ?_⟩
      cases m'
      simp only [DenseNodes.mk.injEq]
      exact ⟨((StepPack.miss (by omega) (by omega)).1 s0).symm, e1.symm, ((StepPack.miss (by omega) (by omega)).1 s2).symm, ((StepPack.miss (by omega) (by omega)).1 s3).symm, ((StepPack.miss (by omega) (by omega)).1 s4).symm⟩
  by_cases h3 : f.tag = 66
  · have e : DenseNodes.merge m f = (f.packed zigZag64).map fun v => { m with lat := m.lat ++ v } := by
      unfold DenseNodes.merge
      rw [if_neg (by omega), if_neg (by omega), if_neg (by omega), if_pos h3]
    rw [e, Option.map_eq_some_iff]
    constructor
    · rintro ⟨v, hv, rfl⟩
      exact ⟨(StepPack.miss (by omega) (by omega)).2 rfl, (StepOne.miss (by omega)).2 rfl, (StepPack.hit h3).2 ⟨v, hv, rfl⟩, (StepPack.miss (by omega) (by omega)).2 rfl, (StepPack.miss (by omega) (by omega)).2 rfl⟩
    · rintro ⟨s0, s1, s2, s3, s4⟩
      obtain ⟨v, hv, e2⟩ := (StepPack.hit h3).1 s2
      refine ⟨v, hv, ?_⟩
      cases m'
      simp only [DenseNodes.mk.injEq]
      exact ⟨((StepPack.miss (by omega) (by omega)).1 s0).symm, ((StepOne.miss (by omega)).1 s1).symm, e2.symm, ((StepPack.miss (by omega) (by omega)).1 s3).symm, ((StepPack.miss (by omega) (by omega)).1 s4).symm⟩
  by_cases h4 : f.tag = 64
  · have e : DenseNodes.merge m f = (f.num zigZag64).map fun v => { m with lat := m.lat ++ [v] } := by
      unfold DenseNodes.merge
      rw [if_neg (by omega), if_neg (by omega), if_neg (by omega), if_neg (by omega), if_pos h4]
    rw [e, Option.map_eq_some_iff]
    constructor
    · rintro ⟨v, hv, rfl⟩
      exact ⟨(StepPack.miss (by omega) (by omega)).2 rfl, (StepOne.miss (by omega)).2 rfl, (StepPack.hit2 (by omega) h4).2 ⟨[v], Option.map_eq_some_iff.2 ⟨v, hv, rfl⟩, rfl⟩, (StepPack.miss (by omega) (by omega)).2 rfl, (StepPack.miss (by omega) (by omega)).2 rfl⟩
    · rintro ⟨s0, s1, s2, s3, s4⟩
      obtain ⟨_, hw, e2⟩ := (StepPack.hit2 (by omega) h4).1 s2
      obtain ⟨v, hv, rfl⟩ := Option.map_eq_some_iff.1 hw
      refine ⟨v, hv, ?_⟩
      cases m'
      simp only [DenseNodes.mk.injEq]
      exact ⟨((StepPack.miss (by omega) (by omega)).1 s0).symm, ((StepOne.miss (by omega)).1 s1).symm, e2.symm, ((StepPack.miss (by omega) (by omega)).1 s3).symm, ((StepPack.miss (by omega) (by omega)).1 s4).symm⟩
  by_cases h5 : f.tag = 74
  · have e : DenseNodes.merge m f = (f.packed zigZag64).map fun v => { m with lon := m.lon ++ v } := by
      unfold DenseNodes.merge
      rw [if_neg (by omega), if_neg (by omega), if_neg (by omega), if_neg (by omega), if_neg (by omega), if_pos h5]
    rw [e, Option.map_eq_some_iff]
    constructor
    · rintro ⟨v, hv, rfl⟩
      exact ⟨(StepPack.miss (by omega) (by omega)).2 rfl, (StepOne.miss (by omega)).2 rfl, (StepPack.miss (by omega) (by omega)).2 rfl, (StepPack.hit h5).2 ⟨v, hv, rfl⟩, (StepPack.miss (by omega) (by omega)).2 rfl⟩
    · rintro ⟨s0, s1, s2, s3, s4⟩
      obtain ⟨v, hv, e3⟩ := (StepPack.hit h5).1 s3
      refine ⟨v, hv, ?_⟩
      cases m'
      simp only [DenseNodes.mk.injEq]
      exact ⟨((StepPack.miss (by omega) (by omega)).1 s0).symm, ((StepOne.miss (by omega)).1 s1).symm, ((StepPack.miss (by omega) (by omega)).1 s2).symm, e3.symm, ((StepPack.miss (by omega) (by omega)).1 s4).symm⟩
  by_cases h6 : f.tag = 72
  · have e : DenseNodes.merge m f = (f.num zigZag64).map fun v => { m with lon := m.lon ++ [v] } := by
      unfold DenseNodes.merge
      rw [if_neg (by omega), if_neg (by omega), if_neg (by omega), if_neg (by omega), if_neg (by omega), if_neg (by omega), if_pos h6]
    rw [e, Option.map_eq_some_iff]
    constructor
    · rintro ⟨v, hv, rfl⟩
      exact ⟨(StepPack.miss (by omega) (by omega)).2 rfl, (StepOne.miss (by omega)).2 rfl, (StepPack.miss (by omega) (by omega)).2 rfl, (StepPack.hit2 (by omega) h6).2 ⟨[v], Option.map_eq_some_iff.2 ⟨v, hv, rfl⟩, rfl⟩, (StepPack.miss (by omega) (by omega)).2 rfl⟩
    · rintro ⟨s0, s1, s2, s3, s4⟩
      obtain ⟨_, hw, e3⟩ := (StepPack.hit2 (by omega) h6).1 s3
      obtain ⟨v, hv, rfl⟩ := Option.map_eq_some_iff.1 hw
      refine ⟨v, hv, ?_⟩
      cases m'
      simp only [DenseNodes.mk.injEq]
      exact ⟨((StepPack.miss (by omega) (by omega)).1 s0).symm, ((StepOne.miss (by omega)).1 s1).symm, ((StepPack.miss (by omega) (by omega)).1 s2).symm, e3.symm, ((StepPack.miss (by omega) (by omega)).1 s4).symm⟩
  by_cases h7 : f.tag = 82
  · have e : DenseNodes.merge m f = (f.packed asInt32).map fun v => { m with keysVals := m.keysVals ++ v } := by
      unfold DenseNodes.merge
      rw [if_neg (by omega), if_neg (by omega), if_neg (by omega), if_neg (by omega), if_neg (by omega), if_neg (by omega), if_neg (by omega), if_pos h7]
    rw [e, Option.map_eq_some_iff]
    constructor
    · rintro ⟨v, hv, rfl⟩
      exact ⟨(StepPack.miss (by omega) (by omega)).2 rfl, (StepOne.miss (by omega)).2 rfl, (StepPack.miss (by omega) (by omega)).2 rfl, (StepPack.miss (by omega) (by omega)).2 rfl, (StepPack.hit h7).2 ⟨v, hv, rfl⟩⟩
    · rintro ⟨s0, s1, s2, s3, s4⟩
      obtain ⟨v, hv, e4⟩ := (StepPack.hit h7).1 s4
      refine ⟨v, hv, ?_⟩
      cases m'
      simp only [DenseNodes.mk.injEq]
      exact ⟨((StepPack.miss (by omega) (by omega)).1 s0).symm, ((StepOne.miss (by omega)).1 s1).symm, ((StepPack.miss (by omega) (by omega)).1 s2).symm, ((StepPack.miss (by omega) (by omega)).1 s3).symm, e4.symm⟩
  by_cases h8 : f.tag = 80
  · have e : DenseNodes.merge m f = (f.num asInt32).map fun v => { m with keysVals := m.keysVals ++ [v] } := by
      unfold DenseNodes.merge
      rw [if_neg (by omega), if_neg (by omega), if_neg (by omega), if_neg (by omega), if_neg (by omega), if_neg (by omega), if_neg (by omega), if_neg (by omega), if_pos h8]
    rw [e, Option.map_eq_some_iff]
    constructor
    · rintro ⟨v, hv, rfl⟩
      exact ⟨(StepPack.miss (by omega) (by omega)).2 rfl, (StepOne.miss (by omega)).2 rfl, (StepPack.miss (by omega) (by omega)).2 rfl, (StepPack.miss (by omega) (by omega)).2 rfl, (StepPack.hit2 (by omega) h8).2 ⟨[v], Option.map_eq_some_iff.2 ⟨v, hv, rfl⟩, rfl⟩⟩
    · rintro ⟨s0, s1, s2, s3, s4⟩
      obtain ⟨_, hw, e4⟩ := (StepPack.hit2 (by omega) h8).1 s4
      obtain ⟨v, hv, rfl⟩ := Option.map_eq_some_iff.1 hw
      refine ⟨v, hv, ?_⟩
      cases m'
      simp only [DenseNodes.mk.injEq]
      exact ⟨((StepPack.miss (by omega) (by omega)).1 s0).symm, ((StepOne.miss (by omega)).1 s1).symm, ((StepPack.miss (by omega) (by omega)).1 s2).symm, ((StepPack.miss (by omega) (by omega)).1 s3).symm, e4.symm⟩
  have e : DenseNodes.merge m f = some m := by
    unfold DenseNodes.merge
    rw [if_neg h0, if_neg h1, if_neg h2, if_neg h3, if_neg h4, if_neg h5, if_neg h6, if_neg h7, if_neg h8]
  rw [e, Option.some_inj]
  constructor
  · rintro rfl
    exact ⟨(StepPack.miss (by omega) (by omega)).2 rfl, (StepOne.miss (by omega)).2 rfl, (StepPack.miss (by omega) (by omega)).2 rfl, (StepPack.miss (by omega) (by omega)).2 rfl, (StepPack.miss (by omega) (by omega)).2 rfl⟩
  · rintro ⟨s0, s1, s2, s3, s4⟩
    cases m'
    cases m
    simp only [DenseNodes.mk.injEq]
    exact ⟨((StepPack.miss (by omega) (by omega)).1 s0).symm, ((StepOne.miss (by omega)).1 s1).symm, ((StepPack.miss (by omega) (by omega)).1 s2).symm, ((StepPack.miss (by omega) (by omega)).1 s3).symm, ((StepPack.miss (by omega) (by omega)).1 s4).symm⟩

theorem DenseNodes.merge_runs (fs : List Field) : ∀ m m' : DenseNodes, mergeAll DenseNodes.merge m fs = some m' ↔
      Run (StepPack 10 8 (fun f => f.packed zigZag64) (fun f => (f.num zigZag64).map fun v => [v])) m.id fs m'.id ∧
      Run (StepOne 42 (fun f => f.message DenseInfo.merge {})) m.denseinfo fs m'.denseinfo ∧
      Run (StepPack 66 64 (fun f => f.packed zigZag64) (fun f => (f.num zigZag64).map fun v => [v])) m.lat fs m'.lat ∧
      Run (StepPack 74 72 (fun f => f.packed zigZag64) (fun f => (f.num zigZag64).map fun v => [v])) m.lon fs m'.lon ∧
      Run (StepPack 82 80 (fun f => f.packed asInt32) (fun f => (f.num asInt32).map fun v => [v])) m.keysVals fs m'.keysVals := by
  induction fs with
  | nil =>
    intro m m'
    simp only [mergeAll, Run, Option.some_inj]
    constructor
    · rintro rfl
      exact ⟨rfl, rfl, rfl, rfl, rfl⟩
    · rintro ⟨s0, s1, s2, s3, s4⟩
      cases m'
      cases m
      simp only [DenseNodes.mk.injEq]
      exact ⟨s0.symm, s1.symm, s2.symm, s3.symm, s4.symm⟩
  | cons f fs ih =>
    intro m m'
    rw [mergeAll, Option.bind_eq_some_iff]
    constructor
    · rintro ⟨m1, h1, h2⟩
      obtain ⟨s0, s1, s2, s3, s4⟩ := (DenseNodes.merge_steps m f m1).1 h1
      obtain ⟨r0, r1, r2, r3, r4⟩ := (ih m1 m').1 h2
      exact ⟨⟨_, s0, r0⟩, ⟨_, s1, r1⟩, ⟨_, s2, r2⟩, ⟨_, s3, r3⟩, ⟨_, s4, r4⟩⟩
    · rintro ⟨⟨x0, s0, r0⟩, ⟨x1, s1, r1⟩, ⟨x2, s2, r2⟩, ⟨x3, s3, r3⟩, ⟨x4, s4, r4⟩⟩
      exact ⟨{ id := x0, denseinfo := x1, lat := x2, lon := x3, keysVals := x4 }, (DenseNodes.merge_steps _ _ _).2 ⟨s0, s1, s2, s3, s4⟩, (ih _ _).2 ⟨r0, r1, r2, r3, r4⟩⟩

theorem DenseNodes.parse_decodes (bs : Bytes) (m : DenseNodes) : parse DenseNodes.merge {} bs = some m ↔ DecodesDenseNodes bs m :=
  parse_iff (C := saysDenseNodes) (fun fs hf m => (DenseNodes.merge_runs fs {} m).trans (and_congr (run_manyNumbers (number := 1) hf zigZag64_iff rfl rfl) (and_congr (run_one' (number := 5) (message_iff DenseInfo.parse_decodes) rfl) (and_congr (run_manyNumbers (number := 8) hf zigZag64_iff rfl rfl) (and_congr (run_manyNumbers (number := 9) hf zigZag64_iff rfl rfl) (run_manyNumbers (number := 10) hf asInt32_iff rfl rfl)))))) (fun _ _ => Iff.rfl) bs m

theorem Way.merge_steps (m : Way) (f : Field) (m' : Way) : Way.merge m f = some m' ↔
      StepOne 8 (fun f => f.num asInt64) m.id f m'.id ∧
      StepPack 18 16 (fun f => f.packed asUInt32) (fun f => (f.num asUInt32).map fun v => [v]) m.keys f m'.keys ∧
      StepPack 26 24 (fun f => f.packed asUInt32) (fun f => (f.num asUInt32).map fun v => [v]) m.vals f m'.vals ∧
      StepOne 34 (fun f => f.message Info.merge {}) m.info f m'.info ∧
      StepPack 66 64 (fun f => f.packed zigZag64) (fun f => (f.num zigZag64).map fun v => [v]) m.refs f m'.refs := by
  by_cases h0 : f.tag = 8
  · have e : Way.merge m f = (f.num asInt64).map fun v => { m with id := some v } := by
      unfold Way.merge
      rw [if_pos h0]
    rw [e, Option.map_eq_some_iff]
    constructor
    · rintro ⟨v, hv, rfl⟩
      exact ⟨(StepOne.hit h0).2 ⟨v, hv, rfl⟩, (StepPack.miss (by omega) (by omega)).2 rfl, (StepPack.miss (by omega) (by omega)).2 rfl, (StepOne.miss (by omega)).2 rfl, (StepPack.miss (by omega) (by omega)).2 rfl⟩
    · rintro ⟨s0, s1, s2, s3, s4⟩
      obtain ⟨v, hv, e0⟩ := (StepOne.hit h0).1 s0
      refine ⟨v, hv, ?_⟩
      cases m'
      simp only [Way.mk.injEq]
      exact ⟨e0.symm, ((StepPack.miss (by omega) (by omega)).1 s1).symm, ((StepPack.miss (by omega) (by omega)).1 s2).symm, ((StepOne.miss (by omega)).1 s3).symm, ((StepPack.miss (by omega) (by omega)).1 s4).symm⟩
  by_cases h1 : f.tag = 18
  · have e : Way.merge m f = (f.packed asUInt32).map fun v => { m with keys := m.keys ++ v } := by
      unfold Way.merge
      rw [if_neg (by omega), if_pos h1]
    rw [e, Option.map_eq_some_iff]
    constructor
    · rintro ⟨v, hv, rfl⟩
      exact ⟨(StepOne.miss (by omega)).2 rfl, (StepPack.hit h1).2 ⟨v, hv, rfl⟩, (StepPack.miss (by omega) (by omega)).2 rfl, (StepOne.miss (by omega)).2 rfl, (StepPack.miss (by omega) (by omega)).2 rfl⟩
    · rintro ⟨s0, s1, s2, s3, s4⟩
      obtain ⟨v, hv, e1⟩ := (StepPack.hit h1).1 s1
      refine ⟨v, hv, ?_⟩
      cases m'
      simp only [Way.mk.injEq]
      exact ⟨((StepOne.miss (by omega)).1 s0).symm, e1.symm, ((StepPack.miss (by omega) (by omega)).1 s2).symm, ((StepOne.miss (by omega)).1 s3).symm, ((StepPack.miss (by omega) (by omega)).1 s4).symm⟩
  by_cases h2 : f.tag = 16
  · have e : Way.merge m f = (f.num asUInt32).map fun v => { m with keys := m.keys ++ [v] } := by
      unfold Way.merge
      rw [if_neg (by omega), if_neg (by omega), if_pos h2]
    rw [e, Option.map_eq_some_iff]
    constructor
    · rintro ⟨v, hv, rfl⟩
      exact ⟨(StepOne.miss (by omega)).2 rfl, (StepPack.hit2 (by omega) h2).2 ⟨[v], Option.map_eq_some_iff.2 ⟨v, hv, rfl⟩, rfl⟩, (StepPack.miss (by omega) (by omega)).2 rfl, (StepOne.miss (by omega)).2 rfl, (StepPack.miss (by omega) (by omega)).2 rfl⟩
    · rintro ⟨s0, s1, s2, s3, s4⟩
      obtain ⟨_, hw, e1⟩ := (StepPack.hit2 (by omega) h2).1 s1
      obtain ⟨v, hv, rfl⟩ := Option.map_eq_some_iff.1 hw
      refine ⟨v, hv, ?_⟩
      cases m'
      simp only [Way.mk.injEq]
      exact ⟨((StepOne.miss (by omega)).1 s0).symm, e1.symm, ((StepPack.miss (by omega) (by omega)).1 s2).symm, ((StepOne.miss (by omega)).1 s3).symm, ((StepPack.miss (by omega) (by omega)).1 s4).symm⟩
  by_cases h3 : f.tag = 26
  · have e : Way.merge m f = (f.packed asUInt32).map fun v => { m with vals := m.vals ++ v } := by
      unfold Way.merge
      rw [if_neg (by omega), if_neg (by omega), if_neg (by omega), if_pos h3]
    rw [e, Option.map_eq_some_iff]
    constructor
    · rintro ⟨v, hv, rfl⟩
      exact ⟨(StepOne.miss (by omega)).2 rfl, (StepPack.miss (by omega) (by omega)).2 rfl, (StepPack.hit h3).2 ⟨v, hv, rfl⟩, (StepOne.miss (by omega)).2 rfl, (StepPack.miss (by omega) (by omega)).2 rfl⟩
    · rintro ⟨s0, s1, s2, s3, s4⟩
      obtain ⟨v, hv, e2⟩ := (StepPack.hit h3).1 s2
      refine ⟨v, hv, ?_⟩
      cases m'
      simp only [Way.mk.injEq]
      exact ⟨((StepOne.miss (by omega)).1 s0).symm, ((StepPack.miss (by omega) (by omega)).1 s1).symm, e2.symm, ((StepOne.miss (by omega)).1 s3).symm, ((StepPack.miss (by omega) (by omega)).1 s4).symm⟩
  by_cases h4 : f.tag = 24
  · have e : Way.merge m f = (f.num asUInt32).map fun v => { m with vals := m.vals ++ [v] } := by
      unfold Way.merge
      rw [if_neg (by omega), if_neg (by omega), if_neg (by omega), if_neg (by omega), if_pos h4]
    rw [e, Option.map_eq_some_iff]
    constructor
    · rintro ⟨v, hv, rfl⟩
      exact ⟨(StepOne.miss (by omega)).2 rfl, (StepPack.miss (by omega) (by omega)).2 rfl, (StepPack.hit2 (by omega) h4).2 ⟨[v], Option.map_eq_some_iff.2 ⟨v, hv, rfl⟩, rfl⟩, (StepOne.miss (by omega)).2 rfl, (StepPack.miss (by omega) (by omega)).2 rfl⟩
    · rintro ⟨s0, s1, s2, s3, s4⟩
      obtain ⟨_, hw, e2⟩ := (StepPack.hit2 (by omega) h4).1 s2
      obtain ⟨v, hv, rfl⟩ := Option.map_eq_some_iff.1 hw
      refine ⟨v, hv, ?_⟩
      cases m'
      simp only [Way.mk.injEq]
      exact ⟨((StepOne.miss (by omega)).1 s0).symm, ((StepPack.miss (by omega) (by omega)).1 s1).symm, e2.symm, ((StepOne.miss (by omega)).1 s3).symm, ((StepPack.miss (by omega) (by omega)).1 s4).symm⟩
  by_cases h5 : f.tag = 34
  · have e : Way.merge m f = (f.message Info.merge {}).map fun v => { m with info := some v } := by
      unfold Way.merge
      rw [if_neg (by omega), if_neg (by omega), if_neg (by omega), if_neg (by omega), if_neg (by omega), if_pos h5]
    rw [e, Option.map_eq_some_iff]
    constructor
    · rintro ⟨v, hv, rfl⟩
      exact ⟨(StepOne.miss (by omega)).2 rfl, (StepPack.miss (by omega) (by omega)).2 rfl, (StepPack.miss (by omega) (by omega)).2 rfl, (StepOne.hit h5).2 ⟨v, hv, rfl⟩, (StepPack.miss (by omega) (by omega)).2 rfl⟩
    · rintro ⟨s0, s1, s2, s3, s4⟩
      obtain ⟨v, hv, e3⟩ := (StepOne.hit h5).1 s3
      refine ⟨v, hv, ?_⟩
      cases m'
      simp only [Way.mk.injEq]
      exact ⟨((StepOne.miss (by omega)).1 s0).symm, ((StepPack.miss (by omega) (by omega)).1 s1).symm, ((StepPack.miss (by omega) (by omega)).1 s2).symm, e3.symm, ((StepPack.miss (by omega) (by omega)).1 s4).symm⟩
  by_cases h6 : f.tag = 66
  · have e : Way.merge m f = (f.packed zigZag64).map fun v => { m with refs := m.refs ++ v } := by
      unfold Way.merge
      rw [if_neg (by omega), if_neg (by omega), if_neg (by omega), if_neg (by omega), if_neg (by omega), if_neg (by omega), if_pos h6]
    rw [e, Option.map_eq_some_iff]
    constructor
    · rintro ⟨v, hv, rfl⟩
      exact ⟨(StepOne.miss (by omega)).2 rfl, (StepPack.miss (by omega) (by omega)).2 rfl, (StepPack.miss (by omega) (by omega)).2 rfl, (StepOne.miss (by omega)).2 rfl, (StepPack.hit h6).2 ⟨v, hv, rfl⟩⟩
    · rintro ⟨s0, s1, s2, s3, s4⟩
      obtain ⟨v, hv, e4⟩ := (StepPack.hit h6).1 s4
      refine ⟨v, hv, ?_⟩
      cases m'
      simp only [Way.mk.injEq]
      exact ⟨((StepOne.miss (by omega)).1 s0).symm, ((StepPack.miss (by omega) (by omega)).1 s1).symm, ((StepPack.miss (by omega) (by omega)).1 s2).symm, ((StepOne.miss (by omega)).1 s3).symm, e4.symm⟩
  by_cases h7 : f.tag = 64
  · have e : Way.merge m f = (f.num zigZag64).map fun v => { m with refs := m.refs ++ [v] } := by
      unfold Way.merge
      rw [if_neg (by omega), if_neg (by omega), if_neg (by omega), if_neg (by omega), if_neg (by omega), if_neg (by omega), if_neg (by omega), if_pos h7]
    rw [e, Option.map_eq_some_iff]
    constructor
    · rintro ⟨v, hv, rfl⟩
      exact ⟨(StepOne.miss (by omega)).2 rfl, (StepPack.miss (by omega) (by omega)).2 rfl, (StepPack.miss (by omega) (by omega)).2 rfl, (StepOne.miss (by omega)).2 rfl, (StepPack.hit2 (by omega) h7).2 ⟨[v], Option.map_eq_some_iff.2 ⟨v, hv, rfl⟩, rfl⟩⟩
    · rintro ⟨s0, s1, s2, s3, s4⟩
      obtain ⟨_, hw, e4⟩ := (StepPack.hit2 (by omega) h7).1 s4
      obtain ⟨v, hv, rfl⟩ := Option.map_eq_some_iff.1 hw
      refine ⟨v, hv, ?_⟩
      cases m'
      simp only [Way.mk.injEq]
      exact ⟨((StepOne.miss (by omega)).1 s0).symm, ((StepPack.miss (by omega) (by omega)).1 s1).symm, ((StepPack.miss (by omega) (by omega)).1 s2).symm, ((StepOne.miss (by omega)).1 s3).symm, e4.symm⟩
  have e : Way.merge m f = some m := by
    unfold Way.merge
    rw [if_neg h0, if_neg h1, if_neg h2, if_neg h3, if_neg h4, if_neg h5, if_neg h6, if_neg h7]
  rw [e, Option.some_inj]
  constructor
  · rintro rfl
    exact ⟨(StepOne.miss (by omega)).2 rfl, (StepPack.miss (by omega) (by omega)).2 rfl, (StepPack.miss (by omega) (by omega)).2 rfl, (StepOne.miss (by omega)).2 rfl, (StepPack.miss (by omega) (by omega)).2 rfl⟩
  · rintro ⟨s0, s1, s2, s3, s4⟩
    cases m'
    cases m
    simp only [Way.mk.injEq]
    exact ⟨((StepOne.miss (by omega)).1 s0).symm, ((StepPack.miss (by omega) (by omega)).1 s1).symm, ((StepPack.miss (by omega) (by omega)).1 s2).symm, ((StepOne.miss (by omega)).1 s3).symm, ((StepPack.miss (by omega) (by omega)).1 s4).symm⟩

theorem Way.merge_runs (fs : List Field) : ∀ m m' : Way, mergeAll Way.merge m fs = some m' ↔
      Run (StepOne 8 (fun f => f.num asInt64)) m.id fs m'.id ∧
      Run (StepPack 18 16 (fun f => f.packed asUInt32) (fun f => (f.num asUInt32).map fun v => [v])) m.keys fs m'.keys ∧
      Run (StepPack 26 24 (fun f => f.packed asUInt32) (fun f => (f.num asUInt32).map fun v => [v])) m.vals fs m'.vals ∧
      Run (StepOne 34 (fun f => f.message Info.merge {})) m.info fs m'.info ∧
      Run (StepPack 66 64 (fun f => f.packed zigZag64) (fun f => (f.num zigZag64).map fun v => [v])) m.refs fs m'.refs := by
  induction fs with
  | nil =>
    intro m m'
    simp only [mergeAll, Run, Option.some_inj]
    constructor
    · rintro rfl
      exact ⟨rfl, rfl, rfl, rfl, rfl⟩
    · rintro ⟨s0, s1, s2, s3, s4⟩
      cases m'
      cases m
      simp only [Way.mk.injEq]
      exact ⟨s0.symm, s1.symm, s2.symm, s3.symm, s4.symm⟩
  | cons f fs ih =>
    intro m m'
    rw [mergeAll, Option.bind_eq_some_iff]
    constructor
    · rintro ⟨m1, h1, h2⟩
      obtain ⟨s0, s1, s2, s3, s4⟩ := (Way.merge_steps m f m1).1 h1
      obtain ⟨r0, r1, r2, r3, r4⟩ := (ih m1 m').1 h2
      exact ⟨⟨_, s0, r0⟩, ⟨_, s1, r1⟩, ⟨_, s2, r2⟩, ⟨_, s3, r3⟩, ⟨_, s4, r4⟩⟩
    · rintro ⟨⟨x0, s0, r0⟩, ⟨x1, s1, r1⟩, ⟨x2, s2, r2⟩, ⟨x3, s3, r3⟩, ⟨x4, s4, r4⟩⟩
      exact ⟨{ id := x0, keys := x1, vals := x2, info := x3, refs := x4 }, (Way.merge_steps _ _ _).2 ⟨s0, s1, s2, s3, s4⟩, (ih _ _).2 ⟨r0, r1, r2, r3, r4⟩⟩

theorem Way.parse_decodes (bs : Bytes) (m : Way) : parse Way.merge {} bs = some m ↔ DecodesWay bs m :=
  parse_iff (C := saysWay) (fun fs hf m => (Way.merge_runs fs {} m).trans (and_congr (run_oneNumber (number := 1) hf asInt64_iff rfl) (and_congr (run_manyNumbers (number := 2) hf (fun _ => asUInt32_iff _) rfl rfl) (and_congr (run_manyNumbers (number := 3) hf (fun _ => asUInt32_iff _) rfl rfl) (and_congr (run_one' (number := 4) (message_iff Info.parse_decodes) rfl) (run_manyNumbers (number := 8) hf zigZag64_iff rfl rfl)))))) (fun _ _ => Iff.rfl) bs m

theorem Relation.merge_steps (m : Relation) (f : Field) (m' : Relation) : Relation.merge m f = some m' ↔
      StepOne 8 (fun f => f.num asInt64) m.id f m'.id ∧
      StepPack 18 16 (fun f => f.packed asUInt32) (fun f => (f.num asUInt32).map fun v => [v]) m.keys f m'.keys ∧
      StepPack 26 24 (fun f => f.packed asUInt32) (fun f => (f.num asUInt32).map fun v => [v]) m.vals f m'.vals ∧
      StepOne 34 (fun f => f.message Info.merge {}) m.info f m'.info ∧
      StepPack 66 64 (fun f => f.packed asInt32) (fun f => (f.num asInt32).map fun v => [v]) m.rolesSid f m'.rolesSid ∧
      StepPack 74 72 (fun f => f.packed zigZag64) (fun f => (f.num zigZag64).map fun v => [v]) m.memids f m'.memids ∧
      StepPack 82 80 (fun f => f.packed asInt32) (fun f => (f.num asInt32).map fun v => [v]) m.types f m'.types := by
  by_cases h0 : f.tag = 8
  · have e : Relation.merge m f = (f.num asInt64).map fun v => { m with id := some v } := by
      unfold Relation.merge
      rw [if_pos h0]
    rw [e, Option.map_eq_some_iff]
    constructor
    · rintro ⟨v, hv, rfl⟩
      exact ⟨(StepOne.hit h0).2 ⟨v, hv, rfl⟩, (StepPack.miss (by omega) (by omega)).2 rfl, (StepPack.miss (by omega) (by omega)).2 rfl, (StepOne.miss (by omega)).2 rfl, (StepPack.miss (by omega) (by omega)).2 rfl, (StepPack.miss (by omega) (by omega)).2 rfl, (StepPack.miss (by omega) (by omega)).2 rfl⟩
    · rintro ⟨s0, s1, s2, s3, s4, s5, s6⟩
      obtain ⟨v, hv, e0⟩ := (StepOne.hit h0).1 s0
      refine ⟨v, hv, ?_⟩
      cases m'
      simp only [Relation.mk.injEq]
      exact ⟨e0.symm, ((StepPack.miss (by omega) (by omega)).1 s1).symm, ((StepPack.miss (by omega) (by omega)).1 s2).symm, ((StepOne.miss (by omega)).1 s3).symm, ((StepPack.miss (by omega) (by omega)).1 s4).symm, ((StepPack.miss (by omega) (by omega)).1 s5).symm, ((StepPack.miss (by omega) (by omega)).1 s6).symm⟩
  by_cases h1 : f.tag = 18
  · have e : Relation.merge m f = (f.packed asUInt32).map fun v => { m with keys := m.keys ++ v } := by
      unfold Relation.merge
      rw [if_neg (by omega), if_pos h1]
    rw [e, Option.map_eq_some_iff]
    constructor
    · rintro ⟨v, hv, rfl⟩
      exact ⟨(StepOne.miss (by omega)).2 rfl, (StepPack.hit h1).2 ⟨v, hv, rfl⟩, (StepPack.miss (by omega) (by omega)).2 rfl, (StepOne.miss (by omega)).2 rfl, (StepPack.miss (by omega) (by omega)).2 rfl, (StepPack.miss (by omega) (by omega)).2 rfl, (StepPack.miss (by omega) (by omega)).2 rfl⟩
    · rintro ⟨s0, s1, s2, s3, s4, s5, s6⟩
      obtain ⟨v, hv, e1⟩ := (StepPack.hit h1).1 s1
      refine ⟨v, hv, ?_⟩
      cases m'
      simp only [Relation.mk.injEq]
      exact ⟨((StepOne.miss (by omega)).1 s0).symm, e1.symm, ((StepPack.miss (by omega) (by omega)).1 s2).symm, ((StepOne.miss (by omega)).1 s3).symm, ((StepPack.miss (by omega) (by omega)).1 s4).symm, ((StepPack.miss (by omega) (by omega)).1 s5).symm, ((StepPack.miss (by omega) (by omega)).1 s6).symm⟩
  by_cases h2 : f.tag = 16
  · have e : Relation.merge m f = (f.num asUInt32).map fun v => { m with keys := m.keys ++ [v] } := by
      unfold Relation.merge
      rw [if_neg (by omega), if_neg (by omega), if_pos h2]
    rw [e, Option.map_eq_some_iff]
    constructor
    · rintro ⟨v, hv, rfl⟩
      exact ⟨(StepOne.miss (by omega)).2 rfl, (StepPack.hit2 (by omega) h2).2 ⟨[v], Option.map_eq_some_iff.2 ⟨v, hv, rfl⟩, rfl⟩, (StepPack.miss (by omega) (by omega)).2 rfl, (StepOne.miss (by omega)).2 rfl, (StepPack.miss (by omega) (by omega)).2 rfl, (StepPack.miss (by omega) (by omega)).2 rfl, (StepPack.miss (by omega) (by omega)).2 rfl⟩
    · rintro ⟨s0, s1, s2, s3, s4, s5, s6⟩
      obtain ⟨_, hw, e1⟩ := (StepPack.hit2 (by omega) h2).1 s1
      obtain ⟨v, hv, rfl⟩ := Option.map_eq_some_iff.1 hw
      refine ⟨v, hv, ?_⟩
      cases m'
      simp only [Relation.mk.injEq]
      exact ⟨((StepOne.miss (by omega)).1 s0).symm, e1.symm, ((StepPack.miss (by omega) (by omega)).1 s2).symm, ((StepOne.miss (by omega)).1 s3).symm, ((StepPack.miss (by omega) (by omega)).1 s4).symm, ((StepPack.miss (by omega) (by omega)).1 s5).symm, ((StepPack.miss (by omega) (by omega)).1 s6).symm⟩
  by_cases h3 : f.tag = 26
  · have e : Relation.merge m f = (f.packed asUInt32).map fun v => { m with vals := m.vals ++ v } := by
      unfold Relation.merge
      rw [if_neg (by omega), if_neg (by omega), if_neg (by omega), if_pos h3]
    rw [e, Option.map_eq_some_iff]
    constructor
    · rintro ⟨v, hv, rfl⟩
      exact ⟨(StepOne.miss (by omega)).2 rfl, (StepPack.miss (by omega) (by omega)).2 rfl, (StepPack.hit h3).2 ⟨v, hv, rfl⟩, (StepOne.miss (by omega)).2 rfl, (StepPack.miss (by omega) (by omega)).2 rfl, (StepPack.miss (by omega) (by omega)).2 rfl, (StepPack.miss (by omega) (by omega)).2 rfl⟩
    · rintro ⟨s0, s1, s2, s3, s4, s5, s6⟩
      obtain ⟨v, hv, e2⟩ := (StepPack.hit h3).1 s2
      refine ⟨v, hv, ?_⟩
      cases m'
      simp only [Relation.mk.injEq]
      exact ⟨((StepOne.miss (by omega)).1 s0).symm, ((StepPack.miss (by omega) (by omega)).1 s1).symm, e2.symm, ((StepOne.miss (by omega)).1 s3).symm, ((StepPack.miss (by omega) (by omega)).1 s4).symm, ((StepPack.miss (by omega) (by omega)).1 s5).symm, ((StepPack.miss (by omega) (by omega)).1 s6).symm⟩
  by_cases h4 : f.tag = 24
  · have e : Relation.merge m f = (f.num asUInt32).map fun v => { m with vals := m.vals ++ [v] } := by
      unfold Relation.merge
      rw [if_neg (by omega), if_neg (by omega), if_neg (by omega), if_neg (by omega), if_pos h4]
    rw [e, Option.map_eq_some_iff]
    constructor
    · rintro ⟨v, hv, rfl⟩
      exact ⟨(StepOne.miss (by omega)).2 rfl, (StepPack.miss (by omega) (by omega)).2 rfl, (StepPack.hit2 (by omega) h4).2 ⟨[v], Option.map_eq_some_iff.2 ⟨v, hv, rfl⟩, rfl⟩, (StepOne.miss (by omega)).2 rfl, (StepPack.miss (by omega) (by omega)).2 rfl, (StepPack.miss (by omega) (by omega)).2 rfl, (StepPack.miss (by omega) (by omega)).2 rfl⟩
    · rintro ⟨s0, s1, s2, s3, s4, s5, s6⟩
      obtain ⟨_, hw, e2⟩ := (StepPack.hit2 (by omega) h4).1 s2
      obtain ⟨v, hv, rfl⟩ := Option.map_eq_some_iff.1 hw
      refine ⟨v, hv, ?_⟩
      cases m'
      simp only [Relation.mk.injEq]
      exact ⟨((StepOne.miss (by omega)).1 s0).symm, ((StepPack.miss (by omega) (by omega)).1 s1).symm, e2.symm, ((StepOne.miss (by omega)).1 s3).symm, ((StepPack.miss (by omega) (by omega)).1 s4).symm, ((StepPack.miss (by omega) (by omega)).1 s5).symm, ((StepPack.miss (by omega) (by omega)).1 s6).symm⟩
  by_cases h5 : f.tag = 34
  · have e : Relation.merge m f = (f.message Info.merge {}).map fun v => { m with info := some v } := by
      unfold Relation.merge
      rw [if_neg (by omega), if_neg (by omega), if_neg (by omega), if_neg (by omega), if_neg (by omega), if_pos h5]
    rw [e, Option.map_eq_some_iff]
    constructor
    · rintro ⟨v, hv, rfl⟩
      exact ⟨(StepOne.miss (by omega)).2 rfl, (StepPack.miss (by omega) (by omega)).2 rfl, (StepPack.miss (by omega) (by omega)).2 rfl, (StepOne.hit h5).2 ⟨v, hv, rfl⟩, (StepPack.miss (by omega) (by omega)).2 rfl, (StepPack.miss (by omega) (by omega)).2 rfl, (StepPack.miss (by omega) (by omega)).2 rfl⟩
    · rintro ⟨s0, s1, s2, s3, s4, s5, s6⟩
      obtain ⟨v, hv, e3⟩ := (StepOne.hit h5).1 s3
      refine ⟨v, hv, ?_⟩
      cases m'
      simp only [Relation.mk.injEq]
      exact ⟨((StepOne.miss (by omega)).1 s0).symm, ((StepPack.miss (by omega) (by omega)).1 s1).symm, ((StepPack.miss (by omega) (by omega)).1 s2).symm, e3.symm, ((StepPack.miss (by omega) (by omega)).1 s4).symm, ((StepPack.miss (by omega) (by omega)).1 s5).symm, ((StepPack.miss (by omega) (by omega)).1 s6).symm⟩
  by_cases h6 : f.tag = 66
  · have e : Relation.merge m f = (f.packed asInt32).map fun v => { m with rolesSid := m.rolesSid ++ v } := by
      unfold Relation.merge
      rw [if_neg (by omega), if_neg (by omega), if_neg (by omega), if_neg (by omega), if_neg (by omega), if_neg (by omega), if_pos h6]
    rw [e, Option.map_eq_some_iff]
    constructor
    · rintro ⟨v, hv, rfl⟩
      exact ⟨(StepOne.miss (by omega)).2 rfl, (StepPack.miss (by omega) (by omega)).2 rfl, (StepPack.miss (by omega) (by omega)).2 rfl, (StepOne.miss (by omega)).2 rfl, (StepPack.hit h6).2 ⟨v, hv, rfl⟩, (StepPack.miss (by omega) (by omega)).2 rfl, (StepPack.miss (by omega) (by omega)).2 rfl⟩
    · rintro ⟨s0, s1, s2, s3, s4, s5, s6⟩
      obtain ⟨v, hv, e4⟩ := (StepPack.hit h6).1 s4
      refine ⟨v, hv, ?_⟩
      cases m'
      simp only [Relation.mk.injEq]
      exact ⟨((StepOne.miss (by omega)).1 s0).symm, ((StepPack.miss (by omega) (by omega)).1 s1).symm, ((StepPack.miss (by omega) (by omega)).1 s2).symm, ((StepOne.miss (by omega)).1 s3).symm, e4.symm, ((StepPack.miss (by omega) (by omega)).1 s5).symm, ((StepPack.miss (by omega) (by omega)).1 s6).symm⟩
  by_cases h7 : f.tag = 64
  · have e : Relation.merge m f = (f.num asInt32).map fun v => { m with rolesSid := m.rolesSid ++ [v] } := by
      unfold Relation.merge
      rw [if_neg (by omega), if_neg (by omega), if_neg (by omega), if_neg (by omega), if_neg (by omega), if_neg (by omega), if_neg (by omega), if_pos h7]
    rw [e, Option.map_eq_some_iff]
    constructor
    · rintro ⟨v, hv, rfl⟩
      exact ⟨(StepOne.miss (by omega)).2 rfl, (StepPack.miss (by omega) (by omega)).2 rfl, (StepPack.miss (by omega) (by omega)).2 rfl, (StepOne.miss (by omega)).2 rfl, (StepPack.hit2 (by omega) h7).2 ⟨[v], Option.map_eq_some_iff.2 ⟨v, hv, rfl⟩, rfl⟩, (StepPack.miss (by omega) (by omega)).2 rfl, (StepPack.miss (by omega) (by omega)).2 rfl⟩
    · rintro ⟨s0, s1, s2, s3, s4, s5, s6⟩
      obtain ⟨_, hw, e4⟩ := (StepPack.hit2 (by omega) h7).1 s4
      obtain ⟨v, hv, rfl⟩ := Option.map_eq_some_iff.1 hw
      refine ⟨v, hv, ?_⟩
      cases m'
      simp only [Relation.mk.injEq]
      exact ⟨((StepOne.miss (by omega)).1 s0).symm, ((StepPack.miss (by omega) (by omega)).1 s1).symm, ((StepPack.miss (by omega) (by omega)).1 s2).symm, ((StepOne.miss (by omega)).1 s3).symm, e4.symm, ((StepPack.miss (by omega) (by omega)).1 s5).symm, ((StepPack.miss (by omega) (by omega)).1 s6).symm⟩
  by_cases h8 : f.tag = 74
  · have e : Relation.merge m f = (f.packed zigZag64).map fun v => { m with memids := m.memids ++ v } := by
      unfold Relation.merge
      rw [if_neg (by omega), if_neg (by omega), if_neg (by omega), if_neg (by omega), if_neg (by omega), if_neg (by omega), if_neg (by omega), if_neg (by omega), if_pos h8]
    rw [e, Option.map_eq_some_iff]
    constructor
    · rintro ⟨v, hv, rfl⟩
      exact ⟨(StepOne.miss (by omega)).2 rfl, (StepPack.miss (by omega) (by omega)).2 rfl, (StepPack.miss (by omega) (by omega)).2 rfl, (StepOne.miss (by omega)).2 rfl, (StepPack.miss (by omega) (by omega)).2 rfl, (StepPack.hit h8).2 ⟨v, hv, rfl⟩, (StepPack.miss (by omega) (by omega)).2 rfl⟩
    · rintro ⟨s0, s1, s2, s3, s4, s5, s6⟩
      obtain ⟨v, hv, e5⟩ := (StepPack.hit h8).1 s5
      refine ⟨v, hv, ?_⟩
      cases m'
      simp only [Relation.mk.injEq]
      exact ⟨((StepOne.miss (by omega)).1 s0).symm, ((StepPack.miss (by omega) (by omega)).1 s1).symm, ((StepPack.miss (by omega) (by omega)).1 s2).symm, ((StepOne.miss (by omega)).1 s3).symm, ((StepPack.miss (by omega) (by omega)).1 s4).symm, e5.symm, ((StepPack.miss (by omega) (by omega)).1 s6).symm⟩
  by_cases h9 : f.tag = 72
  · have e : Relation.merge m f = (f.num zigZag64).map fun v => { m with memids := m.memids ++ [v] } := by
      unfold Relation.merge
      rw [if_neg (by omega), if_neg (by omega), if_neg (by omega), if_neg (by omega), if_neg (by omega), if_neg (by omega), if_neg (by omega), if_neg (by omega), if_neg (by omega), if_pos h9]
    rw [e, Option.map_eq_some_iff]
    constructor
    · rintro ⟨v, hv, rfl⟩
      exact ⟨(StepOne.miss (by omega)).2 rfl, (StepPack.miss (by omega) (by omega)).2 rfl, (StepPack.miss (by omega) (by omega)).2 rfl, (StepOne.miss (by omega)).2 rfl, (StepPack.miss (by omega) (by omega)).2 rfl, (StepPack.hit2 (by omega) h9).2 ⟨[v], Option.map_eq_some_iff.2 ⟨v, hv, rfl⟩, rfl⟩, (StepPack.miss (by omega) (by omega)).2 rfl⟩
    · rintro ⟨s0, s1, s2, s3, s4, s5, s6⟩
      obtain ⟨_, hw, e5⟩ := (StepPack.hit2 (by omega) h9).1 s5
      obtain ⟨v, hv, rfl⟩ := Option.map_eq_some_iff.1 hw
      refine ⟨v, hv, ?_⟩
      cases m'
      simp only [Relation.mk.injEq]
      exact ⟨((StepOne.miss (by omega)).1 s0).symm, ((StepPack.miss (by omega) (by omega)).1 s1).symm, ((StepPack.miss (by omega) (by omega)).1 s2).symm, ((StepOne.miss (by omega)).1 s3).symm, ((StepPack.miss (by omega) (by omega)).1 s4).symm, e5.symm, ((StepPack.miss (by omega) (by omega)).1 s6).symm⟩
  by_cases h10 : f.tag = 80
  · have e : Relation.merge m f = (f.num asInt32).map fun v => { m with types := m.types ++ [v] } := by
      unfold Relation.merge
      rw [if_neg (by omega), if_neg (by omega), if_neg (by omega), if_neg (by omega), if_neg (by omega), if_neg (by omega), if_neg (by omega), if_neg (by omega), if_neg (by omega), if_neg (by omega), if_pos h10]
    rw [e, Option.map_eq_some_iff]
    constructor
    · rintro ⟨v, hv, rfl⟩
      exact ⟨(StepOne.miss (by omega)).2 rfl, (StepPack.miss (by omega) (by omega)).2 rfl, (StepPack.miss (by omega) (by omega)).2 rfl, (StepOne.miss (by omega)).2 rfl, (StepPack.miss (by omega) (by omega)).2 rfl, (StepPack.miss (by omega) (by omega)).2 rfl, (StepPack.hit2 (by omega) h10).2 ⟨[v], Option.map_eq_some_iff.2 ⟨v, hv, rfl⟩, rfl⟩⟩
    · rintro ⟨s0, s1, s2, s3, s4, s5, s6⟩
      obtain ⟨_, hw, e6⟩ := (StepPack.hit2 (by omega) h10).1 s6
      obtain ⟨v, hv, rfl⟩ := Option.map_eq_some_iff.1 hw
      refine ⟨v, hv, ?_⟩
      cases m'
      simp only [Relation.mk.injEq]
      exact ⟨((StepOne.miss (by omega)).1 s0).symm, ((StepPack.miss (by omega) (by omega)).1 s1).symm, ((StepPack.miss (by omega) (by omega)).1 s2).symm, ((StepOne.miss (by omega)).1 s3).symm, ((StepPack.miss (by omega) (by omega)).1 s4).symm, ((StepPack.miss (by omega) (by omega)).1 s5).symm, e6.symm⟩
  by_cases h11 : f.tag = 82
  · have e : Relation.merge m f = (f.packed asInt32).map fun v => { m with types := m.types ++ v } := by
      unfold Relation.merge
      rw [if_neg (by omega), if_neg (by omega), if_neg (by omega), if_neg (by omega), if_neg (by omega), if_neg (by omega), if_neg (by omega), if_neg (by omega), if_neg (by omega), if_neg (by omega), if_neg (by omega), if_pos h11]
    rw [e, Option.map_eq_some_iff]
    constructor
    · rintro ⟨v, hv, rfl⟩
      exact ⟨(StepOne.miss (by omega)).2 rfl, (StepPack.miss (by omega) (by omega)).2 rfl, (StepPack.miss (by omega) (by omega)).2 rfl, (StepOne.miss (by omega)).2 rfl, (StepPack.miss (by omega) (by omega)).2 rfl, (StepPack.miss (by omega) (by omega)).2 rfl, (StepPack.hit h11).2 ⟨v, hv, rfl⟩⟩
    · rintro ⟨s0, s1, s2, s3, s4, s5, s6⟩
      obtain ⟨v, hv, e6⟩ := (StepPack.hit h11).1 s6
      refine ⟨v, hv, ?_⟩
      cases m'
      simp only [Relation.mk.injEq]
      exact ⟨((StepOne.miss (by omega)).1 s0).symm, ((StepPack.miss (by omega) (by omega)).1 s1).symm, ((StepPack.miss (by omega) (by omega)).1 s2).symm, ((StepOne.miss (by omega)).1 s3).symm, ((StepPack.miss (by omega) (by omega)).1 s4).symm, ((StepPack.miss (by omega) (by omega)).1 s5).symm, e6.symm⟩
  have e : Relation.merge m f = some m := by
    unfold Relation.merge
    rw [if_neg h0, if_neg h1, if_neg h2, if_neg h3, if_neg h4, if_neg h5, if_neg h6, if_neg h7, if_neg h8, if_neg h9, if_neg h10, if_neg h11]
  rw [e, Option.some_inj]
  constructor
  · rintro rfl
    exact ⟨(StepOne.miss (by omega)).2 rfl, (StepPack.miss (by omega) (by omega)).2 rfl, (StepPack.miss (by omega) (by omega)).2 rfl, (StepOne.miss (by omega)).2 rfl, (StepPack.miss (by omega) (by omega)).2 rfl, (StepPack.miss (by omega) (by omega)).2 rfl, (StepPack.miss (by omega) (by omega)).2 rfl⟩
  · rintro ⟨s0, s1, s2, s3, s4, s5, s6⟩
    cases m'
    cases m
    simp only [Relation.mk.injEq]
    exact ⟨((StepOne.miss (by omega)).1 s0).symm, ((StepPack.miss (by omega) (by omega)).1 s1).symm, ((StepPack.miss (by omega) (by omega)).1 s2).symm, ((StepOne.miss (by omega)).1 s3).symm, ((StepPack.miss (by omega) (by omega)).1 s4).symm, ((StepPack.miss (by omega) (by omega)).1 s5).symm, ((StepPack.miss (by omega) (by omega)).1 s6).symm⟩

theorem Relation.merge_runs (fs : List Field) : ∀ m m' : Relation, mergeAll Relation.merge m fs = some m' ↔
      Run (StepOne 8 (fun f => f.num asInt64)) m.id fs m'.id ∧
      Run (StepPack 18 16 (fun f => f.packed asUInt32) (fun f => (f.num asUInt32).map fun v => [v])) m.keys fs m'.keys ∧
      Run (StepPack 26 24 (fun f => f.packed asUInt32) (fun f => (f.num asUInt32).map fun v => [v])) m.vals fs m'.vals ∧
      Run (StepOne 34 (fun f => f.message Info.merge {})) m.info fs m'.info ∧
      Run (StepPack 66 64 (fun f => f.packed asInt32) (fun f => (f.num asInt32).map fun v => [v])) m.rolesSid fs m'.rolesSid ∧
      Run (StepPack 74 72 (fun f => f.packed zigZag64) (fun f => (f.num zigZag64).map fun v => [v])) m.memids fs m'.memids ∧
      Run (StepPack 82 80 (fun f => f.packed asInt32) (fun f => (f.num asInt32).map fun v => [v])) m.types fs m'.types := by
  induction fs with
  | nil =>
    intro m m'
    simp only [mergeAll, Run, Option.some_inj]
    constructor
    · rintro rfl
      exact ⟨rfl, rfl, rfl, rfl, rfl, rfl, rfl⟩
    · rintro ⟨s0, s1, s2, s3, s4, s5, s6⟩
      cases m'
      cases m
      simp only [Relation.mk.injEq]
      exact ⟨s0.symm, s1.symm, s2.symm, s3.symm, s4.symm, s5.symm, s6.symm⟩
  | cons f fs ih =>
    intro m m'
    rw [mergeAll, Option.bind_eq_some_iff]
    constructor
    · rintro ⟨m1, h1, h2⟩
      obtain ⟨s0, s1, s2, s3, s4, s5, s6⟩ := (Relation.merge_steps m f m1).1 h1
      obtain ⟨r0, r1, r2, r3, r4, r5, r6⟩ := (ih m1 m').1 h2
      exact ⟨⟨_, s0, r0⟩, ⟨_, s1, r1⟩, ⟨_, s2, r2⟩, ⟨_, s3, r3⟩, ⟨_, s4, r4⟩, ⟨_, s5, r5⟩, ⟨_, s6, r6⟩⟩
    · rintro ⟨⟨x0, s0, r0⟩, ⟨x1, s1, r1⟩, ⟨x2, s2, r2⟩, ⟨x3, s3, r3⟩, ⟨x4, s4, r4⟩, ⟨x5, s5, r5⟩, ⟨x6, s6, r6⟩⟩
      exact ⟨{ id := x0, keys := x1, vals := x2, info := x3, rolesSid := x4, memids := x5, types := x6 }, (Relation.merge_steps _ _ _).2 ⟨s0, s1, s2, s3, s4, s5, s6⟩, (ih _ _).2 ⟨r0, r1, r2, r3, r4, r5, r6⟩⟩

theorem Relation.parse_decodes (bs : Bytes) (m : Relation) : parse Relation.merge {} bs = some m ↔ DecodesRelation bs m :=
  parse_iff (C := saysRelation) (fun fs hf m => (Relation.merge_runs fs {} m).trans (and_congr (run_oneNumber (number := 1) hf asInt64_iff rfl) (and_congr (run_manyNumbers (number := 2) hf (fun _ => asUInt32_iff _) rfl rfl) (and_congr (run_manyNumbers (number := 3) hf (fun _ => asUInt32_iff _) rfl rfl) (and_congr (run_one' (number := 4) (message_iff Info.parse_decodes) rfl) (and_congr (run_manyNumbers (number := 8) hf asInt32_iff rfl rfl) (and_congr (run_manyNumbers (number := 9) hf zigZag64_iff rfl rfl) (run_manyNumbers (number := 10) hf asInt32_iff rfl rfl)))))))) (fun _ _ => Iff.rfl) bs m

theorem ChangeSet.merge_steps (m : ChangeSet) (f : Field) (m' : ChangeSet) : ChangeSet.merge m f = some m' ↔
      StepOne 8 (fun f => f.num asInt64) m.id f m'.id := by
  by_cases h0 : f.tag = 8
  · have e : ChangeSet.merge m f = (f.num asInt64).map fun v => { m with id := some v } := by
      unfold ChangeSet.merge
      rw [if_pos h0]
    rw [e, Option.map_eq_some_iff]
    constructor
    · rintro ⟨v, hv, rfl⟩
      exact (StepOne.hit h0).2 ⟨v, hv, rfl⟩
    · rintro s0
      obtain ⟨v, hv, e0⟩ := (StepOne.hit h0).1 s0
      refine ⟨v, hv, ?_⟩
      cases m'
      simp only [ChangeSet.mk.injEq]
      exact e0.symm
  have e : ChangeSet.merge m f = some m := by
    unfold ChangeSet.merge
    rw [if_neg h0]
  rw [e, Option.some_inj]
  constructor
  · rintro rfl
    exact (StepOne.miss (by omega)).2 rfl
  · rintro s0
    cases m'
    cases m
    simp only [ChangeSet.mk.injEq]
    exact ((StepOne.miss (by omega)).1 s0).symm

theorem ChangeSet.merge_runs (fs : List Field) : ∀ m m' : ChangeSet, mergeAll ChangeSet.merge m fs = some m' ↔
      Run (StepOne 8 (fun f => f.num asInt64)) m.id fs m'.id := by
  induction fs with
  | nil =>
    intro m m'
    simp only [mergeAll, Run, Option.some_inj]
    constructor
    · rintro rfl
      exact rfl
    · rintro s0
      cases m'
      cases m
      simp only [ChangeSet.mk.injEq]
      exact s0.symm
  | cons f fs ih =>
    intro m m'
    rw [mergeAll, Option.bind_eq_some_iff]
    constructor
    · rintro ⟨m1, h1, h2⟩
      have s0 := (ChangeSet.merge_steps m f m1).1 h1
      have r0 := (ih m1 m').1 h2
      exact ⟨_, s0, r0⟩
    · rintro ⟨x0, s0, r0⟩
      exact ⟨{ id := x0 }, (ChangeSet.merge_steps _ _ _).2 s0, (ih _ _).2 r0⟩

theorem ChangeSet.parse_decodes (bs : Bytes) (m : ChangeSet) : parse ChangeSet.merge {} bs = some m ↔ DecodesChangeSet bs m :=
  parse_iff (C := saysChangeSet) (fun fs hf m => (ChangeSet.merge_runs fs {} m).trans (run_oneNumber (number := 1) hf asInt64_iff rfl)) (fun _ _ => Iff.rfl) bs m

theorem PrimitiveGroup.merge_steps (m : PrimitiveGroup) (f : Field) (m' : PrimitiveGroup) : PrimitiveGroup.merge m f = some m' ↔
      StepMany 10 (fun f => (f.message Node.merge {}).map fun v => [v]) m.nodes f m'.nodes ∧
      StepOne 18 (fun f => f.message DenseNodes.merge {}) m.dense f m'.dense ∧
      StepMany 26 (fun f => (f.message Way.merge {}).map fun v => [v]) m.ways f m'.ways ∧
      StepMany 34 (fun f => (f.message Relation.merge {}).map fun v => [v]) m.relations f m'.relations ∧
      StepMany 42 (fun f => (f.message ChangeSet.merge {}).map fun v => [v]) m.changesets f m'.changesets := by
  by_cases h0 : f.tag = 10
  · have e : PrimitiveGroup.merge m f = (f.message Node.merge {}).map fun v => { m with nodes := m.nodes ++ [v] } := by
      unfold PrimitiveGroup.merge
      rw [if_pos h0]
    rw [e, Option.map_eq_some_iff]
    constructor
    · rintro ⟨v, hv, rfl⟩
      exact ⟨(StepMany.hit h0).2 ⟨[v], Option.map_eq_some_iff.2 ⟨v, hv, rfl⟩, rfl⟩, (StepOne.miss (by omega)).2 rfl, (StepMany.miss (by omega)).2 rfl, (StepMany.miss (by omega)).2 rfl, (StepMany.miss (by omega)).2 rfl⟩
    · rintro ⟨s0, s1, s2, s3, s4⟩
      obtain ⟨_, hw, e0⟩ := (StepMany.hit h0).1 s0
      obtain ⟨v, hv, rfl⟩ := Option.map_eq_some_iff.1 hw
      refine ⟨v, hv, ?_⟩
      cases m'
      simp only [PrimitiveGroup.mk.injEq]
      exact ⟨e0.symm, ((StepOne.miss (by omega)).1 s1).symm, ((StepMany.miss (by omega)).1 s2).symm, ((StepMany.miss (by omega)).1 s3).symm, ((StepMany.miss (by omega)).1 s4).symm⟩
  by_cases h1 : f.tag = 18
  · have e : PrimitiveGroup.merge m f = (f.message DenseNodes.merge {}).map fun v => { m with dense := some v } := by
      unfold PrimitiveGroup.merge
      rw [if_neg (by omega), if_pos h1]
    rw [e, Option.map_eq_some_iff]
    constructor
    · rintro ⟨v, hv, rfl⟩
      exact ⟨(StepMany.miss (by omega)).2 rfl, (StepOne.hit h1).2 ⟨v, hv, rfl⟩, (StepMany.miss (by omega)).2 rfl, (StepMany.miss (by omega)).2 rfl, (StepMany.miss (by omega)).2 rfl⟩
    · rintro ⟨s0, s1, s2, s3, s4⟩
      obtain ⟨v, hv, e1⟩ := (StepOne.hit h1).1 s1
      refine ⟨v, hv, ?_⟩
      cases m'
      simp only [PrimitiveGroup.mk.injEq]
      exact ⟨((StepMany.miss (by omega)).1 s0).symm, e1.symm, ((StepMany.miss (by omega)).1 s2).symm, ((StepMany.miss (by omega)).1 s3).symm, ((StepMany.miss (by omega)).1 s4).symm⟩
  by_cases h2 : f.tag = 26
  · have e : PrimitiveGroup.merge m f = (f.message Way.merge {}).map fun v => { m with ways := m.ways ++ [v] } := by
      unfold PrimitiveGroup.merge
      rw [if_neg (by omega), if_neg (by omega), if_pos h2]
    rw [e, Option.map_eq_some_iff]
    constructor
    · rintro ⟨v, hv, rfl⟩
      exact ⟨(StepMany.miss (by omega)).2 rfl, (StepOne.miss (by omega)).2 rfl, (StepMany.hit h2).2 ⟨[v], Option.map_eq_some_iff.2 ⟨v, hv, rfl⟩, rfl⟩, (StepMany.miss (by omega)).2 rfl, (StepMany.miss (by omega)).2 rfl⟩
    · rintro ⟨s0, s1, s2, s3, s4⟩
      obtain ⟨_, hw, e2⟩ := (StepMany.hit h2).1 s2
      obtain ⟨v, hv, rfl⟩ := Option.map_eq_some_iff.1 hw
      refine ⟨v, hv, ?_⟩
      cases m'
      simp only [PrimitiveGroup.mk.injEq]
      exact ⟨((StepMany.miss (by omega)).1 s0).symm, ((StepOne.miss (by omega)).1 s1).symm, e2.symm, ((StepMany.miss (by omega)).1 s3).symm, ((StepMany.miss (by omega)).1 s4).symm⟩
  by_cases h3 : f.tag = 34
  · have e : PrimitiveGroup.merge m f = (f.message Relation.merge {}).map fun v => { m with relations := m.relations ++ [v] } := by
      unfold PrimitiveGroup.merge
      rw [if_neg (by omega), if_neg (by omega), if_neg (by omega), if_pos h3]
    rw [e, Option.map_eq_some_iff]
    constructor
    · rintro ⟨v, hv, rfl⟩
      exact ⟨(StepMany.miss (by omega)).2 rfl, (StepOne.miss (by omega)).2 rfl, (StepMany.miss (by omega)).2 rfl, (StepMany.hit h3).2 ⟨[v], Option.map_eq_some_iff.2 ⟨v, hv, rfl⟩, rfl⟩, (StepMany.miss (by omega)).2 rfl⟩
    · rintro ⟨s0, s1, s2, s3, s4⟩
      obtain ⟨_, hw, e3⟩ := (StepMany.hit h3).1 s3
      obtain ⟨v, hv, rfl⟩ := Option.map_eq_some_iff.1 hw
      refine ⟨v, hv, ?_⟩
      cases m'
      simp only [PrimitiveGroup.mk.injEq]
      exact ⟨((StepMany.miss (by omega)).1 s0).symm, ((StepOne.miss (by omega)).1 s1).symm, ((StepMany.miss (by omega)).1 s2).symm, e3.symm, ((StepMany.miss (by omega)).1 s4).symm⟩
  by_cases h4 : f.tag = 42
  · have e : PrimitiveGroup.merge m f = (f.message ChangeSet.merge {}).map fun v => { m with changesets := m.changesets ++ [v] } := by
      unfold PrimitiveGroup.merge
      rw [if_neg (by omega), if_neg (by omega), if_neg (by omega), if_neg (by omega), if_pos h4]
    rw [e, Option.map_eq_some_iff]
    constructor
    · rintro ⟨v, hv, rfl⟩
      exact ⟨(StepMany.miss (by omega)).2 rfl, (StepOne.miss (by omega)).2 rfl, (StepMany.miss (by omega)).2 rfl, (StepMany.miss (by omega)).2 rfl, (StepMany.hit h4).2 ⟨[v], Option.map_eq_some_iff.2 ⟨v, hv, rfl⟩, rfl⟩⟩
    · rintro ⟨s0, s1, s2, s3, s4⟩
      obtain ⟨_, hw, e4⟩ := (StepMany.hit h4).1 s4
      obtain ⟨v, hv, rfl⟩ := Option.map_eq_some_iff.1 hw
      refine ⟨v, hv, ?_⟩
      cases m'
      simp only [PrimitiveGroup.mk.injEq]
      exact ⟨((StepMany.miss (by omega)).1 s0).symm, ((StepOne.miss (by omega)).1 s1).symm, ((StepMany.miss (by omega)).1 s2).symm, ((StepMany.miss (by omega)).1 s3).symm, e4.symm⟩
  have e : PrimitiveGroup.merge m f = some m := by
    unfold PrimitiveGroup.merge
    rw [if_neg h0, if_neg h1, if_neg h2, if_neg h3, if_neg h4]
  rw [e, Option.some_inj]
  constructor
  · rintro rfl
    exact ⟨(StepMany.miss (by omega)).2 rfl, (StepOne.miss (by omega)).2 rfl, (StepMany.miss (by omega)).2 rfl, (StepMany.miss (by omega)).2 rfl, (StepMany.miss (by omega)).2 rfl⟩
  · rintro ⟨s0, s1, s2, s3, s4⟩
    cases m'
    cases m
    simp only [PrimitiveGroup.mk.injEq]
    exact ⟨((StepMany.miss (by omega)).1 s0).symm, ((StepOne.miss (by omega)).1 s1).symm, ((StepMany.miss (by omega)).1 s2).symm, ((StepMany.miss (by omega)).1 s3).symm, ((StepMany.miss (by omega)).1 s4).symm⟩

theorem PrimitiveGroup.merge_runs (fs : List Field) : ∀ m m' : PrimitiveGroup, mergeAll PrimitiveGroup.merge m fs = some m' ↔
      Run (StepMany 10 (fun f => (f.message Node.merge {}).map fun v => [v])) m.nodes fs m'.nodes ∧
      Run (StepOne 18 (fun f => f.message DenseNodes.merge {})) m.dense fs m'.dense ∧
      Run (StepMany 26 (fun f => (f.message Way.merge {}).map fun v => [v])) m.ways fs m'.ways ∧
      Run (StepMany 34 (fun f => (f.message Relation.merge {}).map fun v => [v])) m.relations fs m'.relations ∧
      Run (StepMany 42 (fun f => (f.message ChangeSet.merge {}).map fun v => [v])) m.changesets fs m'.changesets := by
  induction fs with
  | nil =>
    intro m m'
    simp only [mergeAll, Run, Option.some_inj]
    constructor
    · rintro rfl
      exact ⟨rfl, rfl, rfl, rfl, rfl⟩
    · rintro ⟨s0, s1, s2, s3, s4⟩
      cases m'
      cases m
      simp only [PrimitiveGroup.mk.injEq]
      exact ⟨s0.symm, s1.symm, s2.symm, s3.symm, s4.symm⟩
  | cons f fs ih =>
    intro m m'
    rw [mergeAll, Option.bind_eq_some_iff]
    constructor
    · rintro ⟨m1, h1, h2⟩
      obtain ⟨s0, s1, s2, s3, s4⟩ := (PrimitiveGroup.merge_steps m f m1).1 h1
      obtain ⟨r0, r1, r2, r3, r4⟩ := (ih m1 m').1 h2
      exact ⟨⟨_, s0, r0⟩, ⟨_, s1, r1⟩, ⟨_, s2, r2⟩, ⟨_, s3, r3⟩, ⟨_, s4, r4⟩⟩
    · rintro ⟨⟨x0, s0, r0⟩, ⟨x1, s1, r1⟩, ⟨x2, s2, r2⟩, ⟨x3, s3, r3⟩, ⟨x4, s4, r4⟩⟩
      exact ⟨{ nodes := x0, dense := x1, ways := x2, relations := x3, changesets := x4 }, (PrimitiveGroup.merge_steps _ _ _).2 ⟨s0, s1, s2, s3, s4⟩, (ih _ _).2 ⟨r0, r1, r2, r3, r4⟩⟩

theorem PrimitiveGroup.parse_decodes (bs : Bytes) (m : PrimitiveGroup) : parse PrimitiveGroup.merge {} bs = some m ↔ DecodesPrimitiveGroup bs m :=
  parse_iff (C := saysPrimitiveGroup) (fun fs hf m => (PrimitiveGroup.merge_runs fs {} m).trans (and_congr (run_many' (number := 1) (message_iff Node.parse_decodes) rfl) (and_congr (run_one' (number := 2) (message_iff DenseNodes.parse_decodes) rfl) (and_congr (run_many' (number := 3) (message_iff Way.parse_decodes) rfl) (and_congr (run_many' (number := 4) (message_iff Relation.parse_decodes) rfl) (run_many' (number := 5) (message_iff ChangeSet.parse_decodes) rfl)))))) (fun _ _ => Iff.rfl) bs m

theorem PrimitiveBlock.merge_steps (m : PrimitiveBlock) (f : Field) (m' : PrimitiveBlock) : PrimitiveBlock.merge m f = some m' ↔
      StepOne 10 (fun f => f.message StringTable.merge {}) m.stringtable f m'.stringtable ∧
      StepMany 18 (fun f => (f.message PrimitiveGroup.merge {}).map fun v => [v]) m.primitivegroup f m'.primitivegroup ∧
      StepOne 136 (fun f => f.num asInt32) m.granularity f m'.granularity ∧
      StepOne 152 (fun f => f.num asInt64) m.latOffset f m'.latOffset ∧
      StepOne 160 (fun f => f.num asInt64) m.lonOffset f m'.lonOffset ∧
      StepOne 144 (fun f => f.num asInt32) m.dateGranularity f m'.dateGranularity := by
  by_cases h0 : f.tag = 10
  · have e : PrimitiveBlock.merge m f = (f.message StringTable.merge {}).map fun v => { m with stringtable := some v } := by
      unfold PrimitiveBlock.merge
      rw [if_pos h0]
    rw [e, Option.map_eq_some_iff]
    constructor
    · rintro ⟨v, hv, rfl⟩
      exact ⟨(StepOne.hit h0).2 ⟨v, hv, rfl⟩, (StepMany.miss (by omega)).2 rfl, (StepOne.miss (by omega)).2 rfl, (StepOne.miss (by omega)).2 rfl, (StepOne.miss (by omega)).2 rfl, (StepOne.miss (by omega)).2 rfl⟩
    · rintro ⟨s0, s1, s2, s3, s4, s5⟩
      obtain ⟨v, hv, e0⟩ := (StepOne.hit h0).1 s0
      refine ⟨v, hv, ?_⟩
      cases m'
      simp only [PrimitiveBlock.mk.injEq]
      exact ⟨e0.symm, ((StepMany.miss (by omega)).1 s1).symm, ((StepOne.miss (by omega)).1 s2).symm, ((StepOne.miss (by omega)).1 s3).symm, ((StepOne.miss (by omega)).1 s4).symm, ((StepOne.miss (by omega)).1 s5).symm⟩
  by_cases h1 : f.tag = 18
  · have e : PrimitiveBlock.merge m f = (f.message PrimitiveGroup.merge {}).map fun v => { m with primitivegroup := m.primitivegroup ++ [v] } := by
      unfold PrimitiveBlock.merge
      rw [if_neg (by omega), if_pos h1]
    rw [e, Option.map_eq_some_iff]
    constructor
    · rintro ⟨v, hv, rfl⟩
      exact ⟨(StepOne.miss (by omega)).2 rfl, (StepMany.hit h1).2 ⟨[v], Option.map_eq_some_iff.2 ⟨v, hv, rfl⟩, rfl⟩, (StepOne.miss (by omega)).2 rfl, (StepOne.miss (by omega)).2 rfl, (StepOne.miss (by omega)).2 rfl, (StepOne.miss (by omega)).2 rfl⟩
    · rintro ⟨s0, s1, s2, s3, s4, s5⟩
      obtain ⟨_, hw, e1⟩ := (StepMany.hit h1).1 s1
      obtain ⟨v, hv, rfl⟩ := Option.map_eq_some_iff.1 hw
      refine ⟨v, hv, ?_⟩
      cases m'
      simp only [PrimitiveBlock.mk.injEq]
      exact ⟨((StepOne.miss (by omega)).1 s0).symm, e1.symm, ((StepOne.miss (by omega)).1 s2).symm, ((StepOne.miss (by omega)).1 s3).symm, ((StepOne.miss (by omega)).1 s4).symm, ((StepOne.miss (by omega)).1 s5).symm⟩
  by_cases h2 : f.tag = 136
  · have e : PrimitiveBlock.merge m f = (f.num asInt32).map fun v => { m with granularity := some v } := by
      unfold PrimitiveBlock.merge
      rw [if_neg (by omega), if_neg (by omega), if_pos h2]
    rw [e, Option.map_eq_some_iff]
    constructor
    · rintro ⟨v, hv, rfl⟩
      exact ⟨(StepOne.miss (by omega)).2 rfl, (StepMany.miss (by omega)).2 rfl, (StepOne.hit h2).2 ⟨v, hv, rfl⟩, (StepOne.miss (by omega)).2 rfl, (StepOne.miss (by omega)).2 rfl, (StepOne.miss (by omega)).2 rfl⟩
    · rintro ⟨s0, s1, s2, s3, s4, s5⟩
      obtain ⟨v, hv, e2⟩ := (StepOne.hit h2).1 s2
      refine ⟨v, hv, ?_⟩
      cases m'
      simp only [PrimitiveBlock.mk.injEq]
      exact ⟨((StepOne.miss (by omega)).1 s0).symm, ((StepMany.miss (by omega)).1 s1).symm, e2.symm, ((StepOne.miss (by omega)).1 s3).symm, ((StepOne.miss (by omega)).1 s4).symm, ((StepOne.miss (by omega)).1 s5).symm⟩
  by_cases h3 : f.tag = 152
  · have e : PrimitiveBlock.merge m f = (f.num asInt64).map fun v => { m with latOffset := some v } := by
      unfold PrimitiveBlock.merge
      rw [if_neg (by omega), if_neg (by omega), if_neg (by omega), if_pos h3]
    rw [e, Option.map_eq_some_iff]
    constructor
    · rintro ⟨v, hv, rfl⟩
      exact ⟨(StepOne.miss (by omega)).2 rfl, (StepMany.miss (by omega)).2 rfl, (StepOne.miss (by omega)).2 rfl, (StepOne.hit h3).2 ⟨v, hv, rfl⟩, (StepOne.miss (by omega)).2 rfl, (StepOne.miss (by omega)).2 rfl⟩
    · rintro ⟨s0, s1, s2, s3, s4, s5⟩
      obtain ⟨v, hv, e3⟩ := (StepOne.hit h3).1 s3
      refine ⟨v, hv, ?_⟩
      cases m'
      simp only [PrimitiveBlock.mk.injEq]
      exact ⟨((StepOne.miss (by omega)).1 s0).symm, ((StepMany.miss (by omega)).1 s1).symm, ((StepOne.miss (by omega)).1 s2).symm, e3.symm, ((StepOne.miss (by omega)).1 s4).symm, ((StepOne.miss (by omega)).1 s5).symm⟩
  by_cases h4 : f.tag = 160
  · have e : PrimitiveBlock.merge m f = (f.num asInt64).map fun v => { m with lonOffset := some v } := by
      unfold PrimitiveBlock.merge
      rw [if_neg (by omega), if_neg (by omega), if_neg (by omega), if_neg (by omega), if_pos h4]
    rw [e, Option.map_eq_some_iff]
    constructor
    · rintro ⟨v, hv, rfl⟩
      exact ⟨(StepOne.miss (by omega)).2 rfl, (StepMany.miss (by omega)).2 rfl, (StepOne.miss (by omega)).2 rfl, (StepOne.miss (by omega)).2 rfl, (StepOne.hit h4).2 ⟨v, hv, rfl⟩, (StepOne.miss (by omega)).2 rfl⟩
    · rintro ⟨s0, s1, s2, s3, s4, s5⟩
      obtain ⟨v, hv, e4⟩ := (StepOne.hit h4).1 s4
      refine ⟨v, hv, ?_⟩
      cases m'
      simp only [PrimitiveBlock.mk.injEq]
      exact ⟨((StepOne.miss (by omega)).1 s0).symm, ((StepMany.miss (by omega)).1 s1).symm, ((StepOne.miss (by omega)).1 s2).symm, ((StepOne.miss (by omega)).1 s3).symm, e4.symm, ((StepOne.miss (by omega)).1 s5).symm⟩
  by_cases h5 : f.tag = 144
  · have e : PrimitiveBlock.merge m f = (f.num asInt32).map fun v => { m with dateGranularity := some v } := by
      unfold PrimitiveBlock.merge
      rw [if_neg (by omega), if_neg (by omega), if_neg (by omega), if_neg (by omega), if_neg (by omega), if_pos h5]
    rw [e, Option.map_eq_some_iff]
    constructor
    · rintro ⟨v, hv, rfl⟩
      exact ⟨(StepOne.miss (by omega)).2 rfl, (StepMany.miss (by omega)).2 rfl, (StepOne.miss (by omega)).2 rfl, (StepOne.miss (by omega)).2 rfl, (StepOne.miss (by omega)).2 rfl, (StepOne.hit h5).2 ⟨v, hv, rfl⟩⟩
    · rintro ⟨s0, s1, s2, s3, s4, s5⟩
      obtain ⟨v, hv, e5⟩ := (StepOne.hit h5).1 s5
      refine ⟨v, hv, ?_⟩
      cases m'
      simp only [PrimitiveBlock.mk.injEq]
      exact ⟨((StepOne.miss (by omega)).1 s0).symm, ((StepMany.miss (by omega)).1 s1).symm, ((StepOne.miss (by omega)).1 s2).symm, ((StepOne.miss (by omega)).1 s3).symm, ((StepOne.miss (by omega)).1 s4).symm, e5.symm⟩
  have e : PrimitiveBlock.merge m f = some m := by
    unfold PrimitiveBlock.merge
    rw [if_neg h0, if_neg h1, if_neg h2, if_neg h3, if_neg h4, if_neg h5]
  rw [e, Option.some_inj]
  constructor
  · rintro rfl
    exact ⟨(StepOne.miss (by omega)).2 rfl, (StepMany.miss (by omega)).2 rfl, (StepOne.miss (by omega)).2 rfl, (StepOne.miss (by omega)).2 rfl, (StepOne.miss (by omega)).2 rfl, (StepOne.miss (by omega)).2 rfl⟩
  · rintro ⟨s0, s1, s2, s3, s4, s5⟩
    cases m'
    cases m
    simp only [PrimitiveBlock.mk.injEq]
    exact ⟨((StepOne.miss (by omega)).1 s0).symm, ((StepMany.miss (by omega)).1 s1).symm, ((StepOne.miss (by omega)).1 s2).symm, ((StepOne.miss (by omega)).1 s3).symm, ((StepOne.miss (by omega)).1 s4).symm, ((StepOne.miss (by omega)).1 s5).symm⟩

theorem PrimitiveBlock.merge_runs (fs : List Field) : ∀ m m' : PrimitiveBlock, mergeAll PrimitiveBlock.merge m fs = some m' ↔
      Run (StepOne 10 (fun f => f.message StringTable.merge {})) m.stringtable fs m'.stringtable ∧
      Run (StepMany 18 (fun f => (f.message PrimitiveGroup.merge {}).map fun v => [v])) m.primitivegroup fs m'.primitivegroup ∧
      Run (StepOne 136 (fun f => f.num asInt32)) m.granularity fs m'.granularity ∧
      Run (StepOne 152 (fun f => f.num asInt64)) m.latOffset fs m'.latOffset ∧
      Run (StepOne 160 (fun f => f.num asInt64)) m.lonOffset fs m'.lonOffset ∧
      Run (StepOne 144 (fun f => f.num asInt32)) m.dateGranularity fs m'.dateGranularity := by
  induction fs with
  | nil =>
    intro m m'
    simp only [mergeAll, Run, Option.some_inj]
    constructor
    · rintro rfl
      exact ⟨rfl, rfl, rfl, rfl, rfl, rfl⟩
    · rintro ⟨s0, s1, s2, s3, s4, s5⟩
      cases m'
      cases m
      simp only [PrimitiveBlock.mk.injEq]
      exact ⟨s0.symm, s1.symm, s2.symm, s3.symm, s4.symm, s5.symm⟩
  | cons f fs ih =>
    intro m m'
    rw [mergeAll, Option.bind_eq_some_iff]
    constructor
    · rintro ⟨m1, h1, h2⟩
      obtain ⟨s0, s1, s2, s3, s4, s5⟩ := (PrimitiveBlock.merge_steps m f m1).1 h1
      obtain ⟨r0, r1, r2, r3, r4, r5⟩ := (ih m1 m').1 h2
      exact ⟨⟨_, s0, r0⟩, ⟨_, s1, r1⟩, ⟨_, s2, r2⟩, ⟨_, s3, r3⟩, ⟨_, s4, r4⟩, ⟨_, s5, r5⟩⟩
    · rintro ⟨⟨x0, s0, r0⟩, ⟨x1, s1, r1⟩, ⟨x2, s2, r2⟩, ⟨x3, s3, r3⟩, ⟨x4, s4, r4⟩, ⟨x5, s5, r5⟩⟩
      exact ⟨{ stringtable := x0, primitivegroup := x1, granularity := x2, latOffset := x3, lonOffset := x4, dateGranularity := x5 }, (PrimitiveBlock.merge_steps _ _ _).2 ⟨s0, s1, s2, s3, s4, s5⟩, (ih _ _).2 ⟨r0, r1, r2, r3, r4, r5⟩⟩

theorem PrimitiveBlock.parse_decodes (bs : Bytes) (m : PrimitiveBlock) : parse PrimitiveBlock.merge {} bs = some m ↔ DecodesPrimitiveBlock bs m :=
  parse_iff (C := saysPrimitiveBlock) (fun fs hf m => (PrimitiveBlock.merge_runs fs {} m).trans (and_congr (run_one' (number := 1) (message_iff StringTable.parse_decodes) rfl) (and_congr (run_many' (number := 2) (message_iff PrimitiveGroup.parse_decodes) rfl) (and_congr (run_oneNumber (number := 17) hf asInt32_iff rfl) (and_congr (run_oneNumber (number := 19) hf asInt64_iff rfl) (and_congr (run_oneNumber (number := 20) hf asInt64_iff rfl) (run_oneNumber (number := 18) hf asInt32_iff rfl))))))) (fun _ _ => Iff.rfl) bs m

end Osmio.Proto
