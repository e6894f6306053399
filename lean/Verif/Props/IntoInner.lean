import Verif.Props.PbfFiles
import Verif.Props.Writer
import Verif.Proofs.PbfInner
/-!
# Properties of getting the stream back from a reader or a writer (C75)

`into_inner` gives back the stream the reader was made with; what it has yet to give shows how far the reader has read. `calls next n s`:
the results of `n` calls, and the reader after them.
-/

namespace Osmio
open Spec.Pbf
open Spec

/-- There is only one stream `ReadNoFurther` allows. -/
theorem C75_unique {fs : List Frame} {dss : List (List ObjData)} {tail l l' : Source} {n : Nat} (h : ReadNoFurther fs dss tail n l)
    (h' : ReadNoFurther fs dss tail n l') : l = l' := by
  obtain ⟨m, _, rfl, h1, h2⟩ := h
  obtain ⟨m', _, rfl, h1', h2'⟩ := h'
  have : m = m' := by
    rcases Nat.lt_trichotomy m m' with h | h | h
    · exact absurd (h2' _ h) (by omega)
    · exact h
    · exact absurd (h2 _ h) (by omega)
  rw [this]

/-- **C75**, the reader with owned strings: whatever follows the frames (further frames, garbage, a failing source), after `n` objects
the stream is at the end of the frame of the `n`th object. -/
theorem C75_owned {zlib : Proto.Bytes → Option Proto.Bytes} {b : Build} {fs : List Frame} {dss : List (List ObjData)}
    (h : List.Forall₂ (FrameReads .owned zlib b) fs dss) (tail : Source) {n : Nat} (hn : n ≤ dss.flatten.length) :
    ReadNoFurther fs dss tail n
      (calls (StringPbf.PBFReader.next zlib b) n (StringPbf.PBFReader.new (source (fileBytes fs) ++ tail))).2.intoInner := by
  obtain ⟨oss, h1, rfl⟩ := str_frameDecodes h
  have hn' : n ≤ ([] : List StringOSMObj).length + oss.flatten.length := by
    rw [← List.map_flatten, List.length_map] at hn
    simpa using hn
  obtain ⟨m, a0, a1, a2, a3⟩ := gcalls_frames h1 tail hn'
  refine ⟨m, a0, ?_, ?_, fun m' h => ?_⟩
  · rw [← a1]
    have := calls_next_map (φ := strState false (true, true, true)) (str_next zlib b false (true, true, true)) n
      ([], source (fileBytes fs) ++ tail)
    exact congrArg (fun x => x.2.intoInner) this
  · rw [take_lengths]
    simpa using a2
  · rw [take_lengths]
    simpa using a3 m' h

/-- **C75**, the reader with shared strings. -/
theorem C75_shared {zlib : Proto.Bytes → Option Proto.Bytes} {b : Build} {fs : List Frame} {dss : List (List ObjData)}
    (h : List.Forall₂ (FrameReads .shared zlib b) fs dss) (tail : Source) {n : Nat} (hn : n ≤ dss.flatten.length) :
    ReadNoFurther fs dss tail n
      (calls (ArcPbf.PBFReader.next zlib b) n (ArcPbf.PBFReader.new (source (fileBytes fs) ++ tail))).2.intoInner := by
  obtain ⟨oss, h1, rfl⟩ := arc_frameDecodes h
  have hn' : n ≤ ([] : List ArcOSMObj).length + oss.flatten.length := by
    rw [← List.map_flatten, List.length_map] at hn
    simpa using hn
  obtain ⟨m, a0, a1, a2, a3⟩ := gcalls_frames h1 tail hn'
  refine ⟨m, a0, ?_, ?_, fun m' h => ?_⟩
  · rw [← a1]
    have := calls_next_map (φ := arcState false) (arc_next zlib b false) n ([], source (fileBytes fs) ++ tail)
    exact congrArg (fun x => x.2.intoInner) this
  · rw [take_lengths]
    simpa using a2
  · rw [take_lengths]
    simpa using a3 m' h

/-- The example file meets the hypothesis; after its first object, the two last blocks have not been read. -/
example (b : Build) : List.Forall₂ (FrameReads .owned some b) PbfEx.file PbfEx.fileData ∧
    List.Forall₂ (FrameReads .shared some b) PbfEx.file PbfEx.fileData ∧
    ReadNoFurther PbfEx.file PbfEx.fileData [none] 1 (source (fileBytes (PbfEx.file.drop 2)) ++ [none]) := by
  exact ⟨PbfEx.file_reads _ b, PbfEx.file_reads _ b, 2, by decide, rfl, by decide +kernel, by decide +kernel⟩

/-- **C75 is false of the writers**: whatever the writer has been through, `into_inner` gives nothing back; it panics. -/
theorem C75_writers_fail (σ : HashOrder) (w : XMLWriter) (w' : OSCWriter) :
    (XMLWriter.intoInner σ w).1 = .panic .unimplemented ∧ (OSCWriter.intoInner w').1 = .panic .unimplemented := ⟨rfl, rfl⟩

/-- Still, on a sink without faults that panic leaves a whole document behind, as dropping the writer does. -/
theorem C75_writers_partial {f : Family} (σ : HashOrder) (k : Sink) (hk : k.Reliable) (cs : List (Call f.Obj)) (hv : AllVersioned cs) :
    ((∀ c ∈ cs, c.isClose = false) → (XMLWriter.intoInner σ (run (xmlCall σ) (XMLWriter.new k) cs).2).2.writer.out =
      k.out ++ Utf8.encode (xmlDocument (σ.order (headersOf cs)) (cs.filterMap Call.obj?))) ∧
    (OSCWriter.intoInner (run oscCall (OSCWriter.new k) cs).2).2.writer.out = k.out ++ Utf8.encode (oscDocument (written cs)) :=
  ⟨fun hc => C23_one_document_partial σ k hk cs hv hc, (C24_one_document_partial k hk cs hv).2⟩

end Osmio
