import Verif.Proofs.PbfMemory
import Verif.Props.PbfFiles
/-!
# C90: the PBF readers ask only for the memory that the file needs
-/

namespace Osmio

open Spec Spec.Pbf

variable {zlib : Proto.Bytes → Option Proto.Bytes} {b : Build}

/-- **C90.** Whatever bytes there are, and however often `next` is called (also after a panic): the buffers asked for are all filled from the
source, but perhaps the last. So together they are no longer than the source, but for one of less than 4 GiB. -/
theorem C90_bound (bs : Proto.Bytes) (k : Nat) :
    (∀ r : StringPbf.PBFReader, r.src = source bs →
      FilledButLast bs.length (askedIn (StringPbf.PBFReader.next zlib b) (StringPbf.PBFReader.asked zlib b) k r)) ∧
    (∀ r : ArcPbf.PBFReader, r.src = source bs →
      FilledButLast bs.length (askedIn (ArcPbf.PBFReader.next zlib b) (ArcPbf.PBFReader.asked zlib b) k r)) ∧
    (∀ r : NodePos.Reader, r.src = source bs →
      FilledButLast bs.length (askedIn (NodePos.Reader.next zlib b) (NodePos.Reader.asked zlib b) k r)) := by
  obtain ⟨h1, h2, h3⟩ := logs_reading boundedOn_logs boundedOn_round zlib b k
  refine ⟨fun r hr => ?_, fun r hr => ?_, fun r hr => ?_⟩
  · obtain ⟨_, _, h⟩ := h1 r bs hr; exact h.filled
  · obtain ⟨_, _, h⟩ := h2 r bs hr; exact h.filled
  · obtain ⟨_, _, h⟩ := h3 r bs hr; exact h.filled

/-- **C90, a part:** in a file of whole frames (whether or not their data can be decoded), with up to three bytes more, the buffers are those for
the headers and the data of the first frames. Together they are smaller than the file. -/
theorem C90_frames_partial {fs : List Frame} (hf : ∀ f ∈ fs, ∃ h, Framed f h) {tail : Proto.Bytes} (ht : tail.length < 4) (k : Nat) :
    (∀ r : StringPbf.PBFReader, r.src = source (fileBytes fs ++ tail) →
      ∃ m, askedIn (StringPbf.PBFReader.next zlib b) (StringPbf.PBFReader.asked zlib b) k r = buffersOf (fs.take m)) ∧
    (∀ r : ArcPbf.PBFReader, r.src = source (fileBytes fs ++ tail) →
      ∃ m, askedIn (ArcPbf.PBFReader.next zlib b) (ArcPbf.PBFReader.asked zlib b) k r = buffersOf (fs.take m)) ∧
    (∀ r : NodePos.Reader, r.src = source (fileBytes fs ++ tail) →
      ∃ m, askedIn (NodePos.Reader.next zlib b) (NodePos.Reader.asked zlib b) k r = buffersOf (fs.take m)) ∧
    ∀ m, (buffersOf (fs.take m)).sum ≤ (fileBytes fs).length := by
  obtain ⟨h1, h2, h3⟩ := logs_reading framesOn_logs framesOn_round zlib b k
  refine ⟨fun r hr => ?_, fun r hr => ?_, fun r hr => ?_, fun m => ?_⟩
  · obtain ⟨m, _, _, h, _⟩ := h1 r fs tail hf ht hr; exact ⟨m, h⟩
  · obtain ⟨m, _, _, h, _⟩ := h2 r fs tail hf ht hr; exact ⟨m, h⟩
  · obtain ⟨m, _, _, h, _⟩ := h3 r fs tail hf ht hr; exact ⟨m, h⟩
  · have e1 := buffersOf_sum (fs.take m)
    have e2 : (fileBytes fs).length = (fileBytes (fs.take m)).length + (fileBytes (fs.drop m)).length := by
      conv_lhs => rw [← List.take_append_drop m fs]
      simp only [fileBytes, List.flatMap_append, List.length_append]
    omega

/-- **C90, a part:** a file that is read to its end without a panic never makes the reader ask for more than the file has. -/
theorem C90_whole_partial {bs : Proto.Bytes} {ds : List ObjData} (k : Nat) :
    (Reads .owned zlib b (source bs) ds none →
      (askedIn (StringPbf.PBFReader.next zlib b) (StringPbf.PBFReader.asked zlib b) k (.new (source bs))).sum ≤ bs.length) ∧
    (Reads .shared zlib b (source bs) ds none →
      (askedIn (ArcPbf.PBFReader.next zlib b) (ArcPbf.PBFReader.asked zlib b) k (.new (source bs))).sum ≤ bs.length) := by
  have form : ∀ r, Reads r zlib b (source bs) ds none → ∃ fs tail, bs = fileBytes fs ++ tail ∧ tail.length < 4 ∧ ∀ f ∈ fs, ∃ h, Framed f h := by
    intro r h
    obtain ⟨ds', e', h1, _, h2⟩ := reads_take h bs.length
    rw [List.take_length] at h1 h2
    obtain ⟨rfl, rfl⟩ := Reads.unique h h1
    exact h2 rfl
  refine ⟨fun h => ?_, fun h => ?_⟩
  · obtain ⟨fs, tail, rfl, ht, hf⟩ := form _ h
    obtain ⟨h1, _, _, h4⟩ := C90_frames_partial (zlib := zlib) (b := b) hf ht k
    obtain ⟨m, e⟩ := h1 (.new (source (fileBytes fs ++ tail))) rfl
    rw [e, List.length_append]
    have := h4 m
    omega
  · obtain ⟨fs, tail, rfl, ht, hf⟩ := form _ h
    obtain ⟨_, h2, _, h4⟩ := C90_frames_partial (zlib := zlib) (b := b) hf ht k
    obtain ⟨m, e⟩ := h2 (.new (source (fileBytes fs ++ tail))) rfl
    rw [e, List.length_append]
    have := h4 m
    omega

/-- **C90 fails:** the four bytes of a number are enough to make any of the readers ask for a buffer of that size. The call then panics. -/
theorem C90_fails {n : Nat} (h0 : 0 < n) (hn : n < 4294967296) :
    (StringPbf.PBFReader.asked zlib b (.new (source (be32 n))) = [n] ∧ (StringPbf.PBFReader.next zlib b (.new (source (be32 n)))).1 = .error .unwrap) ∧
    (ArcPbf.PBFReader.asked zlib b (.new (source (be32 n))) = [n] ∧ (ArcPbf.PBFReader.next zlib b (.new (source (be32 n)))).1 = .error .unwrap) ∧
    (NodePos.Reader.asked zlib b (.new (source (be32 n))) = [n] ∧ (NodePos.Reader.next zlib b (.new (source (be32 n)))).1 = .error .unwrap) := by
  have r1 : readExact 4 (source (be32 n)) = (some (be32 n), source []) := by
    have := readExact_source (be32 n) []
    rwa [List.append_nil] at this
  have r2 : readExact n (source []) = (none, []) := readExact_short (l := []) h0
  have hr : StringPbf.readBlob (source (be32 n)) = (.error .unwrap, []) := by
    unfold StringPbf.readBlob
    simp only [r1, fromBe_be32 hn, r2]
  have ha : StringPbf.asked (source (be32 n)) = [n] := by
    unfold StringPbf.asked
    simp only [r1, fromBe_be32 hn, r2]
  have hg : StringPbf.getNextOsmdataBlob (source (be32 n)) = (.error .unwrap, []) := by rw [getNext_unfold, hr]
  have hl : readLog (source (be32 n)) = [n] := by
    unfold readLog
    simp only [StringPbf.askedForBlob, ha, hr, List.append_nil]
  have key : ∀ {α : Type} (decode : Proto.Blob → List α × Option Panic) (m : Nat),
      glogAux readLog (fun _ => []) decode (m + 1) ([], source (be32 n)) = [n] ∧
        gnextAux decode (m + 1) ([], source (be32 n)) = (.error .unwrap, ([], [])) := by
    intro α decode m
    rw [glogAux_nil, gnextAux_nil, hg, hl]
    exact ⟨rfl, rfl⟩
  refine ⟨⟨?_, ?_⟩, ⟨?_, ?_⟩, ⟨?_, ?_⟩⟩
  · exact (str_askedAux zlib b false (true, true, true) _ ([], source (be32 n))).trans (key _ _).1
  · exact (congrArg Prod.fst (str_nextAux zlib b false (true, true, true) _ ([], source (be32 n)))).trans (congrArg Prod.fst (key _ _).2)
  · exact (arc_askedAux zlib b false _ ([], source (be32 n))).trans (key _ _).1
  · exact (congrArg Prod.fst (arc_nextAux zlib b false _ ([], source (be32 n)))).trans (congrArg Prod.fst (key _ _).2)
  · exact (pos_askedAux zlib b _ ([], source (be32 n))).trans (key _ _).1
  · exact (congrArg Prod.fst (pos_nextAux zlib b _ ([], source (be32 n)))).trans (congrArg Prod.fst (key _ _).2)

/-- **C90, a part:** before it decompresses a block, the reader of shared objects reserves as much as the block says that it needs. When the blocks of a file state
their right sizes, these are the sizes of the first blocks. -/
theorem C90_reserved_partial {fs : List Frame} {sizes : List (List Nat)} (hf : List.Forall₂ (FrameSize zlib) fs sizes) {tail : Proto.Bytes}
    (ht : tail.length < 4) (k : Nat) {r : ArcPbf.PBFReader} (hr : r.src = source (fileBytes fs ++ tail)) :
    ∃ m, askedIn (ArcPbf.PBFReader.next zlib b) (ArcPbf.PBFReader.reserved zlib b) k r = (sizes.take m).flatten := by
  obtain ⟨m, _, _, h, _⟩ := sizesOn_calls zlib b k r fs sizes tail hf ht hr
  exact ⟨m, h⟩

/-- A file of one block of compressed data, with a size that it states. -/
def claimedFile (z : Proto.Bytes) (size : Int32) : Frame := frameOf (str% "OSMData") { rawSize := some size, zlibData := some z }

/-- **C90 fails:** whatever the size that a block states (up to 2 GiB), the reader of shared objects reserves so much. What it then returns
does not depend on that size. -/
theorem C90_reserved_fails {z : Proto.Bytes} {size : Int32} (h0 : 0 ≤ size.toInt) (hs : (claimedFile z size).Fits) (tail : Proto.Bytes) :
    (ArcPbf.PBFReader.reserved zlib b (.new (source ((claimedFile z size).bytes ++ tail)))).head? = some size.toInt.toNat ∧
      ∀ size', 0 ≤ size'.toInt → (claimedFile z size').Fits → ∀ ds e,
        Reads .shared zlib b (source ((claimedFile z size).bytes ++ tail)) ds e ↔
          Reads .shared zlib b (source ((claimedFile z size').bytes ++ tail)) ds e := by
  have rb : ∀ size, (claimedFile z size).Fits → StringPbf.readBlob (source ((claimedFile z size).bytes ++ tail)) =
      (.ok (some (some { rawSize := some size, zlibData := some z })), source tail) := by
    intro size h
    have h1 := frameOf_framed h
    have h2 := C50_blob_roundtrip { rawSize := some size, zlibData := some z } trivial h.2
    rw [source_append]
    exact (readBlob_frame h1 _).trans (by rw [if_pos rfl]; show (match Proto.Blob.parseFromBytes (encodeBlob _) with | none => _ | some blob => _) = _; rw [h2])
  have dec : ∀ size : Int32, 0 ≤ size.toInt → ArcPbf.decodeBlob zlib b { rawSize := some size, zlibData := some z } =
      (do let data ← unwrap (zlib z); let block ← unwrap (Proto.PrimitiveBlock.parseFromBytes data); ArcPbf.decodeBlock b block) := by
    intro size h
    unfold ArcPbf.decodeBlob ArcPbf.blobRawData
    show ((if size.toInt < 0 then Except.error Panic.capacity else Except.ok (zlib z)) >>= _) = _
    rw [if_neg (by omega)]
    rfl
  refine ⟨?_, ?_⟩
  · have h1 := arc_reservedAux zlib b false ((source ((claimedFile z size).bytes ++ tail)).length + 1) ([], source ((claimedFile z size).bytes ++ tail))
    rw [glogAux_nil, getNext_unfold, rb size hs] at h1
    have h2 : ArcPbf.reservedFor { rawSize := some size, zlibData := some z } = [size.toInt.toNat] := by
      show (if size.toInt < 0 then [] else _) = _
      rw [if_neg (by omega)]
    simp only [h2, List.nil_append, List.cons_append] at h1
    have h3 : (ArcPbf.PBFReader.reserved zlib b (.new (source ((claimedFile z size).bytes ++ tail)))) = _ := h1
    rw [h3]
    rfl
  · intro size' h0' hs' ds e
    obtain ⟨bs, e0, s0, h⟩ := stream_total (source tail)
    have a1 := reads_stream (r := .shared) (zlib := zlib) (b := b) (Stream.blob (rb size hs) h)
    have a2 := reads_stream (r := .shared) (zlib := zlib) (b := b) (Stream.blob (rb size' hs') h)
    have e1 : blobData .shared zlib b { rawSize := some size, zlibData := some z } =
        blobData .shared zlib b { rawSize := some size', zlibData := some z } := by
      simp only [blobData, arcDecode, dec size h0, dec size' h0']
    have e2 : runBlobs (blobData .shared zlib b) e0 ({ rawSize := some size, zlibData := some z } :: bs) =
        runBlobs (blobData .shared zlib b) e0 ({ rawSize := some size', zlibData := some z } :: bs) := by
      simp only [runBlobs, e1]
    rw [e2] at a1
    constructor
    · intro h
      obtain ⟨rfl, rfl⟩ := Reads.unique h a1
      exact a2
    · intro h
      obtain ⟨rfl, rfl⟩ := Reads.unique h a2
      exact a1

/-! ## Examples -/

theorem FrameIs.size {f : Frame} {o : Option Proto.PrimitiveBlock} (h : FrameIs (ZlibStored zlib) f o) :
    ∃ l, FrameSize zlib f l ∧ l.length = o.toList.length := by
  cases h with
  | other h h1 h2 => exact ⟨[], .other h h1 h2, rfl⟩
  | block h blob data block h1 h2 h3 h4 h5 => exact ⟨_, .data h blob data h1 h2 h3 h4, rfl⟩

/-- The example file: all its frames are whole. -/
example : (∀ f ∈ PbfEx.file, ∃ h, Framed f h) ∧ PbfEx.file ≠ [] := by
  refine ⟨fun f hf => ?_, by simp [PbfEx.file]⟩
  have h := PbfEx.file_reads .owned .debug
  simp only [PbfEx.file, PbfEx.fileData, List.forall₂_cons] at h
  simp only [PbfEx.file, List.mem_cons, List.not_mem_nil, or_false] at hf
  rcases hf with rfl | rfl | rfl | rfl
  · exact frameReads_framed h.1
  · exact frameReads_framed h.2.1
  · exact frameReads_framed h.2.2.1
  · exact frameReads_framed h.2.2.2.1

/-- The first call passes over the header of the file and reads a block. -/
example : StringPbf.PBFReader.asked some .debug (.new (source (fileBytes PbfEx.file))) = buffersOf (PbfEx.file.take 2) := by decide +kernel

/-- Four bytes make a reader ask for 4 GiB. -/
example : ArcPbf.PBFReader.asked some .debug (.new (source [255, 255, 255, 255])) = [4294967295] :=
  (C90_fails (n := 4294967295) (by decide) (by decide)).2.1.1

/-- The example file has blocks with the right sizes. -/
example : ∃ sizes, List.Forall₂ (FrameSize some) PbfEx.file sizes ∧ 2 < sizes.flatten.length := by
  have h := PbfEx.file_is
  simp only [PbfEx.file, PbfEx.fileBlocks, List.forall₂_cons] at h
  obtain ⟨l1, a1, b1⟩ := FrameIs.size h.1
  obtain ⟨l2, a2, b2⟩ := FrameIs.size h.2.1
  obtain ⟨l3, a3, b3⟩ := FrameIs.size h.2.2.1
  obtain ⟨l4, a4, b4⟩ := FrameIs.size h.2.2.2.1
  refine ⟨[l1, l2, l3, l4], .cons a1 (.cons a2 (.cons a3 (.cons a4 .nil))), ?_⟩
  simp_all

/-- A block of three bytes that says it has 2 GiB. -/
example : (claimedFile [1, 2, 3] 2147483647).Fits ∧ (claimedFile [1, 2, 3] 2147483647).bytes.length < 40 := by
  refine ⟨⟨?_, ?_⟩, ?_⟩ <;> decide +kernel

end Osmio
