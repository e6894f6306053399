import Verif.Props.PbfFiles
import Verif.Proofs.PbfZlib
/-!
# Data blocks compressed in any way (C92)

`Spec.Zlib.Stream p x`: the bytes `p` are a zlib stream of the data `x`, by RFC 1950 and 1951. `Decompresses zlib`: the decompressor gives back
`x` for each of them.
-/

namespace Osmio
open Spec.Pbf
open Spec (ObjData)

namespace PbfEx

/-- The first block, not compressed, as `zlib` writes it. -/
def nodesStored : Proto.Bytes :=
  [120, 1, 1, 107, 0, 148, 255, 10, 27, 10, 0, 10, 7, 104, 105, 103, 104, 119, 97, 121, 10, 7, 112, 114, 105, 109, 97, 114, 121, 10, 1,
    117, 10, 2, 195, 132, 18, 56, 18, 54, 10, 3, 10, 3, 14, 42, 26, 10, 3, 1, 2, 3, 18, 4, 208, 15, 10, 19, 26, 3, 14, 2, 2, 34, 3, 18,
    0, 1, 42, 3, 6, 0, 2, 66, 4, 200, 1, 2, 99, 74, 4, 199, 1, 0, 14, 82, 7, 1, 2, 0, 0, 1, 4, 0, 136, 1, 200, 1, 152, 1, 232, 7, 160,
    1, 140, 252, 255, 255, 255, 255, 255, 255, 255, 1, 94, 6, 25, 207]

/-- The same with the fixed codes, as `zlib` writes it. -/
def nodesFixed : Proto.Bytes :=
  [120, 218, 227, 146, 230, 98, 224, 98, 207, 200, 76, 207, 40, 79, 172, 228, 98, 47, 40, 202, 204, 77, 44, 170, 228, 98, 44, 229, 98,
    58, 220, 34, 100, 33, 100, 198, 197, 204, 197, 204, 167, 37, 197, 197, 204, 200, 196, 44, 196, 114, 129, 159, 75, 88, 138, 153,
    143, 137, 73, 137, 89, 136, 129, 81, 139, 153, 141, 129, 201, 137, 229, 4, 35, 83, 178, 23, 203, 113, 70, 6, 190, 32, 118, 70, 38,
    6, 6, 70, 22, 134, 14, 198, 19, 140, 51, 24, 95, 176, 47, 96, 236, 249, 243, 31, 2, 24, 1, 94, 6, 25, 207]

/-- The second block, with codes of its own, as `zlib` writes it. -/
def waysDynamic : Proto.Bytes :=
  [120, 1, 5, 193, 65, 10, 64, 80, 16, 6, 96, 255, 188, 87, 198, 36, 233, 101, 161, 199, 66, 74, 89, 58, 131, 178, 116, 8, 43, 44, 148,
    148, 100, 239, 102, 142, 227, 16, 227, 251, 164, 144, 64, 194, 101, 157, 151, 107, 186, 37, 220, 143, 117, 155, 142, 91, 112, 10,
    189, 143, 27, 124, 201, 153, 3, 60, 168, 142, 217, 166, 99, 206, 21, 181, 166, 67, 111, 197, 36, 145, 111, 248, 83, 85, 85, 85,
    133, 3, 60, 168, 142, 217, 166, 99, 206, 21, 181, 166, 67, 111, 197, 36, 209, 15, 112, 210, 21, 142]

/-- The same with the fixed codes and with repetitions, as `zlib` writes it. -/
def waysFixed : Proto.Bytes :=
  [120, 218, 227, 146, 230, 98, 224, 98, 207, 200, 76, 207, 40, 79, 172, 228, 98, 47, 40, 202, 204, 77, 44, 170, 228, 98, 44, 229, 98,
    58, 220, 34, 228, 42, 37, 195, 33, 34, 196, 200, 40, 197, 200, 164, 196, 195, 193, 34, 224, 43, 193, 161, 192, 164, 193, 108, 192,
    232, 196, 194, 197, 204, 199, 41, 165, 202, 241, 250, 63, 20, 48, 226, 86, 6, 0, 112, 210, 21, 142]

/-- The third block, as `zlib` writes it. -/
def relationsFixed : Proto.Bytes :=
  [120, 218, 227, 146, 230, 98, 224, 98, 207, 200, 76, 207, 40, 79, 172, 228, 98, 47, 40, 202, 204, 77, 44, 170, 228, 98, 44, 229, 98,
    58, 220, 34, 164, 174, 164, 202, 33, 39, 196, 200, 40, 197, 200, 162, 196, 195, 193, 34, 224, 43, 193, 161, 192, 164, 193, 108,
    192, 224, 196, 204, 192, 194, 236, 197, 204, 37, 39, 28, 196, 204, 192, 200, 4, 0, 250, 8, 11, 83]

theorem nodesStored_stream : Spec.Zlib.Stream nodesStored (encodePrimitiveBlock nodes) :=
  Zlib.stream_of_inflate (by decide +kernel) (by decide +kernel)
theorem nodesFixed_stream : Spec.Zlib.Stream nodesFixed (encodePrimitiveBlock nodes) :=
  Zlib.stream_of_inflate (by decide +kernel) (by decide +kernel)
theorem waysDynamic_stream : Spec.Zlib.Stream waysDynamic (encodePrimitiveBlock ways) :=
  Zlib.stream_of_inflate (by decide +kernel) (by decide +kernel)
theorem waysFixed_stream : Spec.Zlib.Stream waysFixed (encodePrimitiveBlock ways) :=
  Zlib.stream_of_inflate (by decide +kernel) (by decide +kernel)
theorem relationsFixed_stream : Spec.Zlib.Stream relationsFixed (encodePrimitiveBlock relations) :=
  Zlib.stream_of_inflate (by decide +kernel) (by decide +kernel)

/-- A file whose blocks are compressed in different ways. -/
def fileZ : List Frame :=
  [frameOf (str% "OSMHeader") (zlibBlob id nodes), frameOf (str% "OSMData") (zlibBlob (fun _ => nodesStored) nodes),
    frameOf (str% "OSMData") (zlibBlob (fun _ => waysDynamic) ways), frameOf (str% "OSMData") (zlibBlob (fun _ => relationsFixed) relations)]

/-- The same blocks compressed in other ways, without the header. -/
def fileZ' : List Frame :=
  [frameOf (str% "OSMData") (zlibBlob (fun _ => nodesFixed) nodes), frameOf (str% "OSMData") (zlibBlob (fun _ => waysFixed) ways),
    frameOf (str% "OSMData") (zlibBlob (fun _ => relationsFixed) relations)]

theorem fileZ_compressed : ∃ l : List (Frame × Option Proto.PrimitiveBlock × List ObjData),
    fileZ = l.map (·.1) ∧ fileBlocks = l.map (·.2.1) ∧ fileData = l.map (·.2.2) ∧ ∀ x ∈ l, Compressed x.1 x.2.1 x.2.2 := by
  refine ⟨fileZ.zip (fileBlocks.zip fileData), rfl, rfl, rfl, ?_⟩
  intro x hx
  simp only [fileZ, fileBlocks, fileData, List.zip_cons_cons, List.zip_nil_left, List.mem_cons, List.not_mem_nil, or_false] at hx
  rcases hx with rfl | rfl | rfl | rfl
  · exact .other _ _ (by decide) (by decide +kernel)
  · exact .block _ _ _ nodes_has nodes_wellFormed (by decide +kernel) nodesStored_stream (by decide +kernel)
  · exact .block _ _ _ ways_has ways_wellFormed (by decide +kernel) waysDynamic_stream (by decide +kernel)
  · exact .block _ _ _ relations_has relations_wellFormed (by decide +kernel) relationsFixed_stream (by decide +kernel)

theorem holds {block : Proto.PrimitiveBlock} {p : Proto.Bytes} (hl : (encodePrimitiveBlock block).length ≤ 2147483647)
    (h : Spec.Zlib.Stream p (encodePrimitiveBlock block)) (hf : (frameOf (str% "OSMData") (zlibBlob (fun _ => p) block)).Fits) :
    FrameHolds (frameOf (str% "OSMData") (zlibBlob (fun _ => p) block)) (some (encodePrimitiveBlock block)) :=
  .data _ _ _ (frameOf_framed hf) rfl (C50_blob_roundtrip _ trivial hf.2)
    ⟨p, _, rfl, rfl, h, rfl, by rw [Int32.toInt_ofNat_of_lt (by omega)]⟩

def fileZData : List Proto.Bytes := [encodePrimitiveBlock nodes, encodePrimitiveBlock ways, encodePrimitiveBlock relations]

theorem fileZ_holds : List.Forall₂ FrameHolds fileZ (none :: fileZData.map some) :=
  .cons (.other _ (frameOf_framed (by decide +kernel)) (by decide))
    (.cons (holds (by decide +kernel) nodesStored_stream (by decide +kernel))
      (.cons (holds (by decide +kernel) waysDynamic_stream (by decide +kernel))
        (.cons (holds (by decide +kernel) relationsFixed_stream (by decide +kernel)) .nil)))

theorem fileZ'_holds : List.Forall₂ FrameHolds fileZ' (fileZData.map some) :=
  .cons (holds (by decide +kernel) nodesFixed_stream (by decide +kernel))
    (.cons (holds (by decide +kernel) waysFixed_stream (by decide +kernel))
      (.cons (holds (by decide +kernel) relationsFixed_stream (by decide +kernel)) .nil))

end PbfEx

variable {zlib zlib' : Proto.Bytes → Option Proto.Bytes}

/-- **C92.** A stream stands for one string only, and no stream begins with another one. -/
theorem C92_one {p rest x y : List UInt8} (h : Spec.Zlib.Stream p x) (h' : Spec.Zlib.Stream (p ++ rest) y) : x = y ∧ rest = [] := by
  have e : x = y := by
    have h1 := Zlib.inflate_of h rest
    have h2 := Zlib.inflate_of h' []
    rw [List.append_nil, h1] at h2
    exact Option.some.inj h2
  refine ⟨e, ?_⟩
  subst e
  exact Zlib.stream_prefix h h'

/-- **C92.** Every string is stood for by some stream. -/
theorem C92_every (x : List UInt8) : ∃ p, Spec.Zlib.Stream p x := Zlib.stream_exists x

/-- **C92.** There is a decompressor of the kind the other theorems suppose. It takes exactly the bytes that begin with a stream. -/
theorem C92_decompressor : Decompresses Zlib.inflate ∧
    ∀ q x, Zlib.inflate q = some x ↔ ∃ p rest, q = p ++ rest ∧ Spec.Zlib.Stream p x := by
  refine ⟨fun p x h => by simpa using Zlib.inflate_of h [], fun q x => ⟨Zlib.inflate_some, ?_⟩⟩
  rintro ⟨p, rest, rfl, h⟩
  exact Zlib.inflate_of h rest

/-- **C92.** A file whose data blocks are zlib streams, each made by whatever encoder, is read to its end exactly if each block is accepted,
and then the objects shown are those of the blocks; and likewise for positions. -/
theorem C92_blocks (hz : Decompresses zlib) (b : Build) {fs : List Frame} {os : List (Option Proto.PrimitiveBlock)}
    (h : List.Forall₂ (FrameIs Deflated) fs os) :
    (∀ r ds, Reads r zlib b (source (fileBytes fs)) ds none ↔
      ∃ dss, List.Forall₂ (fun block ds => r.objects b block = some ds) (os.filterMap id) dss ∧ ds = dss.flatten) ∧
    (∀ xs, ReadsPositions zlib b (source (fileBytes fs)) xs none ↔
      ∃ xss, List.Forall₂ (fun block xs => positions b block = some xs) (os.filterMap id) xss ∧ xs = xss.flatten) := by
  have h' := h.imp fun _ _ => deflated_is hz
  exact ⟨fun r ds => reads_file h', fun xs => readsPositions_file h'⟩

/-- **C92.** From the bytes to the objects, however the blocks were compressed: a file that follows the format is shown by the shared-string
reader exactly as it was meant; and by the owned-string reader, if each block has one group and dense nodes have `keys_vals`. -/
theorem C92_written (hz : Decompresses zlib) (b : Build) (l : List (Frame × Option Proto.PrimitiveBlock × List ObjData))
    (h : ∀ x ∈ l, Compressed x.1 x.2.1 x.2.2) :
    Reads .shared zlib b (source (fileBytes (l.map (·.1)))) (l.map (·.2.2)).flatten none ∧
      ((∀ x ∈ l, ∀ block, x.2.1 = some block → ∃ g, block.primitivegroup = [g] ∧ ∀ d, g.dense = some d → d.keysVals ≠ [] ∨ d.id = []) →
        Reads .owned zlib b (source (fileBytes (l.map (·.1)))) (l.map (·.2.2)).flatten none) := by
  have key : ∀ r : Which, (r = .shared ∨ ∀ x ∈ l, ∀ block, x.2.1 = some block →
      ∃ g, block.primitivegroup = [g] ∧ ∀ d, g.dense = some d → d.keysVals ≠ [] ∨ d.id = []) →
      Reads r zlib b (source (fileBytes (l.map (·.1)))) (l.map (·.2.2)).flatten none := by
    intro r hr
    have h2 : List.Forall₂ (FrameReads r zlib b) (l.map (·.1)) (l.map (·.2.2)) := by
      rw [List.forall₂_map_left_iff, List.forall₂_map_right_iff, List.forall₂_same]
      exact fun x hx => compressed_reads hz (h x hx) (hr.imp id fun hr => hr x hx)
    have := reads_frames h2 (tail := []) (reads_short (by decide))
    rwa [List.append_nil, List.append_nil] at this
  exact ⟨key _ (.inl rfl), fun hr => key _ (.inr hr)⟩

/-- A file with a block that is not compressed, one with codes of its own and one with the fixed codes. -/
example (hz : Decompresses zlib) (b : Build) :
    Reads .shared zlib b (source (fileBytes PbfEx.fileZ)) (PbfEx.nodesData ++ (PbfEx.waysData ++ PbfEx.relationsData)) none := by
  obtain ⟨l, h1, _, h3, h4⟩ := PbfEx.fileZ_compressed
  rw [h1, show PbfEx.nodesData ++ (PbfEx.waysData ++ PbfEx.relationsData) = (l.map (·.2.2)).flatten by rw [← h3]; rfl]
  exact (C92_written hz b l h4).1

/-- **C92.** What a reader shows of a file, and how it ends, does not depend on how the data was compressed, nor on the decompressor, nor on the
frames that are not data: two files with the same data are read alike, even if the data is not valid. -/
theorem C92_same (hz : Decompresses zlib) (hz' : Decompresses zlib') (b : Build) {fs fs' : List Frame} {os os' : List (Option Proto.Bytes)}
    (h : List.Forall₂ FrameHolds fs os) (h' : List.Forall₂ FrameHolds fs' os') (hs : os.filterMap id = os'.filterMap id) :
    (∀ r ds e, Reads r zlib b (source (fileBytes fs)) ds e ↔ Reads r zlib' b (source (fileBytes fs')) ds e) ∧
    (∀ xs e, ReadsPositions zlib b (source (fileBytes fs)) xs e ↔ ReadsPositions zlib' b (source (fileBytes fs')) xs e) := by
  obtain ⟨bs, h1, h2⟩ := holds_stream h
  obtain ⟨bs', h1', h2'⟩ := holds_stream h'
  rw [← hs] at h2'
  have hp := deflated_pairs h2 h2'
  constructor
  · intro r ds e
    have a := reads_stream (r := r) (zlib := zlib) (b := b) h1
    have a' := reads_stream (r := r) (zlib := zlib') (b := b) h1'
    rw [runBlobs_same (hp.imp fun x y ⟨d, hx, hy⟩ => blobData_same r b (Deflated.stored hz hx) (Deflated.stored hz' hy))] at a
    constructor
    · intro hr
      obtain ⟨rfl, rfl⟩ := Reads.unique hr a
      exact a'
    · intro hr
      obtain ⟨rfl, rfl⟩ := Reads.unique hr a'
      exact a
  · intro xs e
    have a := readsPositions_stream (zlib := zlib) (b := b) h1
    have a' := readsPositions_stream (zlib := zlib') (b := b) h1'
    rw [runBlobs_same (hp.imp fun x y ⟨d, hx, hy⟩ => posBlob_same b (Deflated.stored hz hx) (Deflated.stored hz' hy))] at a
    constructor
    · intro hr
      obtain ⟨rfl, rfl⟩ := ReadsPositions.unique hr a
      exact a'
    · intro hr
      obtain ⟨rfl, rfl⟩ := ReadsPositions.unique hr a'
      exact a

example (b : Build) (r : Which) (ds : List ObjData) (e : Option Panic) :
    Reads r Zlib.inflate b (source (fileBytes PbfEx.fileZ)) ds e ↔ Reads r Zlib.inflate b (source (fileBytes PbfEx.fileZ')) ds e :=
  (C92_same C92_decompressor.1 C92_decompressor.1 b PbfEx.fileZ_holds PbfEx.fileZ'_holds rfl).1 r ds e

/-- The two files do differ. -/
example : PbfEx.nodesStored.length = 118 ∧ PbfEx.nodesFixed.length = 111 ∧ PbfEx.waysDynamic.length = 108 ∧ PbfEx.waysFixed.length = 79 := by
  decide +kernel

end Osmio
