import Verif.Props.PbfBlocks
import Verif.Props.Objects
import Verif.Proofs.PbfFiles
import Verif.Proofs.PbfKinds
/-!
# Properties of the readers of PBF files (C41–C47, C49, C51, C63)

`Reads r zlib b src ds e`: a new reader `r` on the source `src`, called until it returns `None` (`e = none`) or panics, shows the objects
`ds`. A `Frame` is the part of a file between two block boundaries; `fileBytes` puts frames together. `zlib` is the decompressor: any
function.
-/

namespace Osmio
open Spec.Pbf
open Spec (ObjData Drain calls)

/-! ## Examples -/

namespace PbfEx

/-- A file with a header (here with a block that must be ignored) and three data blocks. The decompressor of the examples is `some`. -/
def file : List Frame :=
  [frameOf (str% "OSMHeader") (zlibBlob id nodes), frameOf (str% "OSMData") (zlibBlob id nodes),
    frameOf (str% "OSMData") (zlibBlob id ways), frameOf (str% "OSMData") (zlibBlob id relations)]

def fileBlocks : List (Option Proto.PrimitiveBlock) := [none, some nodes, some ways, some relations]
def fileData : List (List ObjData) := [[], nodesData, waysData, relationsData]

instance (f : Frame) : Decidable f.Fits := inferInstanceAs (Decidable (_ ∧ _))

theorem nodes_has : hasPrimitiveBlock nodes := by
  refine ⟨by simp [nodes], fun _ _ => trivial, ?_⟩
  intro g hg
  simp only [nodes, List.mem_singleton] at hg
  subst hg
  simp [hasPrimitiveGroup, hasDenseNodes, dense, hasDenseInfo]

theorem ways_has : hasPrimitiveBlock ways := by
  refine ⟨by simp [ways], fun _ _ => trivial, ?_⟩
  intro g hg
  simp only [ways, List.mem_singleton] at hg
  subst hg
  simp [hasPrimitiveGroup, hasWay, way, Spec.Pbf.hasInfo]

theorem relations_has : hasPrimitiveBlock relations := by
  refine ⟨by simp [relations], fun _ _ => trivial, ?_⟩
  intro g hg
  simp only [relations, List.mem_singleton] at hg
  subst hg
  simp [hasPrimitiveGroup, hasRelation, relation, Spec.Pbf.hasInfo]

theorem file_written : ∃ l : List (Frame × Option Proto.PrimitiveBlock × List ObjData),
    file = l.map (·.1) ∧ fileBlocks = l.map (·.2.1) ∧ fileData = l.map (·.2.2) ∧ ∀ x ∈ l, Written id x.1 x.2.1 x.2.2 := by
  refine ⟨file.zip (fileBlocks.zip fileData), rfl, rfl, rfl, ?_⟩
  intro x hx
  simp only [file, fileBlocks, fileData, List.zip_cons_cons, List.zip_nil_left, List.mem_cons, List.not_mem_nil, or_false] at hx
  rcases hx with rfl | rfl | rfl | rfl
  · exact .other _ _ (by decide) (by decide +kernel)
  · exact .block _ _ nodes_has nodes_wellFormed (by decide +kernel) (by decide +kernel)
  · exact .block _ _ ways_has ways_wellFormed (by decide +kernel) (by decide +kernel)
  · exact .block _ _ relations_has relations_wellFormed (by decide +kernel) (by decide +kernel)

theorem file_is : List.Forall₂ (FrameIs (ZlibStored some)) file fileBlocks := by
  obtain ⟨l, h1, h2, _, h4⟩ := file_written
  rw [h1, h2, List.forall₂_map_left_iff, List.forall₂_map_right_iff, List.forall₂_same]
  exact fun x hx => written_is (fun _ => rfl) (h4 x hx)

theorem file_reads (r : Which) (b : Build) : List.Forall₂ (FrameReads r some b) file fileData := by
  have h := accepted r b
  have hf := file_is
  simp only [file, fileBlocks, List.forall₂_cons] at hf
  exact .cons (.other hf.1) (.cons (.block _ _ hf.2.1 h.1) (.cons (.block _ _ hf.2.2.1 h.2.1) (.cons (.block _ _ hf.2.2.2.1 h.2.2) .nil)))

end PbfEx

variable {r : Which} {zlib : Proto.Bytes → Option Proto.Bytes} {b : Build} {fs : List Frame} {os : List (Option Proto.PrimitiveBlock)}
  {ds : List ObjData} {dss : List (List ObjData)} {src : Source} {e : Option Panic}

/-! ## C41 -/

/-- **C41.** A reader that reads a file to its end shows the objects of the data blocks, one block after the other, and nothing else; and
it does read the file to its end if it accepts each of these blocks. `os` says for each frame of the file what is in it: `none` for
something other than data. -/
theorem C41_blocks (h : List.Forall₂ (FrameIs (ZlibStored zlib)) fs os) :
    Reads r zlib b (source (fileBytes fs)) ds none ↔
      ∃ dss, List.Forall₂ (fun block ds => r.objects b block = some ds) (os.filterMap id) dss ∧ ds = dss.flatten :=
  reads_file h

example (r : Which) (b : Build) : Reads r some b (source (fileBytes PbfEx.file)) PbfEx.fileData.flatten none := by
  obtain ⟨h1, h2, h3⟩ := PbfEx.accepted r b
  exact (C41_blocks PbfEx.file_is).2 ⟨_, .cons h1 (.cons h2 (.cons h3 .nil)), rfl⟩

/-- **C41.** If the reader accepts the blocks up to some data block and not that one, it shows the objects of the blocks before, and then
fails, whatever follows. -/
theorem C41_first_bad (h : List.Forall₂ (FrameReads r zlib b) fs dss) {f : Frame} {block : Proto.PrimitiveBlock}
    (hf : FrameIs (ZlibStored zlib) f (some block)) (hb : r.objects b block = none) (rest : Proto.Bytes) :
    ∃ p, Reads r zlib b (source (fileBytes fs ++ (f.bytes ++ rest))) dss.flatten (some p) := by
  obtain ⟨p, hp⟩ := reads_bad hf hb rest
  have := reads_frames h hp
  rw [List.append_nil] at this
  exact ⟨p, this⟩

/-- The owned-string reader does not accept a block with two groups. -/
example : Which.owned.objects .debug PbfEx.both = none := by decide +kernel

theorem drain_calls_owned {l : Proto.Bytes} {objs : List StringOSMObj} {t : StringPbf.PBFReader} {buf : List StringOSMObj} {sa : Bool}
    {f : StringPbf.ObjectFilter} (h : Drain (StringPbf.PBFReader.next zlib b) ⟨source l, buf, sa, f⟩ objs none t) :
    StringPbf.PBFReader.next zlib b t = (.ok none, t) := by
  obtain ⟨s', h1, rfl⟩ := drain_unmap (φ := strState sa f) (s := (buf, source l)) (str_next zlib b sa f) h
  obtain rfl := drain_end h1
  rw [str_next, gnext_end]

theorem drain_calls_shared {l : Proto.Bytes} {objs : List ArcOSMObj} {t : ArcPbf.PBFReader} {buf : List ArcOSMObj} {sa : Bool}
    (h : Drain (ArcPbf.PBFReader.next zlib b) ⟨source l, buf, sa⟩ objs none t) :
    ArcPbf.PBFReader.next zlib b t = (.ok none, t) := by
  have h' : Drain (ArcPbf.PBFReader.next zlib b) (arcState sa (buf.reverse, source l)) objs none t := by
    unfold arcState
    rw [List.reverse_reverse]
    exact h
  obtain ⟨s', h1, rfl⟩ := drain_unmap (φ := arcState sa) (arc_next zlib b sa) h'
  obtain rfl := drain_end h1
  rw [arc_next, gnext_end]

theorem drain_calls_positions {l : Proto.Bytes} {xs : List NodePos.NodeIdPos} {t : NodePos.Reader} {buf : List NodePos.NodeIdPos}
    (h : Drain (NodePos.Reader.next zlib b) ⟨source l, buf⟩ xs none t) : NodePos.Reader.next zlib b t = (.ok none, t) := by
  obtain ⟨s', h1, rfl⟩ := drain_unmap (φ := posState) (s := (buf, source l)) (pos_next zlib b) h
  obtain rfl := drain_end h1
  rw [pos_next, gnext_end]

/-- What a number of calls of `next` on a new reader return, as far as one can see. -/
def Spec.Pbf.showCalls (r : Which) (zlib : Proto.Bytes → Option Proto.Bytes) (b : Build) (src : Source) (k : Nat) :
    List (Res (Option ObjData)) :=
  match r with
  | .owned => (calls (StringPbf.PBFReader.next zlib b) k (StringPbf.PBFReader.new src)).1.map (·.map (·.map objData))
  | .shared => (calls (ArcPbf.PBFReader.next zlib b) k (ArcPbf.PBFReader.new src)).1.map (·.map (·.map objData))

/-- **C41.** Each object once, and then `None` for ever: so the first `k` calls of `next` return the first `k` objects and, if there
are fewer, `None` for the rest of the calls. -/
theorem C41_calls (h : List.Forall₂ (FrameIs (ZlibStored zlib)) fs os)
    (hb : List.Forall₂ (fun block ds => r.objects b block = some ds) (os.filterMap id) dss) (k : Nat) :
    showCalls r zlib b (source (fileBytes fs)) k =
      (dss.flatten.map (fun d => Except.ok (some d)) ++ List.replicate k (Except.ok none)).take k := by
  have hr : Reads r zlib b (source (fileBytes fs)) dss.flatten none := (C41_blocks h).2 ⟨dss, hb, rfl⟩
  cases r with
  | owned =>
    obtain ⟨objs, t, h1, h2⟩ := hr
    simp only [showCalls]
    rw [calls_drain h1 (drain_calls_owned h1) k, List.map_take, List.map_append, List.map_replicate, List.map_map, ← h2, List.map_map]
    rfl
  | shared =>
    obtain ⟨objs, t, h1, h2⟩ := hr
    simp only [showCalls]
    rw [calls_drain h1 (drain_calls_shared h1) k, List.map_take, List.map_append, List.map_replicate, List.map_map, ← h2, List.map_map]
    rfl

/-- **C41, C39, C50.** From the bytes to the objects: a file that follows the format, compressed with a compressor that the decompressor
undoes, is shown by the shared-string reader exactly as it was meant; and by the owned-string reader, if each block has one group and
dense nodes have `keys_vals`. -/
theorem C41_written {deflate : Proto.Bytes → Proto.Bytes} (hz : ∀ x, zlib (deflate x) = some x) (b : Build)
    (l : List (Frame × Option Proto.PrimitiveBlock × List ObjData)) (h : ∀ x ∈ l, Written deflate x.1 x.2.1 x.2.2) :
    Reads .shared zlib b (source (fileBytes (l.map (·.1)))) (l.map (·.2.2)).flatten none ∧
      ((∀ x ∈ l, ∀ block, x.2.1 = some block → ∃ g, block.primitivegroup = [g] ∧ ∀ d, g.dense = some d → d.keysVals ≠ [] ∨ d.id = []) →
        Reads .owned zlib b (source (fileBytes (l.map (·.1)))) (l.map (·.2.2)).flatten none) := by
  have key : ∀ r : Which, (r = .shared ∨ ∀ x ∈ l, ∀ block, x.2.1 = some block →
      ∃ g, block.primitivegroup = [g] ∧ ∀ d, g.dense = some d → d.keysVals ≠ [] ∨ d.id = []) →
      Reads r zlib b (source (fileBytes (l.map (·.1)))) (l.map (·.2.2)).flatten none := by
    intro r hr
    have h2 : List.Forall₂ (FrameReads r zlib b) (l.map (·.1)) (l.map (·.2.2)) := by
      rw [List.forall₂_map_left_iff, List.forall₂_map_right_iff, List.forall₂_same]
      exact fun x hx => written_reads hz (h x hx) (hr.imp id fun hr => hr x hx)
    have := reads_frames h2 (tail := []) (reads_short (by decide))
    rwa [List.append_nil, List.append_nil] at this
  exact ⟨key _ (.inl rfl), fun hr => key _ (.inr hr)⟩

/-- `PbfEx.file` is such a file. -/
example : ∃ l : List (Frame × Option Proto.PrimitiveBlock × List ObjData), l.map (·.1) = PbfEx.file ∧
    (l.map (·.2.2)).flatten = PbfEx.nodesData ++ (PbfEx.waysData ++ PbfEx.relationsData) ∧ ∀ x ∈ l, Written id x.1 x.2.1 x.2.2 := by
  obtain ⟨l, h1, _, h3, h4⟩ := PbfEx.file_written
  exact ⟨l, h1.symm, by rw [← h3]; rfl, h4⟩

/-! ## C42 -/

/-- **C42.** Whatever bytes are cut off anywhere: the reader shows some of the objects it would show for all the bytes, the first ones;
and if it reports the end rather than failing, what is left are whole frames and at most three bytes more. -/
theorem C42_any_bytes {l : Proto.Bytes} (h : Reads r zlib b (source l) ds e) (k : Nat) :
    ∃ ds' e', Reads r zlib b (source (l.take k)) ds' e' ∧ ds' <+: ds ∧
      (e' = none → ∃ fs tail, l.take k = fileBytes fs ++ tail ∧ tail.length < 4 ∧ ∀ f ∈ fs, ∃ h, Framed f h) :=
  reads_take h k

/-- Every source is read to an end or a panic, so the hypothesis is met by all bytes. -/
theorem reads_total (r : Which) (zlib : Proto.Bytes → Option Proto.Bytes) (b : Build) (src : Source) : ∃ ds e, Reads r zlib b src ds e := by
  obtain ⟨bs, e, s', h⟩ := stream_total src
  exact ⟨_, _, reads_stream h⟩

/-- **C42.** A file of blocks the reader accepts, cut at byte `k`: it shows the objects of the frames that are complete, and then fails
if at least four bytes of the next frame are there, and else reports the end. -/
theorem C42_cut (h : List.Forall₂ (FrameReads r zlib b) fs dss) {k : Nat} (hk : k < (fileBytes fs).length) :
    ∃ n f part, fs[n]? = some f ∧ part <+: f.bytes ∧ part.length < f.bytes.length ∧ (fileBytes fs).take k = fileBytes (fs.take n) ++ part ∧
      Reads r zlib b (source ((fileBytes fs).take k)) (dss.take n).flatten (if part.length < 4 then none else some .unwrap) := by
  obtain ⟨n, f, part, h1, h2, h3, h4⟩ := cut_frames fs hk
  refine ⟨n, f, part, h1, h3, h4, h2, ?_⟩
  rw [h2]
  have ht : List.Forall₂ (FrameReads r zlib b) (fs.take n) (dss.take n) := List.forall₂_take n h
  have hp : Reads r zlib b (source part) [] (if part.length < 4 then none else some .unwrap) := by
    split
    · exact reads_short ‹_›
    · obtain ⟨d, h5⟩ : ∃ d, FrameReads r zlib b f d := by
        clear * - h h1
        induction h generalizing n with
        | nil => simp at h1
        | cons h _ ih =>
          cases n with
          | zero => simp only [List.getElem?_cons_zero, Option.some.injEq] at h1; subst h1; exact ⟨_, h⟩
          | succ n => exact ih n (by simpa using h1)
      obtain ⟨hd, h6⟩ := frameReads_framed h5
      exact reads_cut h6 h3 (by omega) h4
  have := reads_frames ht hp
  rwa [List.append_nil] at this

example (r : Which) (b : Build) : List.Forall₂ (FrameReads r some b) PbfEx.file PbfEx.fileData := PbfEx.file_reads r b
example : 300 < (fileBytes PbfEx.file).length := by decide +kernel

/-! ## C63 -/

/-- **C63 (part).** An error of the source inside a frame, after its first four bytes, is not taken for the end of the file: the reader
shows the objects of the frames before, and then fails. -/
theorem C63_partial (h : List.Forall₂ (FrameReads r zlib b) fs dss) {f : Frame} {hd : Proto.BlobHeader} (hf : Framed f hd)
    {part : Proto.Bytes} (hp : part <+: f.bytes) (h4 : 4 ≤ part.length) (hl : part.length < f.bytes.length) (rest : Source) :
    Reads r zlib b (source (fileBytes fs) ++ (source part ++ none :: rest)) dss.flatten (some .unwrap) := by
  have hr : Reads r zlib b (source part ++ none :: rest) [] (some .unwrap) :=
    reads_iff.2 ⟨[], some .unwrap, rest, .panic (readBlob_broken hf hp h4 hl (.inr rfl)), rfl⟩
  have := reads_frames_src h hr
  rwa [List.append_nil] at this

/-- **C63 fails** at a block boundary (and up to three bytes after): the error is reported as the end of the file, after a part of the
objects of the file. -/
theorem C63_fails (h : List.Forall₂ (FrameReads r zlib b) fs dss) {part : Proto.Bytes} (hp : part.length < 4) (rest : Source) :
    Reads r zlib b (source (fileBytes fs) ++ (source part ++ none :: rest)) dss.flatten none := by
  have hr : Reads r zlib b (source part ++ none :: rest) [] none :=
    reads_iff.2 ⟨[], none, rest, .done (readBlob_broken_short hp (.inr rfl)), rfl⟩
  have := reads_frames_src h hr
  rwa [List.append_nil] at this

/-- For instance: an error after the nodes is reported as the end of the file, although ways and relations follow. -/
example (r : Which) (b : Build) (rest : Source) : Reads r some b (source (fileBytes (PbfEx.file.take 2)) ++ none :: rest) PbfEx.nodesData none := by
  have := C63_fails (part := []) (List.forall₂_take 2 (PbfEx.file_reads r b)) (by decide) rest
  simpa [PbfEx.fileData, source] using this

/-- **C63, exactly.** Whatever bytes come before the error, and whatever comes after: an error has the same effect as the end of the file at
that place, for all three readers. So it is reported as a failure if and only if a file with the bytes so far would be, and nothing that a user
sees tells an error from the end. -/
theorem C63_exact (l : Proto.Bytes) (rest : Source) :
    (Reads r zlib b (source l ++ none :: rest) ds e ↔ Reads r zlib b (source l) ds e) ∧
      (∀ xs, ReadsPositions zlib b (source l ++ none :: rest) xs e ↔ ReadsPositions zlib b (source l) xs e) :=
  ⟨reads_both (.inr rfl) l, fun _ => positions_both (.inr rfl) l⟩

/-- And the reader that has reported the end then goes on with what the source gives after the error. -/
theorem C63_goes_on (src : Source) :
    calls (StringPbf.PBFReader.next zlib b) 1 (StringPbf.PBFReader.new (none :: src)) = ([.ok none], StringPbf.PBFReader.new src) ∧
      calls (ArcPbf.PBFReader.next zlib b) 1 (ArcPbf.PBFReader.new (none :: src)) = ([.ok none], ArcPbf.PBFReader.new src) :=
  ⟨rfl, rfl⟩

/-! ## C43 -/

theorem intoNode_passes (objs : List StringOSMObj) :
    (objs.filter (Passes (true, false, false))).filterMap (OSMObjT.intoNode (N := StringNode)) = objs.filterMap OSMObjT.intoNode := by
  rw [List.filterMap_filter]
  congr 1
  funext o
  cases o <;> rfl
theorem intoWay_passes (objs : List StringOSMObj) :
    (objs.filter (Passes (false, true, false))).filterMap (OSMObjT.intoWay (W := StringWay)) = objs.filterMap OSMObjT.intoWay := by
  rw [List.filterMap_filter]
  congr 1
  funext o
  cases o <;> rfl
theorem intoRelation_passes (objs : List StringOSMObj) :
    (objs.filter (Passes (false, false, true))).filterMap (OSMObjT.intoRelation (R := StringRelation)) =
      objs.filterMap OSMObjT.intoRelation := by
  rw [List.filterMap_filter]
  congr 1
  funext o
  cases o <;> rfl

/-- **C43.** `nodes()` of the owned-string reader, on any source and from any point where the reader is: exactly the nodes that `objects()`
would give, in order. -/
theorem C43_nodes {s t : StringPbf.PBFReader} (hs : s.filter = (true, true, true)) {objs : List StringOSMObj}
    (h : Drain (StringPbf.PBFReader.next zlib b) s objs none t) :
    NodesDrain (ReaderT.ofRes (StringPbf.PBFReader.next zlib b)) s.nodes (objs.filterMap OSMObjT.intoNode) t.nodes := by
  obtain ⟨src, buf, sa, f⟩ := s
  cases hs
  obtain ⟨bs, e, s', hs⟩ := stream_total src
  obtain ⟨os', h1, rfl⟩ := filter_drain (f := (true, false, false)) hs (fun _ _ _ _ _ _ g _ => kept_nodes g) h
  have := FilterNext.drain (f := OSMObjT.intoNode (N := StringNode)) (drain_objects h1)
  rw [List.filterMap_append, intoNode_passes, ← List.filterMap_append] at this
  exact this

/-- **C43 (part).** `ways()` and `relations()` too, on files that keep to the format in that no group has objects of several kinds. -/
theorem C43_partial (hf : List.Forall₂ (FrameIs (ZlibStored zlib)) fs os)
    (hk : ∀ block, some block ∈ os → ∀ g ∈ block.primitivegroup, OneKind g) {t : StringPbf.PBFReader} {objs : List StringOSMObj}
    (h : Drain (StringPbf.PBFReader.next zlib b) (StringPbf.PBFReader.new (source (fileBytes fs))) objs none t) :
    WaysDrain (ReaderT.ofRes (StringPbf.PBFReader.next zlib b)) (StringPbf.PBFReader.new (source (fileBytes fs))).ways
        (objs.filterMap OSMObjT.intoWay) t.ways ∧
      RelationsDrain (ReaderT.ofRes (StringPbf.PBFReader.next zlib b)) (StringPbf.PBFReader.new (source (fileBytes fs))).relations
        (objs.filterMap OSMObjT.intoRelation) t.relations := by
  obtain ⟨bs, h1, h2⟩ := file_groups hf hk
  constructor
  · obtain ⟨os', h3, rfl⟩ := filter_drain (f := (false, true, false)) h1 (fun blob hb data block hd hp g hg => OneKind.kept (h2 blob hb data block hd hp g hg) _) h
    have := FilterNext.drain (f := OSMObjT.intoWay (W := StringWay)) (drain_objects h3)
    rw [List.filterMap_append, intoWay_passes, ← List.filterMap_append] at this
    exact this
  · obtain ⟨os', h3, rfl⟩ := filter_drain (f := (false, false, true)) h1 (fun blob hb data block hd hp g hg => OneKind.kept (h2 blob hb data block hd hp g hg) _) h
    have := FilterNext.drain (f := OSMObjT.intoRelation (R := StringRelation)) (drain_objects h3)
    rw [List.filterMap_append, intoRelation_passes, ← List.filterMap_append] at this
    exact this

namespace PbfEx

theorem file_oneKind : ∀ block, some block ∈ fileBlocks → ∀ g ∈ block.primitivegroup, OneKind g := by
  intro block hb g hg
  simp only [fileBlocks, List.mem_cons, Option.some.injEq, List.not_mem_nil, or_false, reduceCtorEq, false_or] at hb
  rcases hb with rfl | rfl | rfl <;> simp only [nodes, ways, relations, List.mem_singleton] at hg <;> subst hg
  · exact .inl ⟨by simp, rfl, rfl⟩
  · exact .inr (.inl ⟨rfl, by simp, rfl⟩)
  · exact .inr (.inr ⟨rfl, rfl, by simp⟩)

/-- The reader of owned strings does read the example file. -/
theorem file_drain (b : Build) : ∃ objs t, Drain (StringPbf.PBFReader.next some b) (StringPbf.PBFReader.new (source (fileBytes file))) objs none t ∧
    objs.map objData = fileData.flatten := by
  obtain ⟨h1, h2, h3⟩ := accepted .owned b
  exact (C41_blocks (r := .owned) file_is).2 ⟨_, .cons h1 (.cons h2 (.cons h3 .nil)), rfl⟩

/-- A block that does not keep to the format: nodes and ways in one group. -/
def mixed : Proto.PrimitiveBlock := { stringtable := some table, primitivegroup := [{ dense := some dense, ways := [way] }] }

def mixedFile : List Frame := [frameOf (str% "OSMData") (zlibBlob id mixed)]

end PbfEx

/-- **C43, exactly.** A file of which `objects()` gives everything: `ways()` comes to the end of the file and gives the ways among the objects,
if and only if no group has both dense nodes and ways; `relations()`, if and only if no group with relations has dense nodes or ways. -/
theorem C43_iff (hf : List.Forall₂ (FrameIs (ZlibStored zlib)) fs os) {t : StringPbf.PBFReader} {objs : List StringOSMObj}
    (h : Drain (StringPbf.PBFReader.next zlib b) (StringPbf.PBFReader.new (source (fileBytes fs))) objs none t) :
    ((∃ xs t', Drain (StringPbf.PBFReader.next zlib b) (StringPbf.PBFReader.new (source (fileBytes fs))).ways xs none t' ∧
        xs.filterMap OSMObjT.intoWay = objs.filterMap (OSMObjT.intoWay (W := StringWay))) ↔
      ∀ block, some block ∈ os → ∀ g ∈ block.primitivegroup, g.dense ≠ none → g.ways = []) ∧
    ((∃ xs t', Drain (StringPbf.PBFReader.next zlib b) (StringPbf.PBFReader.new (source (fileBytes fs))).relations xs none t' ∧
        xs.filterMap OSMObjT.intoRelation = objs.filterMap (OSMObjT.intoRelation (R := StringRelation))) ↔
      ∀ block, some block ∈ os → ∀ g ∈ block.primitivegroup, g.dense ≠ none ∨ g.ways ≠ [] → g.relations = []) := by
  constructor
  · refine (filter_file_iff hf (f := (false, true, false)) (into := OSMObjT.intoWay (W := StringWay)) (by intro o; cases o <;> rfl) h).trans ?_
    refine forall_congr' fun block => forall_congr' fun _ => forall_congr' fun g => forall_congr' fun _ => ?_
    exact ⟨fun hk hd => (hk.1 hd rfl).1 rfl, fun hk => ⟨fun hd _ => ⟨fun _ => hk hd, fun h => (by cases h)⟩, fun _ _ h => (by cases h)⟩⟩
  · refine (filter_file_iff hf (f := (false, false, true)) (into := OSMObjT.intoRelation (R := StringRelation))
      (by intro o; cases o <;> rfl) h).trans ?_
    refine forall_congr' fun block => forall_congr' fun _ => forall_congr' fun g => forall_congr' fun _ => ?_
    constructor
    · rintro hk h
      by_cases hd : g.dense = none
      · exact hk.2 hd (h.resolve_left (by simp [hd])) rfl rfl
      · exact (hk.1 hd rfl).2 rfl
    · intro hk
      exact ⟨fun hd _ => ⟨fun h => (by cases h), fun _ => hk (.inl hd)⟩, fun _ hw _ _ => hk (.inr hw)⟩

example (b : Build) : ∃ objs : List StringOSMObj, objs.map objData = PbfEx.fileData.flatten ∧ ∃ xs t',
    Drain (StringPbf.PBFReader.next some b) (StringPbf.PBFReader.new (source (fileBytes PbfEx.file))).ways xs none t' ∧
      xs.filterMap OSMObjT.intoWay = objs.filterMap (OSMObjT.intoWay (W := StringWay)) := by
  obtain ⟨objs, t, h1, h2⟩ := PbfEx.file_drain b
  refine ⟨objs, h2, (C43_iff PbfEx.file_is h1).1.2 fun block hb g hg hd => ?_⟩
  rcases PbfEx.file_oneKind block hb g hg with ⟨_, h, _⟩ | ⟨h, _⟩ | ⟨h, _⟩
  · exact h
  · exact absurd h hd
  · exact absurd h hd

/-- **C43 fails** for groups with several kinds: `objects()` gives the three nodes and no way, `ways()` gives a way. -/
theorem C43_fails (b : Build) :
    (readN (StringPbf.PBFReader.next some b) 10 (StringPbf.PBFReader.new (source (fileBytes PbfEx.mixedFile)))).map
        (fun x => (x.1.map (fun o => (objData o).view.id), x.2)) = some ([5, 3, 10], none) ∧
      (readN (StringPbf.PBFReader.next some b) 10 (StringPbf.PBFReader.new (source (fileBytes PbfEx.mixedFile))).ways).map
        (fun x => (x.1.map (fun o => (objData o).view.id), x.2)) = some ([20], none) := by
  cases b <;> decide +kernel

/-! ## C44 -/

/-- Some calls of `next` on a kind iterator, which is then dropped: the objects it gave, and the state it left behind. -/
inductive FilterSome {σ Obj X : Type} (r : ReaderT σ Obj) (f : Obj → Option X) : σ → List X → σ → Prop
  | dropped {s : σ} : FilterSome r f s [] s
  | more {s s1 s2 : σ} {x : X} {xs : List X} : FilterNext r f s (some x) s1 → FilterSome r f s1 xs s2 → FilterSome r f s (x :: xs) s2

/-- **C44 (part).** The kind iterators of the trait `OSMReader`, which the shared-string reader has, and the owned-string reader where it is
used through the trait: dropped at any point, they have used up the objects up to the last one they gave, and `objects()` goes on with all
the objects after it. For any reader. -/
theorem C44_partial {σ Obj X : Type} {next : σ → Res (Option Obj) × σ} {s s1 t : σ} {objs : List Obj}
    (h : Drain next s objs none t) {f : Obj → Option X} {xs : List X} (hx : FilterSome (ReaderT.ofRes next) f s xs s1) :
    ∃ n, (objs.take n).filterMap f = xs ∧ (n = 0 ∨ ∃ o x, objs[n - 1]? = some o ∧ f o = some x) ∧ Drain next s1 (objs.drop n) none t := by
  have one : ∀ {s s1 : σ} {y : Option X}, FilterNext (ReaderT.ofRes next) f s y s1 → ∀ x, y = some x → ∀ objs, Drain next s objs none t →
      ∃ n o, objs[n]? = some o ∧ f o = some x ∧ (objs.take (n + 1)).filterMap f = [x] ∧ Drain next s1 (objs.drop (n + 1)) none t := by
    intro s s1 y hn
    induction hn with
    | done _ => intro x hx; cases hx
    | hit h1 hf =>
      intro x hx objs hd
      cases hx
      generalize he : (none : Option Panic) = e at hd
      cases hd with
      | done h2 => simp only [ReaderT.ofRes, h2] at h1; cases h1
      | panic h2 => cases he
      | more h2 h3 =>
        simp only [ReaderT.ofRes, h2] at h1
        cases h1
        subst he
        exact ⟨0, _, rfl, hf, by simp [hf], h3⟩
    | skip h1 hf _ ih =>
      intro x hx objs hd
      generalize he : (none : Option Panic) = e at hd
      cases hd with
      | done h2 => simp only [ReaderT.ofRes, h2] at h1; cases h1
      | panic h2 => cases he
      | more h2 h3 =>
        simp only [ReaderT.ofRes, h2] at h1
        cases h1
        subst he
        obtain ⟨n, o, a1, a2, a3, a4⟩ := ih x hx _ h3
        exact ⟨n + 1, o, by simpa using a1, a2, by rw [List.take_succ_cons, List.filterMap_cons_none hf, a3], a4⟩
  induction hx generalizing objs with
  | dropped => exact ⟨0, rfl, .inl rfl, h⟩
  | more h1 _ ih =>
    obtain ⟨n, o, a1, a2, a3, a4⟩ := one h1 _ rfl _ h
    obtain ⟨m, b1, b2, b3⟩ := ih a4
    refine ⟨n + 1 + m, ?_, .inr ?_, ?_⟩
    · rw [List.take_add, List.filterMap_append, a3, b1]; rfl
    · rcases b2 with rfl | ⟨o', x', c1, c2⟩
      · exact ⟨o, _, by simpa using a1, a2⟩
      · cases m with
        | zero => exact ⟨o, _, by simpa using a1, a2⟩
        | succ m => rw [List.getElem?_drop] at c1; exact ⟨o', x', by rw [← c1]; congr 1, c2⟩
    · rw [← List.drop_drop]; exact b3

/-- **C44 fails** for `nodes()`, `ways()` and `relations()` of the owned-string reader: they leave the filter set, and a reader on which one
of them was called gives objects of that kind only from then on, whatever is in the file. -/
theorem C44_fails (s : StringPbf.PBFReader) (hs : s.buffer = []) {objs : List StringOSMObj} {t : StringPbf.PBFReader} :
    (Drain (StringPbf.PBFReader.next zlib b) s.nodes objs e t → ∀ o ∈ objs, (objData o).view.kind = .node) ∧
      (Drain (StringPbf.PBFReader.next zlib b) s.ways objs e t → ∀ o ∈ objs, (objData o).view.kind = .way) ∧
      (Drain (StringPbf.PBFReader.next zlib b) s.relations objs e t → ∀ o ∈ objs, (objData o).view.kind = .relation) := by
  obtain ⟨src, buf, sa, f⟩ := s
  cases hs
  have key : ∀ f, Drain (StringPbf.PBFReader.next zlib b) ⟨src, [], sa, f⟩ objs e t → ∀ o ∈ objs, Passes f o = true := by
    intro f h
    obtain ⟨bs, e', s', hst⟩ := stream_total src
    obtain ⟨t1, d1, _⟩ := stream_drain (StringPbf.decodeBlob zlib b f) hst
    obtain ⟨rfl, _, _⟩ := h.unique (drain_map (φ := strState sa f) (str_next zlib b sa _) d1)
    exact runBlobs_all (fun _ => blob_passes) bs
  refine ⟨fun h o ho => ?_, fun h o ho => ?_, fun h o ho => ?_⟩
  · have := key _ h o ho; cases o <;> first | rfl | cases this
  · have := key _ h o ho; cases o <;> first | rfl | cases this
  · have := key _ h o ho; cases o <;> first | rfl | cases this

/-- **C44, exactly**, for `nodes()`: called at any point and dropped at any point, what `objects()` gives from then on is the rest of this list:
the objects of the block that was being read, of whatever kind, and the nodes of all the blocks after it. Ways and relations of those blocks
are lost for good. -/
theorem C44_nodes_exact {s t : StringPbf.PBFReader} (hs : s.filter = (true, true, true)) {objs : List StringOSMObj}
    (h : Drain (StringPbf.PBFReader.next zlib b) s objs none t) {xs : List StringNode} {s1 : StringPbf.PBFReader}
    (hx : FilterSome (ReaderT.ofRes (StringPbf.PBFReader.next zlib b)) (OSMObjT.intoNode (N := StringNode)) s.nodes xs s1) :
    ∃ later, objs = s.buffer ++ later ∧ ∃ n,
      ((s.buffer ++ later.filter isNode).take n).filterMap OSMObjT.intoNode = xs ∧
        Drain (StringPbf.PBFReader.next zlib b) s1 ((s.buffer ++ later.filter isNode).drop n) none t.nodes := by
  obtain ⟨src, buf, sa, f⟩ := s
  cases hs
  obtain ⟨bs, e, s', hs⟩ := stream_total src
  obtain ⟨os', h1, rfl⟩ := filter_drain (f := (true, false, false)) hs (fun _ _ _ _ _ _ g _ => kept_nodes g) h
  have hp : Passes (true, false, false) = isNode := by
    funext o
    cases o <;> rfl
  rw [hp] at h1
  obtain ⟨n, c1, _, c2⟩ := C44_partial h1 hx
  exact ⟨os', rfl, n, c1, c2⟩

/-- For instance: after `ways()`, dropped at once, `objects()` gives two objects of the six in the file. -/
theorem C44_fails_witness (b : Build) :
    (readN (StringPbf.PBFReader.next some b) 10 (StringPbf.PBFReader.new (source (fileBytes PbfEx.file)))).map (·.1.length) = some 6 ∧
      (readN (StringPbf.PBFReader.next some b) 10 (StringPbf.PBFReader.new (source (fileBytes PbfEx.file))).ways).map (·.1.length) = some 2 := by
  cases b <;> decide +kernel

/-! ## C45 -/

/-- **C45.** On whatever source both readers read to the end, they show the same objects, in the same order. -/
theorem C45_agree {ds' : List ObjData} (h : Reads .owned zlib b src ds none) (h' : Reads .shared zlib b src ds' none) : ds = ds' :=
  reads_agree h h'

/-- **C45.** Even if one of them fails, it shows the first objects of those the other shows. -/
theorem C45_prefix {ds' : List ObjData} {e' : Option Panic} (h : Reads .owned zlib b src ds e) (h' : Reads .shared zlib b src ds' e') :
    ds <+: ds' ∨ ds' <+: ds := reads_prefix h h'

/-- Both read the example file. -/
example (b : Build) : Reads .owned some b (source (fileBytes PbfEx.file)) PbfEx.fileData.flatten none ∧
    Reads .shared some b (source (fileBytes PbfEx.file)) PbfEx.fileData.flatten none := by
  have key : ∀ r, Reads r some b (source (fileBytes PbfEx.file)) PbfEx.fileData.flatten none := by
    intro r
    obtain ⟨h1, h2, h3⟩ := PbfEx.accepted r b
    exact (C41_blocks PbfEx.file_is).2 ⟨_, .cons h1 (.cons h2 (.cons h3 .nil)), rfl⟩
  exact ⟨key _, key _⟩

/-! ## C46 -/

/-- **C46 (part).** On files that keep to the format in that each group has objects of one kind: if one of the readers of objects reads the
file to its end, the reader of positions does too, and gives the ids and positions of the nodes, in order. -/
theorem C46_partial (h : List.Forall₂ (FrameIs (ZlibStored zlib)) fs os)
    (hk : ∀ block, some block ∈ os → ∀ g ∈ block.primitivegroup, OneKind g) (hr : Reads r zlib b (source (fileBytes fs)) ds none) :
    ReadsPositions zlib b (source (fileBytes fs)) (positionsOf ds) none :=
  positions_file h hk hr

example (b : Build) : ReadsPositions some b (source (fileBytes PbfEx.file)) [(5, ⟨210⟩, ⟨-205⟩), (3, ⟨212⟩, ⟨-205⟩), (10, ⟨112⟩, ⟨-191⟩)] none := by
  obtain ⟨objs, t, h1, h2⟩ := PbfEx.file_drain b
  have := C46_partial (r := .owned) PbfEx.file_is PbfEx.file_oneKind ⟨objs, t, h1, h2⟩
  exact this

/-- **C46, exactly.** A file that one of the readers of objects reads to its end: the reader of positions gives the ids and positions of the
nodes, in order, and comes to the end, if and only if every group has only its nodes if it has any, and has something. -/
theorem C46_iff (h : List.Forall₂ (FrameIs (ZlibStored zlib)) fs os) (hr : Reads r zlib b (source (fileBytes fs)) ds none) :
    ReadsPositions zlib b (source (fileBytes fs)) (positionsOf ds) none ↔
      ∀ block, some block ∈ os → ∀ g ∈ block.primitivegroup, NodesAlone g :=
  positions_file_iff h hr

example (b : Build) : ReadsPositions some b (source (fileBytes PbfEx.file)) (positionsOf PbfEx.fileData.flatten) none := by
  obtain ⟨objs, t, h1, h2⟩ := PbfEx.file_drain b
  refine (C46_iff (r := .owned) PbfEx.file_is ⟨objs, t, h1, h2⟩).2 fun block hb g hg => ?_
  rcases PbfEx.file_oneKind block hb g hg with ⟨h1, h2, h3⟩ | ⟨h1, h2, h3⟩ | ⟨h1, h2, h3⟩
  · exact ⟨fun _ _ _ => ⟨h2, h3⟩, fun h => absurd h h1⟩
  · exact ⟨fun _ h => (by rw [h1] at h; cases h), fun _ => .inl h2⟩
  · exact ⟨fun _ h => (by rw [h1] at h; cases h), fun _ => .inr h3⟩

/-- A group with nodes and a way, and an entirely empty one, are not such. -/
example : ¬ NodesAlone { dense := some PbfEx.dense, ways := [PbfEx.way] } ∧ ¬ NodesAlone {} :=
  ⟨fun h => absurd (h.1 _ rfl (by decide)).1 (by simp), fun h => by simpa using h.2 rfl⟩

/-- **C46 fails** otherwise: a group with nodes and ways has nodes for the reader of objects, and none for the reader of positions. -/
theorem C46_fails (b : Build) :
    (readN (StringPbf.PBFReader.next some b) 10 (StringPbf.PBFReader.new (source (fileBytes PbfEx.mixedFile)))).map
        (fun x => (x.1.map (fun o => (objData o).view.id), x.2)) = some ([5, 3, 10], none) ∧
      (readN (NodePos.Reader.next some b) 10 (NodePos.Reader.new (source (fileBytes PbfEx.mixedFile)))).map
        (fun x => (x.1.map (·.1), x.2)) = some ([], none) := by
  cases b <;> decide +kernel

/-! ## C47 -/

/-- **C47 (part).** For the shared-string reader it makes no difference whether a block is stored as it is or compressed: files with the
same blocks are read alike, up to the same failure if there is one. -/
theorem C47_shared_partial {fs' : List Frame} {os' : List (Option Proto.PrimitiveBlock)}
    (h : List.Forall₂ (FrameIs (fun blob data => ZlibStored zlib blob data ∨ RawStored blob data)) fs os)
    (h' : List.Forall₂ (FrameIs (fun blob data => ZlibStored zlib blob data ∨ RawStored blob data)) fs' os')
    (ho : os.filterMap id = os'.filterMap id) :
    Reads .shared zlib b (source (fileBytes fs)) ds e ↔ Reads .shared zlib b (source (fileBytes fs')) ds e := by
  obtain ⟨bs, h1, h2⟩ := file_stream h
  obtain ⟨bs', h1', h2'⟩ := file_stream h'
  rw [← ho] at h2'
  have key : runBlobs (blobData .shared zlib b) none bs = runBlobs (blobData .shared zlib b) none bs' :=
    runBlobs_forall (h2.imp fun _ _ ⟨_, a, c⟩ => shared_stored a c) (h2'.imp fun _ _ ⟨_, a, c⟩ => shared_stored a c)
  rw [reads_iff, reads_iff]
  constructor
  · rintro ⟨bs1, e1, s1, h3, h4⟩
    obtain ⟨rfl, rfl, _⟩ := h1.unique h3
    exact ⟨bs', none, _, h1', by rw [← key]; exact h4⟩
  · rintro ⟨bs1, e1, s1, h3, h4⟩
    obtain ⟨rfl, rfl, _⟩ := h1'.unique h3
    exact ⟨bs, none, _, h1, by rw [key]; exact h4⟩

namespace PbfEx

/-- The example file, with the nodes stored as they are. -/
def rawFile : List Frame :=
  [frameOf (str% "OSMData") (rawBlob nodes), frameOf (str% "OSMData") (zlibBlob id ways), frameOf (str% "OSMData") (zlibBlob id relations)]

theorem rawFile_is : List.Forall₂ (FrameIs (fun blob data => ZlibStored some blob data ∨ RawStored blob data)) rawFile
    [some nodes, some ways, some relations] :=
  .cons (frameOf_block (by decide +kernel) (.inr rfl) (C50_primitiveBlock_roundtrip _ nodes_has (by decide +kernel)))
    (.cons (frameOf_block (by decide +kernel) (.inl (zlibBlob_stored (fun _ => rfl) (by decide +kernel)))
        (C50_primitiveBlock_roundtrip _ ways_has (by decide +kernel)))
      (.cons (frameOf_block (by decide +kernel) (.inl (zlibBlob_stored (fun _ => rfl) (by decide +kernel)))
        (C50_primitiveBlock_roundtrip _ relations_has (by decide +kernel))) .nil))

end PbfEx

example (b : Build) : Reads .shared some b (source (fileBytes PbfEx.rawFile)) PbfEx.fileData.flatten none := by
  have hz : List.Forall₂ (FrameIs (fun blob data => ZlibStored some blob data ∨ RawStored blob data)) PbfEx.file PbfEx.fileBlocks :=
    PbfEx.file_is.imp fun f o h => by
      cases h with
      | other h h1 h2 => exact .other h h1 h2
      | block h blob data block h1 h2 h3 h4 h5 => exact .block h blob data block h1 h2 h3 (.inl h4) h5
  refine (C47_shared_partial PbfEx.rawFile_is hz rfl).2 ?_
  obtain ⟨h1, h2, h3⟩ := PbfEx.accepted .shared b
  exact (C41_blocks PbfEx.file_is).2 ⟨_, .cons h1 (.cons h2 (.cons h3 .nil)), rfl⟩

/-- **C47 fails** for the owned-string reader and the reader of positions: every block that is stored as it is makes them panic. -/
theorem C47_owned_fails {f : Frame} {block : Proto.PrimitiveBlock} (h : FrameIs RawStored f (some block)) (rest : Proto.Bytes) :
    Reads .owned zlib b (source (f.bytes ++ rest)) [] (some .sliceLen) ∧
      ReadsPositions zlib b (source (f.bytes ++ rest)) [] (some .sliceLen) := by
  obtain ⟨fb, h1, ⟨h2, _⟩ | ⟨block', blob, data, h2, rfl, h3, h4⟩⟩ := frameIs_blobs h
  · cases h2
  · cases h2
    obtain ⟨bs, e, s', hs⟩ := stream_total (source rest)
    have hst := stream_frame h1 hs
    rw [← source_append] at hst
    have hraw := str_rawStored (zlib := zlib) h3 (parse_some_ne h4)
    constructor
    · have := reads_stream (r := .owned) (zlib := zlib) (b := b) hst
      simpa [runBlobs, blobData, StringPbf.decodeBlob, hraw] using this
    · have := readsPositions_stream (zlib := zlib) (b := b) hst
      simpa [runBlobs, NodePos.decodeBlob, hraw] using this

example : FrameIs RawStored (frameOf (str% "OSMData") (rawBlob PbfEx.nodes)) (some PbfEx.nodes) :=
  frameOf_block (by decide +kernel) rfl (C50_primitiveBlock_roundtrip _ PbfEx.nodes_has (by decide +kernel))

/-! ## C49 -/

/-- **C49.** On any source a build with overflow checks shows what a build without shows, or it shows the first of these objects and then
stops with an overflow. -/
theorem C49_file {ds' : List ObjData} {e' : Option Panic} (h : Reads r zlib .debug src ds e) (h' : Reads r zlib .release src ds' e') :
    (ds = ds' ∧ e = e') ∨ (ds <+: ds' ∧ e = some .overflow) := by
  obtain ⟨bs, e0, s, h1, h2⟩ := reads_iff.1 h
  obtain ⟨bs', e0', s', h1', h2'⟩ := reads_iff.1 h'
  obtain ⟨rfl, rfl, _⟩ := h1.unique h1'
  rcases agree_runBlobs (fun blob => agree_blobData r zlib blob) e0 bs with h3 | ⟨h3, h4⟩
  · rw [h2, h2'] at h3; cases h3; exact .inl ⟨rfl, rfl⟩
  · rw [h2, h2'] at h4; rw [h2] at h3; exact .inr ⟨h4, h3⟩

/-- **C49.** The same for the reader of positions. -/
theorem C49_positions {xs xs' : List (ObjId × (Lat × Lon))} {e' : Option Panic} (h : ReadsPositions zlib .debug src xs e)
    (h' : ReadsPositions zlib .release src xs' e') : (xs = xs' ∧ e = e') ∨ (xs <+: xs' ∧ e = some .overflow) := by
  obtain ⟨bs, e0, s, hs⟩ := stream_total src
  obtain ⟨t, h1⟩ := h
  obtain ⟨t', h1'⟩ := h'
  obtain ⟨_, h2⟩ := readsPositions_stream (zlib := zlib) (b := .debug) hs
  obtain ⟨_, h2'⟩ := readsPositions_stream (zlib := zlib) (b := .release) hs
  obtain ⟨rfl, rfl, _⟩ := h1.unique h2
  obtain ⟨rfl, rfl, _⟩ := h1'.unique h2'
  rcases agree_runBlobs (fun blob => agree_pos_blob zlib blob) e0 bs with h3 | ⟨h3, h4⟩
  · rw [h3]; exact .inl ⟨rfl, rfl⟩
  · exact .inr ⟨h4, h3⟩

/-! ## C51 -/

/-- **C51.** A reader on any bytes, from any point where it is (some objects may be left in its buffer, a kind filter may be set), that has
reported the end reports it again whenever it is called. (A source that gave an error is another matter: C63.) -/
theorem C51_exhausted {l : Proto.Bytes} (n : Nat) :
    (∀ (s t : StringPbf.PBFReader) objs, s.src = source l → Drain (StringPbf.PBFReader.next zlib b) s objs none t →
      calls (StringPbf.PBFReader.next zlib b) n t = (List.replicate n (.ok none), t)) ∧
    (∀ (s t : ArcPbf.PBFReader) objs, s.src = source l → Drain (ArcPbf.PBFReader.next zlib b) s objs none t →
      calls (ArcPbf.PBFReader.next zlib b) n t = (List.replicate n (.ok none), t)) ∧
    (∀ (s t : NodePos.Reader) xs, s.src = source l → Drain (NodePos.Reader.next zlib b) s xs none t →
      calls (NodePos.Reader.next zlib b) n t = (List.replicate n (.ok none), t)) := by
  refine ⟨?_, ?_, ?_⟩
  · rintro ⟨src, buf, sa, f⟩ t objs rfl h
    exact calls_fixed (drain_calls_owned h) n
  · rintro ⟨src, buf, sa⟩ t objs rfl h
    exact calls_fixed (drain_calls_shared h) n
  · rintro ⟨src, buf⟩ t objs rfl h
    exact calls_fixed (drain_calls_positions h) n

example (b : Build) : ∃ objs t, Drain (StringPbf.PBFReader.next some b) (StringPbf.PBFReader.new (source (fileBytes PbfEx.file))) objs none t :=
  let ⟨objs, t, h, _⟩ := PbfEx.file_drain b
  ⟨objs, t, h⟩

end Osmio
