import Verif.Proofs.PbfMethods
import Verif.Props.PbfResume
/-!
# `nodes()`, `ways()` and `relations()` of the owned-string reader on any bytes (C105)

`Spec.Pbf.KindShown k zlib b f ds` (`Spec/PbfMethods.lean`): by the wire format and the formulas for the getters, the frame `f` has the objects `ds` if the groups of
its block are taken without the objects of the other kinds. Nothing in it refers to the reader.
-/

namespace Osmio
open Spec.Pbf
open Spec (ObjData Resumed)

variable {k : OSMObjectType} {zlib : Proto.Bytes → Option Proto.Bytes} {b : Build}

/-- **C105**, files. For any bytes: a loop over `nodes()`, `ways()` or `relations()` gets to the end, and has then seen these objects, exactly if the bytes are a file
with these objects. -/
theorem C105_file {bs : Proto.Bytes} {ds : List ObjData} : KindReads k zlib b (source bs) ds none ↔ KindFile k zlib b bs ds := by
  obtain ⟨blobs, e, s', hs⟩ := stream_total (source bs)
  have hr := kindReads_stream (k := k) (zlib := zlib) (b := b) hs
  unfold KindFile
  constructor
  · intro h
    obtain ⟨h1, h2⟩ := KindReads.unique h hr
    obtain ⟨rfl, oss, h3, h4⟩ := runBlobs_none.1 (Prod.ext (x := runBlobs (kindData k zlib b) e blobs) (y := (ds, none)) h1.symm h2.symm)
    obtain ⟨fs, tail, fbs, rfl, h5, h6, rfl⟩ := stream_none_iff.1 ⟨s', hs⟩
    obtain ⟨dss, h7, h8⟩ := (by_frames (P := FrameBlobs) kindShown_byBlobs).1 ⟨fbs, oss, h6, h3, h4⟩
    exact ⟨fs, tail, dss, rfl, h5, h7, h8⟩
  · rintro ⟨fs, tail, dss, rfl, h5, h7, h8⟩
    obtain ⟨fbs, oss, h6, h3, h4⟩ := (by_frames (P := FrameBlobs) kindShown_byBlobs).2 ⟨dss, h7, h8⟩
    obtain ⟨s2, hs2⟩ := stream_none_iff.2 ⟨fs, tail, fbs, rfl, h5, h6, rfl⟩
    have := kindReads_stream (k := k) (zlib := zlib) (b := b) hs2
    rw [runBlobs_none.2 ⟨rfl, oss, h3, h4⟩] at this
    exact this

/-- **C105**, damaged files. The objects of this kind in the frames up to the first that cannot be read, and nothing of that one. All bytes have such a beginning. -/
theorem C105_damaged (k : OSMObjectType) (zlib : Proto.Bytes → Option Proto.Bytes) (bs : Proto.Bytes) :
    (∃ dss rest, Beginning (KindShown k zlib b) bs dss rest) ∧ ∀ dss rest, Beginning (KindShown k zlib b) bs dss rest →
      (∀ ds, KindReads k zlib b (source bs) ds none ↔ ds = dss.flatten ∧ rest.length < 4) ∧
      ∀ ds, (∃ p, KindReads k zlib b (source bs) ds (some p)) ↔ ds = dss.flatten ∧ 4 ≤ rest.length :=
  beginning_reads kindShown_byBlobs kindReads_stream KindReads.unique bs

/-- **C105**, built with overflow checks: the same, or the first of these objects and an overflow. -/
theorem C105_checked {src : Source} {ds ds' : List ObjData} {e e' : Option Panic} (h : KindReads k zlib .debug src ds e)
    (h' : KindReads k zlib .release src ds' e') : (ds = ds' ∧ e = e') ∨ (ds <+: ds' ∧ e = some .overflow) := by
  obtain ⟨bs, e0, s, hs⟩ := stream_total src
  obtain ⟨rfl, rfl⟩ := KindReads.unique h (kindReads_stream hs)
  obtain ⟨rfl, rfl⟩ := KindReads.unique h' (kindReads_stream hs)
  rcases agree_runBlobs (fun blob => agree_kindData (k := k) zlib blob) e0 bs with h3 | ⟨h3, h4⟩
  · rw [h3]; exact .inl ⟨rfl, rfl⟩
  · exact .inr ⟨h4, h3⟩

/-- **C105**, going on after panics (C104). -/
theorem C105_resumes (bs : Proto.Bytes) (gs : List (Option ObjData)) : KindResumes k zlib b (source bs) gs ↔ Gives (KindGives k zlib b) bs gs := by
  have hu : ∀ {gs gs'}, Gives (KindGives k zlib b) bs gs → Gives (KindGives k zlib b) bs gs' → gs = gs' := fun h h' =>
    resumed_unique ((resumed_iff (decode := kindData k zlib b) (fun _ _ => kindGives_iff) bs _).2 h)
      ((resumed_iff (decode := kindData k zlib b) (fun _ _ => kindGives_iff) bs _).2 h')
  obtain ⟨os, h1⟩ := gives_total (gives := fun blob os => os = outcome (StringPbf.decodeBlob zlib b (filterOf k) blob)) (fun blob => ⟨_, rfl⟩) bs
  have h2 := resumed_map (φ := strState false (filterOf k)) (str_next zlib b _ _) ((resumed_iff (fun _ _ => Iff.rfl) bs os).2 h1)
  rw [← method_new] at h2
  have h3 : Gives (KindGives k zlib b) bs (os.map (Option.map objData)) := gives_map objData (by
    rintro blob os rfl
    rw [kindGives_iff, outcome_map]
    rfl) h1
  have h4 := picked_all (k := k) (gives_all (P := fun o => Passes (filterOf k) o = true)
    (by rintro blob gs rfl o ho; exact decodeBlob_passes blob o (outcome_mem ho)) h1)
  constructor
  · rintro ⟨os', h5, rfl⟩
    rw [resumed_unique h5 h2, h4]
    exact h3
  · intro h
    exact ⟨os, h2, by rw [h4]; exact hu h3 h⟩

/-- **C105**, blocks with other objects. If the only group of a block has no objects of this kind, the block shows nothing, whatever is wrong with the objects it has:
strings that are not text, places outside the table, missing information. -/
theorem C105_other {f : Frame} {blob : Proto.Blob} {data : Proto.Bytes} {block : Proto.PrimitiveBlock} {g : Proto.PrimitiveGroup}
    (h1 : HeaderSays f (str% "OSMData")) (h2 : DecodesBlob f.data blob) (h3 : Unpacked zlib blob data) (h4 : DecodesPrimitiveBlock data block)
    (h5 : hasPrimitiveBlock block) (h6 : block.stringtable ≠ none) (h7 : block.primitivegroup = [g]) (h8 : Lacks k g) : KindShown k zlib b f [] := by
  have e : (onlyGroup k g).nodes = [] ∧ (onlyGroup k g).dense = none ∧ (onlyGroup k g).ways = [] ∧ (onlyGroup k g).relations = [] := by
    cases k
    · exact ⟨h8.1, h8.2, rfl, rfl⟩
    · exact ⟨rfl, rfl, h8, rfl⟩
    · exact ⟨rfl, rfl, rfl, h8⟩
  have hg : (only k block).primitivegroup = [onlyGroup k g] := by simp [only, h7]
  refine .block blob data block [] h1 h2 h3 h4 h5 ⟨⟨fun _ => h6, fun _ => by rw [hg]; rfl, ?_⟩, fun _ => ?_⟩ ⟨[[]], ?_, rfl⟩
  · rw [hg]
    intro g' hm
    cases List.mem_singleton.1 hm
    exact .empty rfl e.1 e.2.1 e.2.2.1 e.2.2.2
  · unfold BlockFits
    rw [hg]
    intro g' hm
    cases List.mem_singleton.1 hm
    exact ⟨fun dense h => (by rw [e.2.1] at h; cases h), fun _ w hw => (by rw [e.2.2.1] at hw; cases hw), fun _ _ w hw => (by rw [e.2.2.2] at hw; cases hw)⟩
  · rw [hg]
    refine .cons ?_ .nil
    have := GroupShown.relations (b := only k block) (t := (only k block).stringtable.getD {}) e.2.1 e.2.2.1
    rw [e.2.2.2] at this
    exact this

/-! ## The example of C104: the second of two ways has no information on its version and author -/

namespace PbfEx

theorem spoilt_kind (k : OSMObjectType) (b : Build) : kindData k some b (zlibBlob id nodes) = (if k = .node then nodesData else [], none) ∧
    (k ≠ .way → kindData k some b (zlibBlob id spoilt) = ([], none)) ∧
    kindData k some b (zlibBlob id relations) = (if k = .relation then relationsData else [], none) := by
  cases b <;> cases k <;> decide +kernel

theorem kind_frame {block : Proto.PrimitiveBlock} (hf : (frameOf (str% "OSMData") (zlibBlob id block)).Fits) {ds : List ObjData}
    (h : kindData k some b (zlibBlob id block) = (ds, none)) : KindShown k some b (frameOf (str% "OSMData") (zlibBlob id block)) ds :=
  (kindShown_byBlobs _ _).2 ⟨[zlibBlob id block], [ds], frameBlobs_iff.2 (.inr ⟨headerSays_iff.2 ⟨_, frameOf_framed hf, rfl⟩, _,
    ((C98_blob _ _).1 (C50_blob_roundtrip _ trivial hf.2)).1, rfl⟩), .cons h .nil, by simp⟩

theorem spoilt_shown (k : OSMObjectType) (hk : k ≠ .way) : List.Forall₂ (KindShown k some b) spoiltFile
    [if k = .node then nodesData else [], [], if k = .relation then relationsData else []] :=
  .cons (kind_frame (by decide +kernel) (spoilt_kind k b).1) (.cons (kind_frame (by decide +kernel) ((spoilt_kind k b).2.1 hk))
    (.cons (kind_frame (by decide +kernel) (spoilt_kind k b).2.2) .nil))

end PbfEx

/-- `nodes()` and `relations()` see all nodes and relations of the file, and the end. (A loop over `objects()` panics after the nodes, see C104.) -/
example : KindReads .node some b (source (fileBytes PbfEx.spoiltFile)) PbfEx.nodesData none ∧
    KindReads .relation some b (source (fileBytes PbfEx.spoiltFile)) PbfEx.relationsData none :=
  ⟨C105_file.2 ⟨_, [], _, by simp, by simp, PbfEx.spoilt_shown .node (by decide), by simp⟩,
    C105_file.2 ⟨_, [], _, by simp, by simp, PbfEx.spoilt_shown .relation (by decide), by simp⟩⟩

/-- The block of the example meets the conditions of `C105_other` for nodes and relations. -/
example : PbfEx.spoilt.stringtable ≠ none ∧ (∃ g, PbfEx.spoilt.primitivegroup = [g] ∧ Lacks .node g ∧ Lacks .relation g ∧ ¬ Lacks .way g) := by
  exact ⟨by decide, _, rfl, ⟨rfl, rfl⟩, rfl, by simp [Lacks]⟩

end Osmio
