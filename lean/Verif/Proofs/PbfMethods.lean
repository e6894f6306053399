import Verif.Spec.PbfMethods
import Verif.Proofs.PbfResumeBlobs
import Verif.Proofs.PbfDamage
import Verif.Proofs.PbfKinds
import Verif.Proofs.PbfBuilds
/-! # Proofs: the kind methods of the owned-string reader -/

namespace Osmio
open Spec.Pbf
open Spec (ObjData Resumed)

variable {k : OSMObjectType} {zlib : Proto.Bytes → Option Proto.Bytes} {b : Build}

def filterOf : OSMObjectType → StringPbf.ObjectFilter
  | .node => (true, false, false)
  | .way => (false, true, false)
  | .relation => (false, false, true)

theorem method_new (k : OSMObjectType) (src : Source) : method k (StringPbf.PBFReader.new src) = strState false (filterOf k) ([], src) := by
  cases k <;> rfl

theorem picked_passes {o : StringOSMObj} (h : Passes (filterOf k) o = true) : picked k o = some (objData o) := by
  cases k <;> cases o <;> first | rfl | cases h

/-- With the filter a group is decoded as if it had nothing else. -/
theorem group_only (g : Proto.PrimitiveGroup) (gr : Int32) (la lo : Int64) (dg : Int32) (raw : Proto.StringTable) :
    StringPbf.decodeGroup b g gr la lo dg raw (filterOf k) = StringPbf.decodeGroup b (onlyGroup k g) gr la lo dg raw (true, true, true) := by
  cases k <;> simp [StringPbf.decodeGroup, onlyGroup, filterOf]

theorem block_only (block : Proto.PrimitiveBlock) :
    StringPbf.decodeBlock b block (filterOf k) = StringPbf.decodeBlock b (only k block) (true, true, true) := by
  unfold StringPbf.decodeBlock only
  simp only
  cases block.stringtable with
  | none => rfl
  | some raw =>
    simp only
    match block.primitivegroup with
    | [] => rfl
    | [g] => exact group_only g _ _ _ _ raw
    | _ :: _ :: _ => rfl

/-- The objects of a blob, as they are seen. -/
def kindData (k : OSMObjectType) (zlib : Proto.Bytes → Option Proto.Bytes) (b : Build) (blob : Proto.Blob) : List ObjData × Option Panic :=
  ((StringPbf.decodeBlob zlib b (filterOf k) blob).1.map objData, (StringPbf.decodeBlob zlib b (filterOf k) blob).2)

theorem passedOver_iff {blob : Proto.Blob} : PassedOver zlib blob ↔ StringPbf.blobRawData zlib blob = .ok [] := by
  rw [str_data_iff]
  unfold PassedOver
  constructor
  · rintro (h | h | h)
    · exact .inr ⟨rfl, .inl h⟩
    · exact .inr ⟨rfl, .inr h⟩
    · exact .inl h
  · rintro (h | ⟨_, h | h⟩)
    · exact .inr (.inr h)
    · exact .inl h
    · exact .inr (.inl h)

theorem kind_nothing {blob : Proto.Blob} (h : PassedOver zlib blob) : kindData k zlib b blob = ([], none) := by
  simp [kindData, StringPbf.decodeBlob, passedOver_iff.1 h]

theorem kind_block {blob : Proto.Blob} {data : Proto.Bytes} {block : Proto.PrimitiveBlock} (h1 : Unpacked zlib blob data)
    (h2 : DecodesPrimitiveBlock data block) (h3 : hasPrimitiveBlock block) :
    kindData k zlib b blob = ((StringPbf.decodeBlock b (only k block) (true, true, true)).1.map objData,
      (StringPbf.decodeBlock b (only k block) (true, true, true)).2) := by
  have hp := block_parses.2 ⟨h2, h3⟩
  simp only [kindData, StringPbf.decodeBlob, str_data_iff.2 (.inl h1), if_neg (parse_some_ne hp), hp, block_only]

theorem kind_lost {blob : Proto.Blob} (h1 : ¬ PassedOver zlib blob)
    (h2 : ∀ data block, Unpacked zlib blob data → DecodesPrimitiveBlock data block → ¬ hasPrimitiveBlock block) :
    ∃ p, kindData k zlib b blob = ([], some p) := by
  unfold kindData StringPbf.decodeBlob
  cases hd : StringPbf.blobRawData zlib blob with
  | error p => exact ⟨p, rfl⟩
  | ok data =>
    have hne : data ≠ [] := fun e => h1 (passedOver_iff.2 (e ▸ hd))
    simp only [if_neg hne]
    cases hp : Proto.PrimitiveBlock.parseFromBytes data with
    | none => exact ⟨_, rfl⟩
    | some block =>
      obtain ⟨h3, h4⟩ := block_parses.1 hp
      rcases str_data_iff.1 hd with h5 | ⟨h5, _⟩
      · exact absurd h4 (h2 _ _ h5 h3)
      · exact absurd h5 hne

/-- A blob is passed over, or lost, or has a block. -/
theorem kind_cases (zlib : Proto.Bytes → Option Proto.Bytes) (blob : Proto.Blob) : PassedOver zlib blob ∨
    (¬ PassedOver zlib blob ∧ ∀ data block, Unpacked zlib blob data → DecodesPrimitiveBlock data block → ¬ hasPrimitiveBlock block) ∨
    ∃ data block, Unpacked zlib blob data ∧ DecodesPrimitiveBlock data block ∧ hasPrimitiveBlock block := by
  by_cases h1 : PassedOver zlib blob
  · exact .inl h1
  · by_cases h2 : ∃ data block, Unpacked zlib blob data ∧ DecodesPrimitiveBlock data block ∧ hasPrimitiveBlock block
    · exact .inr (.inr h2)
    · exact .inr (.inl ⟨h1, fun d bl a1 a2 a3 => h2 ⟨d, bl, a1, a2, a3⟩⟩)

theorem kindData_shown {blob : Proto.Blob} {ds : List ObjData} : kindData k zlib b blob = (ds, none) ↔
    (PassedOver zlib blob ∧ ds = []) ∨ ∃ data block, Unpacked zlib blob data ∧ DecodesPrimitiveBlock data block ∧
      hasPrimitiveBlock block ∧ ReadableIn b .owned (only k block) ∧ BlockShown (only k block) ds := by
  constructor
  · intro h
    rcases kind_cases zlib blob with h1 | ⟨h1, h2⟩ | ⟨data, block, h1, h2, h3⟩
    · rw [kind_nothing h1] at h
      cases h
      exact .inl ⟨h1, rfl⟩
    · obtain ⟨p, hp⟩ := kind_lost (k := k) (b := b) h1 h2
      rw [hp] at h
      cases h
    · rw [kind_block h1 h2 h3] at h
      refine .inr ⟨data, block, h1, h2, h3, objects_iff.1 (owned_objects.2 ?_)⟩
      rcases hd : StringPbf.decodeBlock b (only k block) (true, true, true) with ⟨os, e⟩
      rw [hd] at h
      cases h
      exact ⟨os, rfl, rfl⟩
  · rintro (⟨h1, rfl⟩ | ⟨data, block, h1, h2, h3, h4⟩)
    · exact kind_nothing h1
    · obtain ⟨os, h5, rfl⟩ := owned_objects.1 (objects_iff.2 h4)
      rw [kind_block h1 h2 h3, h5]

theorem kindShown_byBlobs (f : Frame) (ds : List ObjData) : KindShown k zlib b f ds ↔ ByBlobs (kindData k zlib b) f ds := by
  constructor
  · intro h
    cases h with
    | other t h1 h2 => exact ⟨[], [], frameBlobs_iff.2 (.inl ⟨t, h1, h2, rfl⟩), .nil, rfl⟩
    | nothing blob h1 h2 h3 =>
      exact ⟨[blob], [[]], frameBlobs_iff.2 (.inr ⟨h1, blob, h2, rfl⟩), .cons (kindData_shown.2 (.inl ⟨h3, rfl⟩)) .nil, rfl⟩
    | block blob data block _ h1 h2 h3 h4 h5 h6 h7 =>
      exact ⟨[blob], [ds], frameBlobs_iff.2 (.inr ⟨h1, blob, h2, rfl⟩),
        .cons (kindData_shown.2 (.inr ⟨data, block, h3, h4, h5, h6, h7⟩)) .nil, by simp⟩
  · rintro ⟨fb, dss, h1, h2, rfl⟩
    rcases frameBlobs_iff.1 h1 with ⟨t, h3, h4, rfl⟩ | ⟨h3, blob, h4, rfl⟩
    · cases h2
      exact .other t h3 h4
    · cases h2 with
      | @cons _ ds _ _ h5 h6 =>
        cases h6
        rcases kindData_shown.1 h5 with ⟨h7, rfl⟩ | ⟨data, block, a1, a2, a3, a4, a5⟩
        · exact .nothing blob h3 h4 h7
        · have := KindShown.block (k := k) blob data block ds h3 h4 a1 a2 a3 a4 a5
          simpa using this

theorem kindGives_iff {blob : Proto.Blob} {gs : List (Option ObjData)} : KindGives k zlib b blob gs ↔ gs = outcome (kindData k zlib b blob) := by
  have hun : ∀ {block : Proto.PrimitiveBlock}, ¬ ReadableIn b .owned (only k block) →
      ∃ os p, StringPbf.decodeBlock b (only k block) (true, true, true) = (os, some p) := by
    intro block h
    rcases hd : StringPbf.decodeBlock b (only k block) (true, true, true) with ⟨os, _ | p⟩
    · exact absurd (objects_iff.1 (owned_objects.2 ⟨os, hd, rfl⟩)).1 h
    · exact ⟨os, p, rfl⟩
  constructor
  · intro h
    cases h with
    | nothing h1 => rw [kind_nothing h1]; rfl
    | block data block ds h1 h2 h3 h4 h5 => rw [kindData_shown.2 (.inr ⟨data, block, h1, h2, h3, h4, h5⟩)]; rfl
    | lost h1 h2 =>
      obtain ⟨p, hp⟩ := kind_lost (k := k) (b := b) h1 h2
      rw [hp]; rfl
    | unreadable data block ds h1 h2 h3 h4 h5 =>
      obtain ⟨os, p, hd⟩ := hun h4
      rw [kind_block h1 h2 h3, hd, (before_iff hd).1 h5]
      rfl
  · rintro rfl
    rcases kind_cases zlib blob with h1 | ⟨h1, h2⟩ | ⟨data, block, h1, h2, h3⟩
    · rw [kind_nothing h1]; exact .nothing h1
    · obtain ⟨p, hp⟩ := kind_lost (k := k) (b := b) h1 h2
      rw [hp]; exact .lost h1 h2
    · by_cases h4 : ReadableIn b .owned (only k block)
      · obtain ⟨ds, h5⟩ := readable_in.2 h4
        have h6 := objects_iff.1 h5
        rw [kindData_shown.2 (.inr ⟨data, block, h1, h2, h3, h6⟩)]
        exact .block data block ds h1 h2 h3 h4 h6.2
      · obtain ⟨os, p, hd⟩ := hun h4
        rw [kind_block h1 h2 h3, hd]
        exact .unreadable data block _ h1 h2 h3 h4 ((before_iff hd).2 rfl)

/-! ## Reading -/

theorem runBlobs_picked (e : Option Panic) (bs : List Proto.Blob) :
    (runBlobs (StringPbf.decodeBlob zlib b (filterOf k)) e bs).1.filterMap (picked k) =
      (runBlobs (StringPbf.decodeBlob zlib b (filterOf k)) e bs).1.map objData := by
  rw [← List.filterMap_eq_map]
  exact List.filterMap_congr fun o ho => picked_passes (runBlobs_all decodeBlob_passes bs o ho)

theorem kindReads_stream {src s' : Source} {bs : List Proto.Blob} {e : Option Panic} (h : Stream src bs e s') :
    KindReads k zlib b src (runBlobs (kindData k zlib b) e bs).1 (runBlobs (kindData k zlib b) e bs).2 := by
  obtain ⟨t, h1, _⟩ := stream_drain (StringPbf.decodeBlob zlib b (filterOf k)) h
  have e1 : runBlobs (kindData k zlib b) e bs = _ := runBlobs_map (StringPbf.decodeBlob zlib b (filterOf k)) objData e bs
  rw [e1]
  refine ⟨_, strState false (filterOf k) t, ?_, runBlobs_picked e bs⟩
  rw [method_new]
  exact drain_map (φ := strState false (filterOf k)) (str_next zlib b _ _) h1

theorem KindReads.unique {src : Source} {ds ds' : List ObjData} {e e' : Option Panic} (h : KindReads k zlib b src ds e)
    (h' : KindReads k zlib b src ds' e') : ds = ds' ∧ e = e' := by
  obtain ⟨os, s, h1, rfl⟩ := h
  obtain ⟨os', s', h1', rfl⟩ := h'
  obtain ⟨rfl, rfl, _⟩ := h1.unique h1'
  exact ⟨rfl, rfl⟩

theorem agree_kindData (zlib : Proto.Bytes → Option Proto.Bytes) (blob : Proto.Blob) :
    AgreeS (kindData k zlib .debug blob) (kindData k zlib .release blob) := by
  have : AgreeS (StringPbf.decodeBlob zlib .debug (filterOf k) blob) (StringPbf.decodeBlob zlib .release (filterOf k) blob) := by
    unfold StringPbf.decodeBlob
    split
    · exact .refl _
    · split
      · exact .refl _
      · split
        · exact .refl _
        · exact agree_str_block _ _
  unfold kindData
  rcases this with h | ⟨h1, h2⟩
  · rw [h]; exact .refl _
  · exact .inr ⟨h1, h2.map objData⟩

/-! ## Going on after a panic -/

/-- All that comes is of one kind, if this holds for blobs. -/
theorem gives_all {α : Type} {P : α → Prop} {g : Proto.Blob → List (Option α) → Prop} (hg : ∀ blob gs, g blob gs → ∀ o, some o ∈ gs → P o)
    {bs : Proto.Bytes} {gs : List (Option α)} (h : Gives g bs gs) : ∀ o, some o ∈ gs → P o := by
  induction h with
  | rest => intro o ho; cases ho
  | cutHeader => intro o ho; simp at ho
  | badHeader h more gs _ _ _ ih => intro o ho; exact ih o (by simpa using ho)
  | cutData => intro o ho; simp at ho
  | frame f more gs gs' hf _ ih =>
    intro o ho
    rcases List.mem_append.1 ho with ho | ho
    · cases hf with
      | other => cases ho
      | noBlob => simp at ho
      | blob blob _ _ _ h => exact hg _ _ h o ho
    · exact ih o ho

theorem outcome_mem {α : Type} {x : List α × Option Panic} {o : α} (h : some o ∈ outcome x) : o ∈ x.1 := by
  obtain ⟨os, _ | p⟩ := x <;> simpa [outcome] using h

theorem picked_all {os : List (Option StringOSMObj)} (h : ∀ o, some o ∈ os → Passes (filterOf k) o = true) :
    os.filterMap (pickedOrPanic k) = os.map (Option.map objData) := by
  rw [← List.filterMap_eq_map]
  refine List.filterMap_congr fun o ho => ?_
  cases o with
  | none => rfl
  | some o => simp [pickedOrPanic, picked_passes (h o ho)]

end Osmio
