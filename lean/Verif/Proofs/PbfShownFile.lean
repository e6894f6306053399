import Verif.Proofs.PbfShown
import Verif.Proofs.PbfZlib
import Verif.Proofs.PbfKinds
import Verif.Props.ProtoDecode
import Verif.Spec.PbfShownFile
/-! # Proofs: the objects of a file as formulas -/

namespace Osmio
open Spec.Pbf
open Spec (ObjData)

variable {r : Which} {zlib : Proto.Bytes → Option Proto.Bytes} {b : Build}

/-! ## Frames -/

theorem headerSays_iff {f : Frame} {type_ : Str} : HeaderSays f type_ ↔ ∃ h, Framed f h ∧ h.type_ = some type_ := by
  unfold HeaderSays Framed
  constructor
  · rintro ⟨h1, h, n, h2, h3, h4, h5⟩
    exact ⟨h, ⟨h1, (C98_blobHeader _ _).2 ⟨h2, by rw [hasBlobHeader, h3, h4]; simp⟩, n, h4, h5⟩, h3⟩
  · rintro ⟨h, ⟨h1, h2, n, h3, h4⟩, h5⟩
    exact ⟨h1, h, n, ((C98_blobHeader _ _).1 h2).1, h5, h3, h4⟩

theorem framed_says {f : Frame} {h : Proto.BlobHeader} (hf : Framed f h) : ∃ type_, h.type_ = some type_ ∧ HeaderSays f type_ := by
  obtain ⟨t, _, h1, _⟩ := isInitialized_of_parse hf.2.1
  exact ⟨t, h1, headerSays_iff.2 ⟨h, hf, h1⟩⟩

theorem frameBlobs_iff {f : Frame} {fb : List Proto.Blob} : FrameBlobs f fb ↔
    (∃ type_, HeaderSays f type_ ∧ type_ ≠ str% "OSMData" ∧ fb = []) ∨
      (HeaderSays f (str% "OSMData") ∧ ∃ blob, DecodesBlob f.data blob ∧ fb = [blob]) := by
  constructor
  · rintro ⟨h, h1, ⟨h2, rfl⟩ | ⟨h2, blob, h3, rfl⟩⟩
    · obtain ⟨t, h3, h4⟩ := framed_says h1
      exact .inl ⟨t, h4, fun e => h2 (by rw [h3, e]), rfl⟩
    · exact .inr ⟨headerSays_iff.2 ⟨h, h1, h2⟩, blob, ((C98_blob _ _).1 h3).1, rfl⟩
  · rintro (⟨t, h1, h2, rfl⟩ | ⟨h1, blob, h2, rfl⟩)
    · obtain ⟨h, h3, h4⟩ := headerSays_iff.1 h1
      exact ⟨h, h3, .inl ⟨by rw [h4]; simpa using h2, rfl⟩⟩
    · obtain ⟨h, h3, h4⟩ := headerSays_iff.1 h1
      exact ⟨h, h3, .inr ⟨h4, blob, (C98_blob _ _).2 ⟨h2, trivial⟩, rfl⟩⟩

/-- A source that is read to its end is made of frames. -/
theorem stream_blobs {src : Source} {bs : List Proto.Blob} {e : Option Panic} {s' : Source} (h : Stream src bs e s') (he : e = none)
    {l : Proto.Bytes} (hl : src = source l) :
    ∃ fs tail fbs, l = fileBytes fs ++ tail ∧ tail.length < 4 ∧ List.Forall₂ FrameBlobs fs fbs ∧ bs = fbs.flatten := by
  induction h generalizing l with
  | done h =>
    subst hl
    exact ⟨[], l, [], rfl, (readBlob_done h).1, .nil, rfl⟩
  | panic => cases he
  | skip h _ ih =>
    subst hl
    obtain ⟨f, rest, hd, h1, h2, h3⟩ := readBlob_ok h
    obtain ⟨fs, tail, fbs, rfl, h6, h7, rfl⟩ := ih he h3
    refine ⟨f :: fs, tail, [] :: fbs, by rw [h2, ← List.append_assoc]; rfl, h6, .cons ⟨hd, h1, .inl ⟨?_, rfl⟩⟩ h7, rfl⟩
    intro ht
    rw [h2, source_append, readBlob_frame h1, if_pos ht] at h
    split at h <;> cases h
  | blob h _ ih =>
    subst hl
    obtain ⟨f, rest, hd, h1, h2, h3⟩ := readBlob_ok h
    obtain ⟨fs, tail, fbs, rfl, h6, h7, rfl⟩ := ih he h3
    refine ⟨f :: fs, tail, [_] :: fbs, by rw [h2, ← List.append_assoc]; rfl, h6, .cons ⟨hd, h1, .inr ?_⟩ h7, rfl⟩
    rw [h2, source_append, readBlob_frame h1] at h
    split at h
    · rename_i ht
      split at h
      · cases h
      · rename_i hp
        cases h
        exact ⟨ht, _, hp, rfl⟩
    · cases h

theorem stream_none_iff {l : Proto.Bytes} {bs : List Proto.Blob} : (∃ s', Stream (source l) bs none s') ↔
    ∃ fs tail fbs, l = fileBytes fs ++ tail ∧ tail.length < 4 ∧ List.Forall₂ FrameBlobs fs fbs ∧ bs = fbs.flatten := by
  constructor
  · rintro ⟨s', h⟩; exact stream_blobs h rfl rfl
  · rintro ⟨fs, tail, fbs, rfl, h1, h2, rfl⟩
    have := stream_frames h2 (.done (readBlob_short h1))
    rw [List.append_nil] at this
    exact ⟨_, this⟩

theorem forall2_split {α β : Type} {R : α → β → Prop} {l1 l2 : List α} {ys : List β} (h : List.Forall₂ R (l1 ++ l2) ys) :
    ∃ y1 y2, List.Forall₂ R l1 y1 ∧ List.Forall₂ R l2 y2 ∧ ys = y1 ++ y2 := by
  induction l1 generalizing ys with
  | nil => exact ⟨[], ys, .nil, h, rfl⟩
  | cons a l1 ih =>
    cases h with
    | cons h1 h2 =>
      obtain ⟨y1, y2, h3, h4, rfl⟩ := ih h2
      exact ⟨_ :: y1, y2, .cons h1 h3, h4, rfl⟩

theorem forall2_left {α β : Type} {R : α → β → Prop} {P : α → Prop} (hP : ∀ a b, R a b → P a) {l : List α} {m : List β}
    (h : List.Forall₂ R l m) : ∀ a ∈ l, P a := forall2_right (fun b a h => hP a b h) h.flip

/-- Results for blobs, put together by frames. -/
theorem by_frames {α : Type} {P : Frame → List Proto.Blob → Prop} {D : Proto.Blob → List α → Prop} {S : Frame → List α → Prop}
    (hS : ∀ f ds, S f ds ↔ ∃ fb dss, P f fb ∧ List.Forall₂ D fb dss ∧ ds = dss.flatten) {fs : List Frame} {ds : List α} :
    (∃ fbs dss, List.Forall₂ P fs fbs ∧ List.Forall₂ D fbs.flatten dss ∧ ds = dss.flatten) ↔
      ∃ dss, List.Forall₂ S fs dss ∧ ds = dss.flatten := by
  induction fs generalizing ds with
  | nil =>
    constructor
    · rintro ⟨_, _, h1, h2, rfl⟩; cases h1; cases h2; exact ⟨[], .nil, rfl⟩
    · rintro ⟨_, h1, rfl⟩; cases h1; exact ⟨[], [], .nil, .nil, rfl⟩
  | cons f fs ih =>
    constructor
    · rintro ⟨_, dss, h1, h2, rfl⟩
      cases h1 with
      | cons h3 h4 =>
        rename_i fb fbs
        rw [List.flatten_cons] at h2
        obtain ⟨d1, d2, h5, h6, rfl⟩ := forall2_split h2
        obtain ⟨dss, h7, h8⟩ := ih.1 ⟨fbs, d2, h4, h6, rfl⟩
        exact ⟨d1.flatten :: dss, .cons ((hS _ _).2 ⟨fb, d1, h3, h5, rfl⟩) h7, by rw [List.flatten_append, h8, List.flatten_cons]⟩
    · rintro ⟨_, h1, rfl⟩
      cases h1 with
      | cons h3 h4 =>
        obtain ⟨fb, d1, h5, h6, rfl⟩ := (hS _ _).1 h3
        obtain ⟨fbs, d2, h7, h8, h9⟩ := ih.2 ⟨_, h4, rfl⟩
        exact ⟨fb :: fbs, d1 ++ d2, .cons h5 h7, List.rel_append h6 h8, by rw [List.flatten_cons, h9, List.flatten_append]⟩

/-! ## Blobs -/

theorem str_data_iff {blob : Proto.Blob} {data : Proto.Bytes} : StringPbf.blobRawData zlib blob = .ok data ↔
    Unpacked zlib blob data ∨ (data = [] ∧ (blob.raw = some [] ∨ (blob.raw = none ∧ blob.zlibData = none))) := by
  unfold StringPbf.blobRawData Unpacked
  cases h1 : blob.raw with
  | some raw =>
    by_cases hr : raw = []
    · subst hr; simp [eq_comm]
    · simp [hr]
  | none =>
    cases h2 : blob.zlibData with
    | none => simp [eq_comm]
    | some z => simp [unwrap_ok]

theorem arc_data_iff {blob : Proto.Blob} {data : Proto.Bytes} : ArcPbf.blobRawData zlib blob = .ok (some data) ↔
    DataIn .shared zlib blob data := by
  unfold ArcPbf.blobRawData DataIn Unpacked
  cases h1 : blob.raw with
  | some raw => simp
  | none =>
    cases h2 : blob.zlibData with
    | none => simp
    | some z =>
      cases h3 : blob.rawSize with
      | none => simp [unwrap, bind, Except.bind]
      | some n =>
        simp only [unwrap, bind, Except.bind]
        by_cases hn : n.toInt < 0
        · simp [hn]
        · simp [hn]
          omega

theorem block_parses {data : Proto.Bytes} {block : Proto.PrimitiveBlock} :
    Proto.PrimitiveBlock.parseFromBytes data = some block ↔ DecodesPrimitiveBlock data block ∧ hasPrimitiveBlock block :=
  C98_primitiveBlock _ _

theorem blobData_shown {blob : Proto.Blob} {ds : List ObjData} : blobData r zlib b blob = (ds, none) ↔
    (r = .owned ∧ PassedOver zlib blob ∧ ds = []) ∨ ∃ data block, DataIn r zlib blob data ∧ DecodesPrimitiveBlock data block ∧
      hasPrimitiveBlock block ∧ ReadableIn b r block ∧ BlockShown block ds := by
  cases r with
  | owned =>
    rw [owned_blob]
    constructor
    · rintro ⟨data, h1, ⟨rfl, rfl⟩ | ⟨h2, block, h3, h4⟩⟩
      · rw [str_data_iff] at h1
        refine .inl ⟨rfl, ?_, rfl⟩
        rcases h1 with h1 | ⟨_, h1 | h1⟩
        · exact .inr (.inr h1)
        · exact .inl h1
        · exact .inr (.inl h1)
      · rcases str_data_iff.1 h1 with h1 | ⟨h1, _⟩
        · obtain ⟨a, c⟩ := block_parses.1 h3
          obtain ⟨d, e⟩ := objects_iff.1 h4
          exact .inr ⟨data, block, h1, a, c, d, e⟩
        · exact absurd h1 h2
    · rintro (⟨_, h1, rfl⟩ | ⟨data, block, h1, a, c, d, e⟩)
      · refine ⟨[], str_data_iff.2 ?_, .inl ⟨rfl, rfl⟩⟩
        rcases h1 with h1 | h1 | h1
        · exact .inr ⟨rfl, .inl h1⟩
        · exact .inr ⟨rfl, .inr h1⟩
        · exact .inl h1
      · have hp := block_parses.2 ⟨a, c⟩
        exact ⟨data, str_data_iff.2 (.inl h1), .inr ⟨parse_some_ne hp, block, hp, objects_iff.2 ⟨d, e⟩⟩⟩
  | shared =>
    rw [shared_blob]
    constructor
    · rintro ⟨data, h1, block, h3, h4⟩
      obtain ⟨a, c⟩ := block_parses.1 h3
      obtain ⟨d, e⟩ := objects_iff.1 h4
      exact .inr ⟨data, block, arc_data_iff.1 h1, a, c, d, e⟩
    · rintro (⟨h, _⟩ | ⟨data, block, h1, a, c, d, e⟩)
      · cases h
      · exact ⟨data, arc_data_iff.2 h1, block, block_parses.2 ⟨a, c⟩, objects_iff.2 ⟨d, e⟩⟩

theorem frameShown_iff {f : Frame} {ds : List ObjData} : FrameShown r zlib b f ds ↔
    ∃ fb dss, FrameBlobs f fb ∧ List.Forall₂ (fun blob ds => blobData r zlib b blob = (ds, none)) fb dss ∧ ds = dss.flatten := by
  constructor
  · intro h
    cases h with
    | other t h1 h2 => exact ⟨[], [], frameBlobs_iff.2 (.inl ⟨t, h1, h2, rfl⟩), .nil, rfl⟩
    | nothing blob h1 h2 h3 h4 =>
      exact ⟨[blob], [[]], frameBlobs_iff.2 (.inr ⟨h2, blob, h3, rfl⟩), .cons (blobData_shown.2 (.inl ⟨h1, h4, rfl⟩)) .nil, rfl⟩
    | block blob data block ds h2 h3 h4 h5 h6 h7 h8 =>
      exact ⟨[blob], [ds], frameBlobs_iff.2 (.inr ⟨h2, blob, h3, rfl⟩),
        .cons (blobData_shown.2 (.inr ⟨data, block, h4, h5, h6, h7, h8⟩)) .nil, by simp⟩
  · rintro ⟨fb, dss, h1, h2, rfl⟩
    rcases frameBlobs_iff.1 h1 with ⟨t, h3, h4, rfl⟩ | ⟨h3, blob, h4, rfl⟩
    · cases h2; exact .other t h3 h4
    · cases h2 with
      | cons h5 h6 =>
        cases h6
        rw [List.flatten_cons, List.flatten_nil, List.append_nil]
        rcases blobData_shown.1 h5 with ⟨a, c, rfl⟩ | ⟨data, block, a, c, d, e, g⟩
        · exact .nothing blob a h3 h4 c
        · exact .block blob data block _ h3 h4 a c d e g

/-- What a reader shows of any bytes it reads to the end. -/
theorem reads_shown {bs : Proto.Bytes} {ds : List ObjData} : Reads r zlib b (source bs) ds none ↔ FileShown r zlib b bs ds := by
  rw [reads_iff]
  unfold FileShown
  constructor
  · rintro ⟨blobs, e', s', h1, h2⟩
    obtain ⟨rfl, oss, h3, rfl⟩ := runBlobs_none.1 h2
    obtain ⟨fs, tail, fbs, rfl, h4, h5, rfl⟩ := stream_none_iff.1 ⟨s', h1⟩
    obtain ⟨dss, h6, h7⟩ := (by_frames (S := FrameShown r zlib b) (fun f ds => frameShown_iff (f := f) (ds := ds))).1 ⟨fbs, oss, h5, h3, rfl⟩
    exact ⟨fs, tail, dss, rfl, h4, h6, h7⟩
  · rintro ⟨fs, tail, dss, rfl, h4, h6, rfl⟩
    obtain ⟨fbs, oss, h5, h3, h7⟩ := (by_frames (S := FrameShown r zlib b) (fun f ds => frameShown_iff (f := f) (ds := ds))).2 ⟨dss, h6, rfl⟩
    obtain ⟨s', h1⟩ := stream_none_iff.2 ⟨fs, tail, fbs, rfl, h4, h5, rfl⟩
    exact ⟨_, none, s', h1, runBlobs_none.2 ⟨rfl, oss, h3, h7⟩⟩

/-! ## Positions -/

theorem readsPositions_iff {src : Source} {xs : List (ObjId × (Lat × Lon))} {e : Option Panic} : ReadsPositions zlib b src xs e ↔
    ∃ bs e' s', Stream src bs e' s' ∧ runBlobs (NodePos.decodeBlob zlib b) e' bs = (xs, e) := by
  constructor
  · intro h
    obtain ⟨bs, e', s', hs⟩ := stream_total src
    obtain ⟨rfl, rfl⟩ := ReadsPositions.unique h (readsPositions_stream (zlib := zlib) (b := b) hs)
    exact ⟨bs, e', s', hs, rfl⟩
  · rintro ⟨bs, e', s', hs, h⟩
    have := readsPositions_stream (zlib := zlib) (b := b) hs
    rw [h] at this
    exact this

theorem posGroup_shown {block : Proto.PrimitiveBlock} {g : Proto.PrimitiveGroup} {xs : List (ObjId × (Lat × Lon))}
    (h : PosGroup b block g xs) : GroupPositions block g xs := by
  unfold PosGroup NodePos.decodeGroup at h
  split at h
  · cases h
  · split at h
    · rename_i ho; cases h; exact .other ho
    · rename_i ho
      simp only [ne_eq, not_or, not_not] at ho
      split at h
      · rename_i dense hd
        have hloop := toRes_ok.2 h
        rw [pos_loop] at hloop
        have e : xs = (List.range dense.id.length).map (shownPosition block dense) := by
          refine List.ext_getElem? fun i => ?_
          rw [List.getElem?_map]
          by_cases hi : i < dense.id.length
          · rw [List.getElem?_range hi]
            obtain ⟨p, hp⟩ := getElem?_of_lt (Nat.lt_of_lt_of_le hi (Nat.le_of_eq (loopR_length hloop).symm))
            obtain ⟨e, _⟩ := pos_loop_ok (posState_zero dense) hloop i p hp
            rw [hp, e, Nat.zero_add]
            rfl
          · rw [List.getElem?_eq_none (by rw [loopR_length hloop]; omega), List.getElem?_eq_none (by simpa using hi)]
            rfl
        rw [e]
        exact .dense dense ho.1 ho.2 hd
      · cases h

theorem groupPositions_unique {block : Proto.PrimitiveBlock} {g : Proto.PrimitiveGroup} {xs xs' : List (ObjId × (Lat × Lon))}
    (h : GroupPositions block g xs) (h' : GroupPositions block g xs') : xs = xs' := by
  cases h with
  | other h =>
    cases h' with
    | other => rfl
    | dense dense h1 h2 h3 => exact (h.elim (fun h => h h1) (fun h => h h2)).elim
  | dense dense h1 h2 h3 =>
    cases h' with
    | other h => exact (h.elim (fun h => h h1) (fun h => h h2)).elim
    | dense dense' _ _ h3' => rw [h3] at h3'; cases h3'; rfl

theorem positions_shown {block : Proto.PrimitiveBlock} {xs : List (ObjId × (Lat × Lon))} :
    positions b block = some xs ↔ (∀ g ∈ block.primitivegroup, PosReadableIn b block g) ∧
      ∃ xss, List.Forall₂ (GroupPositions block) block.primitivegroup xss ∧ xs = xss.flatten := by
  constructor
  · intro h
    refine ⟨pos_readable_in.1 ⟨xs, h⟩, ?_⟩
    obtain ⟨xss, h1, h2⟩ := positions_iff.1 h
    exact ⟨xss, h1.imp fun _ _ h => posGroup_shown h, h2⟩
  · rintro ⟨h1, xss, h2, rfl⟩
    obtain ⟨xs', h3⟩ := pos_readable_in.2 h1
    obtain ⟨xss', h4, rfl⟩ := positions_iff.1 h3
    rw [h3, forall2_right_unique (R := GroupPositions block) (fun _ _ _ h h' => groupPositions_unique h h')
      (h4.imp fun _ _ h => posGroup_shown h) h2]

theorem pos_blob_shown {blob : Proto.Blob} {xs : List (ObjId × (Lat × Lon))} : NodePos.decodeBlob zlib b blob = (xs, none) ↔
    ∃ data block, Unpacked zlib blob data ∧ DecodesPrimitiveBlock data block ∧ hasPrimitiveBlock block ∧
      (∀ g ∈ block.primitivegroup, PosReadableIn b block g) ∧
      ∃ xss, List.Forall₂ (GroupPositions block) block.primitivegroup xss ∧ xs = xss.flatten := by
  rw [pos_blob]
  constructor
  · rintro ⟨data, h1, block, h3, h4⟩
    rcases str_data_iff.1 h1 with h1 | ⟨h1, _⟩
    · obtain ⟨a, c⟩ := block_parses.1 h3
      obtain ⟨d, e⟩ := positions_shown.1 h4
      exact ⟨data, block, h1, a, c, d, e⟩
    · exact absurd h1 (parse_some_ne h3)
  · rintro ⟨data, block, h1, a, c, d, e⟩
    exact ⟨data, str_data_iff.2 (.inl h1), block, block_parses.2 ⟨a, c⟩, positions_shown.2 ⟨d, e⟩⟩

theorem framePositions_iff {f : Frame} {xs : List (ObjId × (Lat × Lon))} : FramePositions zlib b f xs ↔
    ∃ fb xss, FrameBlobs f fb ∧ List.Forall₂ (fun blob xs => NodePos.decodeBlob zlib b blob = (xs, none)) fb xss ∧
      xs = xss.flatten := by
  constructor
  · intro h
    cases h with
    | other t h1 h2 => exact ⟨[], [], frameBlobs_iff.2 (.inl ⟨t, h1, h2, rfl⟩), .nil, rfl⟩
    | block blob data block xss h2 h3 h4 h5 h6 h7 h8 =>
      exact ⟨[blob], [xss.flatten], frameBlobs_iff.2 (.inr ⟨h2, blob, h3, rfl⟩),
        .cons (pos_blob_shown.2 ⟨data, block, h4, h5, h6, h7, xss, h8, rfl⟩) .nil, by simp⟩
  · rintro ⟨fb, dss, h1, h2, rfl⟩
    rcases frameBlobs_iff.1 h1 with ⟨t, h3, h4, rfl⟩ | ⟨h3, blob, h4, rfl⟩
    · cases h2; exact .other t h3 h4
    · cases h2 with
      | cons h5 h6 =>
        cases h6
        rw [List.flatten_cons, List.flatten_nil, List.append_nil]
        obtain ⟨data, block, a, c, d, e, xss, g, rfl⟩ := pos_blob_shown.1 h5
        exact .block blob data block xss h3 h4 a c d e g

theorem readsPositions_shown {bs : Proto.Bytes} {xs : List (ObjId × (Lat × Lon))} :
    ReadsPositions zlib b (source bs) xs none ↔ FilePositions zlib b bs xs := by
  rw [readsPositions_iff]
  unfold FilePositions
  constructor
  · rintro ⟨blobs, e', s', h1, h2⟩
    obtain ⟨rfl, oss, h3, rfl⟩ := runBlobs_none.1 h2
    obtain ⟨fs, tail, fbs, rfl, h4, h5, rfl⟩ := stream_none_iff.1 ⟨s', h1⟩
    obtain ⟨dss, h6, h7⟩ := (by_frames (S := FramePositions zlib b) (fun f ds => framePositions_iff (f := f) (xs := ds))).1 ⟨fbs, oss, h5, h3, rfl⟩
    exact ⟨fs, tail, dss, rfl, h4, h6, h7⟩
  · rintro ⟨fs, tail, dss, rfl, h4, h6, rfl⟩
    obtain ⟨fbs, oss, h5, h3, h7⟩ := (by_frames (S := FramePositions zlib b) (fun f ds => framePositions_iff (f := f) (xs := ds))).2 ⟨dss, h6, rfl⟩
    obtain ⟨s', h1⟩ := stream_none_iff.2 ⟨fs, tail, fbs, rfl, h4, h5, rfl⟩
    exact ⟨_, none, s', h1, runBlobs_none.2 ⟨rfl, oss, h3, h7⟩⟩

/-! ## The frames of a file are determined by its bytes -/

theorem frame_bytes_inj {f f' : Frame} {x x' : Proto.Bytes} {t t' : Str} (h : HeaderSays f t) (h' : HeaderSays f' t')
    (e : f.bytes ++ x = f'.bytes ++ x') : f = f' ∧ x = x' := by
  obtain ⟨hd, ⟨h1, h2, n, h3, h4⟩, _⟩ := headerSays_iff.1 h
  obtain ⟨hd', ⟨h1', h2', n', h3', h4'⟩, _⟩ := headerSays_iff.1 h'
  simp only [Frame.bytes, List.append_assoc] at e
  obtain ⟨e1, e2⟩ := List.append_inj e rfl
  have e3 := congrArg fromBe e1
  rw [fromBe_be32 h1, fromBe_be32 h1'] at e3
  obtain ⟨e4, e5⟩ := List.append_inj e2 e3
  rw [e4, h2'] at h2
  cases h2
  rw [h3] at h3'
  cases h3'
  obtain ⟨e6, e7⟩ := List.append_inj e5 (by omega)
  exact ⟨by cases f; cases f'; simp_all, e7⟩

theorem frames_unique {fs fs' : List Frame} {x x' : Proto.Bytes} (h : ∀ f ∈ fs, ∃ t, HeaderSays f t) (h' : ∀ f ∈ fs', ∃ t, HeaderSays f t)
    (hx : x.length < 4) (hx' : x'.length < 4) (e : fileBytes fs ++ x = fileBytes fs' ++ x') : fs = fs' ∧ x = x' := by
  induction fs generalizing fs' with
  | nil =>
    cases fs' with
    | nil => exact ⟨rfl, e⟩
    | cons f' fs' =>
      have := congrArg List.length e
      simp [fileBytes, Frame.bytes, be32_length] at this
      omega
  | cons f fs ih =>
    cases fs' with
    | nil =>
      have := congrArg List.length e
      simp [fileBytes, Frame.bytes, be32_length] at this
      omega
    | cons f' fs' =>
      obtain ⟨t, ht⟩ := h f (.head _)
      obtain ⟨t', ht'⟩ := h' f' (.head _)
      have e' : f.bytes ++ (fileBytes fs ++ x) = f'.bytes ++ (fileBytes fs' ++ x') := by
        simpa [fileBytes] using e
      obtain ⟨rfl, e2⟩ := frame_bytes_inj ht ht' e'
      obtain ⟨rfl, e3⟩ := ih (fun f hf => h f (.tail _ hf)) (fun f hf => h' f (.tail _ hf)) e2
      exact ⟨rfl, e3⟩

theorem headerSays_unique {f : Frame} {t t' : Str} (h : HeaderSays f t) (h' : HeaderSays f t') : t = t' := by
  obtain ⟨hd, ⟨h1, h2, n, h3, h4⟩, e⟩ := headerSays_iff.1 h
  obtain ⟨hd', ⟨h1', h2', n', h3', h4'⟩, e'⟩ := headerSays_iff.1 h'
  rw [h2] at h2'
  cases h2'
  rw [e] at e'
  cases e'
  rfl

theorem frameShown_says {f : Frame} {ds : List ObjData} (h : FrameShown r zlib b f ds) : ∃ t, HeaderSays f t := by
  cases h with
  | other t h => exact ⟨t, h⟩
  | nothing _ _ h => exact ⟨_, h⟩
  | block _ _ _ _ h => exact ⟨_, h⟩

theorem framePositions_says {f : Frame} {xs : List (ObjId × (Lat × Lon))} (h : FramePositions zlib b f xs) : ∃ t, HeaderSays f t := by
  cases h with
  | other t h => exact ⟨t, h⟩
  | block _ _ _ _ h => exact ⟨_, h⟩

end Osmio
