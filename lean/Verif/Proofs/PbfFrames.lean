import Verif.Proofs.PbfAgree
/-! # Proofs: files as sequences of frames -/

namespace Osmio
open Spec.Pbf Spec

theorem fromBe_be32 {n : Nat} (h : n < 4294967296) : fromBe (be32 n) = n := by
  simp only [fromBe, be32, List.foldl, UInt8.toNat_ofNat']
  omega

theorem be32_length (n : Nat) : (be32 n).length = 4 := rfl

theorem source_append (a b : Proto.Bytes) : source (a ++ b) = source a ++ source b := by simp [source]

theorem source_inj {a b : Proto.Bytes} (h : source a = source b) : a = b := by
  unfold source at h
  exact List.map_injective_iff.2 (Option.some_injective _) h

theorem readBlob_frame {f : Frame} {h : Proto.BlobHeader} (hf : Framed f h) (rest : Source) :
    StringPbf.readBlob (source f.bytes ++ rest) =
      if h.type_ = some (str% "OSMData") then
        match Proto.Blob.parseFromBytes f.data with
        | none => (.error .unwrap, rest)
        | some blob => (.ok (some (some blob)), rest)
      else (.ok (some none), rest) := by
  obtain ⟨h1, h2, n, h3, h4⟩ := hf
  have e1 : readExact 4 (source f.bytes ++ rest) = (some (be32 f.header.length), source (f.header ++ f.data) ++ rest) := by
    have := readExact_source (be32 f.header.length) (source (f.header ++ f.data) ++ rest)
    rw [be32_length, ← List.append_assoc, ← source_append] at this
    exact this
  have e2 : readExact f.header.length (source (f.header ++ f.data) ++ rest) = (some f.header, source f.data ++ rest) := by
    have := readExact_source f.header (source f.data ++ rest)
    rw [← List.append_assoc, ← source_append] at this
    exact this
  have e3 : readExact f.data.length (source f.data ++ rest) = (some f.data, rest) := readExact_source _ _
  obtain ⟨t, _, ht, _⟩ := isInitialized_of_parse h2
  unfold StringPbf.readBlob
  simp only [e1, fromBe_be32 h1, e2, h2, h3, Option.getD_some, h4, Int.toNat_natCast, e3, ht]
  rw [if_neg (by omega)]
  by_cases h5 : t = str% "OSMData"
  · subst h5
    rw [if_neg (by simp), if_pos rfl]
    rfl
  · rw [if_pos h5, if_neg (by simpa using h5)]


/-- The source ends here, or has an error here. -/
def Broken (t s : Source) : Prop := (t = [] ∧ s = []) ∨ t = none :: s

theorem readExact_broken {t s : Source} (ht : Broken t s) {n : Nat} {l : List UInt8} (h : l.length < n) :
    readExact n (source l ++ t) = (none, s) := by
  induction l generalizing n with
  | nil =>
    cases n with
    | zero => simp at h
    | succ n => rcases ht with ⟨rfl, rfl⟩ | rfl <;> rfl
  | cons x l ih =>
    cases n with
    | zero => simp at h
    | succ n =>
      have := ih (n := n) (by simpa using h)
      simp only [source, List.map_cons, List.cons_append, readExact] at this ⊢
      rw [this]
      rfl

/-- A frame that is cut short, but has the length of its header. -/
theorem readBlob_broken {f : Frame} {h : Proto.BlobHeader} (hf : Framed f h) {part : Proto.Bytes} (hp : part <+: f.bytes)
    (h4 : 4 ≤ part.length) (hl : part.length < f.bytes.length) {t s : Source} (ht : Broken t s) :
    StringPbf.readBlob (source part ++ t) = (.error .unwrap, s) := by
  obtain ⟨h1, h2, n, h3, hn⟩ := hf
  obtain ⟨x, hx⟩ := hp
  have e0 : part = be32 f.header.length ++ part.drop 4 := by
    have : part.take 4 = be32 f.header.length := by
      have : (part ++ x).take 4 = (be32 f.header.length ++ (f.header ++ f.data)).take 4 := by rw [hx]; rfl
      rw [List.take_append_of_le_length h4, List.take_append_of_le_length (by rw [be32_length]), List.take_of_length_le (l := be32 _) (by rw [be32_length])] at this
      exact this
    rw [← this, List.take_append_drop]
  generalize hq : part.drop 4 = q at e0
  subst e0
  have hx' : q ++ x = f.header ++ f.data := by
    unfold Frame.bytes at hx
    rw [List.append_assoc] at hx
    exact List.append_cancel_left hx
  have e1 : readExact 4 (source (be32 f.header.length ++ q) ++ t) = (some (be32 f.header.length), source q ++ t) := by
    rw [source_append, List.append_assoc]
    exact readExact_source (be32 f.header.length) (source q ++ t)
  have lx : q.length < f.header.length + f.data.length := by
    simp only [Frame.bytes, List.length_append] at hl
    omega
  unfold StringPbf.readBlob
  simp only [e1, fromBe_be32 h1]
  by_cases hq2 : q.length < f.header.length
  · simp only [readExact_broken ht hq2]
  · have e2 : q = f.header ++ q.drop f.header.length := by
      have : q.take f.header.length = f.header := by
        have : (q ++ x).take f.header.length = (f.header ++ f.data).take f.header.length := by rw [hx']
        rw [List.take_append_of_le_length (by omega), List.take_left] at this
        exact this
      conv_lhs => rw [← List.take_append_drop f.header.length q, this]
    generalize q.drop f.header.length = q' at e2
    subst e2
    have e3 : readExact f.header.length (source (f.header ++ q') ++ t) = (some f.header, source q' ++ t) := by
      rw [source_append, List.append_assoc]
      exact readExact_source _ _
    simp only [e3, h2, h3, Option.getD_some, hn, Int.toNat_natCast]
    rw [if_neg (by omega), readExact_broken ht (by simp only [List.length_append] at lx; omega)]

theorem readBlob_cut {f : Frame} {h : Proto.BlobHeader} (hf : Framed f h) {part : Proto.Bytes} (hp : part <+: f.bytes)
    (h4 : 4 ≤ part.length) (hl : part.length < f.bytes.length) : StringPbf.readBlob (source part) = (.error .unwrap, []) := by
  have := readBlob_broken hf hp h4 hl (.inl ⟨rfl, rfl⟩)
  rwa [List.append_nil] at this

theorem readBlob_broken_short {l : Proto.Bytes} (h : l.length < 4) {t s : Source} (ht : Broken t s) :
    StringPbf.readBlob (source l ++ t) = (.ok none, s) := by
  unfold StringPbf.readBlob
  rw [readExact_broken ht h]

theorem readBlob_short {l : Proto.Bytes} (h : l.length < 4) : StringPbf.readBlob (source l) = (.ok none, []) := by
  unfold StringPbf.readBlob
  rw [readExact_short h]

/-! ## Frames and streams -/

/-- What a frame adds to a stream. -/
def FrameBlobs (f : Frame) (bs : List Proto.Blob) : Prop :=
  ∃ h, Framed f h ∧ ((h.type_ ≠ some (str% "OSMData") ∧ bs = []) ∨
    (h.type_ = some (str% "OSMData") ∧ ∃ blob, Proto.Blob.parseFromBytes f.data = some blob ∧ bs = [blob]))

theorem stream_frame {f : Frame} {fb : List Proto.Blob} (hf : FrameBlobs f fb) {rest : Source} {bs : List Proto.Blob}
    {e : Option Panic} {s' : Source} (h : Stream rest bs e s') : Stream (source f.bytes ++ rest) (fb ++ bs) e s' := by
  obtain ⟨hd, h1, ⟨h2, rfl⟩ | ⟨h2, blob, h3, rfl⟩⟩ := hf
  · refine .skip ?_ h
    rw [readBlob_frame h1, if_neg h2]
  · refine .blob ?_ h
    rw [readBlob_frame h1, if_pos h2, h3]

theorem stream_frames_src {fs : List Frame} {fbs : List (List Proto.Blob)} (hf : List.Forall₂ FrameBlobs fs fbs) {tail : Source}
    {bs : List Proto.Blob} {e : Option Panic} {s' : Source} (h : Stream tail bs e s') :
    Stream (source (fileBytes fs) ++ tail) (fbs.flatten ++ bs) e s' := by
  induction hf with
  | nil => exact h
  | cons h1 _ ih =>
    rename_i f fb fs fbs _
    have e1 : source (fileBytes (f :: fs)) ++ tail = source f.bytes ++ (source (fileBytes fs) ++ tail) := by
      rw [← List.append_assoc, ← source_append]
      rfl
    rw [e1, List.flatten_cons, List.append_assoc]
    exact stream_frame h1 ih

theorem stream_frames {fs : List Frame} {fbs : List (List Proto.Blob)} (hf : List.Forall₂ FrameBlobs fs fbs) {tail : Proto.Bytes}
    {bs : List Proto.Blob} {e : Option Panic} {s' : Source} (h : Stream (source tail) bs e s') :
    Stream (source (fileBytes fs ++ tail)) (fbs.flatten ++ bs) e s' := by
  rw [source_append]
  exact stream_frames_src hf h

theorem frameIs_blobs {stored : Proto.Blob → Proto.Bytes → Prop} {f : Frame} {o : Option Proto.PrimitiveBlock}
    (h : FrameIs stored f o) : ∃ fb, FrameBlobs f fb ∧
      ((o = none ∧ fb = []) ∨ ∃ block blob data, o = some block ∧ fb = [blob] ∧ stored blob data ∧
        Proto.PrimitiveBlock.parseFromBytes data = some block) := by
  cases h with
  | other h h1 h2 => exact ⟨[], ⟨h, h1, .inl ⟨h2, rfl⟩⟩, .inl ⟨rfl, rfl⟩⟩
  | block h blob data block h1 h2 h3 h4 h5 =>
    exact ⟨[blob], ⟨h, h1, .inr ⟨h2, blob, h3, rfl⟩⟩, .inr ⟨block, blob, data, rfl, rfl, h4, h5⟩⟩

theorem str_zlibStored {zlib : Proto.Bytes → Option Proto.Bytes} {blob : Proto.Blob} {data : Proto.Bytes}
    (h : ZlibStored zlib blob data) : StringPbf.blobRawData zlib blob = .ok data := by
  obtain ⟨z, n, h1, h2, h3, h4, h5⟩ := h
  unfold StringPbf.blobRawData
  simp only [h1, h2, h3, unwrap]

theorem arc_zlibStored {zlib : Proto.Bytes → Option Proto.Bytes} {blob : Proto.Blob} {data : Proto.Bytes}
    (h : ZlibStored zlib blob data) : ArcPbf.blobRawData zlib blob = .ok (some data) := by
  obtain ⟨z, n, h1, h2, h3, h4, h5⟩ := h
  unfold ArcPbf.blobRawData
  simp only [h1, h2, h3, h4, unwrap]
  show (if n.toInt < 0 then _ else _) = _
  rw [if_neg (by omega)]

theorem arc_rawStored {zlib : Proto.Bytes → Option Proto.Bytes} {blob : Proto.Blob} {data : Proto.Bytes}
    (h : RawStored blob data) : ArcPbf.blobRawData zlib blob = .ok (some data) := by
  unfold ArcPbf.blobRawData
  rw [h]

theorem str_rawStored {zlib : Proto.Bytes → Option Proto.Bytes} {blob : Proto.Blob} {data : Proto.Bytes}
    (h : RawStored blob data) (hd : data ≠ []) : StringPbf.blobRawData zlib blob = .error .sliceLen := by
  unfold StringPbf.blobRawData
  rw [h]
  simp [hd]

theorem parse_some_ne {data : Proto.Bytes} {block : Proto.PrimitiveBlock} (h : Proto.PrimitiveBlock.parseFromBytes data = some block) :
    data ≠ [] := by
  rintro rfl
  rw [parse_nil] at h
  cases h

/-- A blob stored with zlib is decoded as its block. -/
theorem blobData_zlib {r : Which} {zlib : Proto.Bytes → Option Proto.Bytes} {b : Build} {blob : Proto.Blob} {data : Proto.Bytes}
    {block : Proto.PrimitiveBlock} (h : ZlibStored zlib blob data) (hp : Proto.PrimitiveBlock.parseFromBytes data = some block)
    {ds : List ObjData} : blobData r zlib b blob = (ds, none) ↔ r.objects b block = some ds := by
  cases r with
  | owned =>
    rw [owned_blob, str_zlibStored h]
    constructor
    · rintro ⟨d, hd, h2⟩
      cases hd
      rcases h2 with ⟨h2, _⟩ | ⟨_, block', h3, h4⟩
      · exact absurd h2 (parse_some_ne hp)
      · rw [hp] at h3; cases h3; exact h4
    · intro h1
      exact ⟨data, rfl, .inr ⟨parse_some_ne hp, block, hp, h1⟩⟩
  | shared =>
    rw [shared_blob, arc_zlibStored h]
    constructor
    · rintro ⟨d, hd, block', h3, h4⟩
      cases hd
      rw [hp] at h3; cases h3; exact h4
    · intro h1
      exact ⟨data, rfl, block, hp, h1⟩

theorem blobData_raw {zlib : Proto.Bytes → Option Proto.Bytes} {b : Build} {blob : Proto.Blob} {data : Proto.Bytes}
    {block : Proto.PrimitiveBlock} (h : RawStored blob data) (hp : Proto.PrimitiveBlock.parseFromBytes data = some block)
    {ds : List ObjData} : blobData .shared zlib b blob = (ds, none) ↔ Which.shared.objects b block = some ds := by
  rw [shared_blob, arc_rawStored h]
  constructor
  · rintro ⟨d, hd, block', h3, h4⟩
    cases hd
    rw [hp] at h3; cases h3; exact h4
  · intro h1
    exact ⟨data, rfl, block, hp, h1⟩

theorem frameReads_blobs {r : Which} {zlib : Proto.Bytes → Option Proto.Bytes} {b : Build} {f : Frame} {ds : List ObjData}
    (h : FrameReads r zlib b f ds) : ∃ fb dss, FrameBlobs f fb ∧
      List.Forall₂ (fun blob ds => blobData r zlib b blob = (ds, none)) fb dss ∧ ds = dss.flatten := by
  cases h with
  | other h =>
    obtain ⟨fb, h1, ⟨_, rfl⟩ | ⟨_, _, _, h2, _⟩⟩ := frameIs_blobs h
    · exact ⟨[], [], h1, .nil, rfl⟩
    · cases h2
  | block block ds h h' =>
    obtain ⟨fb, h1, ⟨h2, _⟩ | ⟨block', blob, data, h2, rfl, h3, h4⟩⟩ := frameIs_blobs h
    · cases h2
    · cases h2
      exact ⟨[blob], [ds], h1, .cons ((blobData_zlib h3 h4).2 h') .nil, by simp⟩

theorem framesRead_blobs {r : Which} {zlib : Proto.Bytes → Option Proto.Bytes} {b : Build} {fs : List Frame} {dss : List (List ObjData)}
    (h : List.Forall₂ (FrameReads r zlib b) fs dss) : ∃ fbs dss', List.Forall₂ FrameBlobs fs fbs ∧
      List.Forall₂ (fun blob ds => blobData r zlib b blob = (ds, none)) fbs.flatten dss' ∧ dss.flatten = dss'.flatten := by
  induction h with
  | nil => exact ⟨[], [], .nil, .nil, rfl⟩
  | cons h _ ih =>
    obtain ⟨fb, d1, a1, a2, a3⟩ := frameReads_blobs h
    obtain ⟨fbs, d2, b1, b2, b3⟩ := ih
    refine ⟨fb :: fbs, d1 ++ d2, .cons a1 b1, ?_, ?_⟩
    · rw [List.flatten_cons]
      exact List.rel_append a2 b2
    · rw [List.flatten_cons, List.flatten_append, a3, b3]

theorem runBlobs_append {α : Type} {decode : Proto.Blob → List α × Option Panic} {e : Option Panic} {bs bs' : List Proto.Blob}
    {oss : List (List α)} (h : List.Forall₂ (fun b os => decode b = (os, none)) bs oss) :
    runBlobs decode e (bs ++ bs') = (oss.flatten ++ (runBlobs decode e bs').1, (runBlobs decode e bs').2) := by
  induction h with
  | nil => rfl
  | cons h _ ih => simp only [List.cons_append, runBlobs, h, ih, List.flatten_cons, List.append_assoc]

/-- A file that begins with frames: their objects, then what the rest gives. -/
theorem reads_frames_src {r : Which} {zlib : Proto.Bytes → Option Proto.Bytes} {b : Build} {fs : List Frame}
    {dss : List (List ObjData)} (h : List.Forall₂ (FrameReads r zlib b) fs dss) {tail : Source} {ds : List ObjData} {e : Option Panic}
    (ht : Reads r zlib b tail ds e) : Reads r zlib b (source (fileBytes fs) ++ tail) (dss.flatten ++ ds) e := by
  obtain ⟨fbs, dss', h1, h2, h3⟩ := framesRead_blobs h
  obtain ⟨bs, e', s', h4, h5⟩ := reads_iff.1 ht
  refine reads_iff.2 ⟨_, e', s', stream_frames_src h1 h4, ?_⟩
  rw [runBlobs_append h2, h5, h3]

theorem reads_frames {r : Which} {zlib : Proto.Bytes → Option Proto.Bytes} {b : Build} {fs : List Frame} {dss : List (List ObjData)}
    (h : List.Forall₂ (FrameReads r zlib b) fs dss) {tail : Proto.Bytes} {ds : List ObjData} {e : Option Panic}
    (ht : Reads r zlib b (source tail) ds e) : Reads r zlib b (source (fileBytes fs ++ tail)) (dss.flatten ++ ds) e := by
  obtain ⟨fbs, dss', h1, h2, h3⟩ := framesRead_blobs h
  obtain ⟨bs, e', s', h4, h5⟩ := reads_iff.1 ht
  refine reads_iff.2 ⟨_, e', s', stream_frames h1 h4, ?_⟩
  rw [runBlobs_append h2, h5, h3]

theorem reads_short {r : Which} {zlib : Proto.Bytes → Option Proto.Bytes} {b : Build} {tail : Proto.Bytes} (h : tail.length < 4) :
    Reads r zlib b (source tail) [] none :=
  reads_iff.2 ⟨[], none, [], .done (readBlob_short h), rfl⟩

theorem reads_cut {r : Which} {zlib : Proto.Bytes → Option Proto.Bytes} {b : Build} {f : Frame} {h : Proto.BlobHeader} (hf : Framed f h)
    {part : Proto.Bytes} (hp : part <+: f.bytes) (h4 : 4 ≤ part.length) (hl : part.length < f.bytes.length) :
    Reads r zlib b (source part) [] (some .unwrap) :=
  reads_iff.2 ⟨[], some .unwrap, [], .panic (readBlob_cut hf hp h4 hl), rfl⟩

/-- A frame with a block the reader cannot decode. -/
theorem reads_bad {r : Which} {zlib : Proto.Bytes → Option Proto.Bytes} {b : Build} {f : Frame} {block : Proto.PrimitiveBlock}
    (hf : FrameIs (ZlibStored zlib) f (some block)) (hb : r.objects b block = none) (tail : Proto.Bytes) :
    ∃ p, Reads r zlib b (source (f.bytes ++ tail)) [] (some p) := by
  obtain ⟨fb, h1, ⟨h2, _⟩ | ⟨block', blob, data, h2, rfl, h3, h4⟩⟩ := frameIs_blobs hf
  · cases h2
  · cases h2
    obtain ⟨bs, e, s', hs⟩ := stream_total (source tail)
    have hs' := stream_frame h1 hs
    rw [← source_append] at hs'
    rcases hd : blobData r zlib b blob with ⟨ds, (_ | p)⟩
    · rw [(blobData_zlib h3 h4).1 hd] at hb; cases hb
    · exact ⟨p, reads_iff.2 ⟨_, _, _, hs', by simp [runBlobs, hd]⟩⟩

theorem cut_frames (fs : List Frame) {k : Nat} (hk : k < (fileBytes fs).length) :
    ∃ n f part, fs[n]? = some f ∧ (fileBytes fs).take k = fileBytes (fs.take n) ++ part ∧ part <+: f.bytes ∧
      part.length < f.bytes.length := by
  induction fs generalizing k with
  | nil => simp [fileBytes] at hk
  | cons f fs ih =>
    have e : fileBytes (f :: fs) = f.bytes ++ fileBytes fs := rfl
    by_cases h : k < f.bytes.length
    · refine ⟨0, f, f.bytes.take k, rfl, ?_, List.take_prefix _ _, by simp [h]⟩
      rw [e, List.take_append_of_le_length (by omega)]
      rfl
    · obtain ⟨n, f', part, h1, h2, h3, h4⟩ := ih (k := k - f.bytes.length) (by rw [e, List.length_append] at hk; omega)
      refine ⟨n + 1, f', part, h1, ?_, h3, h4⟩
      rw [e, List.take_append, List.take_of_length_le (by omega), h2, List.take_succ_cons, ← List.append_assoc]
      rfl

theorem frameReads_framed {r : Which} {zlib : Proto.Bytes → Option Proto.Bytes} {b : Build} {f : Frame} {ds : List ObjData}
    (h : FrameReads r zlib b f ds) : ∃ h, Framed f h := by
  obtain ⟨fb, _, ⟨h, h1, _⟩, _⟩ := frameReads_blobs h
  exact ⟨h, h1⟩

/-! ## Any file -/

theorem readBlob_ok {l : Proto.Bytes} {x : Option Proto.Blob} {s' : Source} (h : StringPbf.readBlob (source l) = (.ok (some x), s')) :
    ∃ f rest hd, Framed f hd ∧ l = f.bytes ++ rest ∧ s' = source rest := by
  unfold StringPbf.readBlob at h
  rcases h1 : readExact 4 (source l) with ⟨_ | size, s1⟩
  · rw [h1] at h; cases h
  · rw [h1] at h
    obtain ⟨l1, e1⟩ := readExact_some_length h1
    simp only at h
    rcases h2 : readExact (fromBe size) s1 with ⟨_ | hb, s2⟩
    · rw [h2] at h; cases h
    · rw [h2] at h
      obtain ⟨l2, e2⟩ := readExact_some_length h2
      simp only at h
      cases h3 : Proto.BlobHeader.parseFromBytes hb with
      | none => rw [h3] at h; cases h
      | some hd =>
        rw [h3] at h
        simp only at h
        split at h
        · cases h
        · rename_i hneg
          rcases h4 : readExact (hd.datasize.getD 0).toInt.toNat s2 with ⟨_ | bb, s3⟩
          · rw [h4] at h; cases h
          · rw [h4] at h
            obtain ⟨l3, e3⟩ := readExact_some_length h4
            have hs : s' = s3 := by
              simp only at h
              split at h
              · cases h
              · split at h
                · cases h; rfl
                · split at h <;> cases h; rfl
            have e4 : source l = source (size ++ (hb ++ bb)) ++ s3 := by
              rw [e1, e2, e3]
              simp [source]
            have hrest : ∃ rest, s3 = source rest := by
              refine ⟨l.drop (size ++ (hb ++ bb)).length, ?_⟩
              have := congrArg (List.drop (source (size ++ (hb ++ bb))).length) e4
              rw [List.drop_left] at this
              rw [← this]
              simp [source, List.map_drop]
            obtain ⟨rest, rfl⟩ := hrest
            rw [← source_append] at e4
            have hbe : size = be32 hb.length ∧ hb.length < 4294967296 := by
              match size, l1 with
              | [a, b, c, d], _ =>
                rw [l2]
                simp only [fromBe, List.foldl, be32, List.cons.injEq, and_true]
                have ha := a.toNat_lt; have hb := b.toNat_lt; have hc := c.toNat_lt; have hd := d.toNat_lt
                refine ⟨⟨?_, ?_, ?_, ?_⟩, by omega⟩ <;>
                · apply UInt8.toNat_inj.1
                  rw [UInt8.toNat_ofNat']
                  omega
            obtain ⟨t, n, ht, hn⟩ := isInitialized_of_parse h3
            refine ⟨⟨hb, bb⟩, rest, hd, ⟨hbe.2, h3, n, hn, ?_⟩, ?_, hs⟩
            · simp only [l3, hn, Option.getD_some] at hneg ⊢
              omega
            · have := source_inj e4
              rw [this, hbe.1]
              rfl

theorem readBlob_done {l : Proto.Bytes} {s' : Source} (h : StringPbf.readBlob (source l) = (.ok none, s')) : l.length < 4 ∧ s' = [] := by
  by_cases hl : l.length < 4
  · rw [readBlob_short hl] at h
    cases h
    exact ⟨hl, rfl⟩
  · exfalso
    have e1 : readExact 4 (source l) = (some (l.take 4), source (l.drop 4)) := by
      have := readExact_source (l.take 4) (source (l.drop 4))
      rw [← source_append, List.take_append_drop, List.length_take_of_le (by omega)] at this
      exact this
    unfold StringPbf.readBlob at h
    rw [e1] at h
    simp only at h
    split at h
    · cases h
    · split at h
      · cases h
      · split at h
        · cases h
        · split at h
          · cases h
          · split at h
            · cases h
            · split at h
              · cases h
              · split at h <;> cases h

/-- A file that is read to its end is made of frames. -/
theorem stream_form {src : Source} {bs : List Proto.Blob} {e : Option Panic} {s' : Source} (h : Stream src bs e s') (he : e = none)
    {l : Proto.Bytes} (hl : src = source l) :
    s' = [] ∧ ∃ fs tail, l = fileBytes fs ++ tail ∧ tail.length < 4 ∧ ∀ f ∈ fs, ∃ h, Framed f h := by
  induction h generalizing l with
  | done h =>
    subst hl
    obtain ⟨h1, h2⟩ := readBlob_done h
    exact ⟨h2, [], l, rfl, h1, by simp⟩
  | panic => cases he
  | skip h _ ih =>
    subst hl
    obtain ⟨f, rest, hd, h1, h2, h3⟩ := readBlob_ok h
    obtain ⟨h4, fs, tail, rfl, h6, h7⟩ := ih he h3
    refine ⟨h4, f :: fs, tail, by rw [h2, ← List.append_assoc]; rfl, h6, ?_⟩
    intro g hg
    rcases List.mem_cons.1 hg with rfl | hg
    · exact ⟨_, h1⟩
    · exact h7 g hg
  | blob h _ ih =>
    subst hl
    obtain ⟨f, rest, hd, h1, h2, h3⟩ := readBlob_ok h
    obtain ⟨h4, fs, tail, rfl, h6, h7⟩ := ih he h3
    refine ⟨h4, f :: fs, tail, by rw [h2, ← List.append_assoc]; rfl, h6, ?_⟩
    intro g hg
    rcases List.mem_cons.1 hg with rfl | hg
    · exact ⟨_, h1⟩
    · exact h7 g hg

/-- Cutting a file anywhere loses blobs at the end only. -/
theorem stream_take {src : Source} {bs : List Proto.Blob} {e : Option Panic} {s' : Source} (h : Stream src bs e s')
    {l : Proto.Bytes} (hl : src = source l) (k : Nat) :
    ∃ bs' e' s'', Stream (source (l.take k)) bs' e' s'' ∧ bs' <+: bs := by
  obtain ⟨bs', e', s'', hs⟩ := stream_total (source (l.take k))
  refine ⟨bs', e', s'', hs, ?_⟩
  generalize hc : source (l.take k) = cut at hs
  have key : ∀ {l : Proto.Bytes} {k : Nat} {x : Option Proto.Blob} {s1 : Source},
      StringPbf.readBlob (source (l.take k)) = (.ok (some x), s1) →
      ∃ rest j, s1 = source (rest.take j) ∧ StringPbf.readBlob (source l) = (.ok (some x), source rest) := by
    intro l k x s1 h
    obtain ⟨f, rest, hd, h1, h2, h3⟩ := readBlob_ok h
    have e1 : l = f.bytes ++ (rest ++ l.drop k) := by
      rw [← List.append_assoc, ← h2, List.take_append_drop]
    refine ⟨rest ++ l.drop k, rest.length, by rw [List.take_left, h3], ?_⟩
    have a := readBlob_frame h1 (source rest)
    have b := readBlob_frame h1 (source (rest ++ l.drop k))
    rw [← source_append, ← h2, h] at a
    rw [← source_append, ← e1] at b
    rw [b]
    split at a
    · rename_i ht
      cases hp : Proto.Blob.parseFromBytes f.data with
      | none => rw [hp] at a; cases a
      | some blob =>
        rw [hp] at a
        simp only [Prod.mk.injEq, Except.ok.injEq, Option.some.injEq] at a
        rw [if_pos ht, a.1]
    · rename_i ht
      simp only [Prod.mk.injEq, Except.ok.injEq, Option.some.injEq] at a
      rw [if_neg ht, a.1]
  induction hs generalizing src bs l k with
  | done => exact List.nil_prefix
  | panic => exact List.nil_prefix
  | skip h1 _ ih =>
    subst hc hl
    obtain ⟨rest, j, rfl, h2⟩ := key h1
    cases h with
    | done h' => rw [h2] at h'; cases h'
    | panic h' => rw [h2] at h'; cases h'
    | skip h' hst => rw [h2] at h'; cases h'; exact ih hst rfl j rfl
    | blob h' => rw [h2] at h'; cases h'
  | blob h1 _ ih =>
    subst hc hl
    obtain ⟨rest, j, rfl, h2⟩ := key h1
    cases h with
    | done h' => rw [h2] at h'; cases h'
    | panic h' => rw [h2] at h'; cases h'
    | skip h' => rw [h2] at h'; cases h'
    | blob h' hst => rw [h2] at h'; cases h'; exact (List.prefix_cons_inj _).2 (ih hst rfl j rfl)

theorem runBlobs_prefix {α : Type} {decode : Proto.Blob → List α × Option Panic} {e e' : Option Panic} {bs bs' : List Proto.Blob}
    (h : bs' <+: bs) : (runBlobs decode e' bs').1 <+: (runBlobs decode e bs).1 := by
  induction bs' generalizing bs with
  | nil => exact List.nil_prefix
  | cons b bs' ih =>
    obtain ⟨x, rfl⟩ := h
    simp only [List.cons_append, runBlobs]
    rcases decode b with ⟨os, (_ | p)⟩
    · exact (List.prefix_append_right_inj _).2 (ih (List.prefix_append _ _))
    · exact List.nil_prefix

theorem reads_take {r : Which} {zlib : Proto.Bytes → Option Proto.Bytes} {b : Build} {l : Proto.Bytes} {ds : List ObjData}
    {e : Option Panic} (h : Reads r zlib b (source l) ds e) (k : Nat) :
    ∃ ds' e', Reads r zlib b (source (l.take k)) ds' e' ∧ ds' <+: ds ∧
      (e' = none → ∃ fs tail, l.take k = fileBytes fs ++ tail ∧ tail.length < 4 ∧ ∀ f ∈ fs, ∃ h, Framed f h) := by
  obtain ⟨bs, e0, s0, h1, h2⟩ := reads_iff.1 h
  obtain ⟨bs', e', s', h3, h4⟩ := stream_take h1 rfl k
  refine ⟨_, _, reads_stream h3, ?_, ?_⟩
  · have := runBlobs_prefix (decode := blobData r zlib b) (e := e0) (e' := e') h4
    rw [h2] at this
    exact this
  · intro he
    obtain ⟨he', _⟩ := runBlobs_none.1 (Prod.ext (x := runBlobs (blobData r zlib b) e' bs') (y := (_, none)) rfl he)
    exact (stream_form h3 he' rfl).2

/-! ## After the end -/

theorem calls_fixed {σ α : Type} {next : σ → Res (Option α) × σ} {s : σ} (h : next s = (.ok none, s)) (n : Nat) :
    calls next n s = (List.replicate n (.ok none), s) := by
  induction n with
  | zero => rfl
  | succ n ih => simp only [calls, h, ih, List.replicate_succ]

theorem gnext_end {α : Type} (decode : Proto.Blob → List α × Option Panic) : gnext decode ([], []) = (.ok none, ([], [])) := by
  rfl

/-- At the end of a file the reader has nothing left. -/
theorem drain_end {α : Type} {decode : Proto.Blob → List α × Option Panic} {buf : List α} {l : Proto.Bytes} {os : List α}
    {t : List α × Source} (h : Drain (gnext decode) (buf, source l) os none t) : t = ([], []) := by
  obtain ⟨bs, e, s', hs⟩ := stream_total (source l)
  obtain ⟨t', h1, h2⟩ := stream_drain decode hs
  obtain ⟨_, h3, rfl⟩ := h.unique (drain_buffer (buf := buf) h1)
  rw [h2 h3.symm]
  have he := (runBlobs_none.1 (Prod.ext (x := runBlobs decode e bs) (y := (_, none)) rfl h3.symm)).1
  rw [(stream_form hs he rfl).1]

/-! ## An error is taken for the end -/

theorem readExact_both {t s : Source} (ht : Broken t s) (n : Nat) (l : List UInt8) :
    (readExact n (source l) = (none, []) ∧ readExact n (source l ++ t) = (none, s)) ∨
      ∃ x l', readExact n (source l) = (some x, source l') ∧ readExact n (source l ++ t) = (some x, source l' ++ t) := by
  by_cases h : l.length < n
  · exact .inl ⟨readExact_short h, readExact_broken ht h⟩
  · refine .inr ⟨l.take n, l.drop n, ?_⟩
    have e : l = l.take n ++ l.drop n := (List.take_append_drop n l).symm
    have hl : (l.take n).length = n := by rw [List.length_take]; omega
    have h1 := readExact_source (l.take n) (source (l.drop n))
    have h2 := readExact_source (l.take n) (source (l.drop n) ++ t)
    rw [hl, ← source_append, ← e] at h1
    rw [hl, ← List.append_assoc, ← source_append, ← e] at h2
    exact ⟨h1, h2⟩

theorem readBlob_both {t s : Source} (ht : Broken t s) (l : List UInt8) :
    (∃ x, (x = .ok none ∨ ∃ p, x = .error p) ∧ StringPbf.readBlob (source l) = (x, []) ∧ StringPbf.readBlob (source l ++ t) = (x, s)) ∨
      ∃ x l', StringPbf.readBlob (source l) = (x, source l') ∧ StringPbf.readBlob (source l ++ t) = (x, source l' ++ t) := by
  unfold StringPbf.readBlob
  rcases readExact_both ht 4 l with ⟨h1, h2⟩ | ⟨size, l1, h1, h2⟩
  · rw [h1, h2]; exact .inl ⟨_, .inl rfl, rfl, rfl⟩
  rw [h1, h2]
  simp only
  rcases readExact_both ht (fromBe size) l1 with ⟨h1, h2⟩ | ⟨hb, l2, h1, h2⟩
  · rw [h1, h2]; exact .inl ⟨_, .inr ⟨_, rfl⟩, rfl, rfl⟩
  rw [h1, h2]
  simp only
  cases Proto.BlobHeader.parseFromBytes hb with
  | none => exact .inr ⟨_, l2, rfl, rfl⟩
  | some hd =>
    simp only
    split
    · exact .inr ⟨_, l2, rfl, rfl⟩
    rcases readExact_both ht (hd.datasize.getD 0).toInt.toNat l2 with ⟨h1, h2⟩ | ⟨bb, l3, h1, h2⟩
    · rw [h1, h2]; exact .inl ⟨_, .inr ⟨_, rfl⟩, rfl, rfl⟩
    rw [h1, h2]
    simp only
    cases hd.type_ with
    | none => exact .inr ⟨_, l3, rfl, rfl⟩
    | some ty =>
      simp only
      split
      · exact .inr ⟨_, l3, rfl, rfl⟩
      · cases Proto.Blob.parseFromBytes bb with
        | none => exact .inr ⟨_, l3, rfl, rfl⟩
        | some blob => exact .inr ⟨_, l3, rfl, rfl⟩

/-- Where a source breaks, the stream ends in the same way as if the bytes so far were all. -/
theorem stream_both {t s : Source} (ht : Broken t s) {l : List UInt8} {bs : List Proto.Blob} {e : Option Panic} {s' : Source}
    (h : Stream (source l) bs e s') : ∃ s'', Stream (source l ++ t) bs e s'' := by
  generalize hs : source l = src at h
  induction h generalizing l with
  | done h =>
    subst hs
    rcases readBlob_both ht l with ⟨x, _, h1, h2⟩ | ⟨x, l', h1, h2⟩ <;> (rw [h] at h1; cases h1; exact ⟨_, .done h2⟩)
  | panic h =>
    subst hs
    rcases readBlob_both ht l with ⟨x, _, h1, h2⟩ | ⟨x, l', h1, h2⟩ <;> (rw [h] at h1; cases h1; exact ⟨_, .panic h2⟩)
  | skip h _ ih =>
    subst hs
    rcases readBlob_both ht l with ⟨x, hx, h1, h2⟩ | ⟨x, l', h1, h2⟩
    · rw [h] at h1; cases h1; rcases hx with hx | ⟨p, hx⟩ <;> cases hx
    · rw [h] at h1; cases h1
      obtain ⟨s'', h3⟩ := ih rfl
      exact ⟨s'', .skip h2 h3⟩
  | blob h _ ih =>
    subst hs
    rcases readBlob_both ht l with ⟨x, hx, h1, h2⟩ | ⟨x, l', h1, h2⟩
    · rw [h] at h1; cases h1; rcases hx with hx | ⟨p, hx⟩ <;> cases hx
    · rw [h] at h1; cases h1
      obtain ⟨s'', h3⟩ := ih rfl
      exact ⟨s'', .blob h2 h3⟩

theorem reads_both {r : Which} {zlib : Proto.Bytes → Option Proto.Bytes} {b : Build} {ds : List ObjData} {e : Option Panic}
    {t s : Source} (ht : Broken t s) (l : List UInt8) : Reads r zlib b (source l ++ t) ds e ↔ Reads r zlib b (source l) ds e := by
  obtain ⟨bs, e', s', h⟩ := stream_total (source l)
  obtain ⟨s'', h'⟩ := stream_both ht h
  have h1 := reads_stream (r := r) (zlib := zlib) (b := b) h
  have h2 := reads_stream (r := r) (zlib := zlib) (b := b) h'
  constructor
  · intro h3
    obtain ⟨rfl, rfl⟩ := Reads.unique h3 h2
    exact h1
  · intro h3
    obtain ⟨rfl, rfl⟩ := Reads.unique h3 h1
    exact h2

theorem positions_both {zlib : Proto.Bytes → Option Proto.Bytes} {b : Build} {xs : List (ObjId × (Lat × Lon))} {e : Option Panic}
    {t s : Source} (ht : Broken t s) (l : List UInt8) : ReadsPositions zlib b (source l ++ t) xs e ↔ ReadsPositions zlib b (source l) xs e := by
  obtain ⟨bs, e', s', h⟩ := stream_total (source l)
  obtain ⟨s'', h'⟩ := stream_both ht h
  obtain ⟨t1, h1⟩ := readsPositions_stream (zlib := zlib) (b := b) h
  obtain ⟨t2, h2⟩ := readsPositions_stream (zlib := zlib) (b := b) h'
  constructor
  · rintro ⟨t3, h3⟩
    obtain ⟨rfl, rfl, _⟩ := h3.unique h2
    exact ⟨_, h1⟩
  · rintro ⟨t3, h3⟩
    obtain ⟨rfl, rfl, _⟩ := h3.unique h1
    exact ⟨_, h2⟩

end Osmio
