import Verif.Spec.PbfDamage
import Verif.Proofs.PbfShownFile
/-! # Proofs: the beginning of a file, up to the first damage -/

namespace Osmio
open Spec.Pbf
open Spec (ObjData)

variable {α : Type} {decode : Proto.Blob → List α × Option Panic} {S : Frame → List α → Prop}

/-- A frame is read if its blobs are decoded. -/
def ByBlobs (decode : Proto.Blob → List α × Option Panic) (f : Frame) (ds : List α) : Prop :=
  ∃ fb dss, FrameBlobs f fb ∧ List.Forall₂ (fun blob ds => decode blob = (ds, none)) fb dss ∧ ds = dss.flatten

theorem frame_long (f : Frame) (more : Proto.Bytes) : 4 ≤ (f.bytes ++ more).length := by
  simp [Frame.bytes, be32_length]

/-- What is read of a frame with blobs `fb`, from its bytes. -/
theorem frameBlobs_read {f : Frame} {fb : List Proto.Blob} (h : FrameBlobs f fb) (more : Proto.Bytes) :
    ∃ x, StringPbf.readBlob (source (f.bytes ++ more)) = (.ok (some x), source more) ∧ fb = x.toList := by
  obtain ⟨hd, h1, ⟨h2, rfl⟩ | ⟨h2, blob, h3, rfl⟩⟩ := h
  · exact ⟨none, by rw [source_append, readBlob_frame h1, if_neg h2], rfl⟩
  · exact ⟨some blob, by rw [source_append, readBlob_frame h1, if_pos h2, h3], rfl⟩

theorem read_frameBlobs {l : Proto.Bytes} {x : Option Proto.Blob} {s' : Source} (h : StringPbf.readBlob (source l) = (.ok (some x), s')) :
    ∃ f rest, FrameBlobs f x.toList ∧ l = f.bytes ++ rest ∧ s' = source rest := by
  obtain ⟨f, rest, hd, h1, h2, h3⟩ := readBlob_ok h
  refine ⟨f, rest, ⟨hd, h1, ?_⟩, h2, h3⟩
  rw [h2, source_append, readBlob_frame h1] at h
  split at h
  · rename_i ht
    split at h
    · cases h
    · rename_i hp; cases h; exact .inr ⟨ht, _, hp, rfl⟩
  · rename_i ht; cases h; exact .inl ⟨ht, rfl⟩

theorem beginning_cons {f : Frame} {ds : List α} {bs rest : Proto.Bytes} {dss : List (List α)}
    (h : S f ds) (h' : Beginning S bs dss rest) : Beginning S (f.bytes ++ bs) (ds :: dss) rest := by
  obtain ⟨⟨fs, rfl, h1⟩, h2⟩ := h'
  exact ⟨⟨f :: fs, by simp [fileBytes], .cons h h1⟩, h2⟩

/-- Of a source that can be read no further nothing comes. -/
theorem beginning_stream (hS : ∀ f ds, S f ds ↔ ByBlobs decode f ds) {src : Source} {blobs : List Proto.Blob} {e : Option Panic} {s' : Source}
    (h : Stream src blobs e s') {l : Proto.Bytes} (hl : src = source l) :
    ∃ dss rest, Beginning S l dss rest ∧ (runBlobs decode e blobs).1 = dss.flatten ∧
      ((runBlobs decode e blobs).2 = none ↔ rest.length < 4) := by
  induction h generalizing l with
  | done h =>
    subst hl
    have h4 := (readBlob_done h).1
    refine ⟨[], l, ⟨⟨[], rfl, .nil⟩, fun f ds more _ e => ?_⟩, rfl, by simp [runBlobs, h4]⟩
    have := frame_long f more
    rw [← e] at this
    omega
  | panic h =>
    subst hl
    refine ⟨[], l, ⟨⟨[], rfl, .nil⟩, fun f ds more hs e => ?_⟩, rfl, ?_⟩
    · obtain ⟨fb, _, h1, _⟩ := (hS _ _).1 hs
      obtain ⟨x, h2, _⟩ := frameBlobs_read h1 more
      rw [e, h2] at h
      cases h
    · simp only [runBlobs, reduceCtorEq, false_iff]
      intro h4
      rw [readBlob_short h4] at h
      cases h
  | skip h _ ih =>
    subst hl
    obtain ⟨f, rest, h1, rfl, h3⟩ := read_frameBlobs h
    obtain ⟨dss, rest', h4, h5, h6⟩ := ih h3
    exact ⟨[] :: dss, rest', beginning_cons ((hS _ _).2 ⟨_, [], h1, .nil, rfl⟩) h4, by rw [h5]; rfl, h6⟩
  | @blob s s1 s2 b bs e h _ ih =>
    subst hl
    obtain ⟨f, rest, h1, rfl, h3⟩ := read_frameBlobs h
    rcases hd : decode b with ⟨os, _ | p⟩
    · obtain ⟨dss, rest', h4, h5, h6⟩ := ih h3
      refine ⟨os :: dss, rest', beginning_cons ((hS _ _).2 ⟨_, [os], h1, .cons hd .nil, by simp⟩) h4, ?_, ?_⟩
      · simp only [runBlobs, hd]; rw [h5]; rfl
      · simp only [runBlobs, hd]; exact h6
    · refine ⟨[], f.bytes ++ rest, ⟨⟨[], rfl, .nil⟩, fun f' ds more hs e => ?_⟩, by simp [runBlobs, hd], ?_⟩
      · obtain ⟨fb, dss, h4, h5, _⟩ := (hS _ _).1 hs
        obtain ⟨x, h6, rfl⟩ := frameBlobs_read h4 more
        rw [e, h6] at h
        cases h
        cases h5 with
        | cons h7 => rw [hd] at h7; cases h7
      · have := frame_long f rest
        simp only [runBlobs, hd, reduceCtorEq, false_iff]
        omega

theorem byBlobs_unique {f : Frame} {ds ds' : List α} (h : ByBlobs decode f ds) (h' : ByBlobs decode f ds') : ds = ds' := by
  obtain ⟨fb, dss, h1, h2, rfl⟩ := h
  obtain ⟨fb', dss', h1', h2', rfl⟩ := h'
  obtain ⟨x, h3, rfl⟩ := frameBlobs_read h1 []
  obtain ⟨x', h3', rfl⟩ := frameBlobs_read h1' []
  rw [h3] at h3'
  cases h3'
  rw [forall2_right_unique (R := fun blob ds => decode blob = (ds, none)) (fun _ _ _ h h' => by rw [h] at h'; cases h'; rfl) h2 h2']

theorem byBlobs_says {f : Frame} {ds : List α} (h : ByBlobs decode f ds) : ∃ t, HeaderSays f t := by
  obtain ⟨fb, _, h1, _⟩ := h
  rcases frameBlobs_iff.1 h1 with ⟨t, h, _⟩ | ⟨h, _⟩
  · exact ⟨t, h⟩
  · exact ⟨_, h⟩

/-- Bytes have one beginning of this kind. With another reading that reads no more frames, and those in the same way: the first of them. -/
theorem beginning_prefix {S' : Frame → List α → Prop} {decode' : Proto.Blob → List α × Option Panic} (hS : ∀ f ds, S f ds ↔ ByBlobs decode f ds)
    (hS' : ∀ f ds, S' f ds ↔ ByBlobs decode' f ds) (hsub : ∀ f ds, S' f ds → S f ds) {bs rest rest' : Proto.Bytes} {dss dss' : List (List α)}
    (h' : Beginning S' bs dss' rest') (h : Beginning S bs dss rest) :
    dss' <+: dss ∧ (dss'.length = dss.length → rest' = rest) := by
  obtain ⟨⟨fs, rfl, h1⟩, h2⟩ := h
  obtain ⟨⟨fs', e, h1'⟩, h2'⟩ := h'
  induction h1 generalizing fs' dss' with
  | nil =>
    cases h1' with
    | nil => exact ⟨List.prefix_rfl, fun _ => by simpa [fileBytes] using e.symm⟩
    | cons h3 _ => exact absurd (by simpa [fileBytes] using e) (h2 _ _ _ (hsub _ _ h3))
  | @cons f ds fs dss h3 h4 ih =>
    cases h1' with
    | nil => exact ⟨List.nil_prefix, by simp⟩
    | @cons f' ds' fs' dss' h3' h4' =>
      obtain ⟨t, ht⟩ := byBlobs_says ((hS _ _).1 h3)
      obtain ⟨t', ht'⟩ := byBlobs_says ((hS' _ _).1 h3')
      have e' : f.bytes ++ (fileBytes fs ++ rest) = f'.bytes ++ (fileBytes fs' ++ rest') := by simpa [fileBytes] using e
      obtain ⟨rfl, e2⟩ := frame_bytes_inj ht ht' e'
      obtain ⟨i1, i2⟩ := ih fs' e2 h4'
      rw [byBlobs_unique ((hS _ _).1 h3) ((hS _ _).1 (hsub _ _ h3'))]
      exact ⟨List.cons_prefix_cons.2 ⟨rfl, i1⟩, fun hl => i2 (by simpa using hl)⟩

theorem beginning_unique (hS : ∀ f ds, S f ds ↔ ByBlobs decode f ds) {bs rest rest' : Proto.Bytes} {dss dss' : List (List α)}
    (h : Beginning S bs dss rest) (h' : Beginning S bs dss' rest') : dss = dss' ∧ rest = rest' := by
  obtain ⟨h1, h2⟩ := beginning_prefix hS hS (fun _ _ h => h) h h'
  obtain ⟨h3, _⟩ := beginning_prefix hS hS (fun _ _ h => h) h' h
  have := h1.eq_of_length (Nat.le_antisymm h1.length_le h3.length_le)
  exact ⟨this, h2 (by rw [this])⟩

/-- What a reader gives of any bytes, and how it ends, if it goes through the blobs with `decode`. -/
theorem beginning_reads {R : Source → List α → Option Panic → Prop} (hS : ∀ f ds, S f ds ↔ ByBlobs decode f ds)
    (hR : ∀ {src : Source} {blobs : List Proto.Blob} {e : Option Panic} {s' : Source}, Stream src blobs e s' →
      R src (runBlobs decode e blobs).1 (runBlobs decode e blobs).2)
    (hu : ∀ {src : Source} {ds ds' : List α} {e e' : Option Panic}, R src ds e → R src ds' e' → ds = ds' ∧ e = e') (bs : Proto.Bytes) :
    (∃ dss rest, Beginning S bs dss rest) ∧ ∀ dss rest, Beginning S bs dss rest →
      (∀ ds, R (source bs) ds none ↔ ds = dss.flatten ∧ rest.length < 4) ∧
      ∀ ds, (∃ p, R (source bs) ds (some p)) ↔ ds = dss.flatten ∧ 4 ≤ rest.length := by
  obtain ⟨blobs, e, s', hs⟩ := stream_total (source bs)
  obtain ⟨dss, rest, h1, h2, h3⟩ := beginning_stream hS hs rfl
  refine ⟨⟨dss, rest, h1⟩, fun dss' rest' h1' => ?_⟩
  obtain ⟨rfl, rfl⟩ := beginning_unique hS h1 h1'
  have hr := hR hs
  rw [h2] at hr
  constructor
  · intro ds
    constructor
    · intro h
      obtain ⟨a, c⟩ := hu h hr
      exact ⟨a, h3.1 c.symm⟩
    · rintro ⟨rfl, h4⟩
      rwa [h3.2 h4] at hr
  · intro ds
    constructor
    · rintro ⟨p, h⟩
      obtain ⟨a, c⟩ := hu h hr
      refine ⟨a, Nat.le_of_not_lt fun h4 => ?_⟩
      rw [h3.2 h4] at c
      cases c
    · rintro ⟨rfl, h4⟩
      rcases he : (runBlobs decode e blobs).2 with _ | p
      · have := h3.1 he; omega
      · exact ⟨p, by rwa [he] at hr⟩

end Osmio
