import Verif.Proofs.PbfFiles
/-! # Proofs: how far the readers of PBF files have read -/

namespace Osmio
open Spec.Pbf Spec

/-- The objects of a frame, as they are decoded. -/
def FrameDecodes {α : Type} (decode : Proto.Blob → List α × Option Panic) (f : Frame) (os : List α) : Prop :=
  ∃ fb oss, FrameBlobs f fb ∧ List.Forall₂ (fun blob os => decode blob = (os, none)) fb oss ∧ os = oss.flatten

theorem gnext_frame {α : Type} {decode : Proto.Blob → List α × Option Panic} {f : Frame} {os : List α} (h : FrameDecodes decode f os)
    (rest : Source) : gnext decode ([], source f.bytes ++ rest) = gnext decode (os, rest) := by
  obtain ⟨fb, oss, ⟨hd, h1, ⟨h2, rfl⟩ | ⟨h2, blob, h3, rfl⟩⟩, h4, rfl⟩ := h
  · cases h4
    exact gnext_skip (by rw [readBlob_frame h1, if_neg h2])
  · cases h4 with
    | cons h5 h6 =>
      cases h6
      rw [List.flatten_cons, List.flatten_nil, List.append_nil]
      exact gnext_blob (by rw [readBlob_frame h1, if_pos h2, h3]) h5

theorem calls_next_add {σ α : Type} (next : σ → Res (Option α) × σ) (n m : Nat) (s : σ) :
    (calls next (n + m) s).2 = (calls next m (calls next n s).2).2 := by
  induction n generalizing s with
  | zero => simp [calls]
  | succ n ih =>
    rw [Nat.succ_add]
    exact ih (next s).2

theorem calls_next_congr {σ α : Type} {next : σ → Res (Option α) × σ} {s1 s2 : σ} (h : next s1 = next s2) {n : Nat} (hn : 0 < n) :
    calls next n s1 = calls next n s2 := by
  cases n with
  | zero => omega
  | succ n => simp only [calls, h]

theorem calls_next_map {α σ τ : Type} {n1 : σ → Res (Option α) × σ} {n2 : τ → Res (Option α) × τ} {φ : σ → τ}
    (h : ∀ s, n2 (φ s) = ((n1 s).1, φ (n1 s).2)) (n : Nat) (s : σ) :
    calls n2 n (φ s) = ((calls n1 n s).1, φ (calls n1 n s).2) := by
  induction n generalizing s with
  | zero => rfl
  | succ n ih => simp only [calls, h, ih]

theorem gcalls_buffer {α : Type} (decode : Proto.Blob → List α × Option Panic) {n : Nat} {buf : List α} (h : n ≤ buf.length) (src : Source) :
    (calls (gnext decode) n (buf, src)).2 = (buf.drop n, src) := by
  induction n generalizing buf with
  | zero => rfl
  | succ n ih =>
    cases buf with
    | nil => simp at h
    | cons o buf =>
      simp only [calls, gnext_cons, List.drop_succ_cons]
      exact ih (by simpa using h)

/-- After a number of calls, the reader has read up to the end of a frame, the first up to which there are so many objects. -/
theorem gcalls_frames {α : Type} {decode : Proto.Blob → List α × Option Panic} {fs : List Frame} {oss : List (List α)}
    (h : List.Forall₂ (FrameDecodes decode) fs oss) (tail : Source) {n : Nat} {buf : List α} (hn : n ≤ buf.length + oss.flatten.length) :
    ∃ m, m ≤ fs.length ∧ (calls (gnext decode) n (buf, source (fileBytes fs) ++ tail)).2.2 = source (fileBytes (fs.drop m)) ++ tail ∧
      n ≤ buf.length + (oss.take m).flatten.length ∧ ∀ m' < m, buf.length + (oss.take m').flatten.length < n := by
  induction h generalizing n buf with
  | nil =>
    have hn' : n ≤ buf.length := by simpa using hn
    exact ⟨0, Nat.le_refl _, by rw [gcalls_buffer _ hn']; rfl, by simpa using hn', fun m' h => absurd h (by omega)⟩
  | cons h1 h2 ih =>
    rename_i f os fs oss
    by_cases hb : n ≤ buf.length
    · exact ⟨0, Nat.zero_le _, by rw [gcalls_buffer _ hb]; rfl, by simpa using hb, fun m' h => absurd h (by omega)⟩
    · have hb' : buf.length < n := by omega
      obtain ⟨k, rfl⟩ : ∃ k, n = buf.length + k := ⟨n - buf.length, by omega⟩
      have hk : k ≤ os.length + oss.flatten.length := by
        rw [List.flatten_cons, List.length_append] at hn
        omega
      obtain ⟨m, a0, a1, a2, a3⟩ := ih hk
      have e1 : source (fileBytes (f :: fs)) ++ tail = source f.bytes ++ (source (fileBytes fs) ++ tail) := by
        rw [← List.append_assoc, ← source_append]
        rfl
      refine ⟨m + 1, by simpa using a0, ?_, ?_, ?_⟩
      · rw [calls_next_add, gcalls_buffer _ (Nat.le_refl _), List.drop_length, e1, calls_next_congr (gnext_frame h1 _) (by omega), a1]
        rfl
      · rw [List.take_succ_cons, List.flatten_cons, List.length_append]
        omega
      · intro m' hm'
        cases m' with
        | zero => simpa using hb'
        | succ m' =>
          have := a3 m' (by omega)
          rw [List.take_succ_cons, List.flatten_cons, List.length_append]
          omega

theorem str_frameDecodes {zlib : Proto.Bytes → Option Proto.Bytes} {b : Build} {fs : List Frame} {dss : List (List ObjData)}
    (h : List.Forall₂ (FrameReads .owned zlib b) fs dss) :
    ∃ oss, List.Forall₂ (FrameDecodes (StringPbf.decodeBlob zlib b (true, true, true))) fs oss ∧ oss.map (List.map objData) = dss := by
  induction h with
  | nil => exact ⟨[], .nil, rfl⟩
  | cons h _ ih =>
    obtain ⟨oss, a1, a2⟩ := ih
    obtain ⟨fb, ds, b1, b2, rfl⟩ := frameReads_blobs h
    have : ∃ os, List.Forall₂ (fun blob os => StringPbf.decodeBlob zlib b (true, true, true) blob = (os, none)) fb os ∧
        os.map (List.map objData) = ds := by
      clear b1 h
      induction b2 with
      | nil => exact ⟨[], .nil, rfl⟩
      | cons c1 _ ih =>
        obtain ⟨os, c2, c3⟩ := ih
        simp only [blobData, Prod.mk.injEq] at c1
        exact ⟨_ :: os, .cons (Prod.ext rfl c1.2) c2, by rw [List.map_cons, c3, c1.1]⟩
    obtain ⟨os, c1, c2⟩ := this
    refine ⟨os.flatten :: oss, .cons ⟨fb, os, b1, c1, rfl⟩ a1, ?_⟩
    rw [List.map_cons, a2, ← c2, List.map_flatten]

theorem arc_frameDecodes {zlib : Proto.Bytes → Option Proto.Bytes} {b : Build} {fs : List Frame} {dss : List (List ObjData)}
    (h : List.Forall₂ (FrameReads .shared zlib b) fs dss) :
    ∃ oss, List.Forall₂ (FrameDecodes (arcDecode zlib b)) fs oss ∧ oss.map (List.map objData) = dss := by
  induction h with
  | nil => exact ⟨[], .nil, rfl⟩
  | cons h _ ih =>
    obtain ⟨oss, a1, a2⟩ := ih
    obtain ⟨fb, ds, b1, b2, rfl⟩ := frameReads_blobs h
    have : ∃ os, List.Forall₂ (fun blob os => arcDecode zlib b blob = (os, none)) fb os ∧
        os.map (List.map objData) = ds := by
      clear b1 h
      induction b2 with
      | nil => exact ⟨[], .nil, rfl⟩
      | cons c1 _ ih =>
        obtain ⟨os, c2, c3⟩ := ih
        simp only [blobData, Prod.mk.injEq] at c1
        exact ⟨_ :: os, .cons (Prod.ext rfl c1.2) c2, by rw [List.map_cons, c3, c1.1]⟩
    obtain ⟨os, c1, c2⟩ := this
    refine ⟨os.flatten :: oss, .cons ⟨fb, os, b1, c1, rfl⟩ a1, ?_⟩
    rw [List.map_cons, a2, ← c2, List.map_flatten]

theorem take_lengths {α β : Type} {f : α → β} {oss : List (List α)} (m : Nat) :
    (((oss.map (List.map f)).take m).flatten).length = ((oss.take m).flatten).length := by
  rw [← List.map_take, List.map_flatten.symm, List.length_map]

end Osmio
