import Verif.Spec.PbfZlib
import Verif.Proofs.Zlib
import Verif.Proofs.PbfFiles
import Verif.Proofs.PbfKinds
/-! # Proofs: data blocks of PBF files as zlib streams -/

namespace Osmio
open Spec.Pbf Spec

theorem Deflated.stored {zlib : Proto.Bytes → Option Proto.Bytes} (hz : Decompresses zlib) {blob : Proto.Blob} {data : Proto.Bytes}
    (h : Deflated blob data) : ZlibStored zlib blob data := by
  obtain ⟨p, n, h1, h2, h3, h4, h5⟩ := h
  exact ⟨p, n, h1, h2, hz p data h3, h4, h5⟩

theorem deflated_is {zlib : Proto.Bytes → Option Proto.Bytes} (hz : Decompresses zlib) {f : Frame} {o : Option Proto.PrimitiveBlock}
    (h : FrameIs Deflated f o) : FrameIs (ZlibStored zlib) f o := by
  cases h with
  | other h h1 h2 => exact .other h h1 h2
  | block h blob data block h1 h2 h3 h4 h5 => exact .block h blob data block h1 h2 h3 (Deflated.stored hz h4) h5

theorem compressed_reads {r : Which} {zlib : Proto.Bytes → Option Proto.Bytes} {b : Build} (hz : Decompresses zlib) {f : Frame}
    {o : Option Proto.PrimitiveBlock} {ds : List ObjData} (h : Compressed f o ds)
    (hr : r = .shared ∨ ∀ block, o = some block → ∃ g, block.primitivegroup = [g] ∧ ∀ d, g.dense = some d → d.keysVals ≠ [] ∨ d.id = []) :
    FrameReads r zlib b f ds := by
  cases h with
  | other t blob h1 h2 => exact .other (frameOf_other h1 h2)
  | block block ds p h1 h2 h3 h4 h5 =>
    have hs : ZlibStored zlib (zlibBlob (fun _ => p) block) (encodePrimitiveBlock block) :=
      ⟨p, _, rfl, rfl, hz _ _ h4, rfl, by rw [Int32.toInt_ofNat_of_lt (by omega)]⟩
    refine .block block ds (frameOf_block h5 hs (C50_primitiveBlock_roundtrip _ h1 h3)) ?_
    cases r with
    | shared => exact shared_complete b h2
    | owned =>
      rcases hr with hr | hr
      · cases hr
      · obtain ⟨g, hg, hk⟩ := hr block rfl
        exact owned_complete b h2 hg hk

theorem holds_blobs {f : Frame} {o : Option Proto.Bytes} (h : FrameHolds f o) : ∃ fb, FrameBlobs f fb ∧
    List.Forall₂ Deflated fb o.toList := by
  cases h with
  | other h h1 h2 => exact ⟨[], ⟨h, h1, .inl ⟨h2, rfl⟩⟩, .nil⟩
  | data h blob data h1 h2 h3 h4 => exact ⟨[blob], ⟨h, h1, .inr ⟨h2, blob, h3, rfl⟩⟩, .cons h4 .nil⟩

theorem holds_stream {fs : List Frame} {os : List (Option Proto.Bytes)} (h : List.Forall₂ FrameHolds fs os) :
    ∃ bs, Stream (source (fileBytes fs)) bs none [] ∧ List.Forall₂ Deflated bs (os.filterMap id) := by
  have : ∃ fbs, List.Forall₂ FrameBlobs fs fbs ∧ List.Forall₂ Deflated fbs.flatten (os.filterMap id) := by
    induction h with
    | nil => exact ⟨[], .nil, .nil⟩
    | @cons f o fs os h _ ih =>
      obtain ⟨fbs, h1, h2⟩ := ih
      obtain ⟨fb, h3, h4⟩ := holds_blobs h
      refine ⟨fb :: fbs, .cons h3 h1, ?_⟩
      cases o with
      | none => cases h4; exact h2
      | some d =>
        cases h4 with
        | cons h5 h6 => cases h6; exact .cons h5 h2
  obtain ⟨fbs, h1, h2⟩ := this
  have h3 := stream_frames (tail := []) h1 (.done (s' := []) (readBlob_short (by decide)))
  rw [List.append_nil, List.append_nil] at h3
  exact ⟨_, h3, h2⟩

theorem runBlobs_same {α : Type} {decode decode' : Proto.Blob → List α × Option Panic} {e : Option Panic} {bs bs' : List Proto.Blob}
    (h : List.Forall₂ (fun x y => decode x = decode' y) bs bs') : runBlobs decode e bs = runBlobs decode' e bs' := by
  induction h with
  | nil => rfl
  | cons h _ ih => simp only [runBlobs, h, ih]

theorem blobData_same {zlib zlib' : Proto.Bytes → Option Proto.Bytes} {blob blob' : Proto.Blob} {data : Proto.Bytes} (r : Which) (b : Build)
    (h : ZlibStored zlib blob data) (h' : ZlibStored zlib' blob' data) : blobData r zlib b blob = blobData r zlib' b blob' := by
  cases r with
  | owned => simp only [blobData, StringPbf.decodeBlob, str_zlibStored h, str_zlibStored h']
  | shared => simp only [blobData, arcDecode, ArcPbf.decodeBlob, arc_zlibStored h, arc_zlibStored h']

theorem posBlob_same {zlib zlib' : Proto.Bytes → Option Proto.Bytes} {blob blob' : Proto.Blob} {data : Proto.Bytes} (b : Build)
    (h : ZlibStored zlib blob data) (h' : ZlibStored zlib' blob' data) : NodePos.decodeBlob zlib b blob = NodePos.decodeBlob zlib' b blob' := by
  simp only [NodePos.decodeBlob, str_zlibStored h, str_zlibStored h']

theorem ReadsPositions.unique {zlib : Proto.Bytes → Option Proto.Bytes} {b : Build} {src : Source} {xs xs' : List (ObjId × (Lat × Lon))}
    {e e' : Option Panic} (h : ReadsPositions zlib b src xs e) (h' : ReadsPositions zlib b src xs' e') : xs = xs' ∧ e = e' := by
  obtain ⟨s, h1⟩ := h
  obtain ⟨s', h1'⟩ := h'
  obtain ⟨rfl, rfl, _⟩ := h1.unique h1'
  exact ⟨rfl, rfl⟩

theorem deflated_pairs {bs bs' : List Proto.Blob} {l : List Proto.Bytes} (h : List.Forall₂ Deflated bs l) (h' : List.Forall₂ Deflated bs' l) :
    List.Forall₂ (fun x y => ∃ d, Deflated x d ∧ Deflated y d) bs bs' := by
  induction h generalizing bs' with
  | nil => cases h'; exact .nil
  | cons h _ ih =>
    cases h' with
    | cons h1 h2 => exact .cons ⟨_, h, h1⟩ (ih h2)

/-! ## Every string can be compressed -/

namespace Zlib
open Spec.Zlib

theorem lsb_add (v w n : Nat) : lsb (v + w) n = lsb v n ++ lsb w (n / 2 ^ v) := by
  simp only [lsb, List.range_add, List.map_append, List.map_map]
  congr 1
  apply List.map_congr_left
  intro i _
  simp [Nat.testBit_div_two_pow, Nat.add_comm]

theorem lsb_byte (n : Nat) : lsb 8 n = byteBits (UInt8.ofNat n) := by
  simp only [byteBits, lsb]
  apply List.map_congr_left
  intro i hi
  have hi : i < 8 := by simpa using hi
  have : (UInt8.ofNat n).toNat = n % 2 ^ 8 := by simp
  rw [this, Nat.testBit_mod_two_pow]
  simp [hi]

theorem lsb_two (n : Nat) : lsb 16 n = bits [UInt8.ofNat n, UInt8.ofNat (n / 256)] := by
  rw [show (16 : Nat) = 8 + 8 from rfl, lsb_add, lsb_byte, lsb_byte]
  rfl

/-- The bytes of a block that is not compressed. -/
def storedBytes (last : Bool) (x : List UInt8) : List UInt8 :=
  (if last then 1 else 0) :: ([UInt8.ofNat x.length, UInt8.ofNat (x.length / 256)] ++
    ([UInt8.ofNat (65535 - x.length), UInt8.ofNat ((65535 - x.length) / 256)] ++ x))

theorem storedBytes_bits (last : Bool) (x : List UInt8) : bits (storedBytes last x) =
    last :: (lsb 2 0 ++ (List.replicate 5 false ++ (lsb 16 x.length ++ (lsb 16 (65535 - x.length) ++ bits x)))) := by
  have e : storedBytes last x = [if last then 1 else 0] ++ ([UInt8.ofNat x.length, UInt8.ofNat (x.length / 256)] ++
    ([UInt8.ofNat (65535 - x.length), UInt8.ofNat ((65535 - x.length) / 256)] ++ x)) := rfl
  rw [e, bits_append, bits_append, bits_append, ← lsb_two, ← lsb_two]
  cases last <;> rfl

theorem storedBytes_block (window : Nat) (pos : Nat) (hp : pos % 8 = 0) (out x : List UInt8) (hx : x.length < 65536) :
    Block window (pos + 1) out (lsb 2 0 ++ (List.replicate 5 false ++ (lsb 16 x.length ++ (lsb 16 (65535 - x.length) ++ bits x)))) (out ++ x) :=
  .stored (by simp) (by simp; omega) hx

/-- Data can always be put in blocks that are not compressed. -/
theorem stored_blocks (window : Nat) : ∀ (k : Nat) (x out : List UInt8) (pos : Nat), x.length ≤ k → pos % 8 = 0 →
    ∃ body, Blocks window pos out (bits body) (out ++ x) := by
  intro k
  induction k with
  | zero =>
    intro x out pos hx hp
    refine ⟨storedBytes true x, ?_⟩
    rw [storedBytes_bits]
    exact .last (storedBytes_block window pos hp out x (by omega))
  | succ k ih =>
    intro x out pos hx hp
    by_cases hl : x.length < 65536
    · refine ⟨storedBytes true x, ?_⟩
      rw [storedBytes_bits]
      exact .last (storedBytes_block window pos hp out x hl)
    · have l1 : (x.take 65535).length = 65535 := by rw [List.length_take]; omega
      have hb := storedBytes_block window pos hp out (x.take 65535) (by omega)
      have e := storedBytes_bits false (x.take 65535)
      obtain ⟨body, h⟩ := ih (x.drop 65535) (out ++ x.take 65535) (pos + 8 * (storedBytes false (x.take 65535)).length)
        (by rw [List.length_drop]; omega) (by omega)
      refine ⟨storedBytes false (x.take 65535) ++ body, ?_⟩
      rw [bits_append, e, List.cons_append]
      rw [List.append_assoc, List.take_append_drop] at h
      refine .more hb ?_
      have e2 := congrArg List.length e
      rw [bits_length, List.length_cons] at e2
      rw [e2] at h
      rw [show pos + 1 + _ = pos + (_ + 1) from by rw [Nat.add_assoc, Nat.add_comm 1]]
      exact h

theorem stream_exists (x : List UInt8) : ∃ p, Spec.Zlib.Stream p x := by
  obtain ⟨body, h⟩ := stored_blocks (2 ^ ((0x78 : UInt8).toNat / 16 + 8)) x.length x [] 0 (Nat.le_refl _) rfl
  exact ⟨_, .mk (cmf := 0x78) (flg := 0x01) (body := body) (w := bits body) (pad := []) (by decide) (by decide) (by decide) (by decide) h
    (by simp) (by decide)⟩

/-- No stream begins with another one. -/
theorem stream_prefix {p rest x : List UInt8} (h : Spec.Zlib.Stream p x) (h' : Spec.Zlib.Stream (p ++ rest) x) : rest = [] := by
  generalize hq : p ++ rest = q at h'
  cases h with
  | @mk cmf flg body _ w pad h1 h2 h3 h4 h5 h6 h7 =>
    cases h' with
    | @mk cmf' flg' body' _ w' pad' k1 k2 k3 k4 k5 k6 k7 =>
      simp only [List.cons_append, List.append_assoc, List.cons.injEq] at hq
      obtain ⟨rfl, rfl, hq⟩ := hq
      have e1 := blocks_of h5 (8 * (body.length + body'.length + rest.length + 4) + 8)
        (pad ++ bits (Spec.Zlib.be32 (sumB x * 65536 + sumA x) ++ rest)) (by
          rw [← List.append_assoc, ← h6, ← bits_append, bits_length]; omega)
        (by have := congrArg List.length h6; rw [bits_length, List.length_append] at this; omega)
      have e2 := blocks_of k5 (8 * (body.length + body'.length + rest.length + 4) + 8)
        (pad' ++ bits (Spec.Zlib.be32 (sumB x * 65536 + sumA x))) (by
          rw [← List.append_assoc, ← k6, ← bits_append, bits_length]; omega)
        (by have := congrArg List.length k6; rw [bits_length, List.length_append] at this; omega)
      rw [← List.append_assoc, ← h6, ← bits_append, hq, bits_append, k6, List.append_assoc, e2] at e1
      simp only [Option.some.injEq, Prod.mk.injEq, true_and] at e1
      have := congrArg List.length e1
      simp only [List.length_append, bits_length] at this
      exact List.eq_nil_of_length_eq_zero (by omega)

/-- Bytes that a decompressor takes, but not without the last of them, are a stream. -/
theorem stream_of_inflate {q x : List UInt8} (h : inflate q = some x) (h' : inflate q.dropLast = none) : Spec.Zlib.Stream q x := by
  obtain ⟨p, rest, rfl, hp⟩ := inflate_some h
  cases rest with
  | nil => simpa using hp
  | cons a rest =>
    rw [List.dropLast_append_of_ne_nil (by simp), inflate_of hp] at h'
    cases h'

end Zlib
end Osmio
