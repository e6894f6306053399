import Verif.Proofs.PbfChecked
import Verif.Props.PbfBlocks
/-!
# Which blocks the PBF readers can read (C65)

A block may leave out all metadata, may hold nodes that are not dense, and may have any number of groups. The readers do not accept all of
that: `BlockReadable` (`Spec/PbfReadable.lean`) says what they need.
-/

namespace Osmio
open Spec.Pbf
open Spec (ObjData)

variable {r : Which} {b : Build} {block : Proto.PrimitiveBlock} {ds : List ObjData}

/-- **C65 (partial).** Built without overflow checks a reader gets through a block exactly if all parts it needs are there. Missing: it
needs more than the format does (see the `_fails` theorems). -/
theorem C65_readable_partial : (∃ ds, r.objects .release block = some ds) ↔ BlockReadable r block := block_readable

/-- **C65.** Built with overflow checks it gets through no other blocks; and through those, unless a number is out of its range. -/
theorem C65_checked_partial :
    ((∃ ds, r.objects .debug block = some ds) → BlockReadable r block) ∧
    (BlockReadable r block → r.objects .debug block = none →
      match r with
      | .owned => (StringPbf.decodeBlock .debug block (true, true, true)).2 = some .overflow
      | .shared => ArcPbf.decodeBlock .debug block = .error .overflow) := by
  refine ⟨fun ⟨ds, h⟩ => C65_readable_partial.1 ⟨ds, C49_block h⟩, fun h hn => ?_⟩
  obtain ⟨ds, h⟩ := C65_readable_partial.2 h
  cases r <;> exact C49_block_overflow h hn

/-- **C65 (partial).** In either build: a reader gets through a block exactly if all parts it needs are there and, built with overflow checks, all numbers it works
out are in the ranges of their types. -/
theorem C65_both_partial : (∃ ds, r.objects b block = some ds) ↔ ReadableIn b r block := readable_in

/-- **C65 (partial).** The same for the reader of positions. -/
theorem C65_both_positions_partial : (∃ xs, positions b block = some xs) ↔ ∀ g ∈ block.primitivegroup, PosReadableIn b block g := pos_readable_in

/-- **C49.** What overflow checks change: a reader built with them gets out of a block exactly what one built without gets, or else panics; and it panics exactly if some
number it works out is out of the range of its type. -/
theorem C49_exact : r.objects .debug block = some ds ↔ r.objects .release block = some ds ∧ BlockFits block := block_checked

/-- **C49.** The same for the reader of positions. -/
theorem C49_exact_positions {xs : List (ObjId × (Lat × Lon))} :
    positions .debug block = some xs ↔ positions .release block = some xs ∧ ∀ g ∈ block.primitivegroup, PosGroupFits block g := pos_block_checked

/-- All numbers of the example blocks are in range. Not so if the places of a way add up to more than 64 bits: every part is there, and built without overflow checks
the readers get through. -/
example : BlockFits PbfEx.nodes ∧ BlockFits PbfEx.ways ∧ BlockFits PbfEx.relations ∧
    ∃ block, (∀ r, BlockReadable r block) ∧ ¬ BlockFits block ∧ ∀ g ∈ block.primitivegroup, PosReadableIn .debug block g := by
  refine ⟨(C49_exact.1 (PbfEx.accepted .owned .debug).1).2, (C49_exact.1 (PbfEx.accepted .owned .debug).2.1).2, (C49_exact.1 (PbfEx.accepted .owned .debug).2.2).2,
    { PbfEx.ways with primitivegroup := [{ ways := [{ PbfEx.way with refs := [9223372036854775807, 1] }] }] }, fun r => ?_, fun h => ?_, ?_⟩
  · refine C65_readable_partial.1 (Option.isSome_iff_exists.1 ?_)
    cases r <;> decide +kernel
  · have := (h _ (List.mem_singleton.2 rfl)).ways rfl _ (List.mem_singleton.2 rfl) 9223372036854775808 (by decide +kernel)
    exact absurd this (by decide)
  · exact C65_both_positions_partial.1 ⟨[], by decide +kernel⟩

/-- **C65 (partial).** The same for the reader of positions. -/
theorem C65_positions_partial :
    ((∃ xs, positions .release block = some xs) ↔ ∀ g ∈ block.primitivegroup, PosGroupReadable g) ∧
    ((∃ xs, positions .debug block = some xs) → ∀ g ∈ block.primitivegroup, PosGroupReadable g) := by
  refine ⟨pos_block_readable, fun ⟨xs, h⟩ => pos_block_readable.1 ⟨xs, ?_⟩⟩
  unfold positions at h ⊢
  rcases agree_pos_block block with e | ⟨e, _⟩
  · rw [← e]; exact h
  · split at h
    · rename_i os he; rw [he] at e; cases e
    · cases h

/-- Blocks of all three kinds can be read. -/
example (r : Which) : BlockReadable r PbfEx.nodes ∧ BlockReadable r PbfEx.ways ∧ BlockReadable r PbfEx.relations :=
  ⟨C65_readable_partial.1 ⟨_, (PbfEx.accepted r .release).1⟩, C65_readable_partial.1 ⟨_, (PbfEx.accepted r .release).2.1⟩,
    C65_readable_partial.1 ⟨_, (PbfEx.accepted r .release).2.2⟩⟩

/-- Not to be read, in any build. -/
theorem objects_none (h : ¬ BlockReadable r block) : r.objects b block = none := by
  cases he : r.objects b block with
  | none => rfl
  | some ds =>
    cases b with
    | debug => exact absurd (C65_checked_partial.1 ⟨ds, he⟩) h
    | release => exact absurd (C65_readable_partial.1 ⟨ds, he⟩) h

theorem positions_none (h : ¬ ∀ g ∈ block.primitivegroup, PosGroupReadable g) : positions b block = none := by
  cases he : positions b block with
  | none => rfl
  | some ds =>
    cases b with
    | debug => exact absurd (C65_positions_partial.2 ⟨ds, he⟩) h
    | release => exact absurd (C65_positions_partial.1.1 ⟨ds, he⟩) h

variable {g : Proto.PrimitiveGroup} (hg : g ∈ block.primitivegroup)

include hg

/-- **C65 fails** for nodes that are not dense: no reader accepts a block with such a node. -/
theorem C65_plain_nodes_fails (hn : g.nodes ≠ []) : r.objects b block = none ∧ positions b block = none := by
  refine ⟨objects_none fun h => ?_, positions_none fun h => ?_⟩
  · cases h.groups g hg with
    | dense _ h => exact hn h
    | ways h => exact hn h
    | relations h => exact hn h
    | empty _ h => exact hn h
  · cases h g hg with
    | other h => exact hn h
    | dense _ h => exact hn h

/-- **C65 fails** for ways and relations without metadata, or with only a part of it. -/
theorem C65_info_fails (hd : g.dense = none) (i : Proto.Info)
    (hw : (∃ w ∈ g.ways, w.info.getD {} = i) ∨ (g.ways = [] ∧ ∃ w ∈ g.relations, w.info.getD {} = i))
    (hi : i.version = none ∨ i.timestamp = none ∨ i.changeset = none ∨ i.uid = none ∨ i.userSid = none) :
    r.objects b block = none := by
  refine objects_none fun h => ?_
  have key : ∀ t, ¬ InfoThere r t i := by
    rintro t ⟨h1, h2, h3, h4, ⟨_, h5, _⟩, _⟩
    rcases hi with h | h | h | h | h
    · exact h1 h
    · exact h2 h
    · exact h3 h
    · exact h4 h
    · rw [h] at h5; cases h5
  cases h.groups g hg with
  | dense _ _ h => rw [hd] at h; cases h
  | ways _ _ hne h =>
    rcases hw with ⟨w, hw, rfl⟩ | ⟨hw, _⟩
    · exact key _ (h w hw).info
    · exact hne hw
  | relations _ _ he _ h =>
    rcases hw with ⟨w, hw, rfl⟩ | ⟨_, w, hw, rfl⟩
    · rw [he] at hw; cases hw
    · exact key _ (h w hw).info
  | empty _ _ _ he he' =>
    rcases hw with ⟨w, hw, rfl⟩ | ⟨_, w, hw, rfl⟩
    · rw [he] at hw; cases hw
    · rw [he'] at hw; cases hw

/-- **C65 fails** for dense nodes without metadata, or with only a part of it. -/
theorem C65_denseinfo_fails {dense : Proto.DenseNodes} (hd : g.dense = some dense) (hi : dense.id ≠ []) (i : Proto.DenseInfo)
    (he : dense.denseinfo.getD {} = i)
    (hl : i.version = [] ∨ i.timestamp = [] ∨ i.changeset = [] ∨ i.uid = [] ∨ i.userSid = []) :
    r.objects b block = none := by
  subst he
  refine objects_none fun h => ?_
  have hp := List.length_pos_iff.2 hi
  cases h.groups g hg with
  | dense dense' _ hd' h =>
    rw [hd] at hd'; cases hd'
    obtain ⟨_, _, h1, h2, h3, h4, h5, _⟩ := h
    rcases hl with h | h | h | h | h <;> simp only [h, List.length_nil] at h1 h2 h3 h4 h5 <;> omega
  | ways _ h => rw [hd] at h; cases h
  | relations _ h => rw [hd] at h; cases h
  | empty _ _ h => rw [hd] at h; cases h

/-- **C65 fails** for a group without objects in the shared-string reader and in the reader of positions; the owned-string reader accepts
it. -/
theorem C65_empty_group_fails (h2 : g.dense = none) (h3 : g.ways = []) (h4 : g.relations = []) :
    Which.shared.objects b block = none ∧ positions b block = none := by
  refine ⟨objects_none fun h => ?_, positions_none fun h => ?_⟩
  · cases h.groups g hg with
    | dense _ _ h => rw [h2] at h; cases h
    | ways _ _ h => exact h h3
    | relations _ _ _ h => exact h h4
    | empty h => cases h
  · cases h g hg with
    | other _ h => exact h.elim (fun h => h h3) (fun h => h h4)
    | dense _ _ _ _ h => rw [h2] at h; cases h

omit hg

/-- Such blocks: a node, a way without metadata, a dense node without metadata, a group without objects. The way itself is all right: with
the metadata the readers accept it. -/
example (r : Which) (b : Build) :
    r.objects b { stringtable := some PbfEx.table, primitivegroup := [{ nodes := [{ id := some 1, lat := some 1, lon := some 1 }] }] } = none ∧
    r.objects b { stringtable := some PbfEx.table, primitivegroup := [{ ways := [{ id := some 1, refs := [1, 1] }] }] } = none ∧
    r.objects b { stringtable := some PbfEx.table,
                  primitivegroup := [{ dense := some { id := [1], lat := [1], lon := [1], keysVals := [0] } }] } = none ∧
    Which.shared.objects b { stringtable := some PbfEx.table, primitivegroup := [{}] } = none ∧
    r.objects b { stringtable := some PbfEx.table, primitivegroup := [{ ways := [{ id := some 1, refs := [1, 1], info := some PbfEx.info }] }] }
      ≠ none := by
  refine ⟨(C65_plain_nodes_fails (List.mem_singleton.2 rfl) (by simp)).1,
    C65_info_fails (List.mem_singleton.2 rfl) rfl {} (.inl ⟨_, List.mem_singleton.2 rfl, rfl⟩) (.inl rfl),
    C65_denseinfo_fails (List.mem_singleton.2 rfl) rfl (by simp) {} rfl (.inl rfl),
    (C65_empty_group_fails (List.mem_singleton.2 rfl) rfl rfl rfl).1, ?_⟩
  cases r <;> cases b <;> decide +kernel

end Osmio
