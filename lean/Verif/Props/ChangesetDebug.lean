import Verif.Model.ChangesetDebug
import Verif.Proofs.ObjDebug
/-! # The debug text of a changeset shows all of it (C108) -/

namespace Osmio
open Changesets

theorem Dbg.exact_u64 : Dbg.Exact fun x : UInt64 => natStr x.toNat :=
  Dbg.exact_plain (fun _ _ hc => Dbg.natStr_stop hc) fun _ _ h => UInt64.toNat_inj.1 (Dbg.natStr_inj h)

theorem changeset_debug_inj (plain : Char → Bool) (alt : Bool) (σ τ : HashOrder) (x y : Changeset)
    (e : x.debug plain alt σ = y.debug plain alt τ) : σ.order x.tags = τ.order y.tags ∧ { x with tags := y.tags } = y := by
  let fs : List (Str × (Changeset × List (Str × Str) → Str)) := [(str% "id", fun x => debugU32 x.1.id),
    (str% "created", fun x => x.1.created.debug plain alt),
    (str% "closed", fun x => debugOption alt (TimestampFormat.debug plain alt) x.1.closed), (str% "open", fun x => debugBool x.1.isOpen),
    (str% "uid", fun x => debugOption alt debugI64 x.1.uid), (str% "user", fun x => debugOption alt (debugStr plain) x.1.user),
    (str% "tags", fun x => debugMap alt (x.2.map fun t => (debugStr plain t.1, debugStr plain t.2))),
    (str% "num_changes", fun x => natStr x.1.numChanges.toNat), (str% "comments_count", fun x => natStr x.1.commentsCount.toNat)]
  have hi := Dbg.exact_option alt Dbg.exact_i64
  have hc := Dbg.exact_timestamp plain alt
  have ho := Dbg.exact_option alt hc
  have hs := Dbg.exact_option alt (Dbg.exact_str plain)
  have hm := Dbg.exact_map plain alt
  have hcut : ∀ f ∈ fs, Dbg.Cut f.2 := by
    simp only [fs, List.forall_mem_cons]
    exact ⟨Dbg.exact_u32.cut fun x : Changeset × List (Str × Str) => x.1.id, hc.cut fun x : Changeset × List (Str × Str) => x.1.created,
      ho.cut fun x : Changeset × List (Str × Str) => x.1.closed, Dbg.exact_bool.cut fun x : Changeset × List (Str × Str) => x.1.isOpen,
      hi.cut fun x : Changeset × List (Str × Str) => x.1.uid, hs.cut fun x : Changeset × List (Str × Str) => x.1.user,
      hm.cut fun x : Changeset × List (Str × Str) => x.2, Dbg.exact_u64.cut fun x : Changeset × List (Str × Str) => x.1.numChanges,
      Dbg.exact_u64.cut fun x : Changeset × List (Str × Str) => x.1.commentsCount, by simp⟩
  obtain ⟨h, -⟩ := Dbg.struct_parts alt (str% "Changeset") hcut (by simp [fs]) (x := (x, σ.order x.tags)) (y := (y, τ.order y.tags)) (r := []) (r' := [])
    (by rw [List.append_nil, List.append_nil]; exact e)
  simp only [fs, List.forall_mem_cons] at h
  obtain ⟨h1, h2, h3, h4, h5, h6, h7, h8, h9, -⟩ := h
  have k1 := Dbg.exact_u32.inj h1
  have k2 := hc.inj h2
  have k3 := ho.inj h3
  have k4 := Dbg.exact_bool.inj h4
  have k5 := hi.inj h5
  have k6 := hs.inj h6
  have k7 := hm.inj h7
  have k8 := Dbg.exact_u64.inj h8
  have k9 := Dbg.exact_u64.inj h9
  refine ⟨k7, ?_⟩
  clear h1 h2 h3 h4 h5 h6 h7 h8 h9 e k7
  cases x; cases y
  simp only at k1 k2 k3 k4 k5 k6 k8 k9
  subst k1 k2 k3 k4 k5 k6 k8 k9
  rfl

/-- **C108**, changesets. In whatever orders the maps of tags show their entries: the texts can only be the same if the changesets have the same
tags and are the same in every other field; and then they are the same in some orders. -/
theorem C108_changesets (plain : Char → Bool) (alt : Bool) (x y : Changeset) :
    (∃ σ τ : HashOrder, x.debug plain alt σ = y.debug plain alt τ) ↔ x.tags.Perm y.tags ∧ { x with tags := y.tags } = y := by
  constructor
  · rintro ⟨σ, τ, e⟩
    obtain ⟨h1, h2⟩ := changeset_debug_inj plain alt σ τ x y e
    exact ⟨((σ.perm _).symm.trans (by rw [h1])).trans (τ.perm _), h2⟩
  · rintro ⟨hp, h⟩
    refine ⟨⟨id, fun _ => .refl _⟩, ⟨fun l => if l = y.tags then x.tags else l, fun l => ?_⟩, ?_⟩
    · split
      · rename_i hl; rw [hl]; exact hp
      · exact .refl _
    · cases x; cases y
      simp only [Changeset.mk.injEq] at h
      obtain ⟨rfl, rfl, rfl, rfl, rfl, rfl, -, rfl, rfl⟩ := h
      simp [Changeset.debug]

example : (Changeset.mk 5 (.epoch 1) none true (some (-2)) none [(str% "k", str% "v")] 3 0).debug (fun _ => true) false ⟨id, fun _ => .refl _⟩ =
    str% "Changeset { id: 5, created: EpochNumber(1), closed: None, open: true, uid: Some(-2), user: None, tags: {\"k\": \"v\"}, num_changes: 3, comments_count: 0 }" := by
  decide +kernel

example (σ : HashOrder) : ¬ ∃ τ : HashOrder, (Changeset.mk 5 (.epoch 1) none true none none [(str% "k", str% "v\", \"w\": \"x")] 3 0).debug (fun _ => true) false σ =
    (Changeset.mk 5 (.epoch 1) none true none none [(str% "k", str% "v"), (str% "w", str% "x")] 3 0).debug (fun _ => true) false τ :=
  fun ⟨τ, h⟩ => absurd ((C108_changesets _ _ _ _).1 ⟨σ, τ, h⟩).1.length_eq (by decide)

end Osmio
