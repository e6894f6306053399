import Verif.Proofs.ProtoFields
import Mathlib.Data.List.Forall2
import Verif.Props.Proto
/-!
# C50: which bytes are fields

`readFields` and `readField` in the hypotheses of the theorems on unknown fields, order and packing, in terms of the wire format alone.
-/

namespace Osmio

open Proto

/-- **C50.** A byte string is read as a message with certain fields exactly if it is the concatenation of these fields in the wire
format: in any order, numbers of any admissible length, with groups. Anything else is an error. -/
theorem C50_fields (bs : Bytes) (fs : List Field) : readFields bs = some fs ↔ Spec.Wire.Fields bs fs := readFields_iff

/-- **C50.** The same for the first field. -/
theorem C50_field (bs r : Bytes) (f : Field) : readField bs = some (f, r) ↔
    ∃ p field type, bs = p ++ r ∧ f.tag = 8 * field + type ∧ Spec.Wire.OneField p field type f.val := readField_iff

/-- **C50.** A packed field holds the numbers that stand one after the other in it. -/
theorem C50_packed {α : Type} (dec : Nat → Option α) (bs : Bytes) (l : List α) : readPacked dec bs = some l ↔
    ∃ ns, Spec.Wire.Numbers bs ns ∧ List.Forall₂ (fun n a => dec n = some a) ns l := readPackedAux_iff dec _ le_rfl

/-- A group (field 9) that holds a string and another group, between the fields of a blob header, is skipped. -/
example : BlobHeader.parseFromBytes [0x0A, 7, 79, 83, 77, 68, 97, 116, 97, 0x4B, 0x0A, 2, 1, 2, 0x13, 0x14, 0x4C, 0x18, 0xAC, 0x02] =
    some exampleHeader := by decide +kernel

/-- That group is a field according to the specification. -/
example : ∃ f, f.val = .group ∧ Spec.Wire.Fields [0x4B, 0x0A, 2, 1, 2, 0x13, 0x14, 0x4C] [f] :=
  ⟨⟨75, .group⟩, rfl, (C50_fields _ _).1 (by decide +kernel)⟩

theorem forall₂_some {α : Type} {l m : List α} : List.Forall₂ (fun a b => some a = some b) l m ↔ l = m := by
  simp only [Option.some.injEq]
  exact iff_of_eq (congrFun (congrFun List.forall₂_eq_eq_eq l) m)

/-- A number may be longer than necessary, but not longer than ten bytes. -/
example : Spec.Wire.Numbers [0x85, 0x00, 0x05] [5, 5] ∧ ¬ ∃ ns, Spec.Wire.Numbers [0x85, 0x80, 0x80, 0x80, 0x80, 0x80, 0x80, 0x80,
    0x80, 0x80, 0x00] ns := by
  constructor
  · obtain ⟨ns, h, e⟩ := (C50_packed some [0x85, 0x00, 0x05] [5, 5]).1 (by decide +kernel)
    rwa [forall₂_some.1 e] at h
  · rintro ⟨ns, h⟩
    have := (C50_packed some _ ns).2 ⟨ns, h, forall₂_some.2 rfl⟩
    revert this
    rw [show readPacked some [0x85, 0x80, 0x80, 0x80, 0x80, 0x80, 0x80, 0x80, 0x80, 0x80, 0x00] = none by decide +kernel]
    intro h; cases h

end Osmio
