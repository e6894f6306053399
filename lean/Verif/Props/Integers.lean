import Verif.Proofs.Integer
import Verif.Spec.XmlDoc
import Verif.Spec.Changesets
/-!
# Properties: numbers in attributes (C71)

`Spec.IsInteger` and `Spec.IsNatural` say which number a text stands for. The functions `parseI64`, `parseU32` and
`parseU64` are the model of `str::parse` used by all text readers, and the specifications of C30, C52, C53 and C68
mention them.
-/

namespace Osmio
open Spec

/-- A text is read as a signed 64 bit number if and only if it is an integer of that range, and then as the number it
stands for. -/
theorem C71_i64 (s : Str) (z : Int64) : parseI64 s = some z ↔ IsInteger s z.toInt := parseI64_iff s z

/-- The same for unsigned numbers; a minus sign is never accepted. -/
theorem C71_u32 (s : Str) (n : UInt32) : parseU32 s = some n ↔ IsNatural s n.toNat := parseU32_iff s n

theorem C71_u64 (s : Str) (n : UInt64) : parseU64 s = some n ↔ IsNatural s n.toNat := parseU64_iff s n

/-- The largest and the smallest number, and one with leading zeros. -/
example : IsInteger (str% "-9223372036854775808") (-9223372036854775808) :=
  (C71_i64 _ Int64.minValue).1 (by decide +kernel)
example : IsNatural (str% "18446744073709551615") 18446744073709551615 := (C71_u64 _ 18446744073709551615).1 (by decide +kernel)
example : IsNatural (str% "+007") 7 := (C71_u32 _ 7).1 (by decide +kernel)
example : ¬ ∃ n : UInt32, IsNatural (str% "4294967296") n.toNat := by
  rintro ⟨n, h⟩
  have := (C71_u32 _ n).2 h
  rw [show parseU32 (str% "4294967296") = none by decide +kernel] at this
  cases this

/-- A text stands for at most one number. -/
theorem C71_unambiguous {s : Str} {y z : Int} (hy : IsInteger s y) (hz : IsInteger s z) : y = z := by
  have h1 := (parseSigned_iff (y.natAbs + z.natAbs) s y).2 ⟨hy, by omega, by omega⟩
  have h2 := (parseSigned_iff (y.natAbs + z.natAbs) s z).2 ⟨hz, by omega, by omega⟩
  exact Option.some.inj (h1.symm.trans h2)

/-- What the writers print is the number in the usual notation, and reads back as the same number. -/
theorem C71_written (i : Int64) (n : UInt32) : (IsShortest (i64Str i) i.toInt ∧ parseI64 (i64Str i) = some i) ∧
    IsShortest (u32Str n) n.toNat ∧ parseU32 (u32Str n) = some n :=
  ⟨⟨intStr_shortest _, parseI64_i64Str i⟩, intStr_shortest n.toNat, parseU32_u32Str n⟩

theorem bind_iff {α : Type} (o : Option Str) (f : Str → Option α) (x : α) : o.bind f = some x ↔ ∃ s, o = some s ∧ f s = some x := by
  cases o <;> simp

/-- The numbers of an object read from XML (what is read is `readElem` by C30) are those its element states. -/
theorem C71_xml (e : OSMObjectType × List Xml.Attr × Spec.Forest) (d : ObjData) (h : readElem e = some d) :
    (∃ s, attr (str% "id") e.2.1 = some s ∧ IsInteger s d.view.id.toInt) ∧
    (∀ n, d.view.version = some n ↔ ∃ s, attr (str% "version") e.2.1 = some s ∧ IsNatural s n.toNat) ∧
    (∀ n, d.view.changesetId = some n ↔ ∃ s, attr (str% "changeset") e.2.1 = some s ∧ IsNatural s n.toNat) ∧
    (∀ n, d.view.uid = some n ↔ ∃ s, attr (str% "uid") e.2.1 = some s ∧ IsNatural s n.toNat) := by
  unfold readElem at h
  obtain ⟨i, hi, rfl⟩ := Option.map_eq_some_iff.1 h
  refine ⟨?_, fun n => ?_, fun n => ?_, fun n => ?_⟩
  · unfold readableId at hi
    split at hi
    · cases hi
    · obtain ⟨s, hs, h⟩ := (bind_iff _ _ _).1 hi
      exact ⟨s, hs, (C71_i64 _ _).1 h⟩
  all_goals
    refine (bind_iff _ _ _).trans ?_
    simp only [C71_u32]

/-- A `nd` element refers to a node if and only if its `ref` is an integer. -/
theorem C71_nd (e : Str × List Xml.Attr) (z : Int64) :
    ndOf e = some z ↔ e.1 = str% "nd" ∧ ∃ s, attr (str% "ref") e.2 = some s ∧ IsInteger s z.toInt := by
  unfold ndOf
  by_cases h : e.1 = str% "nd"
  · rw [if_pos h]
    refine (bind_iff _ _ _).trans ?_
    simp only [C71_i64, h, true_and]
  · rw [if_neg h]
    simp [h]

/-- A `member` element is a member if and only if its `ref` is an integer and its type is known. -/
theorem C71_member (e : Str × List Xml.Attr) (t : OSMObjectType) (z : Int64) (r : Str) :
    memberOf e = some (t, z, r) ↔ e.1 = str% "member" ∧ (∃ s, attr (str% "ref") e.2 = some s ∧ IsInteger s z.toInt) ∧
      (∃ s, attr (str% "type") e.2 = some s ∧ OSMObjectType.fromStr s = some t) ∧ r = (attr (str% "role") e.2).getD [] := by
  unfold memberOf
  by_cases h : e.1 = str% "member"
  · rw [if_pos h]
    simp only [← C71_i64, ← bind_iff]
    generalize (attr (str% "ref") e.2).bind parseI64 = a
    generalize (attr (str% "type") e.2).bind OSMObjectType.fromStr = b
    cases a <;> cases b <;> simp [h]
    constructor
    · rintro ⟨rfl, rfl, rfl⟩; exact ⟨rfl, rfl, rfl⟩
    · rintro ⟨rfl, rfl, rfl⟩; exact ⟨rfl, rfl, rfl⟩
  · rw [if_neg h]
    simp [h]

/-- The numbers of a changeset (what is read is what `Describes` says by C52) are those its attributes state. -/
theorem C71_changesets {attrs : QuickXml.Attrs} {d : Cs.Data} (h : Cs.Describes attrs d) :
    (∃ s, Cs.HasAttr attrs (str% "id") s ∧ IsNatural s d.id.toNat) ∧
    (∀ z, d.uid = some z → ∃ s, Cs.HasAttr attrs (str% "uid") s ∧ IsInteger s z.toInt) ∧
    (∃ s, Cs.HasAttr attrs (str% "num_changes") s ∧ IsNatural s d.numChanges.toNat) ∧
    (∃ s, Cs.HasAttr attrs (str% "comments_count") s ∧ IsNatural s d.commentsCount.toNat) := by
  refine ⟨?_, ?_, ?_, ?_⟩
  · simpa only [C71_u32] using h.id
  · intro z hz
    have := h.uid
    rw [hz] at this
    simpa only [Cs.Opt, C71_i64] using this
  · simpa only [C71_u64] using h.numChanges
  · simpa only [C71_u64] using h.commentsCount

/-- Attributes that do not state numbers of the right size make a changeset malformed, and no others. -/
theorem C71_useless (a : QuickXml.Attr) :
    (Cs.Useless parseU32 a ↔ ¬ ∃ s n, Value.Bytes a.value s ∧ IsNatural s n ∧ n < 2 ^ 32) ∧
    (Cs.Useless parseI64 a ↔ ¬ ∃ s z, Value.Bytes a.value s ∧ IsInteger s z ∧ -2 ^ 63 ≤ z ∧ z < 2 ^ 63) ∧
    (Cs.Useless parseU64 a ↔ ¬ ∃ s n, Value.Bytes a.value s ∧ IsNatural s n ∧ n < 2 ^ 64) := by
  refine ⟨⟨?_, ?_⟩, ⟨?_, ?_⟩, ⟨?_, ?_⟩⟩
  · rintro h ⟨s, n, hb, hn, hl⟩
    have := (C71_u32 s (UInt32.ofNat n)).2 (by rw [UInt32.toNat_ofNat_of_lt' hl]; exact hn)
    rw [h s hb] at this
    cases this
  · intro h s hb
    cases hp : parseU32 s with
    | none => rfl
    | some n => exact absurd ⟨s, n.toNat, hb, (C71_u32 _ _).1 hp, n.toNat_lt⟩ h
  · rintro h ⟨s, z, hb, hn, hl, hu⟩
    have := (C71_i64 s (Int64.ofInt z)).2 (by rw [Int64.toInt_ofInt_of_le (by omega) (by omega)]; exact hn)
    rw [h s hb] at this
    cases this
  · intro h s hb
    cases hp : parseI64 s with
    | none => rfl
    | some n => exact absurd ⟨s, n.toInt, hb, (C71_i64 _ _).1 hp, Int64.le_toInt n, Int64.toInt_lt n⟩ h
  · rintro h ⟨s, n, hb, hn, hl⟩
    have := (C71_u64 s (UInt64.ofNat n)).2 (by rw [UInt64.toNat_ofNat_of_lt' hl]; exact hn)
    rw [h s hb] at this
    cases this
  · intro h s hb
    cases hp : parseU64 s with
    | none => rfl
    | some n => exact absurd ⟨s, n.toNat, hb, (C71_u64 _ _).1 hp, n.toNat_lt⟩ h

/-- The attributes of an element that stands for a way. -/
example : (readElem (.way, [⟨⟨none, str% "id"⟩, str% "-12"⟩, ⟨⟨none, str% "version"⟩, str% "3"⟩], .nil)).map
    (fun d => (d.view.id, d.view.version)) = some (-12, some 3) := by decide +kernel

end Osmio
