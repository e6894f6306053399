/-- A way, with references 3 and 5 (as differences) packed, then the difference 1 by itself, a key in between, an `info` and the id twice:
what its fields say, from the specification alone. -/
example : Spec.Pbf.saysWay
    [⟨8, .varint 7⟩, ⟨66, .len [6, 4]⟩, ⟨18, .len [9]⟩, ⟨64, .varint 2⟩, ⟨34, .len [8, 3]⟩, ⟨8, .varint 300⟩]
    { id := some 300, keys := [9], refs := [3, 2, 1], info := some { version := some 3 } } := by
  have one : ∀ b : UInt8, b.toNat < 128 → Spec.Wire.Varint [b] b.toNat := fun b hb => ⟨.last hb, by simp, by omega⟩
  refine ⟨⟨[7, 300], .cons ⟨7, rfl, show Spec.Wire.int64 7 = 7 by decide +kernel⟩ (.cons ⟨300, rfl, show Spec.Wire.int64 300 = 300 by decide +kernel⟩ .nil), rfl⟩,
    ⟨[[9]], .cons (.inr ⟨rfl, [9], [9], rfl, .cons (one 9 (by decide)) .nil, .cons ?_ .nil⟩) .nil, rfl⟩,
    ⟨[], .nil, rfl⟩,
    ⟨[{ version := some 3 }], .cons ⟨[8, 3], rfl, [⟨8 * 1 + 0, .varint 3⟩], ?_, ?_⟩ .nil, rfl⟩,
    ⟨[[3, 2], [1]], .cons (.inr ⟨rfl, [6, 4], [6, 4], rfl, .cons (one 6 (by decide)) (.cons (one 4 (by decide)) .nil), ?_⟩)
      (.cons (.inl ⟨rfl, 1, ⟨2, rfl, ?_⟩, rfl⟩) .nil), rfl⟩⟩
  · unfold Spec.Wire.IsUInt32; decide +kernel
  · exact .cons (b := [8, 3]) (.plain (k := [8]) ⟨8, one 8 (by decide), .inl ⟨by decide, rfl⟩, by decide, by decide⟩ (.varint (one 3 (by decide)))) .nil
  · exact ⟨⟨[3], .cons ⟨3, rfl, by unfold Spec.Wire.IsInt32; decide +kernel⟩ .nil, rfl⟩, ⟨[], .nil, rfl⟩, ⟨[], .nil, rfl⟩, ⟨[], .nil, rfl⟩, ⟨[], .nil, rfl⟩,
      ⟨[], .nil, rfl⟩⟩
  · exact .cons (show Spec.Wire.sint64 3 = 6 by decide +kernel) (.cons (show Spec.Wire.sint64 2 = 4 by decide +kernel) .nil)
  · show Spec.Wire.sint64 1 = 2; decide +kernel

/-- And what is read from the bytes. -/
example : Way.parseFromBytes [8, 7, 66, 2, 6, 4, 18, 1, 9, 64, 2, 34, 2, 8, 3, 8, 172, 2] =
    some { id := some 300, keys := [9], refs := [3, 2, 1], info := some { version := some 3 } } := by decide +kernel

/-- A message inside that is given twice is the last one; the parts of the first are gone. -/
example : Way.parseFromBytes [8, 7, 34, 2, 8, 3, 34, 2, 32, 5] = some { id := some 7, info := some { uid := some 5 } } := by decide +kernel

/-- A field with another wire type says nothing; then the id is missing, and there is no way. -/
example : Spec.Pbf.saysWay [⟨10, .len [7]⟩] {} ∧ ¬ Spec.Pbf.hasWay {} ∧ Way.parseFromBytes [10, 1, 7] = none :=
  ⟨⟨⟨[], .nil, rfl⟩, ⟨[], .nil, rfl⟩, ⟨[], .nil, rfl⟩, ⟨[], .nil, rfl⟩, ⟨[], .nil, rfl⟩⟩, fun h => h.1 rfl, by decide +kernel⟩

/-- Bytes that are not fields (the length is too large) say nothing at all. -/
example : ¬ ∃ m, Spec.Pbf.DecodesWay [8, 7, 66, 3, 6, 4] m := by
  rintro ⟨m, h⟩
  have e : parse Way.merge {} [8, 7, 66, 3, 6, 4] = none := by decide +kernel
  rw [← Way.parse_decodes, e] at h
  cases h

