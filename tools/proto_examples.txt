/-- The usual example of a varint: 300 is `AC 02`. -/
example : Spec.Wire.varint 300 = [0xAC, 0x02] := by rw [← writeVarint_eq (by decide)]; decide +kernel

/-- -1 takes ten bytes as `int32`, and one as `sint32`. -/
example : Spec.Wire.varint (Spec.Wire.int32 (-1)) = [0xFF, 0xFF, 0xFF, 0xFF, 0xFF, 0xFF, 0xFF, 0xFF, 0xFF, 0x01] ∧
    Spec.Wire.varint (Spec.Wire.sint32 (-1)) = [0x01] := by
  constructor
  · rw [← writeVarint_eq (by decide)]; decide +kernel
  · rw [← writeVarint_eq (by decide)]; decide +kernel

/-- A blob header as it is in real files. -/
def exampleHeader : BlobHeader := { type_ := some (str% "OSMData"), datasize := some 300 }

example : Spec.Pbf.hasBlobHeader exampleHeader := ⟨by decide, by decide⟩

/-- Its bytes (as any other protocol buffer library would write them) are the specified ones. -/
example : Spec.Pbf.encodeBlobHeader exampleHeader = [0x0A, 7, 79, 83, 77, 68, 97, 116, 97, 0x18, 0xAC, 0x02] := by
  have h : exampleHeader.write = [0x0A, 7, 79, 83, 77, 68, 97, 116, 97, 0x18, 0xAC, 0x02] := by decide +kernel
  have h2 : (Spec.Pbf.encodeBlobHeader exampleHeader).length ≤ 2147483647 := by
    simp only [Spec.Pbf.encodeBlobHeader, Spec.Wire.opt, Spec.Wire.delimited, Spec.Wire.number, exampleHeader]
    repeat rw [← writeVarint_eq (by decide)]
    decide +kernel
  rw [← BlobHeader.write_eq _ h2, h]

example : BlobHeader.parseFromBytes [0x0A, 7, 79, 83, 77, 68, 97, 116, 97, 0x18, 0xAC, 0x02] = some exampleHeader := by
  decide +kernel

/-- The hypotheses of the theorems on unknown fields, order and packing hold for real bytes: an unknown field 9 between `type` and
`datasize`. -/
example : readFields [0x0A, 7, 79, 83, 77, 68, 97, 116, 97] = some [⟨10, .len [79, 83, 77, 68, 97, 116, 97]⟩] ∧
    readField [0x48, 0x05] = some (⟨72, .varint 5⟩, []) ∧ 72 / 8 ∉ [1, 2, 3] ∧
    BlobHeader.parseFromBytes [0x0A, 7, 79, 83, 77, 68, 97, 116, 97, 0x48, 0x05, 0x18, 0xAC, 0x02] = some exampleHeader := by
  decide +kernel

/-- A block with one dense node, one tag and metadata. -/
def exampleBlock : PrimitiveBlock :=
  { stringtable := some { s := [[], [97], [98], [117]] }
    primitivegroup := [{ dense := some {
      id := [-5], lat := [10], lon := [-10], keysVals := [1, 2, 0]
      denseinfo := some { version := [1], timestamp := [1000], changeset := [7], uid := [9], userSid := [3] } } }] }

example : Spec.Pbf.hasPrimitiveBlock exampleBlock := by
  refine ⟨by decide, fun v h => trivial, fun v h => ?_⟩
  simp only [exampleBlock, List.mem_singleton] at h
  subst h
  exact ⟨fun v h => absurd h (List.not_mem_nil), fun v h => fun v h => trivial, fun v h => absurd h (List.not_mem_nil),
    fun v h => absurd h (List.not_mem_nil), fun v h => absurd h (List.not_mem_nil)⟩

example : PrimitiveBlock.parseFromBytes exampleBlock.write = some exampleBlock := by decide +kernel

/-- Required fields are checked: without a string table there is no block. -/
theorem C50_required_checked (m : PrimitiveBlock) (bs : Bytes) (h : PrimitiveBlock.parseFromBytes bs = some m) :
    m.stringtable ≠ none := by
  intro e
  unfold PrimitiveBlock.parseFromBytes at h
  obtain ⟨m', _, h2⟩ := Option.bind_eq_some_iff.1 h
  split at h2
  · rename_i h3
    cases h2
    rw [PrimitiveBlock.isInitialized, e] at h3
    cases h3
  · cases h2

