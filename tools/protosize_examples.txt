/-- A block with one dense node, one tag and metadata, and its size. -/
def exampleSized : PrimitiveBlock :=
  { stringtable := some { s := [[], [97], [98], [117]] }
    primitivegroup := [{ dense := some {
      id := [-5], lat := [10], lon := [-10], keysVals := [1, 2, 0]
      denseinfo := some { version := [1], timestamp := [1000], changeset := [7], uid := [9], userSid := [3] } } }] }

example : exampleSized.computeSize = 49 ∧ exampleSized.write.length = 49 ∧ exampleSized.writeToBytes = some exampleSized.write := by
  decide +kernel

/-- A message without a required field is not written. -/
example : ({ datasize := some 300 } : BlobHeader).writeToBytes = none := by decide +kernel

/-- Sizes at the boundaries of the varints. -/
example : ({ id := some 1, refs := List.replicate 127 1 } : Way).computeSize = 2 + 2 + 127 ∧
    ({ id := some 1, refs := List.replicate 128 1 } : Way).computeSize = 2 + 3 + 128 := by decide +kernel

