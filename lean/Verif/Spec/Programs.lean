import Verif.Model.Programs
/-!
# Specification: what the two programs print
-/

namespace Osmio.Spec.Programs
open Osmio.Programs

/-- How a program ends whose loop over a reader ended in this way. -/
def ended : Option Panic → Ended
  | none => .well
  | some p => .panic p

/-- The lines of `osmio-pbf-read-speed` at these checkpoints: before each millionth object the program looks at the clock, for checkpoint `j` it
is the `j + 1`-th time, and prints a line if the line before, or else the start, is 1001 milliseconds ago or more. The clock shows nanoseconds,
the line whole milliseconds. -/
def lines (clock : Nat → Nat) : (last : Nat) → (checkpoints : List Nat) → List Progress
  | _, [] => []
  | last, j :: js =>
    if last + 1001 * 1000000 ≤ clock (j + 1) then ⟨UInt64.ofNat (j * 1000000), (clock (j + 1) - clock 0) / 1000000⟩ :: lines clock (clock (j + 1)) js
    else lines clock last js

/-- The checkpoints on the way to `n` objects: one before each of the objects 1, 1000001, 2000001, … -/
def checkpoints (n : Nat) : Nat := (n + 999999) / 1000000

end Osmio.Spec.Programs
