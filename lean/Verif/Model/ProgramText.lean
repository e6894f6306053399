import Verif.Lib.Separator
import Verif.Lib.StrLit
import Verif.Model.Programs
/-!
# Model: the text that `osmio-pbf-read-speed` prints
-/

namespace Osmio.Programs

/-- `src/bin/osmio-pbf-read-speed.rs:28` and `41`: milliseconds as seconds. -/
def durationSec (millis : Nat) : F64 := (F64.ofInt millis).div (F64.ofInt 1000)

/-- `src/bin/osmio-pbf-read-speed.rs:33` and `46`: `((num_objects as f64) / duration_sec).separated_string_with_fixed_place(3)` -/
def rate (p : Progress) : Str := separatedFixed 3 ((F64.ofInt p.objects.toNat).div (durationSec p.millis))

/-- `src/bin/osmio-pbf-read-speed.rs:29-34`: a line on the way. -/
def Progress.line (p : Progress) : Str :=
  str% "Processed " ++ separatedString p.objects.toNat ++ str% " objects so far. Total time " ++ dispF64 (durationSec p.millis) ++ str% " s. " ++
    rate p ++ str% " objects/sec" ++ ['\n']

/-- `src/bin/osmio-pbf-read-speed.rs:42-47`: the last line, after an empty one. -/
def Progress.lastLine (p : Progress) : Str :=
  ['\n'] ++ str% "Processed " ++ separatedString p.objects.toNat ++ str% " objects in " ++ dispF64 (durationSec p.millis) ++ str% " s. " ++
    rate p ++ str% " objects/sec" ++ ['\n']

/-- What the program has printed when it ends, with the lines on the way and the last line, if there is one; `src/bin/osmio-pbf-read-speed.rs:23-47`. -/
def speedOutput (printed : List Progress) (last : Option Progress) : Str :=
  printed.flatMap Progress.line ++
    match last with
    | none => []
    | some p => p.lastLine

end Osmio.Programs
