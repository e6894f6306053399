import Verif.Model.Open
/-!
# Model: the programs `osmio-osc-debug` and `osmio-pbf-read-speed`

A loop runs at most so many rounds, so that it is a function; `none` if it is not over by then. What is printed is given as a list of the
values printed: how `{:#?}` shows an object is not modelled; `Model/ProgramText.lean` has the text of the numbers.
-/

namespace Osmio.Programs

/-- How a program ends; `src/bin/osmio-osc-debug.rs:9-17`, `src/bin/osmio-pbf-read-speed.rs:14-48`. -/
inductive Ended where
  | well
  | panic (p : Panic)

/-- `src/bin/osmio-osc-debug.rs:14-16`: the loop, with what has been printed so far. -/
def debugLoop : Nat → List (Option Xml.XmlEvent) → List StringOSMObj → Option (List StringOSMObj × Ended)
  | 0, _, _ => none
  | n + 1, r, printed =>
    match OSCReader.next r with
    | (.ok none, _) => some (printed, .well)
    | (.ok (some o), r) => debugLoop n r (printed ++ [o])
    | (.error p, _) => some (printed, .panic p)

/-- `src/bin/osmio-osc-debug.rs:9-17`, `main`: what is printed and how it ends. -/
def oscDebug (norm : Xml.Config) (files : Files) (args : List FileName) (rounds : Nat) : Option (List StringOSMObj × Ended) :=
  match args[1]? with
  | none => some ([], .panic .unwrap)
  | some name =>
    match files name with
    | none => some ([], .panic .unwrap)
    | some f => debugLoop rounds (OSCReader.over norm f) []

/-- A line of `osmio-pbf-read-speed`: objects so far and milliseconds since the start; `src/bin/osmio-pbf-read-speed.rs:29-34` and `42-47`. -/
structure Progress where
  objects : UInt64
  millis : Nat

/-- `Duration::as_millis`, of nanoseconds; `src/bin/osmio-pbf-read-speed.rs:27`, `28` and `41`. -/
def asMillis (nanos : Nat) : Nat := nanos / 1000000

/-- `src/bin/osmio-pbf-read-speed.rs:23-39`: the loop. `clock` gives the nanoseconds that each call of `Instant::now` returns, `t` is the
number of such calls so far. Differences of instants are not negative; `as_millis` drops what is less than a millisecond. -/
def speedLoop (zlib : Proto.Bytes → Option Proto.Bytes) (b : Build) (clock : Nat → Nat) :
    Nat → StringPbf.PBFReader → (numObjects : UInt64) → (lastPrint : Nat) → (t : Nat) → List Progress →
      Option (List Progress × Except Panic (UInt64 × Nat))
  | 0, _, _, _, _, _ => none
  | n + 1, r, numObjects, lastPrint, t, printed =>
    match StringPbf.PBFReader.next zlib b r with
    | (.ok none, _) => some (printed, .ok (numObjects, t))
    | (.error p, _) => some (printed, .error p)
    | (.ok (some _), r) =>
      if numObjects % 1000000 = 0 then
        if asMillis (clock t - lastPrint) > 1000 then
          speedLoop zlib b clock n r (numObjects + 1) (clock t) (t + 1) (printed ++ [⟨numObjects, asMillis (clock t - clock 0)⟩])
        else speedLoop zlib b clock n r (numObjects + 1) lastPrint (t + 1) printed
      else speedLoop zlib b clock n r (numObjects + 1) lastPrint t printed

/-- `src/bin/osmio-pbf-read-speed.rs:14-48`, `main`: the lines on the way, the last line, and how it ends. -/
def pbfReadSpeed (zlib : Proto.Bytes → Option Proto.Bytes) (b : Build) (clock : Nat → Nat) (files : Files) (args : List FileName)
    (rounds : Nat) : Option (List Progress × Option Progress × Ended) :=
  match args[1]? with
  | none => some ([], none, .panic .unwrap)
  | some name =>
    match files name with
    | none => some ([], none, .panic .unwrap)
    | some f =>
      match speedLoop zlib b clock rounds (StringPbf.PBFReader.new f) 0 (clock 0) 1 [] with
      | none => none
      | some (printed, .error p) => some (printed, none, .panic p)
      | some (printed, .ok (numObjects, t)) => some (printed, some ⟨numObjects, asMillis (clock t - clock 0)⟩, .well)

end Osmio.Programs
