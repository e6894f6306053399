import Verif.Lib.Basic
/-!
# Library model: Rust integers, indexing, byte sources

Arithmetic on `i32` and `i64` that overflows panics in a debug build and wraps in a release build (`overflow-checks` follows
`debug-assertions` by default).
-/

namespace Osmio

/-- How the program was compiled. -/
inductive Build where
  | debug
  | release
  deriving DecidableEq

/-- A result of arithmetic as `i64`. -/
def Build.i64 (b : Build) (x : Int) : Res Int64 :=
  if -9223372036854775808 ≤ x ∧ x ≤ 9223372036854775807 then .ok (Int64.ofInt x)
  else match b with
    | .debug => .error .overflow
    | .release => .ok (Int64.ofInt x)

/-- A result of arithmetic as `i32`. -/
def Build.i32 (b : Build) (x : Int) : Res Int32 :=
  if -2147483648 ≤ x ∧ x ≤ 2147483647 then .ok (Int32.ofInt x)
  else match b with
    | .debug => .error .overflow
    | .release => .ok (Int32.ofInt x)

/-- `i32::try_from(x).expect(..)` for an `i64`. -/
def expectI32 (x : Int64) : Res Int32 :=
  if -2147483648 ≤ x.toInt ∧ x.toInt ≤ 2147483647 then .ok (Int32.ofInt x.toInt) else .error .unwrap

/-- `l[i]` -/
def index {α : Type} (l : List α) (i : Nat) : Res α :=
  match l[i]? with
  | some a => .ok a
  | none => .error .index

/-- `l[i as usize]` for an `i32` (64-bit `usize`: a negative number becomes larger than any length). -/
def indexI32 {α : Type} (l : List α) (i : Int32) : Res α :=
  if i.toInt < 0 then .error .index else index l i.toInt.toNat

/-- Whether `Iterator::zip`, when one of its iterators has ended, still computes an element of the first one. The standard library leaves
this open: it depends on the kinds of iterators, on the numbers of elements they have left (`left`), and on whether the zip is consumed as
a whole (`whole`) or element by element. Nothing is assumed of it. -/
opaque zipPeeks (whole : Bool) (left : List Nat) : Bool

/-- What `zip` does after its last pair: nothing, or it computes one more element of its first iterator (which may panic) and drops it. -/
def surplus {α β γ : Type} (f : α → Res β) (peeks : Bool) : List α → Res (List γ)
  | a :: _ => if peeks then (f a).map fun _ => [] else .ok []
  | [] => .ok []

/-- A source of bytes (`std::io::Read`): what it will give. `none` is an I/O error. -/
abbrev Source := List (Option UInt8)

/-- The bytes before the first error, and whether there is none. -/
def Source.before : Source → List UInt8 × Bool
  | [] => ([], true)
  | none :: _ => ([], false)
  | some b :: r => (b :: (Source.before r).1, (Source.before r).2)

/-- `Read::read_exact` on a buffer of the given size: the bytes, or `none` for an error (of the source, or its end), and
what the source will give next. -/
def readExact : Nat → Source → Option (List UInt8) × Source
  | 0, s => (some [], s)
  | _ + 1, [] => (none, [])
  | _ + 1, none :: s => (none, s)
  | n + 1, some b :: s => ((readExact n s).1.map (b :: ·), (readExact n s).2)

/-- `u32::from_be_bytes` -/
def fromBe (bs : List UInt8) : Nat := bs.foldl (fun n b => 256 * n + b.toNat) 0

/-- Call a function on each element until it panics: the results, and the panic. -/
def runAll {α β : Type} (f : α → Res β) : List α → List β × Option Panic
  | [] => ([], none)
  | a :: l =>
    match f a with
    | .ok b => (b :: (runAll f l).1, (runAll f l).2)
    | .error p => ([], some p)

end Osmio
