import Verif.Lib.Utf8
import Verif.Lib.StrLit
/-!
# Library model: `std::io::Write` sinks that may fail

A sink records the bytes it accepted. Each `write!` asks the sink to accept a text; the sink follows a
schedule: for every request, either it accepts everything, or it accepts only the first `n` bytes (or all,
if there are fewer) and reports an error. A schedule that has run out accepts everything. Theorems quantify over all schedules.
-/

namespace Osmio

/-- A `Write` object. -/
structure Sink where
  out : List UInt8
  faults : List (Option Nat)
  deriving DecidableEq

/-- `src/lib.rs:693-700` -/
inductive OSMWriteError where
  | formatDoesntSupportHeaders
  | alreadyStarted
  | alreadyClosed
  | oplWrite
  | xmlWriteXmlError
  | xmlWriteIOError
  deriving DecidableEq, Repr

/-- The result of a call: a value, an error value, or a panic. -/
inductive Outcome (α : Type) where
  | ok (a : α)
  | err (e : OSMWriteError)
  | panic (p : Panic)
  deriving DecidableEq, Repr

/-- Code that changes a state of type `S`, may return an error with `?`, and may panic. -/
def M (S α : Type) := S → Outcome α × S

namespace M
/-- What follows a step. -/
def andThen {S α β : Type} (f : α → M S β) : Outcome α × S → Outcome β × S
  | (.ok a, s) => f a s
  | (.err e, s) => (.err e, s)
  | (.panic p, s) => (.panic p, s)

instance {S : Type} : Monad (M S) where
  pure a := fun s => (.ok a, s)
  bind m f := fun s => andThen f (m s)

/-- `return Err(e)` -/
def throw {S α : Type} (e : OSMWriteError) : M S α := fun s => (.err e, s)

/-- A panic. -/
def panic {S α : Type} (p : Panic) : M S α := fun s => (.panic p, s)

/-- `Option::unwrap` -/
def unwrap {S α : Type} : Option α → M S α
  | some a => pure a
  | none => M.panic .unwrap

/-- `if let Some(x) = o { f(x) }` -/
def whenSome {S α : Type} (o : Option α) (f : α → M S Unit) : M S Unit :=
  match o with
  | some a => f a
  | none => pure ()

/-- `for x in xs { f(x)? }` -/
def each {S α : Type} (f : α → M S Unit) : List α → M S Unit
  | [] => pure ()
  | x :: xs => do
    f x
    each f xs
end M

/-- `write!(w, ..)` of a text: `write_all` of its UTF-8 bytes; an I/O error becomes `XMLWriteIOError`
(`src/xml/mod.rs:365-369`). `write!` with arguments issues several `write_all` calls; as the schedule may
cut anywhere, one request for the whole text behaves the same. -/
def write (t : Str) : M Sink Unit := fun s =>
  match s.faults with
  | [] => (.ok (), ⟨s.out ++ Utf8.encode t, []⟩)
  | none :: fs => (.ok (), ⟨s.out ++ Utf8.encode t, fs⟩)
  | some n :: fs => (.err .xmlWriteIOError, ⟨s.out ++ (Utf8.encode t).take n, fs⟩)

end Osmio
