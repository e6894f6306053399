/-!
# Basic conventions of the model

* Rust strings are lists of Unicode scalar values (`Char`).
* A Rust panic is a value of `Panic`; code that can panic returns `Except Panic _`.
-/

namespace Osmio

/-- Rust `String`, `&str`, `SmolStr`, `Rc<str>`, `Arc<str>`: a sequence of Unicode scalar values. -/
abbrev Str := List Char

/-- Why a modelled Rust computation panicked. -/
inductive Panic where
  /-- `.unwrap()`/`.expect()` on `None` or on `Err` -/
  | unwrap
  /-- slice or vector index out of bounds -/
  | index
  /-- arithmetic overflow in a build with overflow checks -/
  | overflow
  /-- a failed `assert!`/`assert_eq!` -/
  | assertion
  /-- `unimplemented!()` or `todo!()` -/
  | unimplemented
  /-- `unreachable!()` -/
  | unreachable
  /-- `copy_from_slice` with different lengths -/
  | sliceLen
  /-- an allocation larger than `isize::MAX` bytes -/
  | capacity
  deriving DecidableEq, Repr

/-- A computation that may panic. -/
abbrev Res (α : Type) := Except Panic α

/-- `Option::unwrap` -/
def unwrap {α : Type} : Option α → Res α
  | some a => .ok a
  | none => .error .unwrap

end Osmio
