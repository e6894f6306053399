import Mathlib.Data.List.Forall2
import Verif.Spec.Wire
import Verif.Spec.WireFields
/-!
# Specification: what the fields of a message say

From the published description of the format, for a message that is given as a list of fields: a field that may occur once has its last
value, a field that may be repeated has all values in order, and numbers that are repeated may come one by one or many at a time. What
has another number or another wire type says nothing. (The published description would have a message inside that is given twice put together
from both; the library takes the last one, and so do we.) Where a number does not fit it is not said what becomes of it: there, and only
there, the relations below refer to the library.
-/

namespace Osmio.Spec.Wire
open Proto (Val Field)

/-! ## Numbers -/

/-- `int32`, and enum values: two's complement in 64 bits. -/
def IsInt32 (n : Nat) (x : Int32) : Prop :=
  if n < 2 ^ 31 ∨ 2 ^ 64 - 2 ^ 31 ≤ n then int32 x = n else Proto.Wide.i32 n = some x
/-- `int64` -/
def IsInt64 (n : Nat) (x : Int64) : Prop := int64 x = n
/-- `uint32` -/
def IsUInt32 (n : Nat) (x : UInt32) : Prop := if n < 2 ^ 32 then uint32 x = n else Proto.asUInt32 n = some x
/-- `sint32` -/
def IsSint32 (n : Nat) (x : Int32) : Prop := if n < 2 ^ 32 then sint32 x = n else Proto.zigZag32 n = some x
/-- `sint64` -/
def IsSint64 (n : Nat) (x : Int64) : Prop := sint64 x = n
/-- `bool`: every number but 0 is `true`. -/
def IsBool (n : Nat) (x : Bool) : Prop := if n < 2 ^ 32 then (x = true ↔ n ≠ 0) else Proto.Wide.bool n = some x

/-! ## Values -/

/-- A number. -/
def AsNumber {α : Type} (R : Nat → α → Prop) (v : Val) (a : α) : Prop := ∃ n, v = .varint n ∧ R n a
/-- Bytes. -/
def AsBytes (v : Val) (a : List UInt8) : Prop := v = .len a
/-- Text, in UTF-8. -/
def AsText (v : Val) (a : Str) : Prop := v = .len (Utf8.encode a)
/-- Another message, inside. -/
def AsMessage {α : Type} (R : List UInt8 → α → Prop) (v : Val) (a : α) : Prop := ∃ bs, v = .len bs ∧ R bs a

/-! ## Fields -/

/-- The values of the field with this number, where the wire type is the right one, in order. -/
def values (number type : Nat) (fs : List Field) : List Val := (fs.filter fun f => f.tag = 8 * number + type).map (·.val)

/-- A field of numbers that may occur once: the last value. -/
def SingleNumber {α : Type} (number : Nat) (R : Nat → α → Prop) (fs : List Field) (o : Option α) : Prop :=
  ∃ l, List.Forall₂ (AsNumber R) (values number 0 fs) l ∧ o = l.getLast?
/-- A field of anything with a length that may occur once: the last value. -/
def Single {α : Type} (number : Nat) (R : Val → α → Prop) (fs : List Field) (o : Option α) : Prop :=
  ∃ l, List.Forall₂ R (values number 2 fs) l ∧ o = l.getLast?
/-- A field that may be repeated: all values. -/
def Many {α : Type} (number : Nat) (R : Val → α → Prop) (fs : List Field) (l : List α) : Prop :=
  List.Forall₂ R (values number 2 fs) l

/-- One occurrence of a field of repeated numbers: one number, or many of them packed together. -/
def Occurrence {α : Type} (number : Nat) (R : Nat → α → Prop) (f : Field) (l : List α) : Prop :=
  (f.tag = 8 * number + 0 ∧ ∃ a, AsNumber R f.val a ∧ l = [a]) ∨
  (f.tag = 8 * number + 2 ∧ ∃ bs ns, f.val = .len bs ∧ Numbers bs ns ∧ List.Forall₂ R ns l)
/-- A field of repeated numbers: those of all occurrences, in order. -/
def ManyNumbers {α : Type} (number : Nat) (R : Nat → α → Prop) (fs : List Field) (l : List α) : Prop :=
  ∃ parts, List.Forall₂ (Occurrence number R) (fs.filter fun f => f.tag = 8 * number + 0 ∨ f.tag = 8 * number + 2) parts ∧ l = parts.flatten

end Osmio.Spec.Wire
