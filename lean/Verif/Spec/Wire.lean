import Verif.Lib.Utf8
/-!
# Specification: the protocol buffer wire format

From the published description of the format: base 128 varints, zigzag for `sint32` and `sint64`, two's complement for `int32` and `int64`
(always 64 bits), a key of field number and wire type before every value.
-/

namespace Osmio.Spec.Wire

/-- A base 128 varint: seven bits in each byte, least significant first; the high bit says that more follow. -/
def varint (n : Nat) : List UInt8 :=
  if n < 128 then [UInt8.ofNat n] else UInt8.ofNat (n % 128 + 128) :: varint (n / 128)
termination_by n
decreasing_by omega

/-- `int32`: the two's complement in 64 bits. -/
def int32 (x : Int32) : Nat := if 0 ≤ x.toInt then x.toInt.toNat else (x.toInt + 2 ^ 64).toNat
/-- `int64` -/
def int64 (x : Int64) : Nat := if 0 ≤ x.toInt then x.toInt.toNat else (x.toInt + 2 ^ 64).toNat
/-- `uint32` -/
def uint32 (x : UInt32) : Nat := x.toNat
/-- `bool` -/
def bool (x : Bool) : Nat := if x then 1 else 0
/-- `sint32`: 0, -1, 1, -2, 2, ... are 0, 1, 2, 3, 4, ... -/
def sint32 (x : Int32) : Nat := if 0 ≤ x.toInt then 2 * x.toInt.natAbs else 2 * x.toInt.natAbs - 1
/-- `sint64` -/
def sint64 (x : Int64) : Nat := if 0 ≤ x.toInt then 2 * x.toInt.natAbs else 2 * x.toInt.natAbs - 1
/-- An enum value is written like an `int32`. -/
def enum (x : Int32) : Nat := int32 x

/-- A field of wire type 0. -/
def number (field n : Nat) : List UInt8 := varint (field * 8 + 0) ++ varint n

/-- A field of wire type 2. -/
def delimited (field : Nat) (bs : List UInt8) : List UInt8 := varint (field * 8 + 2) ++ varint bs.length ++ bs

/-- A field that may be absent. -/
def opt {α : Type} (o : Option α) (w : α → List UInt8) : List UInt8 :=
  match o with
  | some a => w a
  | none => []

/-- A repeated field: one after the other. -/
def rep {α : Type} (l : List α) (w : α → List UInt8) : List UInt8 := (l.map w).flatten

/-- A packed repeated field: the numbers one after the other in one field, and nothing if there are none. -/
def packed {α : Type} (field : Nat) (num : α → Nat) (l : List α) : List UInt8 :=
  match l with
  | [] => []
  | a :: l => delimited field (((a :: l).map fun x => varint (num x)).flatten)

end Osmio.Spec.Wire
