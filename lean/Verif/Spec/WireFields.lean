import Verif.Lib.Protobuf
/-!
# Specification: which bytes are fields

The wire format read from the other side: any byte string that is a sequence of fields, in any admissible form (numbers may be
written with more bytes than needed, and there may be groups). Of the library model only the type of field values
is used, and the constant for what becomes of numbers that are too large, about which nothing is known.
-/

namespace Osmio.Spec.Wire
open Proto (Val)

/-- Seven bits per byte, least significant first, a high bit on all bytes but the last. -/
inductive Base128 : List UInt8 → Nat → Prop where
  | last {b} : b.toNat < 128 → Base128 [b] b.toNat
  | more {b bs n} : 128 ≤ b.toNat → Base128 bs n → Base128 (b :: bs) (b.toNat - 128 + 128 * n)

/-- A number of 64 bits in at most ten bytes. -/
def Varint (bs : List UInt8) (n : Nat) : Prop := Base128 bs n ∧ bs.length ≤ 10 ∧ n < 2 ^ 64

/-- A number where 32 bits are expected: itself if it fits. Otherwise it is not said what becomes of it. -/
def As32 (n m : Nat) : Prop := (n < 2 ^ 32 ∧ m = n) ∨ (2 ^ 32 ≤ n ∧ Proto.Wide.u32 n = some m)

/-- Field number and wire type in one number of 32 bits; there is no field 0. -/
def Key (bs : List UInt8) (field type : Nat) : Prop :=
  ∃ n, Varint bs n ∧ As32 n (8 * field + type) ∧ type < 8 ∧ field ≠ 0

/-- A length: a number of 32 bits. -/
def Length (bs : List UInt8) (n : Nat) : Prop := ∃ m, Varint bs m ∧ As32 m n

/-- A value that is not a group, after a key of this wire type. -/
inductive Plain : Nat → List UInt8 → Val → Prop where
  | varint {bs n} : Varint bs n → Plain 0 bs (.varint n)
  | fixed64 {bs} : bs.length = 8 → Plain 1 bs (.fixed64 bs)
  | len {l bs} : Length l bs.length → Plain 2 (l ++ bs) (.len bs)
  | fixed32 {bs} : bs.length = 4 → Plain 5 bs (.fixed32 bs)

/-- The inside of a group with its end. -/
inductive Group : List UInt8 → Prop where
  | stop {k field} : Key k field 4 → Group k
  | plain {k field type v x r} : Key k field type → Plain type v x → Group r → Group (k ++ (v ++ r))
  | group {k field g r} : Key k field 3 → Group g → Group r → Group (k ++ (g ++ r))

/-- One field: number, wire type and value. -/
inductive OneField : List UInt8 → Nat → Nat → Val → Prop where
  | plain {k field type v x} : Key k field type → Plain type v x → OneField (k ++ v) field type x
  | group {k field g} : Key k field 3 → Group g → OneField (k ++ g) field 3 .group

/-- The fields of a message. -/
inductive Fields : List UInt8 → List Proto.Field → Prop where
  | nil : Fields [] []
  | cons {b field type x r fs} : OneField b field type x → Fields r fs → Fields (b ++ r) (⟨8 * field + type, x⟩ :: fs)

/-- Numbers one after the other. -/
inductive Numbers : List UInt8 → List Nat → Prop where
  | nil : Numbers [] []
  | cons {b n r ns} : Varint b n → Numbers r ns → Numbers (b ++ r) (n :: ns)

end Osmio.Spec.Wire
