import Verif.Lib.Utf8
/-!
# Library model: the wire format, as read and written by `rust-protobuf` 3.7.2

Reading is modelled in two steps: a byte string is cut into fields (`CodedInputStream::read_raw_tag_or_eof` and the reading of a
value according to the wire type of the tag), and a message merges its fields one by one (`merge_from`, in
`Verif.Model.Proto`). The library interleaves the two; the results are the same, as the bytes of a value depend on its tag only. `none` is an error
of the library (all of them make osmio panic).

What happens to a number that is read into 32 bits and does not fit is left open (`Wide`). Simplification: the depth limit for nested
messages (100; the messages here are nested five deep) and for groups is not modelled.
-/

namespace Osmio.Proto

/-- Bytes. -/
abbrev Bytes := List UInt8

/-- `CodedInputStream::read_raw_varint64`: base 128, least significant group first, at most ten bytes, of which the tenth (`i = 9`)
has one bit. -/
def readVarintAt (i : Nat) : Bytes → Option (Nat × Bytes)
  | [] => none
  | b :: r =>
    if i = 9 then (if b.toNat ≤ 1 then some (b.toNat, r) else none)
    else if b.toNat < 128 then some (b.toNat, r)
    else (readVarintAt (i + 1) r).map fun p => (b.toNat - 128 + 128 * p.1, p.2)

/-- `CodedInputStream::read_raw_varint64` -/
def readVarint (bs : Bytes) : Option (Nat × Bytes) := readVarintAt 0 bs

/-- What becomes of a number that does not fit where `u32` is expected: it may be an error or be cut off, or anything else. Nothing is known
about this constant (it is no definition that proofs could unfold), so theorems hold whatever it is. -/
opaque Wide.u32 : Nat → Option Nat
/-- The same for `i32`. -/
opaque Wide.i32 : Nat → Option Int32
/-- The same for `bool`. -/
opaque Wide.bool : Nat → Option Bool

/-- A number as `u32` -/
def narrow (n : Nat) : Option Nat := if n < 2 ^ 32 then some n else Wide.u32 n

/-- `read_raw_varint32` -/
def readVarint32 (bs : Bytes) : Option (Nat × Bytes) := (readVarint bs).bind fun p => (narrow p.1).map (·, p.2)

/-- A number of bytes (`read_raw_bytes`, `skip_raw_bytes`). -/
def readRaw (n : Nat) (bs : Bytes) : Option (Bytes × Bytes) :=
  if n ≤ bs.length then some (bs.take n, bs.drop n) else none

/-- The value of a field, by wire type. -/
inductive Val where
  | varint (n : Nat)
  | fixed64 (bs : Bytes)
  | len (bs : Bytes)
  | group
  | fixed32 (bs : Bytes)
  deriving DecidableEq

/-- A field: its tag (field number and wire type in one number, as in the generated code) and value. -/
structure Field where
  tag : Nat
  val : Val
  deriving DecidableEq

/-- `skip_group` and `skip_field`: the bytes after the end of a group. The first argument bounds the number of tags. -/
def skipGroup : Nat → Bytes → Option Bytes
  | 0, _ => none
  | n + 1, bs =>
    match readVarint32 bs with
    | none => none
    | some (tag, r) =>
      if tag / 8 = 0 then none
      else if tag % 8 = 0 then (readVarint r).bind fun p => skipGroup n p.2
      else if tag % 8 = 1 then (readRaw 8 r).bind fun p => skipGroup n p.2
      else if tag % 8 = 2 then (readVarint32 r).bind fun p => (readRaw p.1 p.2).bind fun q => skipGroup n q.2
      else if tag % 8 = 3 then (skipGroup n r).bind (skipGroup n)
      else if tag % 8 = 4 then some r
      else if tag % 8 = 5 then (readRaw 4 r).bind fun p => skipGroup n p.2
      else none

/-- The value after a tag. -/
def readVal (tag : Nat) (r : Bytes) : Option (Val × Bytes) :=
  if tag / 8 = 0 then none
  else if tag % 8 = 0 then (readVarint r).map fun p => (.varint p.1, p.2)
  else if tag % 8 = 1 then (readRaw 8 r).map fun p => (.fixed64 p.1, p.2)
  else if tag % 8 = 2 then (readVarint32 r).bind fun p => (readRaw p.1 p.2).map fun q => (.len q.1, q.2)
  else if tag % 8 = 3 then (skipGroup (r.length + 1) r).map fun r => (.group, r)
  else if tag % 8 = 5 then (readRaw 4 r).map fun p => (.fixed32 p.1, p.2)
  else none

/-- One field. -/
def readField (bs : Bytes) : Option (Field × Bytes) :=
  (readVarint32 bs).bind fun p => (readVal p.1 p.2).map fun q => (⟨p.1, q.1⟩, q.2)

/-- The fields of a message, to the end of the bytes. The first argument bounds their number. -/
def readFieldsAux : Nat → Bytes → Option (List Field)
  | _, [] => some []
  | 0, _ :: _ => none
  | n + 1, b :: r => (readField (b :: r)).bind fun p => (readFieldsAux n p.2).map (p.1 :: ·)

/-- The fields of a message. -/
def readFields (bs : Bytes) : Option (List Field) := readFieldsAux bs.length bs

/-- Merge fields one by one. -/
def mergeAll {M : Type} (merge : M → Field → Option M) : M → List Field → Option M
  | m, [] => some m
  | m, f :: fs => (merge m f).bind fun m => mergeAll merge m fs

/-- `merge_from` on a new message. -/
def parse {M : Type} (merge : M → Field → Option M) (new : M) (bs : Bytes) : Option M :=
  (readFields bs).bind (mergeAll merge new)

/-- The varint of a field. -/
def Field.varint (f : Field) : Option Nat := match f.val with | .varint n => some n | _ => none

/-- `read_bytes`, `Message` fields and packed fields. -/
def Field.bytes (f : Field) : Option Bytes := match f.val with | .len b => some b | _ => none

/-- `read_int32`, `read_enum_or_unknown`: the number is one of 64 bits in two's complement. -/
def asInt32 (n : Nat) : Option Int32 :=
  if n < 2 ^ 31 ∨ 2 ^ 64 - 2 ^ 31 ≤ n then some (Int32.ofInt (n : Int)) else Wide.i32 n
/-- `read_int64` -/
def asInt64 (n : Nat) : Option Int64 := some (Int64.ofInt (n : Int))
/-- `read_uint32` -/
def asUInt32 (n : Nat) : Option UInt32 := (narrow n).map UInt32.ofNat
/-- `decode_zig_zag_32`, `decode_zig_zag_64` -/
def unZigZag (n : Nat) : Int := if n % 2 = 0 then (n / 2 : Nat) else -((n / 2 : Nat) : Int) - 1
/-- `read_sint32` -/
def zigZag32 (n : Nat) : Option Int32 := (narrow n).map fun n => Int32.ofInt (unZigZag n)
/-- `read_sint64` -/
def zigZag64 (n : Nat) : Option Int64 := some (Int64.ofInt (unZigZag n))
/-- `read_bool` -/
def asBool (n : Nat) : Option Bool := if n < 2 ^ 32 then some (n != 0) else Wide.bool n

/-- `read_repeated_packed_*_into`: numbers to the end of the bytes. -/
def readPackedAux {α : Type} (dec : Nat → Option α) : Nat → Bytes → Option (List α)
  | _, [] => some []
  | 0, _ :: _ => none
  | n + 1, b :: r => (readVarint (b :: r)).bind fun p => (dec p.1).bind fun a => (readPackedAux dec n p.2).map (a :: ·)

/-- `read_repeated_packed_*_into` -/
def readPacked {α : Type} (dec : Nat → Option α) (bs : Bytes) : Option (List α) := readPackedAux dec bs.length bs

/-- `read_int32` and so on. -/
def Field.num {α : Type} (f : Field) (dec : Nat → Option α) : Option α := f.varint.bind dec
/-- A packed field. -/
def Field.packed {α : Type} (f : Field) (dec : Nat → Option α) : Option (List α) := f.bytes.bind (readPacked dec)
/-- `read_string` -/
def Field.string (f : Field) : Option Str := f.bytes.bind Utf8.decode
/-- `read_message`, `read_singular_message_into_field` (which replaces an earlier value). -/
def Field.message {M : Type} (f : Field) (merge : M → Field → Option M) (new : M) : Option M :=
  f.bytes.bind (parse merge new)

/-! ## Writing -/

/-- `write_raw_varint64`, with a bound on the number of bytes after the first. -/
def writeVarintAux : Nat → Nat → Bytes
  | 0, n => [UInt8.ofNat n]
  | k + 1, n => if n < 128 then [UInt8.ofNat n] else UInt8.ofNat (n % 128 + 128) :: writeVarintAux k (n / 128)

/-- `write_raw_varint64` -/
def writeVarint (n : Nat) : Bytes := writeVarintAux 9 n

/-- `as u64` of a signed number (for `i32` after sign extension). -/
def unsigned64 (x : Int) : Nat := (x % 2 ^ 64).toNat

/-- `encode_zig_zag_32`, `encode_zig_zag_64` -/
def zigZag (x : Int) : Nat := if 0 ≤ x then (2 * x).toNat else (-2 * x - 1).toNat

/-- A number field (`write_int32` and so on), given as the number that is written. -/
def writeNum (field : Nat) (n : Nat) : Bytes := writeVarint (8 * field) ++ writeVarint n

/-- `write_bytes`, `write_string`, `write_message_field_with_cached_size`, packed fields: the length is a 32-bit number. -/
def writeLen (field : Nat) (bs : Bytes) : Bytes :=
  writeVarint (8 * field + 2) ++ writeVarint (bs.length % 2 ^ 32) ++ bs

/-- `write_repeated_packed_*`: nothing for an empty list. -/
def writePacked {α : Type} (field : Nat) (enc : α → Nat) (l : List α) : Bytes :=
  if l.isEmpty then [] else writeLen field (l.flatMap fun a => writeVarint (enc a))

/-- `if let Some(v) = ..` -/
def writeOpt {α : Type} (o : Option α) (w : α → Bytes) : Bytes :=
  match o with
  | some a => w a
  | none => []

/-- `rt::write_message_field_with_cached_size`: the length is not that of the bytes but the computed one. -/
def writeMessage (field size : Nat) (body : Bytes) : Bytes :=
  writeVarint (8 * field + 2) ++ writeVarint (size % 2 ^ 32) ++ body

/-- `rt::compute_raw_varint64_size`, `rt::compute_raw_varint32_size` -/
def varintSize (n : Nat) : Nat :=
  if n < 0x80 then 1 else
  if n < 0x4000 then 2 else
  if n < 0x200000 then 3 else
  if n < 0x10000000 then 4 else
  if n < 0x800000000 then 5 else
  if n < 0x40000000000 then 6 else
  if n < 0x2000000000000 then 7 else
  if n < 0x100000000000000 then 8 else
  if n < 0x8000000000000000 then 9 else 10

/-- `rt::tag_size` -/
def tagSize (field : Nat) : Nat := varintSize (8 * field)

/-- `rt::int32_size`, `rt::int64_size`, `rt::uint32_size`, `rt::sint32_size`, `rt::sint64_size` -/
def numSize (field n : Nat) : Nat := tagSize field + varintSize n

/-- `rt::bytes_size` -/
def bytesSize (field : Nat) (bs : Bytes) : Nat := tagSize field + varintSize bs.length + bs.length

/-- `rt::string_size` -/
def stringSize (field : Nat) (s : Str) : Nat := bytesSize field (Utf8.encode s)

/-- A nested message, with the number of bytes of the tag: the generated code adds this up itself. -/
def messageSize (tag len : Nat) : Nat := tag + varintSize len + len

/-- `rt::vec_packed_int32_size` and so on -/
def packedSize {α : Type} (field : Nat) (enc : α → Nat) (l : List α) : Nat :=
  if l.isEmpty then 0 else
  let data := (l.map fun a => varintSize (enc a)).sum
  tagSize field + varintSize data + data

/-- `if let Some(v) = .. { my_size += .. }` -/
def optSize {α : Type} (o : Option α) (s : α → Nat) : Nat :=
  match o with
  | some a => s a
  | none => 0

/-- `for value in .. { my_size += .. }` -/
def repSize {α : Type} (l : List α) (s : α → Nat) : Nat := (l.map s).sum

end Osmio.Proto
