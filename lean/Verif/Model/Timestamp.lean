import Verif.Lib.Chrono
/-!
# Model: timestamps (`src/utils.rs`, `src/lib.rs` lines 244–313)
-/

namespace Osmio

/-- `src/utils.rs:4-9`. `from_timestamp` never fails for an `i32`. -/
def epochToIso (epoch : Int32) : Str := Chrono.toRfc3339 epoch.toInt

/-- `src/utils.rs:11-15`: the `i64` timestamp is cast to `u32`, failures become 0. -/
def isoToEpoch (iso : Str) : UInt32 :=
  match Chrono.parseRfc3339 iso with
  | some t => UInt32.ofInt t
  | none => 0

/-- `src/lib.rs:249-252` -/
inductive TimestampFormat where
  | iso (s : Str)
  | epoch (t : Int64)
  deriving DecidableEq

/-- Rust's `str` comparison: lexicographic on code points (equal to the byte order of UTF-8); `src/lib.rs:299`. -/
def compareStr : Str → Str → Ordering
  | [], [] => .eq
  | [], _ :: _ => .lt
  | _ :: _, [] => .gt
  | a :: as, b :: bs => (compare a.toNat b.toNat).then (compareStr as bs)

namespace TimestampFormat

/-- `src/lib.rs:255-260`: the `i64` is cast to `i32`. -/
def toIsoString : TimestampFormat → Str
  | .iso s => s
  | .epoch t => epochToIso t.toInt32

/-- `src/lib.rs:262-267`: `u32 as i64`. -/
def toEpochNumber : TimestampFormat → Int64
  | .iso s => Int64.ofInt (isoToEpoch s).toNat
  | .epoch t => t

/-- `src/lib.rs:270-277` -/
def ofI64 (t : Int64) : TimestampFormat := .epoch t

/-- `src/lib.rs:282-287` -/
def fromStr (s : Str) : Option TimestampFormat :=
  match Chrono.parseRfc3339 s with
  | some t => some (.epoch (Int64.ofInt t))
  | none => none

/-- `src/lib.rs:290-294` -/
def display (t : TimestampFormat) : Str := t.toIsoString

/-- `src/lib.rs:296-304`. All branches return `Some`. -/
def partialCmp : TimestampFormat → TimestampFormat → Option Ordering
  | .iso a, .iso b => some (compareStr a b)
  | .epoch a, .epoch b => some (compare a.toInt b.toInt)
  | a, b => some (compare a.toEpochNumber.toInt b.toEpochNumber.toInt)

/-- `src/lib.rs:305-313`, `PartialEq::eq` -/
def eq : TimestampFormat → TimestampFormat → Bool
  | .iso a, .iso b => a == b
  | .epoch a, .epoch b => a == b
  | a, b => a.toEpochNumber == b.toEpochNumber

end TimestampFormat

end Osmio
