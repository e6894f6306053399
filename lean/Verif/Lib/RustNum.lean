import Verif.Lib.Basic
/-!
# Library model: printing and parsing of Rust integers

Model of `core::fmt::Display` for the integer types (plain decimal, `-` for negative numbers)
and of `core::str::FromStr` for `i64`, `u32`, `u64`, `usize` (optional sign, at least one ASCII
digit, nothing else, range check; `-` is not accepted for unsigned types).
-/

namespace Osmio

/-- The ASCII digit of `n < 10`. -/
def digitChar (n : Nat) : Char := Char.ofNat (48 + n)

/-- `char::to_digit(10)` -/
def digitVal? (c : Char) : Option Nat :=
  if 48 ≤ c.toNat ∧ c.toNat ≤ 57 then some (c.toNat - 48) else none

/-- `char::is_ascii_digit` -/
def isDigit (c : Char) : Bool := decide (48 ≤ c.toNat ∧ c.toNat ≤ 57)

/-- Decimal digits of a natural number, without leading zeros (`Display` for unsigned integers). -/
def natStr (n : Nat) : Str :=
  if n < 10 then [digitChar n] else natStr (n / 10) ++ [digitChar (n % 10)]
termination_by n
decreasing_by omega

/-- `Display` for signed integers. -/
def intStr (i : Int) : Str :=
  if i < 0 then '-' :: natStr i.natAbs else natStr i.natAbs

/-- Value of a string of ASCII digits, continuing from `acc`; `none` on any other character. -/
def digitsVal (acc : Nat) : Str → Option Nat
  | [] => some acc
  | c :: cs =>
    match digitVal? c with
    | some d => digitsVal (10 * acc + d) cs
    | none => none

/-- A non-empty string of ASCII digits as a natural number. -/
def parseDigits : Str → Option Nat
  | [] => none
  | c :: cs => digitsVal 0 (c :: cs)

/-- An optional leading plus sign is dropped. -/
def stripPlus : Str → Str
  | '+' :: r => r
  | r => r

/-- `<unsigned>::from_str` for a type with largest value `max`. -/
def parseUnsigned (max : Nat) (s : Str) : Option Nat :=
  match parseDigits (stripPlus s) with
  | some n => if n ≤ max then some n else none
  | none => none

/-- `<signed>::from_str` for a type with range `[-(max+1), max]`. -/
def parseSigned (max : Nat) (s : Str) : Option Int :=
  match s with
  | '-' :: r =>
    match parseDigits r with
    | some n => if n ≤ max + 1 then some (-(n : Int)) else none
    | none => none
  | '+' :: r =>
    match parseDigits r with
    | some n => if n ≤ max then some (n : Int) else none
    | none => none
  | r =>
    match parseDigits r with
    | some n => if n ≤ max then some (n : Int) else none
    | none => none

/-- `i64::from_str` -/
def parseI64 (s : Str) : Option Int64 := (parseSigned (2 ^ 63 - 1) s).map Int64.ofInt
/-- `u32::from_str` -/
def parseU32 (s : Str) : Option UInt32 := (parseUnsigned (2 ^ 32 - 1) s).map UInt32.ofNat
/-- `u64::from_str` -/
def parseU64 (s : Str) : Option UInt64 := (parseUnsigned (2 ^ 64 - 1) s).map UInt64.ofNat

/-- `Display for i64` -/
def i64Str (i : Int64) : Str := intStr i.toInt
/-- `Display for u32` -/
def u32Str (n : UInt32) : Str := natStr n.toNat

end Osmio
