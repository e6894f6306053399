import Verif.Lib.Float64
/-!
# Library model: the parts of `chrono` 0.4 that osmio uses

`DateTime::from_timestamp`, `to_rfc3339_opts(Secs, true)` and `DateTime::parse_from_rfc3339` followed
by `timestamp()`.
-/

namespace Osmio.Chrono

/-- Lengths of the months. -/
def monthLengths (leap : Bool) : List Nat :=
  [31, if leap then 29 else 28, 31, 30, 31, 30, 31, 31, 30, 31, 30, 31]

/-- Month and day of a (zero based) day of the year. -/
def splitMonth : List Nat → Nat → Nat → Nat × Nat
  | [], m, d => (m, d + 1)
  | l :: ls, m, d => if d < l then (m, d + 1) else splitMonth ls (m + 1) (d - l)

def leapYear (y : Int) : Bool := y % 4 == 0 && (y % 100 != 0 || y % 400 == 0)

/-- Year, month and day of a day number (1970-01-01 is 0): 400/100/4/1 year cycles. -/
def civilOfDays (n : Int) : Int × Nat × Nat :=
  let n := n + 719162
  let n400 := n / 146097
  let r := n % 146097
  let n100 := r / 36524
  let r1 := r % 36524
  let n4 := r1 / 1461
  let r2 := r1 % 1461
  let n1 := r2 / 365
  let r3 := r2 % 365
  let y := 400 * n400 + 100 * n100 + 4 * n4 + n1 + 1
  if n1 = 4 ∨ n100 = 4 then (y - 1, 12, 31)
  else
    let md := splitMonth (monthLengths (leapYear y)) 1 r3.toNat
    (y, md.1, md.2)

/-- The year in RFC 3339 output: four digits, or with a sign outside 0..9999. -/
def fmtYear (y : Int) : Str :=
  if 0 ≤ y ∧ y ≤ 9999 then padNat 4 y.toNat
  else (if y < 0 then '-' else '+') :: padNat 4 y.natAbs

/-- `DateTime::from_timestamp(t, 0)` then `to_rfc3339_opts(SecondsFormat::Secs, true)`. -/
def toRfc3339 (t : Int) : Str :=
  let days := t / 86400
  let sod := (t % 86400).toNat
  let (y, m, d) := civilOfDays days
  fmtYear y ++ ['-'] ++ padNat 2 m ++ ['-'] ++ padNat 2 d ++ ['T'] ++ padNat 2 (sod / 3600) ++ [':'] ++
    padNat 2 (sod / 60 % 60) ++ [':'] ++ padNat 2 (sod % 60) ++ ['Z']

/-- `scan::number(s, w, w)`: exactly `w` digits (more digits may follow). -/
def takeNum : Nat → Nat → Str → Option (Nat × Str)
  | 0, acc, s => some (acc, s)
  | _ + 1, _, [] => none
  | w + 1, acc, c :: cs =>
    match digitVal? c with
    | some d => takeNum w (10 * acc + d) cs
    | none => none

/-- `scan::char` -/
def takeChar (c : Char) : Str → Option Str
  | [] => none
  | x :: xs => if x = c then some xs else none

/-- Days from 1970-01-01 of a valid date, as chrono computes it for the timestamp. -/
def daysOfCivil (y : Int) (m d : Nat) : Int :=
  let y1 := y - 1
  365 * y1 + y1 / 4 - y1 / 100 + y1 / 400 +
    ((monthLengths (leapYear y)).take (m - 1)).sum + d - 1 - 719162

/-- Optional fraction of a second: `.` and at least one digit, which are skipped. -/
def skipFraction : Str → Option Str
  | '.' :: c :: cs => if isDigit c then some (spanDigits cs).2 else none
  | ['.'] => none
  | s => some s

/-- `scan::timezone_offset` with zulu allowed: offset in seconds east of UTC. The minus sign may be
U+2212. -/
def takeOffset : Str → Option (Int × Str)
  | [] => none
  | c :: cs =>
    if c = 'Z' ∨ c = 'z' then some (0, cs)
    else if c = '+' ∨ c = '-' ∨ c = '−' then
      match takeNum 2 0 cs with
      | none => none
      | some (h, r) =>
        match takeChar ':' r with
        | none => none
        | some r =>
          match takeNum 2 0 r with
          | none => none
          | some (m, r) =>
            if m ≤ 59 then
              let s : Int := h * 3600 + m * 60
              some (if c = '+' then s else -s, r)
            else none
    else none

/-- The separator between date and time. -/
def takeSep : Str → Option Str
  | c :: cs => if c = 'T' ∨ c = 't' ∨ c = ' ' then some cs else none
  | [] => none

/-- Length of a month. -/
def monthLen (y : Int) (m : Nat) : Nat := (monthLengths (leapYear y)).getD (m - 1) 0

/-- Range checks on the parsed fields (`Parsed::to_datetime`), and no trailing text. -/
def rfcFinish (y mo d h mi sec : Nat) (off : Int) (s : Str) : Option Int :=
  if s = [] ∧ 1 ≤ mo ∧ mo ≤ 12 ∧ 1 ≤ d ∧ d ≤ monthLen y mo ∧ h ≤ 23 ∧ mi ≤ 59 ∧ sec ≤ 60 ∧
      -86340 ≤ off ∧ off ≤ 86340 then
    -- a leap second 60 is stored as second 59 with extra nanoseconds
    some (daysOfCivil y mo d * 86400 + h * 3600 + mi * 60 + min sec 59 - off)
  else none

/-- `DateTime::parse_from_rfc3339(s).map(|d| d.timestamp())`. -/
def parseRfc3339 (s : Str) : Option Int := do
  let (y, s) ← takeNum 4 0 s
  let s ← takeChar '-' s
  let (mo, s) ← takeNum 2 0 s
  let s ← takeChar '-' s
  let (d, s) ← takeNum 2 0 s
  let s ← takeSep s
  let (h, s) ← takeNum 2 0 s
  let s ← takeChar ':' s
  let (mi, s) ← takeNum 2 0 s
  let s ← takeChar ':' s
  let (sec, s) ← takeNum 2 0 s
  let s ← skipFraction s
  let (off, s) ← takeOffset s
  rfcFinish y mo d h mi sec off s

end Osmio.Chrono
