import Verif.Spec.Bzip2
import Verif.Lib.Zlib
import Verif.Lib.Machine

/-!
# bzip2

The `bzip2` crate (Cargo.toml:15) does the decompression of XML files and of changeset dumps. It is not part of /repo. Its `MultiBzDecoder` is
modelled as what it does with a decompressor of one stream: it goes on with the next stream as long as there is input.

The rest is a decompressor of one stream, bit by bit, that shows what the theorems ask of the crate can be met.
-/

namespace Osmio.Bzip2

open Spec.Zlib (Bits Lengths)
open Spec.Bzip2

/-- What a decompressor of one stream makes of some bytes: the data, and what follows the stream; `none` if the stream is broken or cut off, after
that data. -/
abbrev One := List UInt8 → List UInt8 × Option (List UInt8)

/-- `MultiBzDecoder`, on bytes that end there, or where reading fails. -/
def multiFrom (one : One) (whole : Bool) : Nat → List UInt8 → Source
  | 0, _ => [none]
  | n + 1, bs =>
    match one bs with
    | (x, none) => x.map some ++ [none]
    | (x, some []) => x.map some ++ if whole then [] else [none]
    | (x, some (b :: rest)) => x.map some ++ multiFrom one whole n (b :: rest)

/-- `bzip2::read::MultiBzDecoder`: one stream after the other, to the end of the input. What it gives after an error is not modelled. -/
def multi (one : One) (src : Source) : Source := multiFrom one (Source.before src).2 ((Source.before src).1.length + 1) (Source.before src).1

/-! ## A decompressor -/

/-- A number of `w` bits, the most significant first. -/
def number : Nat → Nat → Bits → Option (Nat × Bits)
  | 0, n, s => some (n, s)
  | _ + 1, _, [] => none
  | w + 1, n, b :: s => number w (2 * n + b.toNat) s

/-- Some bits. -/
def flags : Nat → Bits → Option (Bits × Bits)
  | 0, s => some ([], s)
  | _ + 1, [] => none
  | w + 1, b :: s => (flags w s).map fun p => (b :: p.1, p.2)

/-- The bytes that occur, sixteen at a time. -/
def readMap : Bits → Bits → Option (Bits × Bits)
  | [], s => some ([], s)
  | true :: fs, s => do
    let (bs, s) ← flags 16 s
    let (r, s) ← readMap fs s
    some (bs ++ r, s)
  | false :: fs, s => do
    let (r, s) ← readMap fs s
    some (List.replicate 16 false ++ r, s)

/-- The bytes marked, in order. -/
def marked (fs : Bits) : List UInt8 := ((List.range 256).filter fun i => fs.getD i false).map UInt8.ofNat

/-- A number, as so many ones. -/
def ones : Bits → Option (Nat × Bits)
  | [] => none
  | false :: s => some (0, s)
  | true :: s => (ones s).map fun p => (p.1 + 1, p.2)

/-- Some such numbers. -/
def manyOnes : Nat → Bits → Option (List Nat × Bits)
  | 0, s => some ([], s)
  | n + 1, s => do
    let (j, s) ← ones s
    let (js, s) ← manyOnes n s
    some (j :: js, s)

/-- The symbols whose places are given. -/
def unmove {α : Type} : List α → List Nat → Option (List α)
  | _, [] => some []
  | front, i :: is => do
    let a ← front[i]?
    let l ← unmove (a :: front.eraseIdx i) is
    some (a :: l)

/-- Some lengths of words, by steps. -/
def steps : Nat → Nat → Bits → Option (Lengths × Bits)
  | _, 0, s => some ([], s)
  | cur, n + 1, false :: s => (steps cur n s).map fun p => (cur :: p.1, p.2)
  | cur, n + 1, true :: false :: s => if cur < 20 then steps (cur + 1) (n + 1) s else none
  | cur, n + 1, true :: true :: s => if 1 < cur then steps (cur - 1) (n + 1) s else none
  | _, _ + 1, _ => none

/-- Some codes for `n` symbols. -/
def codes (n : Nat) : Nat → Bits → Option (List Lengths × Bits)
  | 0, s => some ([], s)
  | k + 1, s => do
    let (start, s) ← number 5 0 s
    let (t, s) ← (if 1 ≤ start ∧ start ≤ 20 then steps start n s else none)
    let (ts, s) ← codes n k s
    some (t :: ts, s)

/-- The symbols of a block. -/
def data (tables : List Lengths) (sels : List Nat) (stop : Nat) : Nat → Nat → Bits → Option (List Nat × Bits)
  | 0, _, _ => none
  | n + 1, i, s => do
    let t ← sels[i / 50]?
    let ls ← tables[t]?
    let (c, s) ← Zlib.symbolFrom ls 20 1 0 0 s
    if c = stop then some ([], s)
    else
      let (cs, s) ← data tables sels stop n (i + 1) s
      some (c :: cs, s)

/-- Places from symbols; the digits of a run of zeros so far say it has `k` of them, and the next digit counts `w`. -/
def uncode : Nat → Nat → List Nat → List Nat
  | _, k, [] => List.replicate k 0
  | w, k, 0 :: s => uncode (2 * w) (k + w) s
  | w, k, 1 :: s => uncode (2 * w) (k + 2 * w) s
  | _, k, (i + 2) :: s => List.replicate k 0 ++ (i + 1) :: uncode 1 0 s

/-- Whether a string comes before another. -/
def before : List UInt8 → List UInt8 → Bool
  | [], _ => true
  | _ :: _, [] => false
  | a :: x, b :: y => a.toNat < b.toNat || (a == b && before x y)

/-- Puts a string where it belongs. -/
def insert (x : List UInt8) : List (List UInt8) → List (List UInt8)
  | [] => [x]
  | y :: ys => if before x y then x :: y :: ys else y :: insert x ys

/-- Sorts strings. -/
def sort (l : List (List UInt8)) : List (List UInt8) := l.foldr insert []

/-- The first `k` bytes of each of the rotations in order. -/
def rows (l : List UInt8) : Nat → List (List UInt8)
  | 0 => l.map fun _ => []
  | k + 1 => sort (List.zipWith List.cons l (rows l k))

/-- Undoes the Burrows-Wheeler transform. -/
def untransform (l : List UInt8) (ptr : Nat) : Option (List UInt8) := (rows l l.length)[ptr]?

/-- Undoes the shortening of runs. -/
def unrun : Nat → List UInt8 → List UInt8
  | n + 1, b :: b2 :: b3 :: b4 :: c :: r =>
    if b = b2 ∧ b = b3 ∧ b = b4 then List.replicate (4 + c.toNat) b ++ unrun n r else b :: unrun n (b2 :: b3 :: b4 :: c :: r)
  | n + 1, b :: r => b :: unrun n r
  | _, r => r

/-- A block, without its first 48 bits. -/
def block (level : Nat) (s : Bits) : Option (List UInt8 × Bits) := do
  let (sum, s) ← number 32 0 s
  let (random, s) ← number 1 0 s
  let (ptr, s) ← number 24 0 s
  let (fs, s) ← flags 16 s
  let (fs, s) ← readMap fs s
  let (groups, s) ← number 3 0 s
  let (count, s) ← number 15 0 s
  let (js, s) ← manyOnes count s
  let sels ← unmove (List.range groups) js
  let (tables, s) ← codes ((marked fs).length + 2) groups s
  let (ss, s) ← data tables sels ((marked fs).length + 1) (s.length + 1) 0 s
  let l ← unmove (marked fs) (uncode 1 0 ss)
  let e ← untransform l ptr
  if random = 0 ∧ 2 ≤ groups ∧ groups ≤ 6 ∧ l.length ≤ 100000 * level ∧ (crc (unrun e.length e)).toNat = sum then
    some (unrun e.length e, s)
  else none

/-- Blocks up to the end of a stream. -/
def blocks (level : Nat) : Nat → UInt32 → Bits → List UInt8 × Option Bits
  | 0, _, _ => ([], none)
  | n + 1, c, s =>
    match number 48 0 s with
    | none => ([], none)
    | some (magic, s) =>
      if magic = 0x314159265359 then
        match block level s with
        | none => ([], none)
        | some (x, s) => (x ++ (blocks level n (combine c (crc x)) s).1, (blocks level n (combine c (crc x)) s).2)
      else if magic = 0x177245385090 then
        match number 32 0 s with
        | none => ([], none)
        | some (sum, s) => if sum = c.toNat then ([], some s) else ([], none)
      else ([], none)

/-- One stream. -/
def one : One
  | 66 :: 90 :: 104 :: v :: body =>
    if 49 ≤ v.toNat ∧ v.toNat ≤ 57 then
      match blocks (v.toNat - 48) ((bits body).length + 1) 0 (bits body) with
      | (x, none) => (x, none)
      | (x, some s) => (x, some (body.drop (body.length - s.length / 8)))
    else ([], none)
  | _ => ([], none)

end Osmio.Bzip2
