import Verif.Spec.Zlib
import Mathlib.Data.List.Forall2
/-!
# Specification: the bzip2 format

Which byte strings are bzip2 streams of which data. There is no standard; this is the format as `bzip2` 1.0 writes it, without the obsolete
randomisation. An encoder is free to choose how it cuts the data into blocks, how many codes it uses, and which.
-/

namespace Osmio.Spec.Bzip2

open Zlib (Bits msb Lengths Word)

/-- The bits of some bytes, the most significant first. -/
def bits (bs : List UInt8) : Bits := bs.flatMap fun b => msb 8 b.toNat

/-! ## Checksums -/

/-- CRC-32, one bit further. -/
def crcBit (c : UInt32) : UInt32 := if c &&& 0x80000000 = 0 then c <<< 1 else (c <<< 1) ^^^ 0x04c11db7

/-- CRC-32, one byte further. -/
def crcByte (c : UInt32) (b : UInt8) : UInt32 :=
  crcBit (crcBit (crcBit (crcBit (crcBit (crcBit (crcBit (crcBit (c ^^^ (b.toUInt32 <<< 24)))))))))

/-- CRC-32, the most significant bits first. -/
def crc (x : List UInt8) : UInt32 := ~~~ (x.foldl crcByte 0xffffffff)

/-- The checksum of a stream, one block further. -/
def combine (c d : UInt32) : UInt32 := ((c <<< 1) ||| (c >>> 31)) ^^^ d

/-! ## The steps from data to symbols -/

/-- Runs of equal bytes: four of them are followed by the number of those that are left out. -/
inductive Runs : List UInt8 → List UInt8 → Prop
  | stop : Runs [] []
  | short {e x : List UInt8} (b : UInt8) (m : Nat) : 1 ≤ m → m ≤ 3 → (∀ c, e.head? = some c → c ≠ b) → Runs e x →
      Runs (List.replicate m b ++ e) (List.replicate m b ++ x)
  | long {e x : List UInt8} (b c : UInt8) : c.toNat ≤ 251 → Runs e x →
      Runs (List.replicate 4 b ++ c :: e) (List.replicate (4 + c.toNat) b ++ x)

/-- The string with its first `i` bytes put at its end. -/
def rotation (e : List UInt8) (i : Nat) : List UInt8 := e.drop i ++ e.take i

/-- The order of bytes strings: by the first byte that differs. -/
def Before : List UInt8 → List UInt8 → Prop
  | [], _ => True
  | _ :: _, [] => False
  | a :: x, b :: y => a.toNat < b.toNat ∨ (a = b ∧ Before x y)

/-- The Burrows-Wheeler transform: of all rotations, in order, the last bytes; and which of them is the string itself. -/
def Transformed (e l : List UInt8) (ptr : Nat) : Prop :=
  ∃ rows : List (List UInt8), rows.Perm ((List.range e.length).map (rotation e)) ∧ rows.Pairwise Before ∧ l.map some = rows.map List.getLast? ∧ rows[ptr]? = some e

/-- Each symbol is replaced by its place in a list, and then moved to the front of it. -/
inductive Moved {α : Type} : List α → List α → List Nat → Prop
  | stop {front : List α} : Moved front [] []
  | next {front l : List α} {a : α} {i : Nat} {is : List Nat} : front[i]? = some a → Moved (a :: front.eraseIdx i) l is →
      Moved front (a :: l) (i :: is)

/-- The length of a run of zeros, in digits 1 and 2 (as 0 and 1), the least significant first. -/
def runLength : List Nat → Nat
  | [] => 0
  | d :: ds => (d + 1) + 2 * runLength ds

/-- Runs of zeros are written with the symbols 0 and 1; the other numbers are one more. -/
inductive Coded : List Nat → List Nat → Prop
  | stop : Coded [] []
  | one {is ss : List Nat} (i : Nat) : i ≠ 0 → Coded is ss → Coded (i :: is) ((i + 1) :: ss)
  | zeros {is ss : List Nat} (ds : List Nat) : ds ≠ [] → (∀ d ∈ ds, d < 2) → (∀ s, ss.head? = some s → 2 ≤ s) → Coded is ss →
      Coded (List.replicate (runLength ds) 0 ++ is) (ds ++ ss)

/-! ## The codes of a block -/

/-- How much of the words of 20 bits a code takes up. -/
def taken (ls : Lengths) : Nat := (ls.map fun l => 2 ^ (20 - l)).sum

/-- A code for `n` symbols, all of which have words. -/
def IsCode (n : Nat) (ls : Lengths) : Prop := ls.length = n ∧ (∀ l ∈ ls, 1 ≤ l ∧ l ≤ 20) ∧ taken ls ≤ 2 ^ 20

/-- Lengths of words, each by steps from the one before. -/
inductive Steps : Nat → Lengths → Bits → Prop
  | stop {cur : Nat} : Steps cur [] []
  | up {cur : Nat} {l : Nat} {ls : Lengths} {w : Bits} : cur < 20 → Steps (cur + 1) (l :: ls) w → Steps cur (l :: ls) (true :: false :: w)
  | down {cur : Nat} {l : Nat} {ls : Lengths} {w : Bits} : 1 < cur → Steps (cur - 1) (l :: ls) w → Steps cur (l :: ls) (true :: true :: w)
  | here {cur : Nat} {ls : Lengths} {w : Bits} : Steps cur ls w → Steps cur (cur :: ls) (false :: w)

/-- A code as it is written. -/
def Table (ls : Lengths) (w : Bits) : Prop := ∃ start steps, 1 ≤ start ∧ start ≤ 20 ∧ Steps start ls steps ∧ w = msb 5 start ++ steps

/-- The symbols from the `i`-th on, each with the code that is selected for its group of 50. -/
inductive Data (tables : List Lengths) (sels : List Nat) : Nat → List Nat → Bits → Prop
  | stop {i : Nat} : Data tables sels i [] []
  | next {i s t : Nat} {ls : Lengths} {ss : List Nat} {w r : Bits} : sels[i / 50]? = some t → tables[t]? = some ls → Word ls s w →
      Data tables sels (i + 1) ss r → Data tables sels i (s :: ss) (w ++ r)

/-- A number, as so many ones. -/
def unary (n : Nat) : Bits := List.replicate n true ++ [false]

/-- The bytes that occur, in order. -/
def alphabet (l : List UInt8) : List UInt8 := ((List.range 256).map UInt8.ofNat).filter (· ∈ l)

/-- Of each sixteen bytes whether any of them occurs, and then, where so, which. -/
def mapBits (l : List UInt8) : Bits :=
  ((List.range 16).map fun i => (List.range 16).any fun j => decide (UInt8.ofNat (16 * i + j) ∈ l)) ++
    (List.range 16).flatMap fun i =>
      if (List.range 16).any fun j => decide (UInt8.ofNat (16 * i + j) ∈ l) then
        (List.range 16).map fun j => decide (UInt8.ofNat (16 * i + j) ∈ l)
      else []

/-! ## Blocks and streams -/

/-- A block. -/
inductive Block (level : Nat) : Bits → List UInt8 → Prop
  | mk {x e l : List UInt8} {ptr : Nat} {is ss sels js : List Nat} {tables : List Lengths} {tbs : List Bits} {d : Bits} :
      Runs e x → e ≠ [] → e.length ≤ 100000 * level → Transformed e l ptr → Moved (alphabet l) l is → Coded is ss →
      2 ≤ tables.length → tables.length ≤ 6 → (∀ t ∈ tables, IsCode ((alphabet l).length + 2) t) →
      ss.length + 1 ≤ 50 * sels.length → sels.length ≤ 18002 → Moved (List.range tables.length) sels js →
      List.Forall₂ Table tables tbs → Data tables sels 0 (ss ++ [(alphabet l).length + 1]) d →
      Block level (msb 48 0x314159265359 ++ (msb 32 (crc x).toNat ++ (false :: (msb 24 ptr ++ (mapBits l ++ (msb 3 tables.length ++
        (msb 15 sels.length ++ (js.flatMap unary ++ (tbs.flatten ++ d))))))))) x

/-- Blocks, and the end of a stream; the checksum so far. -/
inductive Blocks (level : Nat) : UInt32 → Bits → List UInt8 → Prop
  | stop {c : UInt32} : Blocks level c (msb 48 0x177245385090 ++ msb 32 c.toNat) []
  | more {c : UInt32} {w r : Bits} {x y : List UInt8} : Block level w x → Blocks level (combine c (crc x)) r y →
      Blocks level c (w ++ r) (x ++ y)

/-- A bzip2 stream and the data it stands for. -/
inductive Stream : List UInt8 → List UInt8 → Prop
  | mk {level : Nat} {body x : List UInt8} {w pad : Bits} : 1 ≤ level → level ≤ 9 → Blocks level 0 w x → bits body = w ++ pad →
      pad.length < 8 → Stream (66 :: 90 :: 104 :: UInt8.ofNat (48 + level) :: body) x

/-- A file of one or more streams, and all their data. -/
def File (file data : List UInt8) : Prop :=
  ∃ l : List (List UInt8 × List UInt8), l ≠ [] ∧ (∀ s ∈ l, Stream s.1 s.2) ∧ file = (l.map (·.1)).flatten ∧ data = (l.map (·.2)).flatten

/-- What is asked of a decompressor of one stream. It gives the data and, if the stream is complete, what follows it: it undoes every stream, and of
a stream that is cut off it gives nothing but the beginning of its data. -/
def Undoes (one : List UInt8 → List UInt8 × Option (List UInt8)) : Prop :=
  (∀ p x rest, Stream p x → one (p ++ rest) = (x, some rest)) ∧
  ∀ p x q, Stream p x → q <+: p → q ≠ p → ∃ y, y <+: x ∧ one q = (y, none)

end Osmio.Spec.Bzip2
