/-!
# Specification: the zlib format (RFC 1950) and the deflate format (RFC 1951)

Which byte strings are compressed forms of which data. An encoder is free to choose how it cuts the data into blocks, how it codes each of
them, and where it refers back to earlier bytes.
-/

namespace Osmio.Spec.Zlib

/-- RFC 1951, 3.1.1: bits of a stream. -/
abbrev Bits := List Bool

/-- A number in `w` bits, the least significant first. -/
def lsb (w n : Nat) : Bits := (List.range w).map n.testBit

/-- A number in `w` bits, the most significant first, as code words are packed. -/
def msb (w n : Nat) : Bits := (lsb w n).reverse

/-- The bits of a byte. -/
def byteBits (b : UInt8) : Bits := lsb 8 b.toNat

/-- The bits of some bytes. -/
def bits (bs : List UInt8) : Bits := bs.flatMap byteBits

/-! ## Codes (RFC 1951, 3.2.2) -/

/-- A code, given by the lengths of the code words of the symbols 0, 1, 2, …; 0 if a symbol has none. -/
abbrev Lengths := List Nat

/-- The smallest code word of each length. -/
def firstCode (ls : Lengths) : Nat → Nat
  | 0 => 0
  | l + 1 => 2 * (firstCode ls l + if l = 0 then 0 else ls.count l)

/-- The code word of a symbol: words of one length are consecutive, in the order of the symbols. -/
def codeWord (ls : Lengths) (s : Nat) : Nat := firstCode ls (ls.getD s 0) + (ls.take s).count (ls.getD s 0)

/-- The bits that stand for a symbol. -/
def Word (ls : Lengths) (s : Nat) (w : Bits) : Prop := ∃ l, ls[s]? = some l ∧ l ≠ 0 ∧ w = msb l (codeWord ls s)

/-- How much of the words of 15 bits a code takes up. -/
def taken (ls : Lengths) : Nat := ((ls.filter (· ≠ 0)).map fun l => 2 ^ (15 - l)).sum

/-- No word has more than 15 bits and every bit string begins with a word. -/
def Complete (ls : Lengths) : Prop := (∀ l ∈ ls, l ≤ 15) ∧ taken ls = 2 ^ 15

/-- A code that may be used for data: complete, or with one word only, of one bit, or with none. -/
def Usable (ls : Lengths) : Prop := Complete ls ∨ ls.filter (· ≠ 0) = [1] ∨ ls.filter (· ≠ 0) = []

/-! ## Compressed data (3.2.5) -/

/-- Lengths of repetitions for the symbols from 257: the smallest, and the number of extra bits. -/
def lengthCodes : List (Nat × Nat) :=
  [(3, 0), (4, 0), (5, 0), (6, 0), (7, 0), (8, 0), (9, 0), (10, 0), (11, 1), (13, 1), (15, 1), (17, 1), (19, 2), (23, 2), (27, 2), (31, 2),
   (35, 3), (43, 3), (51, 3), (59, 3), (67, 4), (83, 4), (99, 4), (115, 4), (131, 5), (163, 5), (195, 5), (227, 5), (258, 0)]

/-- Distances: the smallest, and the number of extra bits. -/
def distanceCodes : List (Nat × Nat) :=
  [(1, 0), (2, 0), (3, 0), (4, 0), (5, 1), (7, 1), (9, 2), (13, 2), (17, 3), (25, 3), (33, 4), (49, 4), (65, 5), (97, 5), (129, 6), (193, 6),
   (257, 7), (385, 7), (513, 8), (769, 8), (1025, 9), (1537, 9), (2049, 10), (3073, 10), (4097, 11), (6145, 11), (8193, 12), (12289, 12),
   (16385, 13), (24577, 13)]

/-- `more` repeats, after `out`, what came `d` bytes earlier; it may reach into itself. -/
def Repeats (out : List UInt8) (d : Nat) (more : List UInt8) : Prop :=
  ∀ i < more.length, (out ++ more)[out.length + i]? = (out ++ more)[out.length + i - d]?

/-- The symbols of a block, up to its end: what the output is before and after it. Repetitions do not reach back further than the window. -/
inductive Data (window : Nat) (lit dist : Lengths) : List UInt8 → Bits → List UInt8 → Prop
  | stop {out : List UInt8} {w : Bits} : Word lit 256 w → Data window lit dist out w out
  | byte {out out' : List UInt8} {b : UInt8} {w r : Bits} : Word lit b.toNat w → Data window lit dist (out ++ [b]) r out' →
      Data window lit dist out (w ++ r) out'
  | copy {out more out' : List UInt8} {w v r : Bits} {i j : Nat} {len d : Nat × Nat} {e f : Nat} :
      Word lit (257 + i) w → lengthCodes[i]? = some len → e < 2 ^ len.2 →
      Word dist j v → distanceCodes[j]? = some d → f < 2 ^ d.2 →
      d.1 + f ≤ window → d.1 + f ≤ out.length → more.length = len.1 + e → Repeats out (d.1 + f) more →
      Data window lit dist (out ++ more) r out' →
      Data window lit dist out (w ++ (lsb len.2 e ++ (v ++ (lsb d.2 f ++ r)))) out'

/-! ## The codes of a block (3.2.6, 3.2.7) -/

/-- The fixed code of bytes and lengths. -/
def fixedLit : Lengths := List.replicate 144 8 ++ (List.replicate 112 9 ++ (List.replicate 24 7 ++ List.replicate 8 8))

/-- The fixed code of distances. -/
def fixedDist : Lengths := List.replicate 32 5

/-- Lengths of code words, with repetitions shortened: the lengths known before and after. -/
inductive Runs (cl : Lengths) : Lengths → Bits → Lengths → Prop
  | stop {ls : Lengths} : Runs cl ls [] ls
  | one {ls ls' : Lengths} {l : Nat} {w r : Bits} : l ≤ 15 → Word cl l w → Runs cl (ls ++ [l]) r ls' → Runs cl ls (w ++ r) ls'
  | same {ls ls' : Lengths} {l n : Nat} {w r : Bits} : ls.getLast? = some l → n < 4 → Word cl 16 w →
      Runs cl (ls ++ List.replicate (3 + n) l) r ls' → Runs cl ls (w ++ (lsb 2 n ++ r)) ls'
  | zeros {ls ls' : Lengths} {n : Nat} {w r : Bits} : n < 8 → Word cl 17 w →
      Runs cl (ls ++ List.replicate (3 + n) 0) r ls' → Runs cl ls (w ++ (lsb 3 n ++ r)) ls'
  | manyZeros {ls ls' : Lengths} {n : Nat} {w r : Bits} : n < 128 → Word cl 18 w →
      Runs cl (ls ++ List.replicate (11 + n) 0) r ls' → Runs cl ls (w ++ (lsb 7 n ++ r)) ls'

/-- The order in which the lengths of the code for lengths come. -/
def order : List Nat := [16, 17, 18, 0, 8, 7, 9, 6, 10, 5, 11, 4, 12, 3, 13, 2, 14, 1, 15]

/-- The code for lengths, from the lengths in that order; those left out are 0. -/
def arranged (cl : List Nat) : Lengths := (List.range 19).map fun s => cl.getD (order.idxOf s) 0

/-- The two codes at the head of a block. -/
inductive Codes : Bits → Lengths → Lengths → Prop
  | mk {lit dist : Lengths} {cl : List Nat} {w : Bits} : 257 ≤ lit.length → lit.length ≤ 286 → 1 ≤ dist.length → dist.length ≤ 30 →
      4 ≤ cl.length → cl.length ≤ 19 → (∀ l ∈ cl, l < 8) → Complete (arranged cl) → Runs (arranged cl) [] w (lit ++ dist) →
      Usable lit → Usable dist →
      Codes (lsb 5 (lit.length - 257) ++ (lsb 5 (dist.length - 1) ++ (lsb 4 (cl.length - 4) ++ (cl.flatMap (lsb 3) ++ w)))) lit dist

/-! ## Blocks (3.2.3, 3.2.4) -/

/-- A block, without its first bit, that begins after `pos` bits: what the output is before and after it. -/
inductive Block (window : Nat) (pos : Nat) : List UInt8 → Bits → List UInt8 → Prop
  | stored {out bytes : List UInt8} {pad : Bits} : pad.length < 8 → (pos + 2 + pad.length) % 8 = 0 → bytes.length < 65536 →
      Block window pos out (lsb 2 0 ++ (pad ++ (lsb 16 bytes.length ++ (lsb 16 (65535 - bytes.length) ++ bits bytes)))) (out ++ bytes)
  | fixed {out out' : List UInt8} {w : Bits} : Data window fixedLit fixedDist out w out' → Block window pos out (lsb 2 1 ++ w) out'
  | dynamic {out out' : List UInt8} {h w : Bits} {lit dist : Lengths} : Codes h lit dist → Data window lit dist out w out' →
      Block window pos out (lsb 2 2 ++ (h ++ w)) out'

/-- Blocks up to the last one, which is marked by its first bit. -/
inductive Blocks (window : Nat) : Nat → List UInt8 → Bits → List UInt8 → Prop
  | last {pos : Nat} {out out' : List UInt8} {w : Bits} : Block window (pos + 1) out w out' → Blocks window pos out (true :: w) out'
  | more {pos : Nat} {out out1 out' : List UInt8} {w r : Bits} : Block window (pos + 1) out w out1 →
      Blocks window (pos + 1 + w.length) out1 r out' → Blocks window pos out (false :: (w ++ r)) out'

/-! ## Streams (RFC 1950) -/

/-- Adler-32, the lower half: one more than the sum of the bytes. -/
def sumA (x : List UInt8) : Nat := (1 + (x.map UInt8.toNat).sum) % 65521

/-- Adler-32, the upper half: the sum of all the lower halves on the way, in which the byte at `i` counts `x.length - i` times. -/
def sumB (x : List UInt8) : Nat := (x.length + (x.zipIdx.map fun p => (x.length - p.2) * p.1.toNat).sum) % 65521

/-- A number in four bytes, the most significant first. -/
def be32 (n : Nat) : List UInt8 := [UInt8.ofNat (n / 16777216), UInt8.ofNat (n / 65536), UInt8.ofNat (n / 256), UInt8.ofNat n]

/-- A zlib stream and the data it stands for. -/
inductive Stream : List UInt8 → List UInt8 → Prop
  | mk {cmf flg : UInt8} {body x : List UInt8} {w pad : Bits} : cmf.toNat % 16 = 8 → cmf.toNat / 16 ≤ 7 →
      (cmf.toNat * 256 + flg.toNat) % 31 = 0 → flg.toNat / 32 % 2 = 0 →
      Blocks (2 ^ (cmf.toNat / 16 + 8)) 0 [] w x → bits body = w ++ pad → pad.length < 8 →
      Stream (cmf :: flg :: (body ++ be32 (sumB x * 65536 + sumA x))) x

end Osmio.Spec.Zlib
