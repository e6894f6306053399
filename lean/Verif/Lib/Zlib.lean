import Verif.Spec.Zlib

/-!
# A zlib decompressor

`flate2` (Cargo.toml:17) does the decompression of data blocks (arcpbf/mod.rs:32-35, stringpbf/mod.rs:42-44). It is not part of /repo; this is
a decompressor of the format of RFC 1950 and 1951, bit by bit, that shows what the theorems ask of `flate2` can be met.
-/

namespace Osmio.Zlib

open Spec.Zlib

/-- A number of `w` bits, the least significant first. -/
def number : Nat → Bits → Option (Nat × Bits)
  | 0, s => some (0, s)
  | _ + 1, [] => none
  | w + 1, b :: s =>
    match number w s with
    | some (n, s) => some (b.toNat + 2 * n, s)
    | none => none

/-- Where a length comes for the `k`-th time. -/
def nth (l : Nat) : Lengths → Nat → Option Nat
  | [], _ => none
  | x :: ls, k => if x = l then (if k = 0 then some 0 else (nth l ls (k - 1)).map (· + 1)) else (nth l ls k).map (· + 1)

/-- The next symbol: words of `l` bits, then longer ones. -/
def symbolFrom (ls : Lengths) : Nat → Nat → Nat → Nat → Bits → Option (Nat × Bits)
  | 0, _, _, _, _ => none
  | _ + 1, _, _, _, [] => none
  | n + 1, l, code, first, b :: s =>
    if 2 * code + b.toNat < first + ls.count l then
      (nth l ls (2 * code + b.toNat - first)).map fun k => (k, s)
    else symbolFrom ls n (l + 1) (2 * code + b.toNat) (2 * (first + ls.count l)) s

/-- The next symbol. -/
def symbol (ls : Lengths) (s : Bits) : Option (Nat × Bits) := symbolFrom ls 15 1 0 0 s

/-- Repeats `n` bytes from `d` bytes back. -/
def copy (d : Nat) : Nat → List UInt8 → List UInt8
  | 0, out => out
  | n + 1, out => copy d n (out ++ [out.getD (out.length - d) 0])

/-- The symbols of a block. -/
def data (window : Nat) (lit dist : Lengths) : Nat → List UInt8 → Bits → Option (List UInt8 × Bits)
  | 0, _, _ => none
  | n + 1, out, s => do
    let (c, s) ← symbol lit s
    if c < 256 then data window lit dist n (out ++ [UInt8.ofNat c]) s
    else if c = 256 then some (out, s)
    else
      let len ← lengthCodes[c - 257]?
      let (e, s) ← number len.2 s
      let (j, s) ← symbol dist s
      let d ← distanceCodes[j]?
      let (f, s) ← number d.2 s
      if d.1 + f ≤ window ∧ d.1 + f ≤ out.length then data window lit dist n (copy (d.1 + f) (len.1 + e) out) s else none

/-- `total` lengths of code words. -/
def runs (cl : Lengths) (total : Nat) : Nat → Lengths → Bits → Option (Lengths × Bits)
  | 0, _, _ => none
  | n + 1, ls, s =>
    if ls.length = total then some (ls, s)
    else if total < ls.length then none
    else do
      let (c, s) ← symbol cl s
      if c ≤ 15 then runs cl total n (ls ++ [c]) s
      else if c = 16 then
        let l ← ls.getLast?
        let (k, s) ← number 2 s
        runs cl total n (ls ++ List.replicate (3 + k) l) s
      else if c = 17 then
        let (k, s) ← number 3 s
        runs cl total n (ls ++ List.replicate (3 + k) 0) s
      else
        let (k, s) ← number 7 s
        runs cl total n (ls ++ List.replicate (11 + k) 0) s

/-- Numbers of `w` bits each. -/
def numbers (w : Nat) : Nat → Bits → Option (List Nat × Bits)
  | 0, s => some ([], s)
  | n + 1, s => do
    let (x, s) ← number w s
    let (xs, s) ← numbers w n s
    some (x :: xs, s)

instance (ls : Lengths) : Decidable (Complete ls) := inferInstanceAs (Decidable (_ ∧ _))
instance (ls : Lengths) : Decidable (Usable ls) := inferInstanceAs (Decidable (_ ∨ _))

/-- The two codes at the head of a block. -/
def codes (s : Bits) : Option (Lengths × Lengths × Bits) := do
  let (hlit, s) ← number 5 s
  let (hdist, s) ← number 5 s
  let (hclen, s) ← number 4 s
  let (cl, s) ← numbers 3 (hclen + 4) s
  if hlit ≤ 29 ∧ hdist ≤ 29 ∧ hclen ≤ 15 ∧ Complete (arranged cl) then
    let (ls, s) ← runs (arranged cl) (hlit + 257 + (hdist + 1)) (s.length + 1) [] s
    if Usable (ls.take (hlit + 257)) ∧ Usable (ls.drop (hlit + 257)) then
      some (ls.take (hlit + 257), ls.drop (hlit + 257), s)
    else none
  else none

/-- Some bytes. -/
def bytes (n : Nat) (s : Bits) : Option (List UInt8 × Bits) := (numbers 8 n s).map fun p => (p.1.map UInt8.ofNat, p.2)

/-- A block, without its first bit. -/
def block (window : Nat) (out : List UInt8) (s : Bits) : Option (List UInt8 × Bits) := do
  let (kind, s) ← number 2 s
  if kind = 0 then
    let (n, s) ← number 16 (s.drop (s.length % 8))
    let (m, s) ← number 16 s
    if m = 65535 - n then
      let (bs, s) ← bytes n s
      some (out ++ bs, s)
    else none
  else if kind = 1 then data window fixedLit fixedDist (s.length + 1) out s
  else if kind = 2 then
    let (lit, dist, s) ← codes s
    data window lit dist (s.length + 1) out s
  else none

/-- Blocks up to the last one. -/
def blocks (window : Nat) : Nat → List UInt8 → Bits → Option (List UInt8 × Bits)
  | _, _, [] => none
  | 0, _, _ => none
  | n + 1, out, b :: s => do
    let (out, s) ← block window out s
    if b then some (out, s) else blocks window n out s

/-- A zlib stream; what follows it is not looked at. -/
def inflate : List UInt8 → Option (List UInt8)
  | cmf :: flg :: body =>
    if cmf.toNat % 16 = 8 ∧ cmf.toNat / 16 ≤ 7 ∧ (cmf.toNat * 256 + flg.toNat) % 31 = 0 ∧ flg.toNat / 32 % 2 = 0 then do
      let (x, s) ← blocks (2 ^ (cmf.toNat / 16 + 8)) ((bits body).length + 1) [] (bits body)
      if (body.drop (body.length - s.length / 8)).take 4 = be32 (sumB x * 65536 + sumA x) then some x else none
    else none
  | _ => none

end Osmio.Zlib
