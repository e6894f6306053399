import Verif.Lib.Machine
/-!
# Model: `src/nodechain.rs`

This module is not compiled into the crate (no `mod nodechain` in `src/lib.rs`). It is modelled as it was meant when `ObjId` was `u64`; the
comparison of an `i8` with the literal `0b1000_0001` (line 61) is taken to be a comparison of the bytes.
-/

namespace Osmio.NodeChain

/-- `write_u64::<BigEndian>`; `src/nodechain.rs:16` and `35`. -/
def be64 (x : UInt64) : List UInt8 :=
  [UInt8.ofNat (x.toNat / 2 ^ 56), UInt8.ofNat (x.toNat / 2 ^ 48), UInt8.ofNat (x.toNat / 2 ^ 40), UInt8.ofNat (x.toNat / 2 ^ 32),
   UInt8.ofNat (x.toNat / 2 ^ 24), UInt8.ofNat (x.toNat / 2 ^ 16), UInt8.ofNat (x.toNat / 2 ^ 8), UInt8.ofNat x.toNat]

/-- `read_u64::<BigEndian>().unwrap()` on a `Cursor`: the number, and what is left; `src/nodechain.rs:51` and `64`. -/
def readU64 (bs : List UInt8) : Res (UInt64 × List UInt8) :=
  if bs.length < 8 then .error .unwrap else .ok (UInt64.ofNat (fromBe (bs.take 8)), bs.drop 8)

/-- `x as i64`; `src/nodechain.rs:19` and `71`. -/
def asI64 (x : UInt64) : Int := x.toInt64.toInt

/-- One round of the loop (`src/nodechain.rs:19-36`): the bytes for `n`. The difference is arithmetic on `i64`. -/
def encodeStep (b : Build) (first last n : UInt64) : Res (List UInt8) := do
  let offset ← b.i64 (asI64 n - asI64 last)
  if n = first then .ok [0x81]
  else if offset.toInt = 0 then .ok [0]
  else if offset.toInt > -126 ∧ offset.toInt < 125 then .ok [UInt8.ofInt offset.toInt]
  else .ok (0xFF :: be64 n)

/-- The loop (`src/nodechain.rs:17-38`). -/
def encodeFrom (b : Build) (first : UInt64) : UInt64 → List UInt64 → Res (List UInt8)
  | _, [] => .ok []
  | last, n :: ns => do
    let bytes ← encodeStep b first last n
    let r ← encodeFrom b first n ns
    .ok (bytes ++ r)

/-- `encode_nodes_to_bytes` (`src/nodechain.rs:10-44`), `NodeChain::new` (87-89) -/
def encode (b : Build) : List UInt64 → Res (List UInt8)
  | [] => .ok []
  | first :: ns => do
    let r ← encodeFrom b first first ns
    .ok (be64 first ++ r)

/-- A byte as `i8`; `src/nodechain.rs:55`. -/
def asI8 (x : UInt8) : Int := x.toInt8.toInt

/-- The loop (`src/nodechain.rs:54-78`). The first argument bounds its rounds; each takes a byte at least. -/
def decodeFrom (b : Build) (first : UInt64) : Nat → UInt64 → List UInt8 → Res (List UInt64)
  | 0, _, _ => .ok []
  | _ + 1, _, [] => .ok []
  | fuel + 1, last, num :: r =>
    if num = 0x81 then do
      let ns ← decodeFrom b first fuel last r
      .ok (first :: ns)
    else if num = 0xFF then do
      let (next, r) ← readU64 r
      let ns ← decodeFrom b first fuel next r
      .ok (next :: ns)
    else if num = 0 then do
      let ns ← decodeFrom b first fuel last r
      .ok (last :: ns)
    else do
      let newNum ← b.i64 (asI64 last + asI8 num)
      let ns ← decodeFrom b first fuel newNum.toUInt64 r
      .ok (newNum.toUInt64 :: ns)

/-- `decode_bytes_to_nodes` (`src/nodechain.rs:46-84`), `NodeChain::nodes` (91-93) -/
def decode (b : Build) (bytes : List UInt8) : Res (List UInt64) :=
  if bytes = [] then .ok []
  else do
    let (first, r) ← readU64 bytes
    let ns ← decodeFrom b first (r.length + 1) first r
    .ok (first :: ns)

end Osmio.NodeChain
