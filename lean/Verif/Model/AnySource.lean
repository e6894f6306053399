import Verif.Lib.AnyIo
import Verif.Model.StringPbf
import Verif.Model.ArcPbf
import Verif.Model.NodePos
/-!
# Model: the PBF readers over any implementation of `Read`

The same code as in `Model/StringPbf.lean`, `Model/ArcPbf.lean` and `Model/NodePos.lean`, with the source left open: it is used only through
`read_exact` (`byteorder`'s `read_u32` is `read_exact` of four bytes). Loops that go on as long as the source gives something are bounded
by a number of rounds; theorems say how many suffice.
-/

namespace Osmio

namespace StringPbf
variable {S : Type} (rx : Nat → S → Option (List UInt8) × S)

/-- `src/stringpbf/mod.rs:63-85` -/
def readBlobOver (s : S) : Res (Option (Option Proto.Blob)) × S :=
  match rx 4 s with
  | (none, s) => (.ok none, s)
  | (some size, s) =>
    match rx (fromBe size) s with
    | (none, s) => (.error .unwrap, s)
    | (some headerBytes, s) =>
      match Proto.BlobHeader.parseFromBytes headerBytes with
      | none => (.error .unwrap, s)
      | some header =>
        if (header.datasize.getD 0).toInt < 0 then (.error .capacity, s)
        else
          match rx (header.datasize.getD 0).toInt.toNat s with
          | (none, s) => (.error .unwrap, s)
          | (some blobBytes, s) =>
            match header.type_ with
            | none => (.error .unwrap, s)
            | some t =>
              if t ≠ str% "OSMData" then (.ok (some none), s)
              else
                match Proto.Blob.parseFromBytes blobBytes with
                | none => (.error .unwrap, s)
                | some blob => (.ok (some (some blob)), s)

/-- `src/stringpbf/mod.rs:61-87` -/
def getNextOver : Nat → S → Res (Option Proto.Blob) × S
  | 0, s => (.ok none, s)
  | n + 1, s =>
    match readBlobOver rx s with
    | (.ok (some none), s) => getNextOver n s
    | (.ok (some (some blob)), s) => (.ok (some blob), s)
    | (.ok none, s) => (.ok none, s)
    | (.error p, s) => (.error p, s)

/-- `src/stringpbf/mod.rs:482-487` -/
structure ReaderOver (S : Type) where
  src : S
  buffer : List StringOSMObj
  sortedAssumption : Bool
  filter : ObjectFilter

/-- `src/stringpbf/mod.rs:521-528` -/
def ReaderOver.new {S : Type} (s : S) : ReaderOver S := ⟨s, [], false, (true, true, true)⟩

/-- `src/stringpbf/mod.rs:491-494`: the change `nodes()` makes before it goes on with `objects()`. -/
def ReaderOver.nodes {S : Type} (r : ReaderOver S) : ReaderOver S := { r with filter := (true, false, false) }
/-- `src/stringpbf/mod.rs:497-500` -/
def ReaderOver.ways {S : Type} (r : ReaderOver S) : ReaderOver S := { r with filter := (false, true, false) }
/-- `src/stringpbf/mod.rs:503-506` -/
def ReaderOver.relations {S : Type} (r : ReaderOver S) : ReaderOver S := { r with filter := (false, false, true) }

/-- `src/stringpbf/mod.rs:545-568`. `rounds` bounds the rounds of both loops. -/
def ReaderOver.nextAux (zlib : Proto.Bytes → Option Proto.Bytes) (b : Build) (rounds : Nat) : Nat → ReaderOver S →
    Res (Option StringOSMObj) × ReaderOver S
  | n, r =>
    match r.buffer with
    | o :: os => (.ok (some o), { r with buffer := os })
    | [] =>
      match n with
      | 0 => (.ok none, r)
      | n + 1 =>
        match getNextOver rx rounds r.src with
        | (.error p, src) => (.error p, { r with src := src })
        | (.ok none, src) => (.ok none, { r with src := src })
        | (.ok (some blob), src) =>
          match decodeBlob zlib b r.filter blob with
          | (os, some p) => (.error p, { r with src := src, buffer := os })
          | (os, none) => ReaderOver.nextAux zlib b rounds n { r with src := src, buffer := os }

/-- `src/stringpbf/mod.rs:545-568` on an implementation of `Read`. -/
def ReaderOver.next (rd : AnyReader) (zlib : Proto.Bytes → Option Proto.Bytes) (b : Build) (rounds : Nat) (r : ReaderOver rd.S) :
    Res (Option StringOSMObj) × ReaderOver rd.S := ReaderOver.nextAux rd.readExact zlib b rounds rounds r

end StringPbf

namespace ArcPbf
variable {S : Type} (rx : Nat → S → Option (List UInt8) × S)

/-- `src/arcpbf/mod.rs:58-80` -/
def readBlobOver (s : S) : Res (Option (Option Proto.Blob)) × S :=
  match rx 4 s with
  | (none, s) => (.ok none, s)
  | (some size, s) =>
    match rx (fromBe size) s with
    | (none, s) => (.error .unwrap, s)
    | (some headerBytes, s) =>
      match Proto.BlobHeader.parseFromBytes headerBytes with
      | none => (.error .unwrap, s)
      | some header =>
        match header.datasize with
        | none => (.error .unwrap, s)
        | some datasize =>
          if datasize.toInt < 0 then (.error .capacity, s)
          else
            match rx datasize.toInt.toNat s with
            | (none, s) => (.error .unwrap, s)
            | (some blobBytes, s) =>
              match header.type_ with
              | none => (.error .unwrap, s)
              | some t =>
                if t ≠ str% "OSMData" then (.ok (some none), s)
                else
                  match Proto.Blob.parseFromBytes blobBytes with
                  | none => (.error .unwrap, s)
                  | some blob => (.ok (some (some blob)), s)

/-- `src/arcpbf/mod.rs:56-82` -/
def getNextOver : Nat → S → Res (Option Proto.Blob) × S
  | 0, s => (.ok none, s)
  | n + 1, s =>
    match readBlobOver rx s with
    | (.ok (some none), s) => getNextOver n s
    | (.ok (some (some blob)), s) => (.ok (some blob), s)
    | (.ok none, s) => (.ok none, s)
    | (.error p, s) => (.error p, s)

/-- `src/arcpbf/mod.rs:477-481` -/
structure ReaderOver (S : Type) where
  src : S
  buffer : List ArcOSMObj
  sortedAssumption : Bool

/-- `src/arcpbf/mod.rs:495-501` -/
def ReaderOver.new {S : Type} (s : S) : ReaderOver S := ⟨s, [], false⟩

/-- `src/arcpbf/mod.rs:518-541`. `rounds` bounds the rounds of both loops. -/
def ReaderOver.nextAux (zlib : Proto.Bytes → Option Proto.Bytes) (b : Build) (rounds : Nat) : Nat → ReaderOver S →
    Res (Option ArcOSMObj) × ReaderOver S
  | n, r =>
    match r.buffer.getLast? with
    | some o => (.ok (some o), { r with buffer := r.buffer.dropLast })
    | none =>
      match n with
      | 0 => (.ok none, r)
      | n + 1 =>
        match getNextOver rx rounds r.src with
        | (.error p, src) => (.error p, { r with src := src })
        | (.ok none, src) => (.ok none, { r with src := src })
        | (.ok (some blob), src) =>
          match decodeBlob zlib b blob with
          | .error p => (.error p, { r with src := src })
          | .ok objs => ReaderOver.nextAux zlib b rounds n { r with src := src, buffer := objs.reverse }

/-- `src/arcpbf/mod.rs:518-541` on an implementation of `Read`. -/
def ReaderOver.next (rd : AnyReader) (zlib : Proto.Bytes → Option Proto.Bytes) (b : Build) (rounds : Nat) (r : ReaderOver rd.S) :
    Res (Option ArcOSMObj) × ReaderOver rd.S := ReaderOver.nextAux rd.readExact zlib b rounds rounds r

end ArcPbf

namespace NodePos
variable {S : Type} (rx : Nat → S → Option (List UInt8) × S)

/-- `src/stringpbf/node_id_pos.rs:23-26` -/
structure ReaderOver (S : Type) where
  src : S
  buffer : List NodeIdPos

/-- `src/stringpbf/node_id_pos.rs:30-40` -/
def ReaderOver.new {S : Type} (s : S) : ReaderOver S := ⟨s, []⟩

/-- `src/stringpbf/node_id_pos.rs:54-72`. `rounds` bounds the rounds of both loops. -/
def ReaderOver.nextAux (zlib : Proto.Bytes → Option Proto.Bytes) (b : Build) (rounds : Nat) : Nat → ReaderOver S →
    Res (Option NodeIdPos) × ReaderOver S
  | n, r =>
    match r.buffer with
    | o :: os => (.ok (some o), { r with buffer := os })
    | [] =>
      match n with
      | 0 => (.ok none, r)
      | n + 1 =>
        match StringPbf.getNextOver rx rounds r.src with
        | (.error p, src) => (.error p, { r with src := src })
        | (.ok none, src) => (.ok none, { r with src := src })
        | (.ok (some blob), src) =>
          match decodeBlob zlib b blob with
          | (os, some p) => (.error p, { r with src := src, buffer := os })
          | (os, none) => ReaderOver.nextAux zlib b rounds n { r with src := src, buffer := os }

/-- `src/stringpbf/node_id_pos.rs:54-72` on an implementation of `Read`. -/
def ReaderOver.next (rd : AnyReader) (zlib : Proto.Bytes → Option Proto.Bytes) (b : Build) (rounds : Nat) (r : ReaderOver rd.S) :
    Res (Option NodeIdPos) × ReaderOver rd.S := ReaderOver.nextAux rd.readExact zlib b rounds rounds r

end NodePos
end Osmio
