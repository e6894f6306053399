import Verif.Lib.QuickXmlPull
import Verif.Model.Changesets
/-!
# Model: the readers of `src/changesets.rs` over any implementation of `Read`

The same code as in `Model/Changesets.lean`, with the events pulled one by one through the `BufReader` that `new` puts in front of the source. As there, the loops take a number of
iterations they may use, and `none` means that the call has not returned after so many.
-/

namespace Osmio.Changesets
open QuickXml

/-- The size of the buffer of `BufReader::new`, `DEFAULT_BUF_SIZE` of the standard library; `src/changesets.rs:93` and `335`. -/
def bufferSize : Nat := 8192

section generic
variable {σ : Type} (read : Nat → σ → Option (Read × σ))

/-- `src/changesets.rs:172-209` -/
def readTagsOver : Nat → TagMap → σ → Option (Except Err TagMap × σ)
  | 0, _, _ => none
  | n + 1, tags, s =>
    match read (n + 1) s with
    | none => none
    | some (.error, r) => some (.error .xml, r)
    | some (.event (.end_ name), r) =>
      if localName name = Utf8.encode (str% "changeset") then some (.ok tags, r) else readTagsOver n tags r
    | some (.event (.start name attrs), r) =>
      if localName name = Utf8.encode (str% "tag") then
        match tagOf attrs with
        | .ok (k, v) => readTagsOver n (tags.insert k v) r
        | .error e => some (.error e, r)
      else readTagsOver n tags r
    | some (.event (.empty name attrs), r) =>
      if localName name = Utf8.encode (str% "tag") then
        match tagOf attrs with
        | .ok (k, v) => readTagsOver n (tags.insert k v) r
        | .error e => some (.error e, r)
      else readTagsOver n tags r
    | some (.event .other, r) => readTagsOver n tags r
    | some (.eof, r) => readTagsOver n tags r

/-- `src/changesets.rs:107-283` -/
def nextChangesetOver : Nat → σ → Option (Except Err (Option Changeset) × σ)
  | 0, _ => none
  | n + 1, s =>
    match read (n + 1) s with
    | none => none
    | some (.error, r) => some (.error .xml, r)
    | some (.eof, r) => some (.ok none, r)
    | some (.event (.start name attrs), r) =>
      if localName name = Utf8.encode (str% "changeset") then
        match setAttrs {} attrs with
        | .error e => some (.error e, r)
        | .ok b =>
          match readTagsOver read n [] r with
          | some (.ok tags, r') => some (built b tags, r')
          | some (.error e, r') => some (.error e, r')
          | none => none
      else nextChangesetOver n r
    | some (.event (.empty name attrs), r) =>
      if localName name = Utf8.encode (str% "changeset") then
        match setAttrs {} attrs with
        | .error e => some (.error e, r)
        | .ok b => some (built b [], r)
      else nextChangesetOver n r
    | some (.event (.end_ _), r) => nextChangesetOver n r
    | some (.event .other, r) => nextChangesetOver n r

/-- `src/changesets.rs:316-320` -/
structure TagReaderOver (σ : Type) where
  reader : σ
  currId : Option UInt64 := none
  tags : List (Str × Str) := []

/-- `src/changesets.rs:343-398` -/
def nextTagOver : Nat → TagReaderOver σ → Option (Except Err (Option (UInt64 × List (Str × Str))) × TagReaderOver σ)
  | 0, _ => none
  | n + 1, s =>
    match read (n + 1) s.reader with
    | none => none
    | some (.error, r) => some (.error .xml, { s with reader := r })
    | some (.eof, r) => some (.ok none, { s with reader := r })
    | some (.event (.end_ name), r) =>
      if localName name = Utf8.encode (str% "changeset") then
        match s.currId with
        | some id => some (.ok (some (id, s.tags)), { s with reader := r, tags := [] })
        | none => some (.error .noId, { s with reader := r })
      else nextTagOver n { s with reader := r }
    | some (.event (.start name attrs), r) =>
      if localName name = Utf8.encode (str% "changeset") then
        match idAttrs s.currId attrs with
        | (id, .ok ()) => nextTagOver n { reader := r, currId := id, tags := [] }
        | (id, .error e) => some (.error e, { s with reader := r, currId := id })
      else if localName name = Utf8.encode (str% "tag") then
        match tagOf attrs with
        | .ok kv => nextTagOver n { s with reader := r, tags := s.tags ++ [kv] }
        | .error e => some (.error e, { s with reader := r })
      else nextTagOver n { s with reader := r }
    | some (.event (.empty name attrs), r) =>
      if localName name = Utf8.encode (str% "tag") then
        match tagOf attrs with
        | .ok kv => nextTagOver n { s with reader := r, tags := s.tags ++ [kv] }
        | .error e => some (.error e, { s with reader := r })
      else nextTagOver n { s with reader := r }
    | some (.event .other, r) => nextTagOver n { s with reader := r }

end generic

/-- `ChangesetReader<R>` (`src/changesets.rs:82-85`) -/
structure ReaderOver (S : Type) where
  reader : Pull S

namespace ReaderOver
variable {S : Type}

/-- `src/changesets.rs:91-96`; `later` is what comes after a failure of the source. -/
def fromReader (later : Events) (s : S) : ReaderOver S := ⟨.new later s⟩

/-- `src/changesets.rs:88-90` -/
def new (later : Events) (s : S) : ReaderOver S := fromReader later s

/-- `src/changesets.rs:99-101` -/
def getRef (r : ReaderOver S) : S := r.reader.src.inner

/-- `src/changesets.rs:103-105`: what the buffer holds is dropped. -/
def intoInner (r : ReaderOver S) : S := r.reader.src.inner

/-- `src/changesets.rs:107-283` -/
def nextChangeset (rd : AnyReader) (n : Nat) (r : ReaderOver rd.S) : Option (Except Err (Option Changeset) × ReaderOver rd.S) :=
  (nextChangesetOver (Pull.readEventInto rd bufferSize) n r.reader).map fun x => (x.1, ⟨x.2⟩)

end ReaderOver

/-- `src/changesets.rs:333-339` -/
def newTagReaderOver {S : Type} (later : Events) (s : S) : TagReaderOver (Pull S) := { reader := .new later s }

/-- `src/changesets.rs:343-398` -/
def nextTagFrom (rd : AnyReader) (n : Nat) (r : TagReaderOver (Pull rd.S)) :
    Option (Except Err (Option (UInt64 × List (Str × Str))) × TagReaderOver (Pull rd.S)) :=
  nextTagOver (Pull.readEventInto rd bufferSize) n r

end Osmio.Changesets
