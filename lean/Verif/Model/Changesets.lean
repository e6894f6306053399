import Verif.Lib.QuickXml
import Verif.Lib.RustNum
import Verif.Model.Timestamp
/-!
# Model of `src/changesets.rs`

The two readers of changeset dumps. A loop of the code takes a number of iterations it may use
(`fuel`); `none` means that the call has not returned after so many iterations. A call that never
returns gives `none` for every number. The buffers `buf` are not modelled: they are cleared
or dropped before they could be read again.
-/

namespace Osmio.Changesets
open QuickXml

/-- Where a call of a reader fails; `src/changesets.rs:112-281` and `346-392`, every `?`, `bail!` and `ensure!`. -/
inductive Err where
  | xml          -- `read_event_into(..)?`
  | attr         -- `attr?`
  | value        -- `normalized_value(..)?`
  | parse        -- `.parse()?`
  | unknownOpen  -- `bail!("unknown value")`
  | noK          -- `ensure!(k.is_some(), ..)`
  | noV          -- `ensure!(v.is_some(), ..)`
  | noId         -- `ensure!(self.curr_id.is_some(), ..)`
  | build        -- `changeset_builder.build()?`
  deriving DecidableEq

/-- `HashMap<String, String>`: pairs with distinct keys, in no particular order; `src/changesets.rs:47`. -/
abbrev TagMap := List (Str × Str)

/-- `HashMap::insert`; `src/changesets.rs:205`. -/
def TagMap.insert (m : TagMap) (k v : Str) : TagMap := m.filter (fun p => p.1 != k) ++ [(k, v)]

/-- `HashMap::get`; `src/changesets.rs:54`. -/
def TagMap.get (m : TagMap) (k : Str) : Option Str := (m.find? fun p => p.1 == k).map (·.2)

/-- `HashMap::remove`; through `tags_mut`, `src/changesets.rs:72-74`. -/
def TagMap.remove (m : TagMap) (k : Str) : TagMap := m.filter fun p => p.1 != k

/-- `src/changesets.rs:37-50` -/
structure Changeset where
  id : UInt32
  created : TimestampFormat
  closed : Option TimestampFormat
  isOpen : Bool
  uid : Option Int64
  user : Option Str
  tags : TagMap
  numChanges : UInt64
  commentsCount : UInt64
  deriving DecidableEq

namespace Changeset
/-- `src/changesets.rs:53-55` -/
def tag (c : Changeset) (k : Str) : Option Str := c.tags.get k
/-- `src/changesets.rs:56-58` -/
def hasTag (c : Changeset) (k : Str) : Bool := (c.tag k).isSome
/-- `src/changesets.rs:59-61` -/
def numTags (c : Changeset) : Nat := c.tags.length
/-- `src/changesets.rs:68-70` -/
def untagged (c : Changeset) : Bool := c.numTags == 0
/-- `src/changesets.rs:64-66` -/
def tagged (c : Changeset) : Bool := !c.untagged
/-- `src/changesets.rs:72-74`: the caller changes the map that is lent to them. -/
def tagsMut (f : TagMap → TagMap) (c : Changeset) : Changeset := { c with tags := f c.tags }
/-- `src/changesets.rs:76-78` -/
def intoTags (c : Changeset) : TagMap := c.tags
end Changeset

/-- `ChangesetBuilder`, which `derive(Builder)` makes from `src/changesets.rs:36-50`. The three fields with a default
are `Option<Option<_>>` in Rust; a setter with `strip_option` always stores `Some`, so one level is enough. -/
structure Builder where
  id : Option UInt32 := none
  created : Option TimestampFormat := none
  closed : Option TimestampFormat := none
  isOpen : Option Bool := none
  uid : Option Int64 := none
  user : Option Str := none
  tags : Option TagMap := none
  numChanges : Option UInt64 := none
  commentsCount : Option UInt64 := none

/-- `ChangesetBuilder::build`: a field without default that was not set is an error; `src/changesets.rs:36-50`, derived. -/
def Builder.build (b : Builder) : Except Err Changeset :=
  match b.id, b.created, b.isOpen, b.tags, b.numChanges, b.commentsCount with
  | some id, some created, some isOpen, some tags, some numChanges, some commentsCount =>
    .ok { id := id, created := created, closed := b.closed, isOpen := isOpen, uid := b.uid, user := b.user,
          tags := tags, numChanges := numChanges, commentsCount := commentsCount }
  | _, _, _, _, _, _ => .error .build

/-- `attr.normalized_value(..)?`; `src/changesets.rs:131`, `136`, `148`, `380`, `385` and others. -/
def value (a : Attr) : Except Err Str :=
  match a.normalizedValue with
  | some s => .ok s
  | none => .error .value

/-- `attr.normalized_value(..)?.parse()?`; `src/changesets.rs:127`, `153`, `157`, `162`, `365` and others. -/
def parsed {α : Type} (p : Str → Option α) (a : Attr) : Except Err α :=
  match a.normalizedValue with
  | some s =>
    match p s with
    | some x => .ok x
    | none => .error .parse
  | none => .error .value

/-- `src/changesets.rs:140-144`, `242-246`: the value as it stands in the document. -/
def openValue (a : Attr) : Except Err Bool :=
  if a.value = Utf8.encode (str% "true") then .ok true
  else if a.value = Utf8.encode (str% "false") then .ok false
  else .error .unknownOpen

/-- `src/changesets.rs:124-166`, `226-268`: one attribute. -/
def setAttr (b : Builder) (a : Attr) : Except Err Builder :=
  let n := localName a.key
  if n = Utf8.encode (str% "id") then (parsed parseU32 a).map fun x => { b with id := some x }
  else if n = Utf8.encode (str% "created_at") then (value a).map fun x => { b with created := some (.iso x) }
  else if n = Utf8.encode (str% "closed_at") then (value a).map fun x => { b with closed := some (.iso x) }
  else if n = Utf8.encode (str% "open") then (openValue a).map fun x => { b with isOpen := some x }
  else if n = Utf8.encode (str% "user") then (value a).map fun x => { b with user := some x }
  else if n = Utf8.encode (str% "uid") then (parsed parseI64 a).map fun x => { b with uid := some x }
  else if n = Utf8.encode (str% "num_changes") then (parsed parseU64 a).map fun x => { b with numChanges := some x }
  else if n = Utf8.encode (str% "comments_count") then
    (parsed parseU64 a).map fun x => { b with commentsCount := some x }
  else .ok b

/-- `src/changesets.rs:122-167`, `224-269` -/
def setAttrs (b : Builder) : Attrs → Except Err Builder
  | [] => .ok b
  | none :: _ => .error .attr
  | some a :: r =>
    match setAttr b a with
    | .ok b' => setAttrs b' r
    | .error e => .error e

/-- `src/changesets.rs:187-201`, `377-389`: one attribute of a `tag`. -/
def tagAttr (kv : Option Str × Option Str) (a : Attr) : Except Err (Option Str × Option Str) :=
  let n := localName a.key
  if n = Utf8.encode (str% "k") then (value a).map fun x => (some x, kv.2)
  else if n = Utf8.encode (str% "v") then (value a).map fun x => (kv.1, some x)
  else .ok kv

/-- `src/changesets.rs:185-202`, `375-390` -/
def tagAttrs (kv : Option Str × Option Str) : Attrs → Except Err (Option Str × Option Str)
  | [] => .ok kv
  | none :: _ => .error .attr
  | some a :: r =>
    match tagAttr kv a with
    | .ok kv' => tagAttrs kv' r
    | .error e => .error e

/-- `src/changesets.rs:183-204`, `373-392`: key and value of a `tag`. -/
def tagOf (attrs : Attrs) : Except Err (Str × Str) :=
  match tagAttrs (none, none) attrs with
  | .ok (some k, some v) => .ok (k, v)
  | .ok (none, _) => .error .noK
  | .ok (_, none) => .error .noV
  | .error e => .error e

/-- `src/changesets.rs:172-209`: the tags of a changeset. The arm of line 207 also takes `Eof`. -/
def readTags : Nat → TagMap → Events → Option (Except Err TagMap × Events)
  | 0, _, _ => none
  | n + 1, tags, evs =>
    match readEvent evs with
    | (.error, r) => some (.error .xml, r)
    | (.event (.end_ name), r) =>
      if localName name = Utf8.encode (str% "changeset") then some (.ok tags, r) else readTags n tags r
    | (.event (.start name attrs), r) =>
      if localName name = Utf8.encode (str% "tag") then
        match tagOf attrs with
        | .ok (k, v) => readTags n (tags.insert k v) r
        | .error e => some (.error e, r)
      else readTags n tags r
    | (.event (.empty name attrs), r) =>
      if localName name = Utf8.encode (str% "tag") then
        match tagOf attrs with
        | .ok (k, v) => readTags n (tags.insert k v) r
        | .error e => some (.error e, r)
      else readTags n tags r
    | (.event .other, r) => readTags n tags r
    | (.eof, r) => readTags n tags r

/-- What a call returns when the builder is built, `src/changesets.rs:211-214`, `272-282`. -/
def built (b : Builder) (tags : TagMap) : Except Err (Option Changeset) :=
  ({ b with tags := some tags }).build.map some

/-- `src/changesets.rs:107-283`, `ChangesetReader::next_changeset` -/
def nextChangeset : Nat → Events → Option (Except Err (Option Changeset) × Events)
  | 0, _ => none
  | n + 1, evs =>
    match readEvent evs with
    | (.error, r) => some (.error .xml, r)
    | (.eof, r) => some (.ok none, r)
    | (.event (.start name attrs), r) =>
      if localName name = Utf8.encode (str% "changeset") then
        match setAttrs {} attrs with
        | .error e => some (.error e, r)
        | .ok b =>
          match readTags n [] r with
          | some (.ok tags, r') => some (built b tags, r')
          | some (.error e, r') => some (.error e, r')
          | none => none
      else nextChangeset n r
    | (.event (.empty name attrs), r) =>
      if localName name = Utf8.encode (str% "changeset") then
        match setAttrs {} attrs with
        | .error e => some (.error e, r)
        | .ok b => some (built b [], r)
      else nextChangeset n r
    | (.event (.end_ _), r) => nextChangeset n r
    | (.event .other, r) => nextChangeset n r

/-- `src/changesets.rs:316-320`, `ChangesetTagReader`; what is left of the source comes with each call. -/
structure TagReader where
  evs : Events
  currId : Option UInt64 := none
  tags : List (Str × Str) := []

/-- `src/changesets.rs:361-367`: the attributes of a changeset. An error leaves the ids set so far. -/
def idAttrs (id : Option UInt64) : Attrs → Option UInt64 × Except Err Unit
  | [] => (id, .ok ())
  | none :: _ => (id, .error .attr)
  | some a :: r =>
    if localName a.key = Utf8.encode (str% "id") then
      match parsed parseU64 a with
      | .ok x => idAttrs (some x) r
      | .error e => (id, .error e)
    else idAttrs id r

/-- `src/changesets.rs:343-398`, `ChangesetTagReader::next_tag` -/
def nextTag : Nat → TagReader → Option (Except Err (Option (UInt64 × List (Str × Str))) × TagReader)
  | 0, _ => none
  | n + 1, s =>
    match readEvent s.evs with
    | (.error, r) => some (.error .xml, { s with evs := r })
    | (.eof, r) => some (.ok none, { s with evs := r })
    | (.event (.end_ name), r) =>
      if localName name = Utf8.encode (str% "changeset") then
        match s.currId with
        | some id => some (.ok (some (id, s.tags)), { s with evs := r, tags := [] })
        | none => some (.error .noId, { s with evs := r })
      else nextTag n { s with evs := r }
    | (.event (.start name attrs), r) =>
      if localName name = Utf8.encode (str% "changeset") then
        match idAttrs s.currId attrs with
        | (id, .ok ()) => nextTag n { evs := r, currId := id, tags := [] }
        | (id, .error e) => some (.error e, { s with evs := r, currId := id })
      else if localName name = Utf8.encode (str% "tag") then
        match tagOf attrs with
        | .ok kv => nextTag n { s with evs := r, tags := s.tags ++ [kv] }
        | .error e => some (.error e, { s with evs := r })
      else nextTag n { s with evs := r }
    | (.event (.empty name attrs), r) =>
      if localName name = Utf8.encode (str% "tag") then
        match tagOf attrs with
        | .ok kv => nextTag n { s with evs := r, tags := s.tags ++ [kv] }
        | .error e => some (.error e, { s with evs := r })
      else nextTag n { s with evs := r }
    | (.event .other, r) => nextTag n { s with evs := r }

/-- `src/changesets.rs:333-339`, `ChangesetTagReader::new` -/
def newTagReader (evs : Events) : TagReader := { evs := evs }

/-- `src/changesets.rs:286-292`, `401-407`: `Iterator::next` is the call, transposed. -/
def transpose {α : Type} : Except Err (Option α) → Option (Except Err α)
  | .ok (some x) => some (.ok x)
  | .ok none => none
  | .error e => some (.error e)

end Osmio.Changesets
