import Verif.Model.Changesets
/-!
# Model: `ChangesetBuilder` as its callers use it

`derive(Builder)` on `src/changesets.rs:36-50` makes a public setter for every field; a setter takes the builder and gives it back.
`#[builder(setter(strip_option))]` (lines 40, 43, 45) stores `Some` of the argument. The builder itself and `build` are in
`Model/Changesets.lean`, as the reader uses them.
-/

namespace Osmio.Changesets.Builder

/-- `ChangesetBuilder::default()`; `src/changesets.rs:36-50`, derived. -/
def default : Builder := {}
/-- `src/changesets.rs:38` -/
def setId (b : Builder) (v : UInt32) : Builder := { b with id := some v }
/-- `src/changesets.rs:39` -/
def setCreated (b : Builder) (v : TimestampFormat) : Builder := { b with created := some v }
/-- `src/changesets.rs:40-41` -/
def setClosed (b : Builder) (v : TimestampFormat) : Builder := { b with closed := some v }
/-- `src/changesets.rs:42` -/
def setOpen (b : Builder) (v : Bool) : Builder := { b with isOpen := some v }
/-- `src/changesets.rs:43-44` -/
def setUid (b : Builder) (v : Int64) : Builder := { b with uid := some v }
/-- `src/changesets.rs:45-46` -/
def setUser (b : Builder) (v : Str) : Builder := { b with user := some v }
/-- `src/changesets.rs:47` -/
def setTags (b : Builder) (v : TagMap) : Builder := { b with tags := some v }
/-- `src/changesets.rs:48` -/
def setNumChanges (b : Builder) (v : UInt64) : Builder := { b with numChanges := some v }
/-- `src/changesets.rs:49` -/
def setCommentsCount (b : Builder) (v : UInt64) : Builder := { b with commentsCount := some v }

end Osmio.Changesets.Builder
