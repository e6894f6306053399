import Verif.Spec.Changesets
import Verif.Spec.XmlLex
/-!
# Specification of changeset dumps as texts

The parts of a text (`Verif/Spec/XmlLex.lean`) and the changesets they are a dump of. Here a dump is what its author
sees: elements, attribute values with references resolved, tags.
-/

namespace Osmio.Spec.Cs
open Lex

/-- There is an attribute of this name with this value. -/
def Says (as : List SrcAttr) (name value : Str) : Prop := ∃ a ∈ as, a.key = name ∧ a.value = value

/-- There is no attribute of this name. -/
def Absent (as : List SrcAttr) (name : Str) : Prop := ∀ a ∈ as, a.key ≠ name

/-- What an optional attribute says. -/
def Maybe {α : Type} (as : List SrcAttr) (name : Str) (f : Str → Option α) : Option α → Prop
  | some x => ∃ s, Says as name s ∧ f s = some x
  | none => Absent as name

/-- The attributes of a changeset element say this (everything but the tags). The value of `open` is not spelled with
references. -/
structure Tells (as : List SrcAttr) (d : Data) : Prop where
  id : ∃ s, Says as (str% "id") s ∧ parseU32 s = some d.id
  created : Says as (str% "created_at") d.created
  closed : Maybe as (str% "closed_at") some d.closed
  isOpen : ∃ a ∈ as, a.key = str% "open" ∧ a.src = if d.isOpen then str% "true" else str% "false"
  uid : Maybe as (str% "uid") parseI64 d.uid
  user : Maybe as (str% "user") some d.user
  numChanges : ∃ s, Says as (str% "num_changes") s ∧ parseU64 s = some d.numChanges
  commentsCount : ∃ s, Says as (str% "comments_count") s ∧ parseU64 s = some d.commentsCount

/-- The attributes of a malformed changeset element: one is missing, or a value cannot be used. -/
def Wrong (as : List SrcAttr) : Prop :=
  (∃ name ∈ required, Absent as name) ∨
  (∃ s, Says as (str% "id") s ∧ parseU32 s = none) ∨
  (∃ s, Says as (str% "uid") s ∧ parseI64 s = none) ∨
  (∃ s, Says as (str% "num_changes") s ∧ parseU64 s = none) ∨
  (∃ s, Says as (str% "comments_count") s ∧ parseU64 s = none) ∨
  ∃ a ∈ as, a.key = str% "open" ∧ a.src ≠ str% "true" ∧ a.src ≠ str% "false"

/-- Tag of an element, with or without content. -/
def Element (x : Tok) (name : Str) (as : List SrcAttr) : Prop := x = .start name as ∨ x = .empty name as

/-- A part that is neither a tag of a changeset nor a `tag` element. -/
def Aside (x : Tok) : Prop :=
  (∀ as, ¬ Element x (str% "changeset") as) ∧ x ≠ .stop (str% "changeset") ∧ ∀ as, ¬ Element x (str% "tag") as

/-- The inside of a changeset element, and its tags in order. -/
inductive Tagged : List Tok → List (Str × Str) → Prop where
  | nil : Tagged [] []
  | tag {x as k v ts tags} : Element x (str% "tag") as → Says as (str% "k") k → Says as (str% "v") v →
      Tagged ts tags → Tagged (x :: ts) ((k, v) :: tags)
  | other {x ts tags} : Aside x → Tagged ts tags → Tagged (x :: ts) tags

/-- The inside of a changeset element, whatever its tags look like. -/
def Within (ts : List Tok) : Prop :=
  ∀ x ∈ ts, (∀ as, ¬ Element x (str% "changeset") as) ∧ x ≠ .stop (str% "changeset")

/-- There is a `tag` element without key or without value. -/
def NoTag (ts : List Tok) : Prop :=
  ∃ x ∈ ts, ∃ as, Element x (str% "tag") as ∧ (Absent as (str% "k") ∨ Absent as (str% "v"))

/-- The parts of a text are a dump: for each changeset element, in order, whether it has an end tag, and what it says,
`none` if it is malformed. -/
inductive DumpText : List Tok → List (Bool × Option Data) → Prop where
  | nil : DumpText [] []
  | other {x ts ds} : Aside x → DumpText ts ds → DumpText (x :: ts) ds
  | short {as d ts ds} : Tells as d → d.tags = [] → DumpText ts ds →
      DumpText (.empty (str% "changeset") as :: ts) ((false, some d) :: ds)
  | full {as d body ts ds} : Tells as d → Tagged body d.tags → DumpText ts ds →
      DumpText (.start (str% "changeset") as :: (body ++ .stop (str% "changeset") :: ts)) ((true, some d) :: ds)
  | badShort {as ts ds} : Wrong as → DumpText ts ds →
      DumpText (.empty (str% "changeset") as :: ts) ((false, none) :: ds)
  | badFull {as body ts ds} : Wrong as ∨ NoTag body → Within body → DumpText ts ds →
      DumpText (.start (str% "changeset") as :: (body ++ .stop (str% "changeset") :: ts)) ((true, none) :: ds)

/-- The parts of a text are a dump as far as ids and tags are concerned: id and tags of every changeset element
with an end tag. -/
inductive TagDumpText : List Tok → List (UInt64 × List (Str × Str)) → Prop where
  | nil : TagDumpText [] []
  | other {x ts ds} : Aside x → TagDumpText ts ds → TagDumpText (x :: ts) ds
  | short {as ts ds} : TagDumpText ts ds → TagDumpText (.empty (str% "changeset") as :: ts) ds
  | full {as id s body tags ts ds} : Says as (str% "id") s → parseU64 s = some id → Tagged body tags →
      TagDumpText ts ds →
      TagDumpText (.start (str% "changeset") as :: (body ++ .stop (str% "changeset") :: ts)) ((id, tags) :: ds)

/-- Every end tag closes the element opened last; the first list holds the open elements. -/
inductive Matched : List Str → List Tok → Prop where
  | nil {st} : Matched st []
  | start {st n as ts} : Matched (n :: st) ts → Matched st (.start n as :: ts)
  | empty {st n as ts} : Matched st ts → Matched st (.empty n as :: ts)
  | stop {st n ts} : Matched st ts → Matched (n :: st) (.stop n :: ts)
  | text {st ts} : Matched st ts → Matched st (.text :: ts)
  | space {st ts} : Matched st ts → Matched st (.space :: ts)

end Osmio.Spec.Cs
