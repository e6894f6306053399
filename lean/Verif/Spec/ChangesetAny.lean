import Verif.Spec.ChangesetHeard
/-!
# Specification: the changesets of any sequence of events

No condition on the document: elements may be malformed, nested, repeated or cut, attributes repeated under several prefixes,
and there may be errors anywhere.
-/

namespace Osmio.Spec.Cs
open QuickXml

/-- What an optional attribute says; the last one counts. -/
def LastOpt {α : Type} (attrs : Attrs) (name : Str) (f : Str → Option α) : Option α → Prop
  | some x => ∃ s, LastHas attrs name s ∧ f s = some x
  | none => Lacks attrs name

/-- The attributes say this (everything but the tags). -/
structure Gives (attrs : Attrs) (d : Data) : Prop where
  id : ∃ s, LastHas attrs (str% "id") s ∧ parseU32 s = some d.id
  created : LastHas attrs (str% "created_at") d.created
  closed : LastOpt attrs (str% "closed_at") some d.closed
  isOpen : ∃ a, Last attrs (str% "open") a ∧ a.value = Utf8.encode (if d.isOpen then str% "true" else str% "false")
  uid : LastOpt attrs (str% "uid") parseI64 d.uid
  user : LastOpt attrs (str% "user") some d.user
  numChanges : ∃ s, LastHas attrs (str% "num_changes") s ∧ parseU64 s = some d.numChanges
  commentsCount : ∃ s, LastHas attrs (str% "comments_count") s ∧ parseU64 s = some d.commentsCount

/-- No attribute is an error, and none has a value that cannot be used. -/
def Readable (attrs : Attrs) : Prop := none ∉ attrs ∧ ∀ a, some a ∈ attrs → ¬ Unreadable a

/-- What an element with readable attributes and these tags is: a changeset, or nothing if something required is missing. -/
def Amounts (attrs : Attrs) (tags : List (Str × Str)) : Option Data → Prop
  | some d => Gives attrs d ∧ d.tags = tags
  | none => ∃ name ∈ required, Lacks attrs name

/-- What follows the start of a changeset: the tags up to the next end of a changeset, and what follows that. If an error or a malformed
tag comes first, there is nothing, and what follows is what follows that. Everything else is passed over, also starts of
changesets. -/
inductive Inner : Events → Option (List (Str × Str)) → Events → Prop where
  | close {e rest} : Closes e (str% "changeset") → Inner (some e :: rest) (some []) rest
  | broken {rest} : Inner (none :: rest) none rest
  | badTag {e attrs rest} : Opens e (str% "tag") attrs → BadTag attrs → Inner (some e :: rest) none rest
  | tag {e attrs k v evs o rest} : Opens e (str% "tag") attrs → ¬ BadTag attrs → LastHas attrs (str% "k") k → LastHas attrs (str% "v") v →
      Inner evs o rest → Inner (some e :: evs) (o.map ((k, v) :: ·)) rest
  | other {e evs o rest} : ¬ Closes e (str% "changeset") → (∀ attrs, ¬ Opens e (str% "tag") attrs) → Inner evs o rest →
      Inner (some e :: evs) o rest

/-- The results for a sequence of events, in order, `none` for an error. -/
inductive Shown : Events → List (Option Data) → Prop where
  | nil : Shown [] []
  | broken {evs ds} : Shown evs ds → Shown (none :: evs) (none :: ds)
  | other {e evs ds} : (∀ attrs, ¬ Opens e (str% "changeset") attrs) → Shown evs ds → Shown (some e :: evs) ds
  | unreadable {e attrs evs ds} : Opens e (str% "changeset") attrs → ¬ Readable attrs → Shown evs ds → Shown (some e :: evs) (none :: ds)
  | short {n attrs o evs ds} : Named n (str% "changeset") → Readable attrs → Amounts attrs [] o → Shown evs ds →
      Shown (some (.empty n attrs) :: evs) (o :: ds)
  | full {n attrs o tags evs rest ds} : Named n (str% "changeset") → Readable attrs → Inner evs (some tags) rest → Amounts attrs tags o →
      Shown rest ds → Shown (some (.start n attrs) :: evs) (o :: ds)
  | stopped {n attrs evs rest ds} : Named n (str% "changeset") → Readable attrs → Inner evs none rest → Shown rest ds →
      Shown (some (.start n attrs) :: evs) (none :: ds)

end Osmio.Spec.Cs
