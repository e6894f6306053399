import Verif.Spec.Changesets
/-!
# Specification: what the reader of changeset tags has heard

Which id and which tags belong to the end tag of a changeset, as the reader sees it, in terms of the document before that end
tag. No condition on the document: elements may lack ids, be malformed, nested or cut.
-/

namespace Osmio.Spec.Cs
open QuickXml

/-- The id an attribute list gives: it is read from left to right, as far as it can be read, and the last id counts. -/
inductive Announced : Attrs → Option UInt64 → Prop where
  | nil : Announced [] none
  | unreadable {r} : Announced (none :: r) none
  | useless {a r} : Named a.key (str% "id") → Useless parseU64 a → Announced (some a :: r) none
  | id {a s x r o} : Named a.key (str% "id") → Value.Bytes a.value s → parseU64 s = some x → Announced r o →
      Announced (some a :: r) (o.or (some x))
  | other {a r o} : ¬ Named a.key (str% "id") → Announced r o → Announced (some a :: r) o

/-- All attributes can be read, and every id is a number. -/
def Clean (attrs : Attrs) : Prop :=
  none ∉ attrs ∧ ∀ a, some a ∈ attrs → Named a.key (str% "id") → ¬ Useless parseU64 a

/-- No changeset element gives an id. -/
def Silent (evs : Events) : Prop :=
  ∀ n attrs, Named n (str% "changeset") → some (.start n attrs) ∈ evs → Announced attrs none

/-- The id heard last: that of the latest changeset element that gives one. -/
def Heard (seen : Events) : Option UInt64 → Prop
  | some id => ∃ pre n attrs post, seen = pre ++ some (.start n attrs) :: post ∧ Named n (str% "changeset") ∧
      Announced attrs (some id) ∧ Silent post
  | none => Silent seen

/-- The last attribute of this name. -/
def Last (attrs : Attrs) (name : Str) (a : Attr) : Prop :=
  ∃ pre post, attrs = pre ++ some a :: post ∧ Named a.key name ∧ Lacks post name

/-- The last attribute of this name has this value (entities resolved). -/
def LastHas (attrs : Attrs) (name s : Str) : Prop := ∃ a, Last attrs name a ∧ Value.Bytes a.value s

/-- The tags among these events, in order. Malformed tags do not count; no changeset element with readable attributes begins. -/
inductive Gathered : Events → List (Str × Str) → Prop where
  | nil : Gathered [] []
  | tag {e attrs k v evs tags} : Opens e (str% "tag") attrs → ¬ BadTag attrs → LastHas attrs (str% "k") k →
      LastHas attrs (str% "v") v → Gathered evs tags → Gathered (some e :: evs) ((k, v) :: tags)
  | skip {x evs tags} : (∀ e attrs, x = some e → Opens e (str% "tag") attrs → BadTag attrs) →
      (∀ n attrs, x = some (.start n attrs) → Named n (str% "changeset") → ¬ Clean attrs) →
      Gathered evs tags → Gathered (x :: evs) tags

/-- Where the reader begins to gather tags: at the beginning, after the start of a changeset with readable attributes, after the
end of one before which an id was heard. -/
inductive Fresh : Events → Prop where
  | nil : Fresh []
  | start {p n attrs} : Named n (str% "changeset") → Clean attrs → Fresh (p ++ [some (.start n attrs)])
  | stop {p n} : Named n (str% "changeset") → ¬ Silent p → Fresh (p ++ [some (.end_ n)])

/-- The tags since the latest such place. -/
def Since (seen : Events) (tags : List (Str × Str)) : Prop :=
  ∃ old new, seen = old ++ new ∧ Fresh old ∧ Gathered new tags ∧
    ∀ a n b, new = a ++ some (.end_ n) :: b → Named n (str% "changeset") → Silent (old ++ a)

/-- The pairs for a document of which `seen` has been read: one for each end of a changeset before which an id was heard. -/
inductive Told : Events → Events → List (UInt64 × List (Str × Str)) → Prop where
  | nil {seen} : Told seen [] []
  | pair {seen n evs id tags ps} : Named n (str% "changeset") → Heard seen (some id) → Since seen tags →
      Told (seen ++ [some (.end_ n)]) evs ps → Told seen (some (.end_ n) :: evs) ((id, tags) :: ps)
  | unheard {seen n evs ps} : Named n (str% "changeset") → Silent seen →
      Told (seen ++ [some (.end_ n)]) evs ps → Told seen (some (.end_ n) :: evs) ps
  | other {seen x evs ps} : (∀ n, x = some (.end_ n) → ¬ Named n (str% "changeset")) →
      Told (seen ++ [x]) evs ps → Told seen (x :: evs) ps

/-- What the reader answers with an error, `seen` read before: an error of the source, a start of a changeset whose attributes cannot
be read, a malformed tag, an end of a changeset when no id was heard. -/
def Fault (seen : Events) : Option Event → Prop
  | none => True
  | some e => (∃ n attrs, e = .start n attrs ∧ Named n (str% "changeset") ∧ ¬ Clean attrs) ∨
      (∃ attrs, Opens e (str% "tag") attrs ∧ BadTag attrs) ∨ (Closes e (str% "changeset") ∧ Silent seen)

/-- All results, in order, `none` for an error. -/
inductive ToldAll : Events → Events → List (Option (UInt64 × List (Str × Str))) → Prop where
  | nil {seen} : ToldAll seen [] []
  | pair {seen n evs id tags ps} : Named n (str% "changeset") → Heard seen (some id) → Since seen tags →
      ToldAll (seen ++ [some (.end_ n)]) evs ps → ToldAll seen (some (.end_ n) :: evs) (some (id, tags) :: ps)
  | fault {seen x evs ps} : Fault seen x → ToldAll (seen ++ [x]) evs ps → ToldAll seen (x :: evs) (none :: ps)
  | other {seen x evs ps} : ¬ Fault seen x → (∀ n, x = some (.end_ n) → ¬ Named n (str% "changeset")) →
      ToldAll (seen ++ [x]) evs ps → ToldAll seen (x :: evs) ps

/-- The results that are no errors. -/
def oks {α : Type} (rs : List (Except Changesets.Err α)) : List α :=
  rs.filterMap fun r => match r with
    | .ok a => some a
    | .error _ => none

end Osmio.Spec.Cs
