import Verif.Lib.QuickXml
import Verif.Spec.XmlValue
import Verif.Lib.RustNum
import Verif.Model.Changesets
/-!
# Specification of changeset dumps

A dump as a sequence of XML events, described by relations only: what it means that an element has an
attribute, that a stretch of events holds certain tags, and that a sequence of events is a dump
of certain changesets. Of the model only the results the readers return are mentioned.
-/

namespace Osmio.Spec.Cs
open QuickXml

/-- A qualified name has this local name. -/
def Named (n : List UInt8) (s : Str) : Prop := localName n = Utf8.encode s

instance (n : List UInt8) (s : Str) : Decidable (Named n s) := inferInstanceAs (Decidable (_ = _))

/-- There is an attribute of this name with this value (entities resolved). -/
def HasAttr (attrs : Attrs) (name s : Str) : Prop :=
  ∃ a, some a ∈ attrs ∧ Named a.key name ∧ Value.Bytes a.value s

/-- There is an attribute of this name written exactly so. -/
def HasRaw (attrs : Attrs) (name raw : Str) : Prop :=
  ∃ a, some a ∈ attrs ∧ Named a.key name ∧ a.value = Utf8.encode raw

/-- There is no attribute of this name. -/
def Lacks (attrs : Attrs) (name : Str) : Prop := ∀ a, some a ∈ attrs → ¬ Named a.key name

/-- All attributes can be read, and no local name is used twice. -/
structure Sound (attrs : Attrs) : Prop where
  readable : none ∉ attrs
  distinct : (attrs.map fun o => o.map fun a => localName a.key).Nodup

/-- What an optional attribute says. -/
def Opt {α : Type} (attrs : Attrs) (name : Str) (f : Str → Option α) : Option α → Prop
  | some x => ∃ s, HasAttr attrs name s ∧ f s = some x
  | none => Lacks attrs name

/-- A changeset of a dump. -/
structure Data where
  id : UInt32
  created : Str
  closed : Option Str
  isOpen : Bool
  uid : Option Int64
  user : Option Str
  numChanges : UInt64
  commentsCount : UInt64
  /-- in the order of the document -/
  tags : List (Str × Str)

/-- The attributes say this (everything but the tags). -/
structure Describes (attrs : Attrs) (d : Data) : Prop where
  id : ∃ s, HasAttr attrs (str% "id") s ∧ parseU32 s = some d.id
  created : HasAttr attrs (str% "created_at") d.created
  closed : Opt attrs (str% "closed_at") some d.closed
  isOpen : HasRaw attrs (str% "open") (if d.isOpen then str% "true" else str% "false")
  uid : Opt attrs (str% "uid") parseI64 d.uid
  user : Opt attrs (str% "user") some d.user
  numChanges : ∃ s, HasAttr attrs (str% "num_changes") s ∧ parseU64 s = some d.numChanges
  commentsCount : ∃ s, HasAttr attrs (str% "comments_count") s ∧ parseU64 s = some d.commentsCount

/-- Start or empty element of this name. -/
def Opens (e : Event) (s : Str) (attrs : Attrs) : Prop :=
  ∃ n, (e = .start n attrs ∨ e = .empty n attrs) ∧ Named n s

/-- End of an element of this name. -/
def Closes (e : Event) (s : Str) : Prop := ∃ n, e = .end_ n ∧ Named n s

/-- An event that is neither part of a changeset element nor of a tag. -/
def Neutral (e : Event) : Prop :=
  (∀ attrs, ¬ Opens e (str% "changeset") attrs) ∧ ¬ Closes e (str% "changeset") ∧
    ∀ attrs, ¬ Opens e (str% "tag") attrs

/-- The attributes of a `tag` element. -/
structure IsTag (attrs : Attrs) (k v : Str) : Prop where
  sound : Sound attrs
  key : HasAttr attrs (str% "k") k
  value : HasAttr attrs (str% "v") v

/-- What stands between start and end of a changeset, and its tags in order. Other elements (a discussion)
may stand there too. -/
inductive Body : Events → List (Str × Str) → Prop where
  | nil : Body [] []
  | tag {e attrs k v evs tags} : Opens e (str% "tag") attrs → IsTag attrs k v → Body evs tags →
      Body (some e :: evs) ((k, v) :: tags)
  | other {e evs tags} : Neutral e → Body evs tags → Body (some e :: evs) tags

/-- Events up to the end of a changeset, and the tags among them. -/
inductive Between : Events → List (Str × Str) → Prop where
  | nil : Between [] []
  | tag {e attrs k v evs tags} : Opens e (str% "tag") attrs → HasAttr attrs (str% "k") k → HasAttr attrs (str% "v") v →
      Between evs tags → Between (some e :: evs) ((k, v) :: tags)
  | other {e evs tags} : ¬ Closes e (str% "changeset") → (∀ attrs, ¬ Opens e (str% "tag") attrs) →
      Between evs tags → Between (some e :: evs) tags

/-- The value has no meaning, or not one that can be converted. -/
def Useless {α : Type} (f : Str → Option α) (a : Attr) : Prop := ∀ s, Value.Bytes a.value s → f s = none

/-- The value has no meaning: it is not UTF-8, or it has a malformed reference. -/
def Textless (a : Attr) : Prop := ¬ ∃ s, Value.Bytes a.value s

/-- An attribute whose value cannot be used. -/
def Unreadable (a : Attr) : Prop :=
  (Named a.key (str% "id") ∧ Useless parseU32 a) ∨
  (Named a.key (str% "uid") ∧ Useless parseI64 a) ∨
  (Named a.key (str% "num_changes") ∧ Useless parseU64 a) ∨
  (Named a.key (str% "comments_count") ∧ Useless parseU64 a) ∨
  (Named a.key (str% "created_at") ∧ Textless a) ∨
  (Named a.key (str% "closed_at") ∧ Textless a) ∨
  (Named a.key (str% "user") ∧ Textless a) ∨
  (Named a.key (str% "open") ∧ a.value ≠ Utf8.encode (str% "true") ∧ a.value ≠ Utf8.encode (str% "false"))

/-- The attributes a changeset must have. -/
def required : List Str :=
  [str% "id", str% "created_at", str% "open", str% "num_changes", str% "comments_count"]

/-- An attribute list that is no changeset's. -/
def BadAttrs (attrs : Attrs) : Prop :=
  none ∈ attrs ∨ (∃ a, some a ∈ attrs ∧ Unreadable a) ∨ ∃ name ∈ required, Lacks attrs name

/-- An attribute list that is no tag's. -/
def BadTag (attrs : Attrs) : Prop :=
  none ∈ attrs ∨
  (∃ a, some a ∈ attrs ∧ (Named a.key (str% "k") ∨ Named a.key (str% "v")) ∧ Textless a) ∨
  Lacks attrs (str% "k") ∨ Lacks attrs (str% "v")

/-- Events between start and end of one changeset, whatever the tags look like. -/
def Inside (evs : Events) : Prop :=
  ∀ x ∈ evs, ∃ e, x = some e ∧ (∀ attrs, ¬ Opens e (str% "changeset") attrs) ∧ ¬ Closes e (str% "changeset")

/-- There is a tag element that is no tag. -/
def BadBody (evs : Events) : Prop := ∃ e attrs, some e ∈ evs ∧ Opens e (str% "tag") attrs ∧ BadTag attrs

/-- A sequence of events is a dump: for each changeset element, in order, whether it has an end tag, and what it
says, `none` if it is malformed. -/
inductive Dump : Events → List (Bool × Option Data) → Prop where
  | nil : Dump [] []
  | other {e evs ds} : Neutral e → Dump evs ds → Dump (some e :: evs) ds
  | short {n attrs d evs ds} : Named n (str% "changeset") → Sound attrs → Describes attrs d → d.tags = [] →
      Dump evs ds → Dump (some (.empty n attrs) :: evs) ((false, some d) :: ds)
  | full {n attrs d body n' evs ds} : Named n (str% "changeset") → Sound attrs → Describes attrs d →
      Body body d.tags → Named n' (str% "changeset") →
      Dump evs ds → Dump (some (.start n attrs) :: (body ++ some (.end_ n') :: evs)) ((true, some d) :: ds)
  | badShort {n attrs evs ds} : Named n (str% "changeset") → BadAttrs attrs →
      Dump evs ds → Dump (some (.empty n attrs) :: evs) ((false, none) :: ds)
  | badFull {n attrs body n' evs ds} : Named n (str% "changeset") → BadAttrs attrs ∨ BadBody body →
      Inside body → Named n' (str% "changeset") →
      Dump evs ds → Dump (some (.start n attrs) :: (body ++ some (.end_ n') :: evs)) ((true, none) :: ds)

/-- The value of a key: the last one given. -/
def lastValue (tags : List (Str × Str)) (k : Str) : Option Str :=
  (tags.reverse.find? fun p => p.1 == k).map (·.2)

/-- A returned changeset shows what the element says. -/
structure Shows (c : Changesets.Changeset) (d : Data) : Prop where
  id : c.id = d.id
  created : c.created = .iso d.created
  closed : c.closed = d.closed.map .iso
  isOpen : c.isOpen = d.isOpen
  uid : c.uid = d.uid
  user : c.user = d.user
  numChanges : c.numChanges = d.numChanges
  commentsCount : c.commentsCount = d.commentsCount
  tag : ∀ k, c.tag k = lastValue d.tags k
  keys : (c.tags.map (·.1)).Nodup

/-- One result for one element. -/
def Fits : Except Changesets.Err Changesets.Changeset → Option Data → Prop
  | .ok c, some d => Shows c d
  | .error _, none => True
  | _, _ => False

/-- A dump for a reader of tags: id and tags of every changeset with an end tag. Only the id attribute
matters. -/
inductive TagDump : Events → List (UInt64 × List (Str × Str)) → Prop where
  | nil : TagDump [] []
  | other {e evs ds} : Neutral e → TagDump evs ds → TagDump (some e :: evs) ds
  | short {n attrs evs ds} : Named n (str% "changeset") → TagDump evs ds → TagDump (some (.empty n attrs) :: evs) ds
  | full {n attrs id s body tags n' evs ds} : Named n (str% "changeset") → Sound attrs →
      HasAttr attrs (str% "id") s → parseU64 s = some id →
      Body body tags → Named n' (str% "changeset") →
      TagDump evs ds → TagDump (some (.start n attrs) :: (body ++ some (.end_ n') :: evs)) ((id, tags) :: ds)

section calls
variable {σ ρ α : Type}

/-- A call returns: it needs finitely many iterations. -/
def Returns (f : Nat → σ → Option (ρ × σ)) (s : σ) (r : ρ) (s' : σ) : Prop := ∃ n, f n s = some (r, s')

/-- Calls are made until one returns `Ok(None)`; these are the results before it. -/
inductive Results (f : Nat → σ → Option (Except Changesets.Err (Option α) × σ)) :
    σ → List (Except Changesets.Err α) → σ → Prop where
  | done {s s'} : Returns f s (.ok none) s' → Results f s [] s'
  | ok {s s1 s' a rs} : Returns f s (.ok (some a)) s1 → Results f s1 rs s' → Results f s (.ok a :: rs) s'
  | err {s s1 s' e rs} : Returns f s (.error e) s1 → Results f s1 rs s' → Results f s (.error e :: rs) s'

end calls

/-- The source ends inside a changeset element: after its start tag, which is readable, there is neither its
end nor anything that is an error. -/
def CutInside (evs : Events) : Prop :=
  ∃ pre n attrs body, evs = pre ++ some (.start n attrs) :: body ∧
    (∀ x ∈ pre, ∃ e, x = some e ∧ ∀ attrs, ¬ Opens e (str% "changeset") attrs) ∧
    Named n (str% "changeset") ∧ none ∉ attrs ∧ (∀ a, some a ∈ attrs → ¬ Unreadable a) ∧
    ∀ x ∈ body, ∃ e, x = some e ∧ ¬ Closes e (str% "changeset") ∧
      ∀ attrs, Opens e (str% "tag") attrs → ¬ BadTag attrs

end Osmio.Spec.Cs
