import Verif.Spec.Object
/-!
# Specification of `==` on objects

Two objects should be equal exactly when a user who calls the getters sees the same values. Timestamps
count as the same when their own `==` says so.
-/

namespace Osmio.Spec

/-- Two timestamps are the same: the same text, the same number, or, for a text and a number, the same
number of seconds. -/
def SameStamp : TimestampFormat → TimestampFormat → Prop
  | .iso a, .iso b => a = b
  | .epoch a, .epoch b => a = b
  | .iso a, .epoch b => (TimestampFormat.iso a).toEpochNumber = b
  | .epoch a, .iso b => a = (TimestampFormat.iso b).toEpochNumber

/-- The same for timestamps that may be missing. -/
def SameStamp? : Option TimestampFormat → Option TimestampFormat → Prop
  | none, none => True
  | some a, some b => SameStamp a b
  | _, _ => False

/-- Two objects show the same through the getters that all objects have. -/
structure Alike (a b : View) : Prop where
  id : a.id = b.id
  version : a.version = b.version
  deleted : a.deleted = b.deleted
  changesetId : a.changesetId = b.changesetId
  timestamp : SameStamp? a.timestamp b.timestamp
  uid : a.uid = b.uid
  user : a.user = b.user
  tags : a.tags = b.tags
  kind : a.kind = b.kind

end Osmio.Spec
