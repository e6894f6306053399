import Verif.Model.ObjDebug
import Verif.Model.Changesets
import Verif.Model.XmlWrite
/-! # Model: `Debug` of changesets -/

namespace Osmio.Changesets

/-- `src/changesets.rs:36-50`, `derive(Debug)`; the map of tags shows its entries in the order in which it iterates. -/
def Changeset.debug (plain : Char → Bool) (alt : Bool) (σ : HashOrder) (x : Changeset) : Str :=
  debugStruct alt (str% "Changeset") [
    (str% "id", debugU32 x.id),
    (str% "created", x.created.debug plain alt),
    (str% "closed", debugOption alt (TimestampFormat.debug plain alt) x.closed),
    (str% "open", debugBool x.isOpen),
    (str% "uid", debugOption alt debugI64 x.uid),
    (str% "user", debugOption alt (debugStr plain) x.user),
    (str% "tags", debugMap alt ((σ.order x.tags).map fun t => (debugStr plain t.1, debugStr plain t.2))),
    (str% "num_changes", natStr x.numChanges.toNat),
    (str% "comments_count", natStr x.commentsCount.toNat)]

end Osmio.Changesets
