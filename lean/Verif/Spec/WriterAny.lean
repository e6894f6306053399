import Verif.Spec.Writer
/-!
# Specification of what the writers send for any objects

An object without a version cannot be written: `write_obj` panics, and the caller may catch the panic and go on. What has
reached the sink by then is the beginning of the element.
-/

namespace Osmio.Spec

section
variable {α N W R : Type} [OSMObjT α N W R] [NodeT N] [WayT W] [RelationT R]

/-- The beginning of an element, up to the place of the version. -/
def stubOf (o : α) : Str :=
  str% "\n\t<" ++ (objData o).view.kind.nameLong ++ rawAttr (str% "id") (i64Str (objData o).view.id) ++
    rawAttr (str% "visible") (if (objData o).view.deleted then str% "false" else str% "true")

/-- What is sent for an object: its element, or the beginning of it if it has no version. -/
def sentOf (o : α) : Str := if (OSMObjBase.version o).isSome then textOf o else stubOf o

/-- What the call returns if the sink takes everything. -/
def outcomeOf (o : α) : Outcome Unit := if (OSMObjBase.version o).isSome then .ok () else .panic .unwrap
end

end Osmio.Spec
