import Verif.Lib.StrLit
/-! # Specification: closing the elements that hold objects -/

namespace Osmio.Spec

/-- The names of the elements that hold objects. -/
def holders : List Str := [str% "osm", str% "osmChange", str% "modify", str% "create", str% "delete"]

/-- An end tag. -/
def endTag (x : Str) : Str := str% "</" ++ x ++ str% ">"

end Osmio.Spec
