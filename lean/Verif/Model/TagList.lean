import Verif.Model.Traits
/-!
# Model: searching a vector of tags

Every object type searches its tags with the same two iterator expressions.
-/

namespace Osmio.TagList

/-- `tags.iter().filter_map(|(k, v)| if k == key { Some(v) } else { None }).next()`, for instance
`src/obj_types/string_types.rs:334-337`. -/
def get (tags : List (Str × Str)) (key : Str) : Option Str :=
  (tags.filterMap (fun (k, v) => if k = key then some v else none)).head?

/-- `tags.iter().enumerate().filter_map(|(i, (k, _))| if k == key { Some(i) } else { None }).next()`, for
instance `src/obj_types/string_types.rs:343-348`. -/
def idx (tags : List (Str × Str)) (key : Str) : Option Nat :=
  (tags.zipIdx.filterMap (fun ((k, _), i) => if k = key then some i else none)).head?

end Osmio.TagList
