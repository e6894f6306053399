import Verif.Model.Convert
import Verif.Lib.StrLit
/-!
# Model: the derived builders of `src/obj_types/string_types.rs`

`#[derive(Builder)]` with `#[builder(setter(strip_option))]` (crate `derive_builder`) makes for each struct a builder whose fields are
`Option`s, all `None` at first. A setter stores its argument (wrapped in `Some` again if the field's type is an `Option`: there is
no way to store `None`). `build` takes each field, or its `#[builder(default = ..)]`; a field without default that was not set is an error
naming the field.
-/

namespace Osmio

/-- `UninitializedField(name)`, the only error of `build`; `src/obj_types/string_types.rs:26-98`, derived. -/
structure UninitializedField where
  field : Str
  deriving DecidableEq

/-- `StringNodeBuilder`, derived at `src/obj_types/string_types.rs:26-50`. -/
structure StringNodeBuilder where
  id_ : Option (ObjId) := none
  version_ : Option (Option (UInt32)) := none
  deleted_ : Option (Bool) := none
  changesetId_ : Option (Option (UInt32)) := none
  timestamp_ : Option (Option (TimestampFormat)) := none
  uid_ : Option (Option (UInt32)) := none
  user_ : Option (Option (Str)) := none
  tags_ : Option (List (Str × Str)) := none
  latLon_ : Option (Option (Lat × Lon)) := none

namespace StringNodeBuilder
/-- `default()`; `src/obj_types/string_types.rs:26-50`, derived. -/
def default : StringNodeBuilder := {}
/-- The setter `_id`; `src/obj_types/string_types.rs:29`, derived. -/
def id (b : StringNodeBuilder) (v : ObjId) : StringNodeBuilder := { b with id_ := some v }
/-- The setter `_version`; `src/obj_types/string_types.rs:32`, derived. -/
def version (b : StringNodeBuilder) (v : UInt32) : StringNodeBuilder := { b with version_ := some (some v) }
/-- The setter `_deleted`; `src/obj_types/string_types.rs:35`, derived. -/
def deleted (b : StringNodeBuilder) (v : Bool) : StringNodeBuilder := { b with deleted_ := some v }
/-- The setter `_changeset_id`; `src/obj_types/string_types.rs:37`, derived. -/
def changesetId (b : StringNodeBuilder) (v : UInt32) : StringNodeBuilder := { b with changesetId_ := some (some v) }
/-- The setter `_timestamp`; `src/obj_types/string_types.rs:39`, derived. -/
def timestamp (b : StringNodeBuilder) (v : TimestampFormat) : StringNodeBuilder := { b with timestamp_ := some (some v) }
/-- The setter `_uid`; `src/obj_types/string_types.rs:41`, derived. -/
def uid (b : StringNodeBuilder) (v : UInt32) : StringNodeBuilder := { b with uid_ := some (some v) }
/-- The setter `_user`; `src/obj_types/string_types.rs:43`, derived. -/
def user (b : StringNodeBuilder) (v : Str) : StringNodeBuilder := { b with user_ := some (some v) }
/-- The setter `_tags`; `src/obj_types/string_types.rs:46`, derived. -/
def tags (b : StringNodeBuilder) (v : List (Str × Str)) : StringNodeBuilder := { b with tags_ := some v }
/-- The setter `_lat_lon`; `src/obj_types/string_types.rs:49`, derived. -/
def latLon (b : StringNodeBuilder) (v : Lat × Lon) : StringNodeBuilder := { b with latLon_ := some (some v) }
/-- `build`; `src/obj_types/string_types.rs:26-50`, derived. -/
def build (b : StringNodeBuilder) : Except UninitializedField StringNode :=
  match b.id_ with
  | none => .error ⟨str% "_id"⟩
  | some id => .ok ⟨id, b.version_.getD none, b.deleted_.getD false, b.changesetId_.getD none, b.timestamp_.getD none, b.uid_.getD none, b.user_.getD none, b.tags_.getD [], b.latLon_.getD none⟩
end StringNodeBuilder

/-- `StringWayBuilder`, derived at `src/obj_types/string_types.rs:52-74`. -/
structure StringWayBuilder where
  id_ : Option (ObjId) := none
  version_ : Option (Option (UInt32)) := none
  deleted_ : Option (Bool) := none
  changesetId_ : Option (Option (UInt32)) := none
  timestamp_ : Option (Option (TimestampFormat)) := none
  uid_ : Option (Option (UInt32)) := none
  user_ : Option (Option (Str)) := none
  tags_ : Option (List (Str × Str)) := none
  nodes_ : Option (List ObjId) := none

namespace StringWayBuilder
/-- `default()`; `src/obj_types/string_types.rs:52-74`, derived. -/
def default : StringWayBuilder := {}
/-- The setter `_id`; `src/obj_types/string_types.rs:55`, derived. -/
def id (b : StringWayBuilder) (v : ObjId) : StringWayBuilder := { b with id_ := some v }
/-- The setter `_version`; `src/obj_types/string_types.rs:57`, derived. -/
def version (b : StringWayBuilder) (v : UInt32) : StringWayBuilder := { b with version_ := some (some v) }
/-- The setter `_deleted`; `src/obj_types/string_types.rs:59`, derived. -/
def deleted (b : StringWayBuilder) (v : Bool) : StringWayBuilder := { b with deleted_ := some v }
/-- The setter `_changeset_id`; `src/obj_types/string_types.rs:61`, derived. -/
def changesetId (b : StringWayBuilder) (v : UInt32) : StringWayBuilder := { b with changesetId_ := some (some v) }
/-- The setter `_timestamp`; `src/obj_types/string_types.rs:63`, derived. -/
def timestamp (b : StringWayBuilder) (v : TimestampFormat) : StringWayBuilder := { b with timestamp_ := some (some v) }
/-- The setter `_uid`; `src/obj_types/string_types.rs:65`, derived. -/
def uid (b : StringWayBuilder) (v : UInt32) : StringWayBuilder := { b with uid_ := some (some v) }
/-- The setter `_user`; `src/obj_types/string_types.rs:67`, derived. -/
def user (b : StringWayBuilder) (v : Str) : StringWayBuilder := { b with user_ := some (some v) }
/-- The setter `_tags`; `src/obj_types/string_types.rs:70`, derived. -/
def tags (b : StringWayBuilder) (v : List (Str × Str)) : StringWayBuilder := { b with tags_ := some v }
/-- The setter `_nodes`; `src/obj_types/string_types.rs:73`, derived. -/
def nodes (b : StringWayBuilder) (v : List ObjId) : StringWayBuilder := { b with nodes_ := some v }
/-- `build`; `src/obj_types/string_types.rs:52-74`, derived. -/
def build (b : StringWayBuilder) : Except UninitializedField StringWay :=
  match b.id_ with
  | none => .error ⟨str% "_id"⟩
  | some id => .ok ⟨id, b.version_.getD none, b.deleted_.getD false, b.changesetId_.getD none, b.timestamp_.getD none, b.uid_.getD none, b.user_.getD none, b.tags_.getD [], b.nodes_.getD []⟩
end StringWayBuilder

/-- `StringRelationBuilder`, derived at `src/obj_types/string_types.rs:76-98`. -/
structure StringRelationBuilder where
  id_ : Option (ObjId) := none
  version_ : Option (Option (UInt32)) := none
  deleted_ : Option (Bool) := none
  changesetId_ : Option (Option (UInt32)) := none
  timestamp_ : Option (Option (TimestampFormat)) := none
  uid_ : Option (Option (UInt32)) := none
  user_ : Option (Option (Str)) := none
  tags_ : Option (List (Str × Str)) := none
  members_ : Option (List (OSMObjectType × ObjId × Str)) := none

namespace StringRelationBuilder
/-- `default()`; `src/obj_types/string_types.rs:76-98`, derived. -/
def default : StringRelationBuilder := {}
/-- The setter `_id`; `src/obj_types/string_types.rs:79`, derived. -/
def id (b : StringRelationBuilder) (v : ObjId) : StringRelationBuilder := { b with id_ := some v }
/-- The setter `_version`; `src/obj_types/string_types.rs:81`, derived. -/
def version (b : StringRelationBuilder) (v : UInt32) : StringRelationBuilder := { b with version_ := some (some v) }
/-- The setter `_deleted`; `src/obj_types/string_types.rs:83`, derived. -/
def deleted (b : StringRelationBuilder) (v : Bool) : StringRelationBuilder := { b with deleted_ := some v }
/-- The setter `_changeset_id`; `src/obj_types/string_types.rs:85`, derived. -/
def changesetId (b : StringRelationBuilder) (v : UInt32) : StringRelationBuilder := { b with changesetId_ := some (some v) }
/-- The setter `_timestamp`; `src/obj_types/string_types.rs:87`, derived. -/
def timestamp (b : StringRelationBuilder) (v : TimestampFormat) : StringRelationBuilder := { b with timestamp_ := some (some v) }
/-- The setter `_uid`; `src/obj_types/string_types.rs:89`, derived. -/
def uid (b : StringRelationBuilder) (v : UInt32) : StringRelationBuilder := { b with uid_ := some (some v) }
/-- The setter `_user`; `src/obj_types/string_types.rs:91`, derived. -/
def user (b : StringRelationBuilder) (v : Str) : StringRelationBuilder := { b with user_ := some (some v) }
/-- The setter `_tags`; `src/obj_types/string_types.rs:94`, derived. -/
def tags (b : StringRelationBuilder) (v : List (Str × Str)) : StringRelationBuilder := { b with tags_ := some v }
/-- The setter `_members`; `src/obj_types/string_types.rs:97`, derived. -/
def members (b : StringRelationBuilder) (v : List (OSMObjectType × ObjId × Str)) : StringRelationBuilder := { b with members_ := some v }
/-- `build`; `src/obj_types/string_types.rs:76-98`, derived. -/
def build (b : StringRelationBuilder) : Except UninitializedField StringRelation :=
  match b.id_ with
  | none => .error ⟨str% "_id"⟩
  | some id => .ok ⟨id, b.version_.getD none, b.deleted_.getD false, b.changesetId_.getD none, b.timestamp_.getD none, b.uid_.getD none, b.user_.getD none, b.tags_.getD [], b.members_.getD []⟩
end StringRelationBuilder

end Osmio
