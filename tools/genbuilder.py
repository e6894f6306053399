hdr='''import Verif.Model.Convert
import Verif.Lib.StrLit
/-!
# Model: the derived builders of `src/obj_types/string_types.rs`

`#[derive(Builder)]` with `#[builder(setter(strip_option))]` (crate `derive_builder`) makes for each struct a builder whose fields are
`Option`s, all `None` at first. A setter stores its argument (wrapped in `Some` again if the field's type is an `Option`: there is
no way to store `None`). `build` takes each field, or its `#[builder(default = ..)]`; a field without default that was not set is an error
naming the field.
-/

namespace Osmio

/-- `UninitializedField(name)`, the only error of `build`; `src/obj_types/string_types.rs:26-98`, derived. -/
structure UninitializedField where
  field : Str
  deriving DecidableEq

'''
common=[('id','ObjId','id',False,None),('version','UInt32','version',True,'none'),('deleted','Bool','deleted',False,'false'),('changesetId','UInt32','changeset_id',True,'none'),('timestamp','TimestampFormat','timestamp',True,'none'),('uid','UInt32','uid',True,'none'),('user','Str','user',True,'none'),('tags','List (Str × Str)','tags',False,'[]')]
kinds=[('Node','26-50',('latLon','Lat × Lon','lat_lon',True,'none')),('Way','52-74',('nodes','List ObjId','nodes',False,'[]')),('Relation','76-98',('members','List (OSMObjectType × ObjId × Str)','members',False,'[]'))]
where={'Node':[29,32,35,37,39,41,43,46,49],'Way':[55,57,59,61,63,65,67,70,73],'Relation':[79,81,83,85,87,89,91,94,97]}
T='src/obj_types/string_types.rs'
out=hdr
for K,lines,extra in kinds:
    fs=common+[extra]
    out+=f"/-- `String{K}Builder`, derived at `src/obj_types/string_types.rs:{lines}`. -/\nstructure String{K}Builder where\n"
    for n,t,_,opt,_ in fs:
        ft = f"Option (Option ({t}))" if opt else f"Option ({t})"
        out+=f"  {n}_ : {ft} := none\n"
    out+=f"\nnamespace String{K}Builder\n/-- `default()`; `{T}:{lines}`, derived. -/\ndef default : String{K}Builder := {{}}\n"
    for (n,t,r,opt,_),at in zip(fs,where[K]):
        v = "some (some v)" if opt else "some v"
        out+=f"/-- The setter `_{r}`; `{T}:{at}`, derived. -/\ndef {n} (b : String{K}Builder) (v : {t}) : String{K}Builder := {{ b with {n}_ := {v} }}\n"
    out+=f"/-- `build`; `{T}:{lines}`, derived. -/\ndef build (b : String{K}Builder) : Except UninitializedField String{K} :=\n  match b.id_ with\n  | none => .error ⟨str% \"_id\"⟩\n  | some id => .ok ⟨id, "
    out+=", ".join(f"b.{n}_.getD {d}" for n,t,r,opt,d in fs[1:])
    out+=f"⟩\nend String{K}Builder\n\n"
out+="end Osmio\n"
open('/verif/lean/Verif/Model/Builder.lean','w').write(out)

p='''import Verif.Model.Builder
import Mathlib.Data.List.Induction
/-!
# Building objects: C61
-/

namespace Osmio

/-- A setter call on a builder of type `β`: the common setters, or the one particular to the kind of object (with argument type `ε`). -/
inductive BuilderSet (ε : Type) where
  | id (v : ObjId) | version (v : UInt32) | deleted (v : Bool) | changesetId (v : UInt32) | timestamp (v : TimestampFormat)
  | uid (v : UInt32) | user (v : Str) | tags (v : List (Str × Str)) | extra (v : ε)

namespace BuilderSet
variable {ε : Type}
'''
alln=[(n,t) for n,t,_,_,_ in common]+[('extra','ε')]
for n,t in alln:
    p+=f"def {n}? : BuilderSet ε → Option ({t}) | .{n} v => some v | _ => none\n"
p+='''end BuilderSet

/-- The argument of the last call of one setter. -/
def lastSet {ε τ : Type} (sel : BuilderSet ε → Option τ) (cs : List (BuilderSet ε)) : Option τ := (cs.filterMap sel).getLast?

theorem lastSet_concat {ε τ : Type} (sel : BuilderSet ε → Option τ) (cs : List (BuilderSet ε)) (c : BuilderSet ε) :
    lastSet sel (cs ++ [c]) = (sel c).or (lastSet sel cs) := by
  unfold lastSet
  rw [List.filterMap_append]
  cases h : sel c with
  | none => simp [List.filterMap_cons, h]
  | some v => simp [List.filterMap_cons, h]

'''
for K,lines,extra in kinds:
    e=extra[0]; et=extra[1]
    p+=f"/-- A setter call on `String{K}Builder`. -/\ndef String{K}Builder.apply (b : String{K}Builder) : BuilderSet ({et}) → String{K}Builder\n"
    for n,t in alln:
        p+=f"  | .{n} v => b.{e if n=='extra' else n} v\n"
    p+=f'''
theorem String{K}Builder.apply_spec (cs : List (BuilderSet ({et}))) :
    cs.foldl apply default = ⟨'''
    p+=", ".join((f"(lastSet BuilderSet.{n}? cs).map some" if opt else f"lastSet BuilderSet.{n}? cs") for n,opt in [(n,o) for n,_,_,o,_ in common]+[('extra',extra[3])])
    p+='''⟩ := by
  induction cs using List.reverseRecOn with
  | nil => rfl
  | append_singleton cs c ih =>
    rw [List.foldl_append, List.foldl_cons, List.foldl_nil, ih]
    simp only [lastSet_concat]
    cases c <;> rfl

'''
p+='''/-- **C61.** However a builder is used, `build` fails exactly if the id was never given; the object has, for each field, the value
given last, and if none was given no metadata, `deleted = false`, no tags, no position, no nodes, no members. -/
'''
for K,lines,extra in kinds:
    e=extra[0]; et=extra[1]
    getter={'latLon':'latLon','nodes':'nodes','members':'members'}[e]
    eo = "lastSet BuilderSet.extra? cs" if extra[3] else "(lastSet BuilderSet.extra? cs).getD []"
    p+=f'''theorem C61_{K.lower()}_builder (cs : List (BuilderSet ({et}))) :
    match lastSet BuilderSet.id? cs, (cs.foldl String{K}Builder.apply String{K}Builder.default).build with
    | none, r => r = .error ⟨str% "_id"⟩
    | some _, .error _ => False
    | some i, .ok n => n.id = i ∧ n.version = lastSet BuilderSet.version? cs ∧ n.deleted = (lastSet BuilderSet.deleted? cs).getD false ∧
        n.changesetId = lastSet BuilderSet.changesetId? cs ∧ n.timestamp = lastSet BuilderSet.timestamp? cs ∧ n.uid = lastSet BuilderSet.uid? cs ∧
        n.user = lastSet BuilderSet.user? cs ∧ n.tags = (lastSet BuilderSet.tags? cs).getD [] ∧ n.{getter} = {eo} := by
  rw [String{K}Builder.apply_spec]
  unfold String{K}Builder.build
  cases h : lastSet BuilderSet.id? cs with
  | none => rfl
  | some i =>
    refine ⟨rfl, ?_, rfl, ?_, ?_, ?_, ?_, rfl, ?_⟩
    · show ((lastSet BuilderSet.version? cs).map some).getD none = _
      cases lastSet BuilderSet.version? cs <;> rfl
    · show ((lastSet BuilderSet.changesetId? cs).map some).getD none = _
      cases lastSet BuilderSet.changesetId? cs <;> rfl
    · show ((lastSet BuilderSet.timestamp? cs).map some).getD none = _
      cases lastSet BuilderSet.timestamp? cs <;> rfl
    · show ((lastSet BuilderSet.uid? cs).map some).getD none = _
      cases lastSet BuilderSet.uid? cs <;> rfl
    · show ((lastSet BuilderSet.user? cs).map some).getD none = _
      cases lastSet BuilderSet.user? cs <;> rfl
'''
    if extra[3]:
        p+='''    · show ((lastSet BuilderSet.extra? cs).map some).getD none = _
      cases lastSet BuilderSet.extra? cs <;> rfl
'''
    else: p+="    · first | rfl | simp [StringRelation.members]\n"
    p+="\n"
p+='''/-- **C61**, for the conversions: what they start from is what the builder gives for an id alone. -/
theorem C61_conversion_start (id : ObjId) :
    (StringNodeBuilder.default.id id).build = .ok (StringNode.default id) ∧
    (StringWayBuilder.default.id id).build = .ok (StringWay.default id) ∧
    (StringRelationBuilder.default.id id).build = .ok (StringRelation.default id) := ⟨rfl, rfl, rfl⟩

example : ∃ n, (((StringNodeBuilder.default.id 7).user (str% "a")).user (str% "b")).build = .ok n ∧ n.user = some (str% "b") ∧
    n.version = none := ⟨_, rfl, rfl, rfl⟩

end Osmio
'''
open('/verif/lean/Verif/Props/Builder.lean','w').write(p)
