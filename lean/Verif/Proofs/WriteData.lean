import Verif.Props.WriterAny
/-! What `write_obj` does depends only on what the getters of the object return. -/

namespace Osmio
open Spec OSMObjBase

/-- `write_obj` as a function of what the getters return. -/
def bodyOf (d : ObjData) : M Sink Unit := do
  write (openTag d.view.kind)
  write (str% " id=\"" ++ i64Str d.view.id ++ str% "\"")
  write (str% " visible=\"" ++ (if d.view.deleted then str% "false" else str% "true") ++ str% "\"")
  let v ← M.unwrap d.view.version
  write (str% " version=\"" ++ u32Str v ++ str% "\"")
  M.whenSome d.view.user fun u => do
    write (str% " user=\"")
    writeXmlEscaped u
    write (str% "\"")
  M.whenSome d.view.uid fun u => write (str% " uid=\"" ++ u32Str u ++ str% "\"")
  M.whenSome d.view.changesetId fun c => write (str% " changeset=\"" ++ u32Str c ++ str% "\"")
  M.whenSome d.view.timestamp fun t => write (str% " timestamp=\"" ++ t.display ++ str% "\"")
  M.whenSome d.pos fun ll => do
    write (str% " lat=\"" ++ ll.1.display ++ str% "\"")
    write (str% " lon=\"" ++ ll.2.display ++ str% "\"")
  if d.view.kind == .node && d.view.tags.isEmpty then
    write (str% " />")
  else do
    write (str% ">")
    M.each writeNd d.nodes
    M.each writeMember d.members
    M.each writeTag d.view.tags
    write (closeTag d.view.kind)

theorem writeObjBody_data {f : Family} (o : f.Obj) : writeObjBody o = bodyOf (objData o) := by
  have hu : untagged o = (tags o).isEmpty := by
    have := LawfulObj.untagged_iff o
    cases h1 : untagged o <;> cases h2 : tags o <;> simp_all
  have hp : writePosition o = M.whenSome (objData o).pos fun ll => (do
      write (str% " lat=\"" ++ ll.1.display ++ str% "\"")
      write (str% " lon=\"" ++ ll.2.display ++ str% "\"") : M Sink Unit) := by
    unfold writePosition objData
    cases OSMObjT.asNode o with
    | none => rfl
    | some n => rfl
  have hw : (M.whenSome (OSMObjT.asWay o) fun w => M.each writeNd (WayT.nodes w)) = M.each writeNd (objData o).nodes := by
    unfold objData
    cases OSMObjT.asWay o <;> rfl
  have hr : (M.whenSome (OSMObjT.asRelation o) fun r => M.each writeMember (RelationT.members r)) = M.each writeMember (objData o).members := by
    unfold objData
    cases OSMObjT.asRelation o <;> rfl
  unfold writeObjBody bodyOf
  rw [hp, hw, hr, hu]
  rfl

end Osmio
