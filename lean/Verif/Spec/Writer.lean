import Verif.Model.XmlWrite
import Verif.Model.Family
import Verif.Spec.XmlText
/-!
# Specification of writer histories

A history is a list of calls on one writer; `run` performs them and records what each returned. A call
that panics leaves the writer in the state it had reached (the caller may catch the panic).
-/

namespace Osmio.Spec

/-- A call on a writer of objects of type `α`. -/
inductive Call (α : Type) where
  | setHeader (k v : Str)
  | writeObj (o : α)
  | close

/-- Perform calls in order. -/
def run {S α : Type} (call : Call α → M S Unit) (w : S) : List (Call α) → List (Call α × Outcome Unit) × S
  | [] => ([], w)
  | c :: cs =>
    let r := call c w
    let rest := run call r.2 cs
    ((c, r.1) :: rest.1, rest.2)

/-- The calls of an XML writer. -/
def xmlCall {α N W R : Type} [OSMObjT α N W R] [NodeT N] [WayT W] [RelationT R] (σ : HashOrder) :
    Call α → M XMLWriter Unit
  | .setHeader k v => XMLWriter.setHeader k v
  | .writeObj o => XMLWriter.writeObj σ o
  | .close => XMLWriter.close σ

/-- The calls of an OSC writer. -/
def oscCall {α N W R : Type} [OSMObjT α N W R] [NodeT N] [WayT W] [RelationT R] :
    Call α → M OSCWriter Unit
  | .setHeader k v => OSCWriter.setHeader k v
  | .writeObj o => OSCWriter.writeObj o
  | .close => OSCWriter.close

/-- Is it a call of `close`? -/
def Call.isClose {α : Type} : Call α → Bool
  | .close => true
  | _ => false
/-- Is it a call of `set_header`? -/
def Call.isHeader {α : Type} : Call α → Bool
  | .setHeader _ _ => true
  | _ => false
/-- The object of a call of `write_obj`. -/
def Call.obj? {α : Type} : Call α → Option α
  | .writeObj o => some o
  | _ => none
/-- The header of a call of `set_header`. -/
def Call.header? {α : Type} : Call α → Option (Str × Str)
  | .setHeader k v => some (k, v)
  | _ => none

/-- The objects written before the first `close`. -/
def written {α : Type} (cs : List (Call α)) : List α :=
  (cs.takeWhile (fun c => !c.isClose)).filterMap Call.obj?

/-- The headers set before anything else, later values replacing earlier ones. -/
def headersOf {α : Type} (cs : List (Call α)) : List (Str × Str) :=
  ((cs.takeWhile Call.isHeader).filterMap Call.header?).foldl (fun h kv => put kv.1 kv.2 h) []

/-- The element text of an object (empty for an object without a version, which cannot be written). -/
def textOf {α N W R : Type} [OSMObjT α N W R] [NodeT N] [WayT W] [RelationT R] (o : α) : Str :=
  match OSMObjBase.version o with
  | some v => objText (objData o) v
  | none => []

/-- One complete XML document. -/
def xmlDocument {α N W R : Type} [OSMObjT α N W R] [NodeT N] [WayT W] [RelationT R]
    (headers : List (Str × Str)) (os : List α) : Str := xmlHead headers ++ os.flatMap textOf ++ xmlTail

/-- One complete change document. -/
def oscDocument {α N W R : Type} [OSMObjT α N W R] [NodeT N] [WayT W] [RelationT R] (os : List α) : Str :=
  oscHead ++ os.flatMap textOf ++ oscTail

end Osmio.Spec
