import Verif.Spec.XmlDoc
/-!
# Specification: documents with objects inside objects

No application writes such documents, but they are well formed XML. The readers cut the document after the end of every object element;
a piece stands for the first object that begins in it, with everything that begins after it in the piece as its content, and for
nothing if no object begins in it.
-/

namespace Osmio.Spec
open Xml

/-- Is this the end of an object element? -/
def objectEnd : XmlEvent → Bool
  | .stop n => (kindOf n).isSome
  | _ => false

/-- A document cut after the end of every object element. (What is left after the last of them is no piece.) -/
def pieces : List XmlEvent → List (List XmlEvent)
  | [] => []
  | e :: r =>
    if objectEnd e then [e] :: pieces r
    else
      match pieces r with
      | [] => []
      | p :: ps => (e :: p) :: ps

/-- Elements without content, one after the other: those that begin in some part of a document. -/
def begun : List XmlEvent → Forest
  | [] => .nil
  | .start n as :: r => .elem n as .nil (begun r)
  | _ :: r => begun r

/-- The first object element that begins in a piece. -/
def firstObject : List XmlEvent → Option (OSMObjectType × List Attr × Forest)
  | [] => none
  | .start n as :: r =>
    match kindOf n with
    | some kind => some (kind, as, begun r)
    | none => firstObject r
  | _ :: r => firstObject r

/-- What a piece stands for. -/
def pieceObject (p : List XmlEvent) : Option ObjData := (firstObject p).bind readElem

/-- The number of object elements of a document, with those inside others. -/
def Forest.objectCount : Forest → Nat
  | .nil => 0
  | .text r => r.objectCount
  | .elem n _ k r => (if (kindOf n).isSome then 1 else 0) + k.objectCount + r.objectCount

end Osmio.Spec
