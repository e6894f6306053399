import Verif.Lib.Io
import Verif.Model.Traits
/-!
# Model: the XML and OSC writers (`src/xml/mod.rs`, `src/osc/mod.rs`)
-/

namespace Osmio
open OSMObjBase

/-- One iteration of `src/xml/mod.rs:60-69`: what is written for a character. -/
def xmlEscapeChar (c : Char) : Str :=
  match c with
  | '&' => str% "&amp;"
  | '"' => str% "&quot;"
  | '\'' => str% "&apos;"
  | '<' => str% "&lt;"
  | '>' => str% "&gt;"
  | c => [c]

/-- `src/xml/mod.rs:59-71` -/
def writeXmlEscaped (s : Str) : M Sink Unit := M.each (fun c => write (xmlEscapeChar c)) s

/-- `version()` (`src/lib.rs:757-759`) with the version of `Cargo.toml:3`. -/
def crateVersion : Str := str% "0.16.1"

/-- `src/xml/mod.rs:439-443` and `src/osc/mod.rs:153-157` -/
def openTag : OSMObjectType → Str
  | .node => str% "\n\t<node"
  | .way => str% "\n\t<way"
  | .relation => str% "\n\t<relation"

/-- `src/xml/mod.rs:511-515` and `src/osc/mod.rs:225-229` -/
def closeTag : OSMObjectType → Str
  | .node => str% "\n\t</node>"
  | .way => str% "\n\t</way>"
  | .relation => str% "\n\t</relation>"

/-- `src/xml/mod.rs:482`, one node reference of a way -/
def writeNd (nid : ObjId) : M Sink Unit := write (str% "\n\t\t<nd ref=\"" ++ i64Str nid ++ str% "\" />")

/-- `src/xml/mod.rs:493-495`, the role of a member -/
def writeRole (role : Str) : M Sink Unit := if role.isEmpty then pure () else writeXmlEscaped role

/-- `src/xml/mod.rs:488-496`, one member of a relation -/
def writeMember (m : OSMObjectType × ObjId × Str) : M Sink Unit := do
  write (str% "\n\t\t<member type=\"" ++ m.1.nameLong ++ str% "\" ref=\"" ++ i64Str m.2.1 ++ str% "\" role=\"")
  writeRole m.2.2
  write (str% "\"/>")

/-- `src/xml/mod.rs:501-505`, one tag -/
def writeTag (kv : Str × Str) : M Sink Unit := do
  write (str% "\n\t\t<tag k=\"")
  writeXmlEscaped kv.1
  write (str% "\" v=\"")
  writeXmlEscaped kv.2
  write (str% "\" />")

section
variable {α N W R : Type} [OSMObjT α N W R] [NodeT N] [WayT W] [RelationT R]

/-- `src/xml/mod.rs:467-472`: the position attributes -/
def writePosition (o : α) : M Sink Unit :=
  M.whenSome (OSMObjT.asNode o) fun n =>
    M.whenSome (NodeT.latLon n) fun ll => do
      write (str% " lat=\"" ++ ll.1.display ++ str% "\"")
      write (str% " lon=\"" ++ ll.2.display ++ str% "\"")

/-- `src/xml/mod.rs:436-518`, which is textually the same as `src/osc/mod.rs:150-232`: the part of
`write_obj` after the state check. -/
def writeObjBody (o : α) : M Sink Unit := do
  write (openTag (objectType o))
  write (str% " id=\"" ++ i64Str (OSMObjBase.id o) ++ str% "\"")
  write (str% " visible=\"" ++ (if deleted o then str% "false" else str% "true") ++ str% "\"")
  let v ← M.unwrap (version o)
  write (str% " version=\"" ++ u32Str v ++ str% "\"")
  M.whenSome (user o) fun u => do
    write (str% " user=\"")
    writeXmlEscaped u
    write (str% "\"")
  M.whenSome (uid o) fun u => write (str% " uid=\"" ++ u32Str u ++ str% "\"")
  M.whenSome (changesetId o) fun c => write (str% " changeset=\"" ++ u32Str c ++ str% "\"")
  M.whenSome (timestamp o) fun t => write (str% " timestamp=\"" ++ t.display ++ str% "\"")
  writePosition o
  if isNode o && untagged o then
    write (str% " />")
  else do
    write (str% ">")
    M.whenSome (OSMObjT.asWay o) fun w => M.each writeNd (WayT.nodes w)
    M.whenSome (OSMObjT.asRelation o) fun r => M.each writeMember (RelationT.members r)
    M.each writeTag (tags o)
    write (closeTag (objectType o))
end

/-- `src/xml/mod.rs:136-141` and `src/osc/mod.rs:18-23` -/
inductive WState where
  | initial
  | writingObjects
  | closed
  deriving DecidableEq, Repr

/-- `HashMap<String, String>`: the entries, and `insert` replaces the value of a present key. The order in
which the entries are iterated is a parameter of the code that iterates; `src/xml/mod.rs:146` and `407`, `headers`. -/
def hashInsert (k v : Str) : List (Str × Str) → List (Str × Str)
  | [] => [(k, v)]
  | (k', v') :: r => if k' = k then (k', v) :: r else (k', v') :: hashInsert k v r

/-- An iteration order of a hash map: some rearrangement of the entries; `src/xml/mod.rs:381`, the loop over `headers`. -/
structure HashOrder where
  order : List (Str × Str) → List (Str × Str)
  perm : ∀ l, (order l).Perm l

/-- `src/xml/mod.rs:144-148` -/
structure XMLWriter where
  writer : Sink
  headers : List (Str × Str)
  state : WState
  deriving DecidableEq

namespace XMLWriter

/-- Run code that uses only `self.writer`; `src/xml/mod.rs:375-508`, the uses of `self.writer`. -/
def onSink {α : Type} (m : M Sink α) : M XMLWriter α := fun w =>
  let r := m w.writer
  (r.1, { w with writer := r.2 })

/-- Assignment to `self._state`; `src/xml/mod.rs:388` and `424`. -/
def setState (s : WState) : M XMLWriter Unit := fun w => (.ok (), { w with state := s })

/-- `src/xml/mod.rs:395-402` -/
def new (sink : Sink) : XMLWriter := ⟨sink, [], .initial⟩

/-- `src/xml/mod.rs:382-384`, one header -/
def writeHeaderAttr (kv : Str × Str) : M Sink Unit := do
  write (str% " " ++ kv.1 ++ str% "=\"")
  writeXmlEscaped kv.2
  write (str% "\"")

/-- `src/xml/mod.rs:374-386`: the text part of `ensure_header`, with the headers in iteration order. -/
def writeHeader (headers : List (Str × Str)) : M Sink Unit := do
  write (str% "<?xml version=\"1.0\" encoding=\"utf-8\"?>\n")
  write (str% "<osm version=\"0.6\" generator=\"osmio/" ++ crateVersion ++ str% "\"")
  M.each writeHeaderAttr headers
  write (str% ">")

/-- `src/xml/mod.rs:372-391` -/
def ensureHeader (σ : HashOrder) : M XMLWriter Unit := fun w =>
  if w.state = .initial then
    (do
      onSink (writeHeader (σ.order w.headers))
      setState .writingObjects : M XMLWriter Unit) w
  else (.ok (), w)

/-- `src/xml/mod.rs:404-413` -/
def setHeader (k v : Str) : M XMLWriter Unit := fun w =>
  match w.state with
  | .initial => (.ok (), { w with headers := hashInsert k v w.headers })
  | .closed => (.err .alreadyClosed, w)
  | .writingObjects => (.err .alreadyStarted, w)

/-- `src/xml/mod.rs:415-417` -/
def isOpen (w : XMLWriter) : Bool := w.state != .closed

/-- `src/xml/mod.rs:419-427` -/
def close (σ : HashOrder) : M XMLWriter Unit := do
  ensureHeader σ
  onSink (write (str% "\n</osm>"))
  setState .closed

/-- `src/xml/mod.rs:430-434`: the state check of `write_obj` -/
def checkOpen (σ : HashOrder) : M XMLWriter Unit := fun w =>
  match w.state with
  | .initial => ensureHeader σ w
  | .writingObjects => (.ok (), w)
  | .closed => (.err .alreadyClosed, w)

/-- `src/xml/mod.rs:429-519` -/
def writeObj {α N W R : Type} [OSMObjT α N W R] [NodeT N] [WayT W] [RelationT R] (σ : HashOrder) (o : α) :
    M XMLWriter Unit := do
  checkOpen σ
  onSink (writeObjBody o)

/-- `src/xml/mod.rs:527-531`: `close().unwrap()` -/
def drop (σ : HashOrder) : M XMLWriter Unit := fun w =>
  match close σ w with
  | (.err _, w) => (.panic .unwrap, w)
  | r => r

/-- `src/xml/mod.rs:521-524`: `todo!`, which drops the writer. (Should that panic too, the process is aborted.) -/
def intoInner (σ : HashOrder) : M XMLWriter Sink := fun w => (.panic .unimplemented, (drop σ w).2)

end XMLWriter

/-- `src/osc/mod.rs:25-29` -/
structure OSCWriter where
  writer : Sink
  state : WState
  deriving DecidableEq

namespace OSCWriter

/-- Run code that uses only `self.writer`; `src/osc/mod.rs:97-222`, the uses of `self.writer`. -/
def onSink {α : Type} (m : M Sink α) : M OSCWriter α := fun w =>
  let r := m w.writer
  (r.1, { w with writer := r.2 })

/-- Assignment to `self._state`; `src/osc/mod.rs:111` and `137`. -/
def setState (s : WState) : M OSCWriter Unit := fun w => (.ok (), { w with state := s })

/-- `src/osc/mod.rs:118-124` -/
def new (sink : Sink) : OSCWriter := ⟨sink, .initial⟩

/-- `src/osc/mod.rs:96-109`: the text part of `ensure_header` -/
def writeHeader : M Sink Unit := do
  write (str% "<?xml version=\"1.0\" encoding=\"utf-8\"?>\n")
  write (str% "<osmChange version=\"0.6\" generator=\"osmio/" ++ crateVersion ++ str% "\"")
  write (str% ">")
  write (str% "\n<modify>")

/-- `src/osc/mod.rs:94-114` -/
def ensureHeader : M OSCWriter Unit := fun w =>
  if w.state = .initial then
    (do
      onSink writeHeader
      setState .writingObjects : M OSCWriter Unit) w
  else (.ok (), w)

/-- The default method `src/lib.rs:732-734`, which `OSCWriter` does not override: `todo!()`. -/
def setHeader (_k _v : Str) : M OSCWriter Unit := M.panic .unimplemented

/-- `src/osc/mod.rs:126-128` -/
def isOpen (w : OSCWriter) : Bool := w.state != .closed

/-- `src/osc/mod.rs:133-138`: the rest of `close` -/
def closeRest : M OSCWriter Unit := fun w =>
  if w.state ≠ .closed then
    (do
      onSink (write (str% "\n</modify>"))
      onSink (write (str% "\n</osmChange>"))
      setState .closed : M OSCWriter Unit) w
  else (.ok (), w)

/-- `src/osc/mod.rs:130-141` -/
def close : M OSCWriter Unit := do
  ensureHeader
  closeRest

/-- `src/osc/mod.rs:144-148`: the state check of `write_obj` -/
def checkOpen : M OSCWriter Unit := fun w =>
  match w.state with
  | .initial => ensureHeader w
  | .writingObjects => (.ok (), w)
  | .closed => (.err .alreadyClosed, w)

/-- `src/osc/mod.rs:143-233` -/
def writeObj {α N W R : Type} [OSMObjT α N W R] [NodeT N] [WayT W] [RelationT R] (o : α) :
    M OSCWriter Unit := do
  checkOpen
  onSink (writeObjBody o)

/-- `src/osc/mod.rs:241-245`: `close().unwrap()` -/
def drop : M OSCWriter Unit := fun w =>
  match close w with
  | (.err _, w) => (.panic .unwrap, w)
  | r => r

/-- `src/osc/mod.rs:235-238`: `todo!`, which drops the writer. (Should that panic too, the process is aborted.) -/
def intoInner : M OSCWriter Sink := fun w => (.panic .unimplemented, (drop w).2)

end OSCWriter

/-- `src/lib.rs:738-752`, `from_iter`, for the XML writer: `write_obj` and `close` with `unwrap`. -/
def XMLWriter.fromIter {α N W R : Type} [OSMObjT α N W R] [NodeT N] [WayT W] [RelationT R] (σ : HashOrder)
    (sink : Sink) (os : List α) : Outcome Unit × XMLWriter :=
  match (do
      M.each (fun o => XMLWriter.writeObj σ o) os
      XMLWriter.close σ : M XMLWriter Unit) (XMLWriter.new sink) with
  | (.err _, w) => (.panic .unwrap, w)
  | r => r

/-- `src/lib.rs:738-752`, `from_iter`, for the OSC writer. -/
def OSCWriter.fromIter {α N W R : Type} [OSMObjT α N W R] [NodeT N] [WayT W] [RelationT R]
    (sink : Sink) (os : List α) : Outcome Unit × OSCWriter :=
  match (do
      M.each (fun o => OSCWriter.writeObj o) os
      OSCWriter.close : M OSCWriter Unit) (OSCWriter.new sink) with
  | (.err _, w) => (.panic .unwrap, w)
  | r => r

end Osmio
