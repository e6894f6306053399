import Verif.Lib.AnyIo
import Verif.Model.XmlWrite
/-!
# Model: the XML and OSC writers over any implementation of `Write`

The same code as in `Model/XmlWrite.lean`, with the sink left open: it is used only through `write!`, that is, through `write_all` of the pieces
the formatting makes of a text.
-/

namespace Osmio
open OSMObjBase

/-- The pieces in which `write!` hands over a text: any, and not always the same, but together they are the text; `src/xml/mod.rs:375-508`, `src/osc/mod.rs:97-222`, every `write!`. -/
structure Pieces (S : Type) where
  cut : S → Str → List Str
  whole : ∀ s t, (cut s t).flatten = t

/-- The adapter of `std::io::Write::write_fmt`: `write_all` of each piece until one fails; `src/xml/mod.rs:375-508`, `src/osc/mod.rs:97-222`, every `write!`. -/
def writePieces (wr : AnyWriter) : List Str → wr.S → Bool × wr.S
  | [], s => (true, s)
  | p :: ps, s =>
    match wr.writeAll (Utf8.encode p) s with
    | (true, s) => writePieces wr ps s
    | (false, s) => (false, s)

/-- `write!(w, ..)`; an I/O error becomes `XMLWriteIOError` (`src/xml/mod.rs:365-369`). -/
def writeOver (wr : AnyWriter) (pc : Pieces wr.S) (t : Str) : M wr.S Unit := fun s =>
  match writePieces wr (pc.cut s t) s with
  | (true, s) => (.ok (), s)
  | (false, s) => (.err .xmlWriteIOError, s)

section
variable {S : Type} (put : Str → M S Unit)

/-- `src/xml/mod.rs:59-71` -/
def writeXmlEscapedOver (s : Str) : M S Unit := M.each (fun c => put (xmlEscapeChar c)) s

/-- `src/xml/mod.rs:482`, one node reference of a way -/
def writeNdOver (nid : ObjId) : M S Unit := put (str% "\n\t\t<nd ref=\"" ++ i64Str nid ++ str% "\" />")

/-- `src/xml/mod.rs:493-495`, the role of a member -/
def writeRoleOver (role : Str) : M S Unit := if role.isEmpty then pure () else writeXmlEscapedOver put role

/-- `src/xml/mod.rs:488-496`, one member of a relation -/
def writeMemberOver (m : OSMObjectType × ObjId × Str) : M S Unit := do
  put (str% "\n\t\t<member type=\"" ++ m.1.nameLong ++ str% "\" ref=\"" ++ i64Str m.2.1 ++ str% "\" role=\"")
  writeRoleOver put m.2.2
  put (str% "\"/>")

/-- `src/xml/mod.rs:501-505`, one tag -/
def writeTagOver (kv : Str × Str) : M S Unit := do
  put (str% "\n\t\t<tag k=\"")
  writeXmlEscapedOver put kv.1
  put (str% "\" v=\"")
  writeXmlEscapedOver put kv.2
  put (str% "\" />")

section
variable {α N W R : Type} [OSMObjT α N W R] [NodeT N] [WayT W] [RelationT R]

/-- `src/xml/mod.rs:467-472`: the position attributes -/
def writePositionOver (o : α) : M S Unit :=
  M.whenSome (OSMObjT.asNode o) fun n =>
    M.whenSome (NodeT.latLon n) fun ll => do
      put (str% " lat=\"" ++ ll.1.display ++ str% "\"")
      put (str% " lon=\"" ++ ll.2.display ++ str% "\"")

/-- `src/xml/mod.rs:436-518`, which is textually the same as `src/osc/mod.rs:150-232`. -/
def writeObjBodyOver (o : α) : M S Unit := do
  put (openTag (objectType o))
  put (str% " id=\"" ++ i64Str (OSMObjBase.id o) ++ str% "\"")
  put (str% " visible=\"" ++ (if deleted o then str% "false" else str% "true") ++ str% "\"")
  let v ← M.unwrap (version o)
  put (str% " version=\"" ++ u32Str v ++ str% "\"")
  M.whenSome (user o) fun u => do
    put (str% " user=\"")
    writeXmlEscapedOver put u
    put (str% "\"")
  M.whenSome (uid o) fun u => put (str% " uid=\"" ++ u32Str u ++ str% "\"")
  M.whenSome (changesetId o) fun c => put (str% " changeset=\"" ++ u32Str c ++ str% "\"")
  M.whenSome (timestamp o) fun t => put (str% " timestamp=\"" ++ t.display ++ str% "\"")
  writePositionOver put o
  if isNode o && untagged o then
    put (str% " />")
  else do
    put (str% ">")
    M.whenSome (OSMObjT.asWay o) fun w => M.each (writeNdOver put) (WayT.nodes w)
    M.whenSome (OSMObjT.asRelation o) fun r => M.each (writeMemberOver put) (RelationT.members r)
    M.each (writeTagOver put) (tags o)
    put (closeTag (objectType o))
end
end

/-- `src/xml/mod.rs:144-148` -/
structure XMLWriterOver (S : Type) where
  writer : S
  headers : List (Str × Str)
  state : WState

namespace XMLWriterOver
variable {S : Type} (put : Str → M S Unit)

/-- Run code that uses only `self.writer`; `src/xml/mod.rs:375-508`, the uses of `self.writer`. -/
def onSink {α : Type} (m : M S α) : M (XMLWriterOver S) α := fun w =>
  let r := m w.writer
  (r.1, { w with writer := r.2 })

/-- Assignment to `self._state`; `src/xml/mod.rs:388` and `424`. -/
def setState (s : WState) : M (XMLWriterOver S) Unit := fun w => (.ok (), { w with state := s })

/-- `src/xml/mod.rs:395-402` -/
def new (sink : S) : XMLWriterOver S := ⟨sink, [], .initial⟩

/-- `src/xml/mod.rs:382-384`, one header -/
def writeHeaderAttr (kv : Str × Str) : M S Unit := do
  put (str% " " ++ kv.1 ++ str% "=\"")
  writeXmlEscapedOver put kv.2
  put (str% "\"")

/-- `src/xml/mod.rs:374-386`: the text part of `ensure_header`, with the headers in iteration order. -/
def writeHeader (headers : List (Str × Str)) : M S Unit := do
  put (str% "<?xml version=\"1.0\" encoding=\"utf-8\"?>\n")
  put (str% "<osm version=\"0.6\" generator=\"osmio/" ++ crateVersion ++ str% "\"")
  M.each (writeHeaderAttr put) headers
  put (str% ">")

/-- `src/xml/mod.rs:372-391` -/
def ensureHeader (σ : HashOrder) : M (XMLWriterOver S) Unit := fun w =>
  if w.state = .initial then
    (do
      onSink (writeHeader put (σ.order w.headers))
      setState .writingObjects : M (XMLWriterOver S) Unit) w
  else (.ok (), w)

/-- `src/xml/mod.rs:404-413` -/
def setHeader (k v : Str) : M (XMLWriterOver S) Unit := fun w =>
  match w.state with
  | .initial => (.ok (), { w with headers := hashInsert k v w.headers })
  | .closed => (.err .alreadyClosed, w)
  | .writingObjects => (.err .alreadyStarted, w)

/-- `src/xml/mod.rs:419-427` -/
def close (σ : HashOrder) : M (XMLWriterOver S) Unit := do
  ensureHeader put σ
  onSink (put (str% "\n</osm>"))
  setState .closed

/-- `src/xml/mod.rs:430-434`: the state check of `write_obj` -/
def checkOpen (σ : HashOrder) : M (XMLWriterOver S) Unit := fun w =>
  match w.state with
  | .initial => ensureHeader put σ w
  | .writingObjects => (.ok (), w)
  | .closed => (.err .alreadyClosed, w)

/-- `src/xml/mod.rs:429-519` -/
def writeObj {α N W R : Type} [OSMObjT α N W R] [NodeT N] [WayT W] [RelationT R] (σ : HashOrder) (o : α) :
    M (XMLWriterOver S) Unit := do
  checkOpen put σ
  onSink (writeObjBodyOver put o)

/-- `src/xml/mod.rs:527-531`: `close().unwrap()` -/
def drop (σ : HashOrder) : M (XMLWriterOver S) Unit := fun w =>
  match close put σ w with
  | (.err _, w) => (.panic .unwrap, w)
  | r => r

end XMLWriterOver

/-- `src/osc/mod.rs:25-29` -/
structure OSCWriterOver (S : Type) where
  writer : S
  state : WState

namespace OSCWriterOver
variable {S : Type} (put : Str → M S Unit)

/-- Run code that uses only `self.writer`; `src/osc/mod.rs:97-222`, the uses of `self.writer`. -/
def onSink {α : Type} (m : M S α) : M (OSCWriterOver S) α := fun w =>
  let r := m w.writer
  (r.1, { w with writer := r.2 })

/-- Assignment to `self._state`; `src/osc/mod.rs:111` and `137`. -/
def setState (s : WState) : M (OSCWriterOver S) Unit := fun w => (.ok (), { w with state := s })

/-- `src/osc/mod.rs:118-124` -/
def new (sink : S) : OSCWriterOver S := ⟨sink, .initial⟩

/-- `src/osc/mod.rs:96-109`: the text part of `ensure_header` -/
def writeHeader : M S Unit := do
  put (str% "<?xml version=\"1.0\" encoding=\"utf-8\"?>\n")
  put (str% "<osmChange version=\"0.6\" generator=\"osmio/" ++ crateVersion ++ str% "\"")
  put (str% ">")
  put (str% "\n<modify>")

/-- `src/osc/mod.rs:94-114` -/
def ensureHeader : M (OSCWriterOver S) Unit := fun w =>
  if w.state = .initial then
    (do
      onSink (writeHeader put)
      setState .writingObjects : M (OSCWriterOver S) Unit) w
  else (.ok (), w)

/-- The default method `src/lib.rs:732-734`, which `OSCWriter` does not override: `todo!()`. -/
def setHeader (_k _v : Str) : M (OSCWriterOver S) Unit := M.panic .unimplemented

/-- `src/osc/mod.rs:133-138`: the rest of `close` -/
def closeRest : M (OSCWriterOver S) Unit := fun w =>
  if w.state ≠ .closed then
    (do
      onSink (put (str% "\n</modify>"))
      onSink (put (str% "\n</osmChange>"))
      setState .closed : M (OSCWriterOver S) Unit) w
  else (.ok (), w)

/-- `src/osc/mod.rs:130-141` -/
def close : M (OSCWriterOver S) Unit := do
  ensureHeader put
  closeRest put

/-- `src/osc/mod.rs:144-148`: the state check of `write_obj` -/
def checkOpen : M (OSCWriterOver S) Unit := fun w =>
  match w.state with
  | .initial => ensureHeader put w
  | .writingObjects => (.ok (), w)
  | .closed => (.err .alreadyClosed, w)

/-- `src/osc/mod.rs:143-233` -/
def writeObj {α N W R : Type} [OSMObjT α N W R] [NodeT N] [WayT W] [RelationT R] (o : α) :
    M (OSCWriterOver S) Unit := do
  checkOpen put
  onSink (writeObjBodyOver put o)

/-- `src/osc/mod.rs:241-245`: `close().unwrap()` -/
def drop : M (OSCWriterOver S) Unit := fun w =>
  match close put w with
  | (.err _, w) => (.panic .unwrap, w)
  | r => r

end OSCWriterOver
/-- `src/lib.rs:738-752`, `from_iter`, for the XML writer. -/
def XMLWriterOver.fromIter {S : Type} (put : Str → M S Unit) {α N W R : Type} [OSMObjT α N W R] [NodeT N] [WayT W] [RelationT R] (σ : HashOrder)
    (sink : S) (os : List α) : Outcome Unit × XMLWriterOver S :=
  match (do
      M.each (fun o => XMLWriterOver.writeObj put σ o) os
      XMLWriterOver.close put σ : M (XMLWriterOver S) Unit) (XMLWriterOver.new sink) with
  | (.err _, w) => (.panic .unwrap, w)
  | r => r

/-- `src/lib.rs:738-752`, `from_iter`, for the OSC writer. -/
def OSCWriterOver.fromIter {S : Type} (put : Str → M S Unit) {α N W R : Type} [OSMObjT α N W R] [NodeT N] [WayT W] [RelationT R]
    (sink : S) (os : List α) : Outcome Unit × OSCWriterOver S :=
  match (do
      M.each (fun o => OSCWriterOver.writeObj put o) os
      OSCWriterOver.close put : M (OSCWriterOver S) Unit) (OSCWriterOver.new sink) with
  | (.err _, w) => (.panic .unwrap, w)
  | r => r

end Osmio
