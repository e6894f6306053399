import Verif.Model.XmlRead
import Verif.Model.XmlWrite
import Verif.Model.Builder
import Verif.Model.ErrorText
import Verif.Model.NodeChain
import Verif.Model.Opl
import Verif.Spec.Drain
/-!
# The repository's own tests, run on the model

Each `example` is a test of `/repo` with its input and its expected output, evaluated by the kernel on the model's definitions. These are
not properties: they check that the model was transcribed faithfully, in the places where the authors wrote down what the program does.

The tests of `src/tests.rs`, of `src/xml/mod.rs:533-598` and the documentation tests of `src/lib.rs` are all here. Those of `src/xml/test.rs`,
`src/test.rs`, `src/opl/test.rs` and `src/nodechain.rs` are not compiled: they are of earlier versions. They are here as far as what they call still
exists; the end of the file says what they expect that is no longer so.
-/

namespace Osmio.RepoTests
open Spec

/-- What a test expects of two timestamps. -/
abbrev cmpOf (a b : Option TimestampFormat) : Option Ordering :=
  match a, b with
  | some a, some b => a.partialCmp b
  | _, _ => none

/-! ## `src/tests.rs:3-22` -/

-- `char_to_objtype`
example : OSMObjectType.tryFrom 'n' = .ok .node := by decide +kernel
example : OSMObjectType.tryFrom 'w' = .ok .way := by decide +kernel
example : OSMObjectType.tryFrom 'r' = .ok .relation := by decide +kernel
example : (OSMObjectType.tryFrom 'x').toOption = none := by decide +kernel
-- `string_to_objtype`
example : OSMObjectType.parse (str% "n") = .ok .node := by decide +kernel
example : OSMObjectType.parse (str% "node") = .ok .node := by decide +kernel
example : OSMObjectType.parse (str% "w") = .ok .way := by decide +kernel
example : OSMObjectType.parse (str% "way") = .ok .way := by decide +kernel
example : OSMObjectType.parse (str% "r") = .ok .relation := by decide +kernel
example : OSMObjectType.parse (str% "relation") = .ok .relation := by decide +kernel
example : OSMObjectType.parse (str% "rel") = .ok .relation := by decide +kernel
example : (OSMObjectType.parse (str% " ")).toOption = none := by decide +kernel

/-! ## `src/tests.rs:24-88` -/

-- `ints1`, `ints2`, `ints3`
example : (TimestampFormat.ofI64 0).partialCmp (.ofI64 0) = some .eq := by decide +kernel
example : (TimestampFormat.ofI64 0).partialCmp (.ofI64 1) = some .lt := by decide +kernel
example : (TimestampFormat.ofI64 3).partialCmp (.ofI64 1) = some .gt := by decide +kernel
-- `isos1`, `isos2`, `isos3`
example : cmpOf (TimestampFormat.fromStr (str% "2020-01-01T00:00:00Z")) (TimestampFormat.fromStr (str% "2020-01-01T00:00:00Z")) = some .eq := by decide +kernel
example : cmpOf (TimestampFormat.fromStr (str% "2010-01-01T00:00:00Z")) (TimestampFormat.fromStr (str% "2020-01-01T00:00:00Z")) = some .lt := by decide +kernel
example : cmpOf (TimestampFormat.fromStr (str% "2020-01-01T00:00:00Z")) (TimestampFormat.fromStr (str% "2000-01-01T00:00:00Z")) = some .gt := by decide +kernel
-- `int_iso1`, `int_iso2`, `int_iso3`, `int_iso4`
example : cmpOf (some (.ofI64 1577836800)) (TimestampFormat.fromStr (str% "2020-01-01T00:00:00Z")) = some .eq := by decide +kernel
example : cmpOf (TimestampFormat.fromStr (str% "2020-01-01T00:00:00Z")) (some (.ofI64 1577836800)) = some .eq := by decide +kernel
example : (TimestampFormat.epoch 1577836800).partialCmp (.iso (str% "2020-01-01T00:00:00Z")) = some .eq := by decide +kernel
example : (TimestampFormat.iso (str% "2020-01-01T00:00:00Z")).partialCmp (.epoch 1577836800) = some .eq := by decide +kernel

/-! ## `src/tests.rs:90-165`, `area_ways` -/

/-- The objects of the first calls of `next` on a text. -/
def objects (n : Nat) (text : Str) : List (Option StringOSMObj) :=
  (calls XMLReader.next n (XMLReader.new .keep (Utf8.encode text))).1.map fun r => r.toOption.getD none

/-- `is_closed` and `is_area` of the ways among them. -/
def waysOf (os : List (Option StringOSMObj)) : List (Bool × Bool) :=
  os.filterMap fun o =>
    match o with
    | some (.way w) => some (isClosed w, isArea w)
    | _ => none

def notClosed : Str := str% "<?xml version=\"1.0\" encoding=\"utf-8\"?>
        <osm version=\"0.6\" generator=\"osmio/0.4.0\">\\
        <node id=\"1\" lat=\"0\" lon=\"0\" />
        <node id=\"2\" lat=\"1\" lon=\"0\" />
        <node id=\"3\" lat=\"1\" lon=\"1\" />
        <way id=\"1\">
            <nd ref=\"1\" />
            <nd ref=\"2\" />
            <nd ref=\"3\" />
        </way>
        </osm>"

example : waysOf (objects 4 notClosed) = [(false, false)] := by decide +kernel
-- the loop ends after them
example : (objects 5 notClosed)[4]? = some none := by decide +kernel

def closedArea : Str := str% "<?xml version=\"1.0\" encoding=\"utf-8\"?>
        <osm version=\"0.6\" generator=\"osmio/0.4.0\">\\
        <node id=\"1\" lat=\"0\" lon=\"0\" />
        <node id=\"2\" lat=\"1\" lon=\"0\" />
        <node id=\"3\" lat=\"1\" lon=\"1\" />
        <way id=\"1\">
            <nd ref=\"1\" />
            <nd ref=\"2\" />
            <nd ref=\"3\" />
            <nd ref=\"1\" />
        </way>
        </osm>"

example : waysOf (objects 4 closedArea) = [(true, true)] := by decide +kernel
-- the loop ends after them
example : (objects 5 closedArea)[4]? = some none := by decide +kernel

def closedNonarea : Str := str% "<?xml version=\"1.0\" encoding=\"utf-8\"?>
        <osm version=\"0.6\" generator=\"osmio/0.4.0\">\\
        <node id=\"1\" lat=\"0\" lon=\"0\" />
        <node id=\"2\" lat=\"1\" lon=\"0\" />
        <node id=\"3\" lat=\"1\" lon=\"1\" />
        <way id=\"1\">
            <nd ref=\"1\" />
            <nd ref=\"2\" />
            <nd ref=\"3\" />
            <nd ref=\"1\" />
            <tag k=\"area\" v=\"no\" />
        </way>
        </osm>"

example : waysOf (objects 4 closedNonarea) = [(true, false)] := by decide +kernel
-- the loop ends after them
example : (objects 5 closedNonarea)[4]? = some none := by decide +kernel

def closedExplicitArea : Str := str% "<?xml version=\"1.0\" encoding=\"utf-8\"?>
        <osm version=\"0.6\" generator=\"osmio/0.4.0\">\\
        <node id=\"1\" lat=\"0\" lon=\"0\" />
        <node id=\"2\" lat=\"1\" lon=\"0\" />
        <node id=\"3\" lat=\"1\" lon=\"1\" />
        <way id=\"1\">
            <nd ref=\"1\" />
            <nd ref=\"2\" />
            <nd ref=\"3\" />
            <nd ref=\"1\" />
            <tag k=\"area\" v=\"yes\" />
        </way>
        </osm>"

example : waysOf (objects 4 closedExplicitArea) = [(true, true)] := by decide +kernel
-- the loop ends after them
example : (objects 5 closedExplicitArea)[4]? = some none := by decide +kernel

/-! ## `src/xml/mod.rs:533-598` -/

/-- What `write_xml_escaped` puts into a `Vec`. -/
def escapedText (s : Str) : Option Str := Utf8.decode (writeXmlEscaped s ⟨[], []⟩).2.out

-- `escape1` to `escape8`
example : escapedText (str% "foo") = some (str% "foo") := by decide +kernel
example : escapedText (str% "&foo") = some (str% "&amp;foo") := by decide +kernel
example : escapedText (str% "foo bar") = some (str% "foo bar") := by decide +kernel
example : escapedText (str% "foo\nbar") = some (str% "foo\nbar") := by decide +kernel
example : escapedText (str% "&&foo") = some (str% "&amp;&amp;foo") := by decide +kernel
example : escapedText (str% "&ergio") = some (str% "&amp;ergio") := by decide +kernel
example : escapedText (str% "foo & bar") = some (str% "foo &amp; bar") := by decide +kernel
example : escapedText (str% "foo & bar \" ' <whoop>") = some (str% "foo &amp; bar &quot; &apos; &lt;whoop&gt;") := by decide +kernel

/-- The order of a header map that was never changed. -/
def noOrder : HashOrder := ⟨fun l => l, fun l => .refl l⟩

/-- Write one object, close, drop: what is in the `Vec` then (`src/xml/mod.rs:565-579`). -/
def writeOne (o : StringOSMObj) : Option Str :=
  let w := XMLWriter.new ⟨[], []⟩
  let w := (XMLWriter.writeObj noOrder o w).2
  let w := (XMLWriter.close noOrder w).2
  let w := (XMLWriter.drop noOrder w).2
  Utf8.decode w.writer.out

/-- The object of `node1` (`src/xml/mod.rs:583-592`). -/
def node1 : Except UninitializedField StringNode :=
  (((((((StringNodeBuilder.default.id 1).version 2).changesetId 1).timestamp (.ofI64 700)).uid 1).user (str% "&foo")).latLon (⟨0⟩, ⟨0⟩)).build

-- `node1`
example : (node1.toOption.bind fun n => writeOne (.node n)) =
    some (str% "<?xml version=\"1.0\" encoding=\"utf-8\"?>\n<osm version=\"0.6\" generator=\"osmio/" ++ crateVersion ++
      str% "\">\n\t<node id=\"1\" visible=\"true\" version=\"2\" user=\"&amp;foo\" uid=\"1\" changeset=\"1\" timestamp=\"1970-01-01T00:11:40Z\" lat=\"0\" lon=\"0\" />\n</osm>\n</osm>") := by
  decide +kernel

/-! ## The documentation tests of `src/lib.rs:93-99`, `143-154`, `398-414` -/

example : (Lat.tryFromF64 (.ofInt 1)).toOption.map Lat.toF64 = some (.ofInt 1) := by decide +kernel
example : (Lat.fromStr (str% "1.23")).toOption.map Lat.degrees = parseF64 (str% "1.23") := by decide +kernel
example : (Lat.fromStr (str% "1.23")).toOption.map Lat.innerOf = some 12300000 := by decide +kernel
example : (Lat.fromStr (str% "-180.0")).toOption.isSome = true := by decide +kernel
example : (Lat.fromStr (str% "xxxx")).toOption = none := by decide +kernel
example : (Lat.fromStr (str% "600.0")).toOption = none := by decide +kernel

/-- The node of the documentation test of `set_lat_lon` (`src/lib.rs:398-414`) after the first, second and third change. -/
def placed : List (Option StringNode) :=
  match (StringNodeBuilder.default.id 1).build with
  | .error _ => []
  | .ok n =>
    let n1 := (setLatLon Lat.tryFromF64 Lon.tryFromF64 n (some (.ofInt 0, .ofInt 0))).1
    let n2 := (setLatLon Lat.tryFromF32 Lon.tryFromF32 n1 (some (⟨0⟩, ⟨0⟩))).1
    let n3 := (setLatLon Lat.tryFromF64 Lon.tryFromF64 n2 none).1
    [some n1, some n2, some n3]

example : placed.map (·.bind latLonF64) = [some (.ofInt 0, .ofInt 0), some (.ofInt 0, .ofInt 0), none] := by decide +kernel

/-! ## `src/xml/test.rs` (not compiled) -/

def sample1 : Str := str% "<?xml version=\"1.0\" encoding=\"UTF-8\"?>
<osm version=\"0.6\" generator=\"CGImap 0.0.2\">
<bounds minlat=\"54.0889580\" minlon=\"12.2487570\" maxlat=\"54.0913900\" maxlon=\"12.2524800\"/>
<node id=\"298884269\" lat=\"54.0901746\" lon=\"12.2482632\" user=\"SvenHRO\" uid=\"46882\" visible=\"true\" version=\"1\" changeset=\"676636\" timestamp=\"2008-09-21T21:37:45Z\"><tag k=\"mytag\" v=\"myvalue\"/></node></osm>"

/-- What the tests ask of an object, whatever its kind. -/
structure Asked where
  kind : OSMObjectType
  id : ObjId
  version : Option UInt32
  deleted : Bool
  changesetId : Option UInt32
  timestamp : Option Str
  uid : Option UInt32
  user : Option Str
  tags : List (Str × Str)
  deriving DecidableEq

def asked (o : StringOSMObj) : Asked :=
  ⟨o.objectType, o.id, o.version, o.deleted, o.changesetId, o.timestamp.map TimestampFormat.toIsoString, o.uid, o.user, o.tags⟩

def position : StringOSMObj → Option (Lat × Lon)
  | .node n => NodeT.latLon n
  | _ => none

-- `test_parsing1`
example : (objects 1 sample1).map (·.map asked) = [some ⟨.node, 298884269, some 1, false, some 676636, some (str% "2008-09-21T21:37:45Z"), some 46882,
    some (str% "SvenHRO"), [(str% "mytag", str% "myvalue")]⟩] := by decide +kernel
example : (objects 1 sample1).map (·.bind position) = [some (⟨540901746⟩, ⟨122482632⟩)] := by decide +kernel
example : (objects 5 sample1).drop 1 = [none, none, none, none] := by decide +kernel

def sample2 : Str := str% "<?xml version=\"1.0\" encoding=\"UTF-8\"?>
<osm version=\"0.6\" generator=\"CGImap 0.0.2\">
 <bounds minlat=\"54.0889580\" minlon=\"12.2487570\" maxlat=\"54.0913900\" maxlon=\"12.2524800\"/>
 <node id=\"298884269\" lat=\"54.0901746\" lon=\"12.2482632\" user=\"SvenHRO\" uid=\"46882\" visible=\"true\" version=\"1\" changeset=\"676636\" timestamp=\"2008-09-21T21:37:45Z\"/>
 <node id=\"261728686\" lat=\"54.0906309\" lon=\"12.2441924\" user=\"PikoWinter\" uid=\"36744\" visible=\"true\" version=\"1\" changeset=\"323878\" timestamp=\"2008-05-03T13:39:23Z\"/>
 <node id=\"1831881213\" version=\"1\" changeset=\"12370172\" lat=\"54.0900666\" lon=\"12.2539381\" user=\"lafkor\" uid=\"75625\" visible=\"false\" timestamp=\"2012-07-20T09:43:19Z\">
  <tag k=\"name\" v=\"Neu Broderstorf\"/>
  <tag k=\"traffic_sign\" v=\"city_limit\"/>
 </node>
 <node id=\"298884272\" lat=\"54.0901447\" lon=\"12.2516513\" user=\"SvenHRO\" uid=\"46882\" visible=\"true\" version=\"1\" changeset=\"676636\" timestamp=\"2008-09-21T21:37:45Z\"/>
 <way id=\"26659127\" user=\"Masch\" uid=\"55988\" visible=\"true\" version=\"5\" changeset=\"4142606\" timestamp=\"2010-03-16T11:47:08Z\">
  <nd ref=\"292403538\"/>
  <nd ref=\"298884289\"/>
  <nd ref=\"261728686\"/>
  <tag k=\"highway\" v=\"unclassified\"/>
  <tag k=\"name\" v=\"Pastower Straße\"/>
 </way>
 <relation id=\"56688\" user=\"kmvar\" uid=\"56190\" visible=\"true\" version=\"28\" changeset=\"6947637\" timestamp=\"2011-01-12T14:23:49Z\">
  <member type=\"node\" ref=\"294942404\" role=\"\"/>
  <member type=\"node\" ref=\"364933006\" role=\"\"/>
  <member type=\"way\" ref=\"4579143\" role=\"\"/>
  <member type=\"node\" ref=\"249673494\" role=\"\"/>
  <tag k=\"name\" v=\"Küstenbus Linie 123\"/>
  <tag k=\"network\" v=\"VVW\"/>
  <tag k=\"operator\" v=\"Regionalverkehr Küste\"/>
  <tag k=\"ref\" v=\"123\"/>
  <tag k=\"route\" v=\"bus\"/>
  <tag k=\"type\" v=\"route\"/>
 </relation>
</osm>
"

-- `test_parsing2`
example : (objects 6 sample2).map (·.map OSMObjBase.objectType) = [some .node, some .node, some .node, some .node, some .way, some .relation] := by decide +kernel
example : (objects 6 sample2).head?.bind (·.map OSMObjBase.id) = some 298884269 := by decide +kernel
example : (objects 6 sample2)[2]?.bind (·.map OSMObjBase.deleted) = some true := by decide +kernel
example : (objects 6 sample2)[4]?.join.bind (fun o => (OSMObjT.asWay o).map fun w => (WayT.nodes w, OSMObjBase.numTags w, OSMObjBase.tag w (str% "highway"))) =
    some ([292403538, 298884289, 261728686], 2, some (str% "unclassified")) := by decide +kernel
example : (objects 6 sample2)[5]?.join.bind (fun o => (OSMObjT.asRelation o).map fun r => (RelationT.members r, OSMObjBase.numTags r, OSMObjBase.tag r (str% "ref"))) =
    some ([(OSMObjectType.node, 294942404, []), (.node, 364933006, []), (.way, 4579143, []), (.node, 249673494, [])], 6, some (str% "123")) := by
  decide +kernel

/-! ## `src/nodechain.rs:96-133` (not compiled) -/

open NodeChain in
-- `test_encode`
example : ∀ b : Build, encode b [] = .ok [] ∧ encode b [10] = .ok [0, 0, 0, 0, 0, 0, 0, 10] ∧
    encode b [10, 11] = .ok [0, 0, 0, 0, 0, 0, 0, 10, 1] ∧
    encode b [10, 9] = .ok [0, 0, 0, 0, 0, 0, 0, 10, 0b11111111] ∧
    encode b [10, 11, 12] = .ok [0, 0, 0, 0, 0, 0, 0, 10, 1, 1] ∧
    encode b [10, 11, 12, 13] = .ok [0, 0, 0, 0, 0, 0, 0, 10, 1, 1, 1] ∧
    encode b [10, 256] = .ok [0, 0, 0, 0, 0, 0, 0, 10, 255, 0, 0, 0, 0, 0, 0, 1, 0] ∧
    encode b [10, 256, 10] = .ok [0, 0, 0, 0, 0, 0, 0, 10, 255, 0, 0, 0, 0, 0, 0, 1, 0, 0b10000001] := by
  rintro (_ | _) <;> decide +kernel

open NodeChain in
-- `test_decode`
example : ∀ b : Build, decode b [] = .ok [] ∧ decode b [0, 0, 0, 0, 0, 0, 0, 10] = .ok [10] ∧
    decode b [0, 0, 0, 0, 0, 0, 0, 10, 1] = .ok [10, 11] ∧
    decode b [0, 0, 0, 0, 0, 0, 0, 10, 255, 0, 0, 0, 0, 0, 0, 1, 0] = .ok [10, 256] ∧
    decode b [0, 0, 0, 0, 0, 0, 0, 10, 255, 0, 0, 0, 0, 0, 0, 1, 0, 0b10000001] = .ok [10, 256, 10] := by
  rintro (_ | _) <;> decide +kernel

open NodeChain in
-- `test_encode_then_decode`
example : ∀ b : Build, ∀ ns ∈ [[], [1, 2, 3], [1, 2, 3, 1000, 2], [1, 2, 3, 1000, 1]], (encode b ns >>= decode b) = .ok ns := by
  rintro (_ | _) <;> decide +kernel

/-! ## `src/opl/test.rs` (not compiled) -/

open Opl

-- `decode_string1`, `encode_string1`
example : decodeString (str% "hello") = some (str% "hello") := by decide +kernel
example : decodeString (str% "hello%20%world") = some (str% "hello world") := by decide +kernel
example : encodeString (str% "hello") = str% "hello" := by decide +kernel
example : encodeString (str% "hello world") = str% "hello%20%world" := by decide +kernel

/-- What the tests expect of the fields all three lines share. -/
def shared (tags : List (Str × Str)) : Common :=
  ⟨197801, 6, false, 10009832, str% "2011-12-01T17:03:42Z", 20673, str% "mikefalzon", tags⟩

def createdBy : List (Str × Str) := [(str% "created_by", str% "JOSM")]

-- `decode_line_node1`, `decode_line_node2`, `decode_line_node3`
example : decodeLine (str% "n197801 v6 dV c10009832 t2011-12-01T17:03:42Z i20673 umikefalzon Tcreated_by=JOSM x14.2741628 y36.0292900") =
    .ok (some (.node (shared createdBy) (some ⟨142741628⟩) (some ⟨360292900⟩))) := by decide +kernel
example : decodeLine (str% "n197801 v6 dV c10009832 t2011-12-01T17:03:42Z i20673 umikefalzon T x14.2741628 y36.0292900") =
    .ok (some (.node (shared []) (some ⟨142741628⟩) (some ⟨360292900⟩))) := by decide +kernel
example : decodeLine (str% "n1 v1 dD c9257 t2006-05-10T18:27:47Z i1298 uτ12 T x y") =
    .ok (some (.node ⟨1, 1, true, 9257, str% "2006-05-10T18:27:47Z", 1298, str% "τ12", []⟩ none none)) := by decide +kernel
-- `decode_line_node4`
example : decodeLine (str% "n1 v1 € c9257 t2006-05-10T18:27:47Z i1298 uτ12 T x y") = .ok none := by decide +kernel
-- `decode_line_way`, `decode_line_relation`
example : decodeLine (str% "w197801 v6 dV c10009832 t2011-12-01T17:03:42Z i20673 umikefalzon Tcreated_by=JOSM Nn1,n2,n3") =
    .ok (some (.way (shared createdBy) [1, 2, 3])) := by decide +kernel
example : decodeLine (str% "r197801 v6 dV c10009832 t2011-12-01T17:03:42Z i20673 umikefalzon Tcreated_by=JOSM Mn1@inner,w2@outer") =
    .ok (some (.relation (shared createdBy) [('n', 1, str% "inner"), ('w', 2, str% "outer")])) := by decide +kernel

/-- The text of `test_reader` (`src/opl/test.rs`) and of `test_read_then_write` (`src/test.rs:9`). -/
def oplText : Str := str% "n197801 v6 dV c10009832 t2011-12-01T17:03:42Z i20673 umikefalzon Tcreated_by=JOSM x14.274163 y36.02929\nw197801 v6 dV c10009832 t2011-12-01T17:03:42Z i20673 umikefalzon Tcreated_by=JOSM Nn1,n2,n3\nr197801 v6 dV c10009832 t2011-12-01T17:03:42Z i20673 umikefalzon Tcreated_by=JOSM Mn1@inner,w2@outer\n"

-- `test_reader`, the reading
example : (calls Opl.next 4 ((Utf8.encode oplText).map some)).1 =
    [.ok (some (.node (shared createdBy) (some ⟨142741630⟩) (some ⟨360292900⟩))), .ok (some (.way (shared createdBy) [1, 2, 3])),
      .ok (some (.relation (shared createdBy) [('n', 1, str% "inner"), ('w', 2, str% "outer")])), .ok none] := by decide +kernel

/-! ## What the tests that are not compiled expect and the program no longer does -/

-- `src/test.rs:25`, `test_time`: the texts of timestamps end with `Z`.
example : epochToIso 1 = str% "1970-01-01T00:00:01Z" ∧ epochToIso 1 ≠ str% "1970-01-01T00:00:01+00:00" := by decide +kernel
-- the other two lines of `test_time` still hold
example : isoToEpoch (str% "1970-01-01T00:00:01Z") = 1 ∧ isoToEpoch (str% "1970-01-01T00:00:01+00:00") = 1 := by decide +kernel

/-- `src/xml/test.rs`, `test_writer_empty`: what is in the sink after `close` alone. -/
def writeNone : Option Str := Utf8.decode (XMLWriter.close noOrder (XMLWriter.new ⟨[], []⟩)).2.writer.out

-- An empty document is no longer written as one empty element.
example : writeNone = some (str% "<?xml version=\"1.0\" encoding=\"utf-8\"?>\n<osm version=\"0.6\" generator=\"osmio/" ++ crateVersion ++ str% "\">\n</osm>") := by
  decide +kernel
-- `test_writer_empty`, `test_writer` and `test_read_then_write` take the sink back with `into_inner`, which panics now.
example : (XMLWriter.intoInner noOrder (XMLWriter.new ⟨[], []⟩)).1 = .panic .unimplemented := by rfl

/-- The node of `test_writer`. -/
def writerNode : StringNode :=
  ⟨1, some 1, false, some 1, some (.iso (str% "900 CE")), some 2, some (str% "Username"), [(str% "highway", str% "nevar")], some (⟨10000000⟩, ⟨20000000⟩)⟩

-- What `test_writer` expects of its node, with tabs instead of spaces and `visible` in second place.
example : writeOne (.node writerNode) =
    some (str% "<?xml version=\"1.0\" encoding=\"utf-8\"?>\n<osm version=\"0.6\" generator=\"osmio/" ++ crateVersion ++
      str% "\">\n\t<node id=\"1\" visible=\"true\" version=\"1\" user=\"Username\" uid=\"2\" changeset=\"1\" timestamp=\"900 CE\" lat=\"1\" lon=\"2\">\n\t\t<tag k=\"highway\" v=\"nevar\" />\n\t</node>\n</osm>\n</osm>") := by
  decide +kernel


end Osmio.RepoTests
