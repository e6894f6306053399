import Verif.Lib.Machine
import Verif.Model.XmlRead
/-!
# Model: the XML and change readers over a source that may fail

`xml-rs` decodes and parses as it reads, so the events before an error of the source are those of the bytes before it; the error itself
is an error event, and like every error event it ends the stream (`EventReader` reads nothing after an error). As in `Source`, an error is
one that is reported to the reader, not an interruption that a `BufReader` retries.
-/

namespace Osmio
open Xml

/-- What iterating over the `Events` of a source gives; `src/xml/mod.rs:79`, `src/osc/mod.rs:37`. -/
def Xml.eventsOfSource (norm : Config) (src : Source) : List (Option XmlEvent) :=
  let p := Utf8.decodePrefix (Source.before src).1
  events norm p.1 (p.2 && (Source.before src).2)

/-- `XMLReader::new` (`src/xml/mod.rs:77-81`) on a source that may fail. -/
def XMLReader.over (norm : Xml.Config) (src : Source) : List (Option XmlEvent) := eventsOfSource norm src

/-- `OSCReader::new` (`src/osc/mod.rs:35-39`) on a source that may fail. -/
def OSCReader.over (norm : Xml.Config) (src : Source) : List (Option XmlEvent) := eventsOfSource norm src

end Osmio
