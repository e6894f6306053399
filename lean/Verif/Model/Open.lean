import Verif.Model.XmlSource
import Verif.Model.StringPbf
import Verif.Model.ArcPbf
import Verif.Model.NodePos
import Verif.Model.Changesets
import Verif.Lib.QuickXmlPull
import Verif.Lib.Bzip2
/-!
# Model: opening files by name

A file system is what opening each name gives: nothing if `File::open` fails (there is no such file, it may not be read), otherwise what
can be read from it, which may fail at any point. A `bz2` decoder is a function from what it reads to what it gives; the
functions that open files leave it open, and `decoder`, `readerDecoder` and `tagDecoder` are the ones that /repo uses, over any decompressor of one stream. `None` stands for an `Err`.
-/

namespace Osmio

/-- The name of a file: bytes; `src/lib.rs:762`, `filename`. -/
abbrev FileName := List UInt8

/-- What `File::open` gives; `src/stringpbf/mod.rs:513`, `src/xml/mod.rs:30` and `38`, `src/changesets.rs:296` and `325`. -/
abbrev Files := FileName → Option Source

/-- What `MultiBzDecoder` gives for what it reads; `src/xml/mod.rs:31`, `src/changesets.rs:297`, `306` and `326`. -/
abbrev Bz2 := Source → Source

/-- `src/stringpbf/mod.rs:509-515`, `PBFReader::from_filename` -/
def StringPbf.PBFReader.fromFilename (files : Files) (name : FileName) : Option StringPbf.PBFReader :=
  match files name with
  | none => none
  | some f => some (StringPbf.PBFReader.new f)

/-- `src/arcpbf/mod.rs:483-489`, `PBFReader::from_filename` -/
def ArcPbf.PBFReader.fromFilename (files : Files) (name : FileName) : Option ArcPbf.PBFReader :=
  match files name with
  | none => none
  | some f => some (ArcPbf.PBFReader.new f)

/-- `src/stringpbf/node_id_pos.rs:43-49`, `PBFNodePositionReader::from_filename` -/
def NodePos.Reader.fromFilename (files : Files) (name : FileName) : Option NodePos.Reader :=
  match files name with
  | none => none
  | some f => some (NodePos.Reader.new f)

/-- `src/xml/mod.rs:26-33`, `from_filename_bz2`. The reader is what it has yet to give. -/
def Xml.fromFilenameBz2 (norm : Xml.Config) (dec : Bz2) (files : Files) (name : FileName) : Option (List (Option Xml.XmlEvent)) :=
  match files name with
  | none => none
  | some f => some (XMLReader.over norm (dec f))

/-- `src/xml/mod.rs:34-39`, `from_filename_uncompressed` -/
def Xml.fromFilenameUncompressed (norm : Xml.Config) (files : Files) (name : FileName) : Option (List (Option Xml.XmlEvent)) :=
  match files name with
  | none => none
  | some f => some (XMLReader.over norm f)

/-- `src/lib.rs:762-764`, `read_pbf`; `pbf` is `stringpbf` (`src/pbf/mod.rs:2`). -/
def readPbf (files : Files) (name : FileName) : Option StringPbf.PBFReader := StringPbf.PBFReader.fromFilename files name

/-- `src/lib.rs:767-771`, `read_xml` -/
def readXml (norm : Xml.Config) (dec : Bz2) (files : Files) (name : FileName) : Option (List (Option Xml.XmlEvent)) :=
  Xml.fromFilenameBz2 norm dec files name

/-- `src/changesets.rs:294-301`, `ChangesetReader::from_filename` -/
def Changesets.fromFilename (later : QuickXml.Events) (dec : Bz2) (files : Files) (name : FileName) : Option QuickXml.Events :=
  match files name with
  | none => none
  | some f => some (QuickXml.eventsOfSource later (dec f))

/-- `src/changesets.rs:304-309`, `ChangesetReader::from_bz2_reader`, and `from_reader` (91-93) -/
def Changesets.fromBz2Reader (later : QuickXml.Events) (dec : Bz2) (rdr : Source) : QuickXml.Events :=
  QuickXml.eventsOfSource later (dec rdr)

/-- `src/changesets.rs:322-330`, `ChangesetTagReader::from_filename` -/
def Changesets.tagsFromFilename (later : QuickXml.Events) (dec : Bz2) (files : Files) (name : FileName) : Option Changesets.TagReader :=
  match files name with
  | none => none
  | some f => some (Changesets.newTagReader (QuickXml.eventsOfSource later (dec f)))

/-! What the functions above decompress with, given a decompressor of one stream. -/

/-- `src/xml/mod.rs:31` -/
def Xml.decoder (one : Bzip2.One) : Bz2 := Bzip2.multi one

/-- `src/changesets.rs:297` -/
def Changesets.decoder (one : Bzip2.One) : Bz2 := Bzip2.multi one

/-- `src/changesets.rs:306` -/
def Changesets.readerDecoder (one : Bzip2.One) : Bz2 := Bzip2.multi one

/-- `src/changesets.rs:326` -/
def Changesets.tagDecoder (one : Bzip2.One) : Bz2 := Bzip2.multi one

end Osmio
