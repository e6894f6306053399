import Verif.Lib.XmlPull
import Verif.Model.XmlRead
/-!
# Model: the XML and change readers over any implementation of `Read`

The same code as in `Model/XmlRead.lean`, with the events pulled from the parser one by one and the parser pulling bytes through the `BufReader` that `new` puts in
front of the source. Loops that go on as long as the source gives something are bounded by a number of rounds; theorems say how many suffice.
-/

namespace Osmio
open Xml

/-- The size of the buffer of `BufReader::new`, `DEFAULT_BUF_SIZE` of the standard library; `src/xml/mod.rs:79`, `src/osc/mod.rs:37`. -/
def bufSize : Nat := 8192

/-- `XMLReader<R>` (`src/xml/mod.rs:22-24`) and `OSCReader<R>` (`src/osc/mod.rs:14-16`) own a parser over a `BufReader<R>`. -/
structure EventsOver (S : Type) where
  parser : Events (Buffered S)

namespace XMLReader

/-- `src/xml/mod.rs:77-81` -/
def Over.new {S : Type} (s : S) : EventsOver S := ⟨.new ⟨s, []⟩⟩

/-- `src/xml/mod.rs:83-85`: the source below the parser and the buffer; what the buffer holds is dropped. -/
def Over.intoInner {S : Type} (r : EventsOver S) : S := r.parser.src.inner

/-- `src/xml/mod.rs:87-89` -/
def Over.inner {S : Type} (_ : EventsOver S) : Res S := .error .unimplemented

/-- `src/xml/mod.rs:92-129`: the loop of `next`. The first number bounds its rounds, `rounds` those of the parser. -/
def Over.collect (rd : AnyReader) (norm : Config) (rounds : Nat) (shouldPush : Bool) (elements : List XmlEvent) :
    Nat → EventsOver rd.S → Res (List XmlEvent) × EventsOver rd.S
  | 0, r => (.ok elements, r)
  | n + 1, r =>
    match Events.next (rd.buffered bufSize) norm rounds r.parser with
    | (none, p) => (.ok elements, ⟨p⟩)
    | (some none, p) => (.error .unwrap, ⟨p⟩)
    | (some (some el), p) =>
      let shouldPush := shouldPush || pushNow el
      let elements := if shouldPush then elements ++ [el] else elements
      if breakNow el then (.ok elements, ⟨p⟩) else Over.collect rd norm rounds shouldPush elements n ⟨p⟩

/-- `src/xml/mod.rs:91-132` -/
def Over.next (rd : AnyReader) (norm : Config) (rounds : Nat) (r : EventsOver rd.S) : Res (Option StringOSMObj) × EventsOver rd.S :=
  match Over.collect rd norm rounds false [] rounds r with
  | (.ok elements, r) => (.ok (xmlElementsToOsmObj elements), r)
  | (.error p, r) => (.error p, r)

end XMLReader

namespace OSCReader

/-- `src/osc/mod.rs:35-39` -/
def Over.new {S : Type} (s : S) : EventsOver S := ⟨.new ⟨s, []⟩⟩

/-- `src/osc/mod.rs:41-43` -/
def Over.intoInner {S : Type} (r : EventsOver S) : S := r.parser.src.inner

/-- `src/osc/mod.rs:45-47` -/
def Over.inner {S : Type} (_ : EventsOver S) : Res S := .error .unimplemented

/-- `src/osc/mod.rs:52-87`: the loop of `next`. The first number bounds its rounds, `rounds` those of the parser. -/
def Over.collect (rd : AnyReader) (norm : Config) (rounds : Nat) (shouldPush : Bool) (elements : List XmlEvent) :
    Nat → EventsOver rd.S → Res (List XmlEvent) × EventsOver rd.S
  | 0, r => (.ok elements, r)
  | n + 1, r =>
    match Events.next (rd.buffered bufSize) norm rounds r.parser with
    | (none, p) => (.ok elements, ⟨p⟩)
    | (some none, p) => (.error .unwrap, ⟨p⟩)
    | (some (some el), p) =>
      let shouldPush := shouldPush || oscPushNow el
      let elements := if shouldPush then elements ++ [el] else elements
      if oscBreakNow el then (.ok elements, ⟨p⟩) else Over.collect rd norm rounds shouldPush elements n ⟨p⟩

/-- `src/osc/mod.rs:49-90` -/
def Over.next (rd : AnyReader) (norm : Config) (rounds : Nat) (r : EventsOver rd.S) : Res (Option StringOSMObj) × EventsOver rd.S :=
  match Over.collect rd norm rounds false [] rounds r with
  | (.ok elements, r) => (.ok (xmlElementsToOsmObj elements), r)
  | (.error p, r) => (.error p, r)

end OSCReader
end Osmio
