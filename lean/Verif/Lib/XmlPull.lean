import Verif.Lib.AnyIo
import Verif.Lib.Xml
/-!
# Library model: `xml-rs` reading its source piece by piece

`Lib/Xml.lean` says which events a text has. Here is when the parser reads: an `EventReader` asks its source for one byte after the other, puts
characters together, and hands an event out as soon as the character that completes it has been read. The rules of the
text are those of `Lib/Xml.lean`.
-/

namespace Osmio

/-- What comes next from a source, byte by byte. -/
inductive ByteOut where
  | byte (b : UInt8)
  | eof
  | failed
  deriving DecidableEq

/-- `std::io::Bytes::next`: a read of one byte, repeated when it is interrupted. -/
def AnyReader.readByte (rd : AnyReader) (s : rd.S) : ByteOut × rd.S :=
  match _h : rd.read s 1 with
  | (.interrupted, s') => rd.readByte s'
  | (.failed, s') => (.failed, s')
  | (.ok [], s') => (.eof, s')
  | (.ok (b :: _), s') => (.byte b, s')
termination_by rd.patience s
decreasing_by
  have := rd.calm s 1 (by rw [_h])
  rwa [_h] at this

namespace Xml

/-- What comes next from a source, character by character. -/
inductive CharOut where
  | char (c : Char)
  | eof
  | error
  deriving DecidableEq

/-- The character reader of `xml-rs`: bytes are added to a buffer of four until it holds a character. `left` is the room left in the buffer. The
end in the middle of a character is an error, as is a full buffer that is not a character. -/
def readChar (rd : AnyReader) (left : Nat) (buf : List UInt8) (s : rd.S) : CharOut × rd.S :=
  match left with
  | 0 => (.error, s)
  | left + 1 =>
    match rd.readByte s with
    | (.failed, s) => (.error, s)
    | (.eof, s) => (if buf = [] then .eof else .error, s)
    | (.byte b, s) =>
      match Utf8.decode (buf ++ [b]) with
      | some (c :: _) => (.char c, s)
      | _ => readChar rd left (buf ++ [b]) s

/-- `xml::reader::Events` over a source. `parser` keeps all its events; `reported` of them have been handed out. `finished` says that
the last event, the end of the document or an error, has been handed out. -/
structure Events (S : Type) where
  src : S
  parser : PState
  reported : Nat
  finished : Bool

/-- `EventReader::new` and `into_iter`: nothing is read. -/
def Events.new {S : Type} (s : S) : Events S := ⟨s, initial, 0, false⟩

/-- `<Events as Iterator>::next`: an event that is complete, or else the next characters until there is one. `none` is the end of the
iteration, `some none` an error. The number bounds the characters read. -/
def Events.next (rd : AnyReader) (norm : Config) : Nat → Events rd.S → Option (Option XmlEvent) × Events rd.S
  | n, e =>
    match e.parser.events[e.reported]? with
    | some ev => (some (some ev), { e with reported := e.reported + 1 })
    | none =>
      if e.finished then (none, e)
      else if e.parser.mode = .fail then (some none, { e with finished := true })
      else
        match n with
        | 0 => (none, e)
        | n + 1 =>
          match readChar rd 4 [] e.src with
          | (.error, s) => (some none, { e with src := s, finished := true })
          | (.eof, s) => (some (if complete e.parser then some .other else none), { e with src := s, finished := true })
          | (.char c, s) => Events.next rd norm n { e with src := s, parser := step norm e.parser c }

end Xml
end Osmio
