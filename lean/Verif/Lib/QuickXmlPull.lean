import Verif.Lib.AnyIo
import Verif.Lib.QuickXmlSource
import Verif.Lib.Machine
/-!
# Library model: quick-xml reading its source piece by piece

`Lib/QuickXmlBytes.lean` says which events bytes have. Here is when `read_event_into` reads: it looks at what the buffer of its `BufReader` holds, fills the buffer when
it is empty, and returns as soon as it has seen where the event ends. The rules of the bytes are those of `Lib/QuickXmlBytes.lean`. What the
calls give after an error of the source is not modelled: it is a parameter, as in `Lib/QuickXmlSource.lean`.
-/

namespace Osmio

/-- `BufRead::fill_buf` of a `BufReader`, repeated when it is interrupted: what the buffer holds, filled by one read if it is empty. `none` is an error. -/
def AnyReader.fillBuf (rd : AnyReader) (capacity : Nat) (b : Buffered rd.S) : Option (List UInt8) × Buffered rd.S :=
  if b.pending = [] then
    match _h : rd.read b.inner capacity with
    | (.ok bs, s) => (some bs, ⟨s, bs⟩)
    | (.interrupted, s) => rd.fillBuf capacity ⟨s, []⟩
    | (.failed, s) => (none, ⟨s, []⟩)
  else (some b.pending, b)
termination_by rd.patience b.inner
decreasing_by
  have := rd.calm b.inner capacity (by rw [_h])
  rwa [_h] at this

namespace QuickXml

/-- What the calls of `read_event_into` give over a source that may fail. -/
def eventsOfSource (later : Events) (src : Source) : Events :=
  if (Source.before src).2 then eventsOf (Source.before src).1 else eventsFailing (Source.before src).1 later

/-- `quick_xml::Reader<BufReader<R>>`: the `BufReader`, the names of the open elements, whether the beginning, where a byte order mark may stand, has been
read, whether the source has failed, and what the calls give after that. -/
structure Pull (S : Type) where
  src : Buffered S
  opened : List (List UInt8)
  begun : Bool
  broken : Bool
  later : Events

/-- `Reader::from_reader`: nothing is read. -/
def Pull.new {S : Type} (later : Events) (s : S) : Pull S := ⟨⟨s, []⟩, [], false, false, later⟩

/-- An event, or an error. -/
def ofEvent : Option Event → Read
  | some e => .event e
  | none => .error

/-- A call of `read_event_into` after the beginning. `taken` is what it has taken out of the buffer so far, not yet a whole event. The number bounds
how often the buffer is filled. -/
def Pull.loop (rd : AnyReader) (capacity : Nat) : Nat → List UInt8 → Pull rd.S → Option (Read × Pull rd.S)
  | 0, _, _ => none
  | n + 1, taken, p =>
    match rd.fillBuf capacity p.src with
    | (none, b) => some (.error, { p with src := b, broken := true })
    | (some [], b) =>
      match taken with
      | [] => some (.eof, { p with src := b })
      | c :: cs =>
        let r := readOne ⟨c :: cs, p.opened⟩ c cs
        some (ofEvent r.1, { p with src := ⟨b.inner, r.2.bytes⟩, opened := r.2.opened })
    | (some (x :: xs), b) =>
      match taken ++ x :: xs with
      | [] => none
      | c :: cs =>
        if isOpen c cs then Pull.loop rd capacity n (c :: cs) { p with src := ⟨b.inner, []⟩ }
        else
          let r := readOne ⟨c :: cs, p.opened⟩ c cs
          some (ofEvent r.1, { p with src := ⟨b.inner, r.2.bytes⟩, opened := r.2.opened })

/-- `Reader::read_event_into`. The first call looks for a byte order mark in what the buffer holds after it was filled once, and drops it. -/
def Pull.readEventInto (rd : AnyReader) (capacity : Nat) (n : Nat) (p : Pull rd.S) : Option (Read × Pull rd.S) :=
  if p.broken then
    let r := readEvent p.later
    some (r.1, { p with later := r.2 })
  else if p.begun then Pull.loop rd capacity n [] p
  else
    match rd.fillBuf capacity p.src with
    | (none, b) => some (.error, { p with src := b, broken := true })
    | (some bs, b) =>
      let bs' := if [0xEF, 0xBB, 0xBF].isPrefixOf bs then bs.drop 3 else bs
      Pull.loop rd capacity n [] { p with src := ⟨b.inner, bs'⟩, begun := true }

end QuickXml
end Osmio
