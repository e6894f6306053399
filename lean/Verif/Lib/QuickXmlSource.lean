import Verif.Lib.QuickXmlBytes
/-!
# Library model: the tokenizer of quick-xml over a source that breaks off

`read_event_into` asks its `BufRead` for more until it has seen where the event ends. If the source fails before that, the call
returns the error. What the calls after that give is not modelled: it is a parameter.
-/

namespace Osmio.QuickXml

/-- More than what is there is needed to tell what follows `<!`. -/
def bangOpen (r : List UInt8) : Bool :=
  if (Utf8.encode (str% "--")).isPrefixOf r then (after (Utf8.encode (str% "-->")) (r.drop 2)).isNone
  else if (Utf8.encode (str% "[CDATA[")).isPrefixOf r then (after (Utf8.encode (str% "]]>")) (r.drop 7)).isNone
  else if (Utf8.encode (str% "DOCTYPE")).isPrefixOf r ∨ (Utf8.encode (str% "doctype")).isPrefixOf r then
    (doctypeEnd 0 (r.drop 7)).isNone
  else r.isPrefixOf (Utf8.encode (str% "--")) || r.isPrefixOf (Utf8.encode (str% "[CDATA[")) ||
    r.isPrefixOf (Utf8.encode (str% "DOCTYPE")) || r.isPrefixOf (Utf8.encode (str% "doctype"))

/-- More is needed after `<`. -/
def markupOpen : List UInt8 → Bool
  | [] => true
  | b :: r =>
    if b = 33 then bangOpen r
    else if b = 63 then (after (Utf8.encode (str% "?>")) r).isNone
    else if b = 47 then (tagEnd none r).isNone
    else (tagEnd none (b :: r)).isNone

/-- More is needed after `&`. -/
def refOpen : List UInt8 → Bool
  | [] => true
  | b :: r => if b = 59 then false else if b = 38 ∨ b = 60 then false else refOpen r

/-- More is needed to know the event that begins with `b`. -/
def isOpen (b : UInt8) (r : List UInt8) : Bool :=
  if b = 60 then markupOpen r
  else if b = 38 then refOpen r
  else r.all isTextB

/-- The calls of `read_event_into` that return without asking for more than what is there; the number bounds how many there are. -/
def settledAux : Nat → Src → Events
  | 0, _ => []
  | n + 1, s =>
    match s.bytes with
    | [] => []
    | b :: r => if isOpen b r then [] else (readOne s b r).1 :: settledAux n (readOne s b r).2

/-- The same from the start of the source, where a byte order mark may stand. -/
def settled (bytes : List UInt8) : Events :=
  if [0xEF, 0xBB, 0xBF].isPrefixOf bytes then settledAux (bytes.drop 3).length ⟨bytes.drop 3, []⟩
  else if bytes.isPrefixOf [0xEF, 0xBB, 0xBF] then []
  else settledAux bytes.length ⟨bytes, []⟩

/-- What the calls of `read_event_into` give if the source fails after these bytes: `later` is what they give after that. -/
def eventsFailing (bytes : List UInt8) (later : Events) : Events := settled bytes ++ none :: later

end Osmio.QuickXml
