import Verif.Lib.QuickXml
/-!
# Library model: the tokenizer of quick-xml

`Reader::from_reader` and `Reader::read_event_into` with the default configuration, on bytes: how a
document becomes the events of `Verif/Lib/QuickXml.lean`. quick-xml is a dependency and not part of the repository; this
is its documented behaviour.

* Markup is recognized by bytes; nothing is decoded.
* Tags end at the first `>` outside quotes. End tags must match the start tags; white space after the name of an end
  tag is dropped.
* Comments end at `-->`, CDATA sections at `]]>`, processing instructions and declarations at `?>`, a document type at the `>`
  that matches its `<`.
* An error inside markup consumes the markup; markup that the file ends in consumes the rest of the file.

Which of the two a reference is, general or to a character, and what text says do not matter to the readers of
changesets: both are `Event.other`.
-/

namespace Osmio.QuickXml

/-- White space of XML, as a byte. -/
def isWsB (b : UInt8) : Bool := b == 32 || b == 9 || b == 10 || b == 13

/-- What follows the first occurrence of a pattern. -/
def after (pat : List UInt8) : List UInt8 → Option (List UInt8)
  | [] => none
  | b :: r => if pat.isPrefixOf (b :: r) then some ((b :: r).drop pat.length) else after pat r

/-- The inside of a tag up to the first `>` outside quotes, and what follows it. `q` is the open quote. -/
def tagEnd : Option UInt8 → List UInt8 → Option (List UInt8 × List UInt8)
  | _, [] => none
  | some q, b :: r => (tagEnd (if b = q then none else some q) r).map fun p => (b :: p.1, p.2)
  | none, b :: r =>
    if b = 62 then some ([], r)
    else (tagEnd (if b = 34 ∨ b = 39 then some b else none) r).map fun p => (b :: p.1, p.2)

/-- What follows the `>` that closes a document type, `d` open `<` inside it. -/
def doctypeEnd : Nat → List UInt8 → Option (List UInt8)
  | _, [] => none
  | d, b :: r =>
    if b = 62 then
      match d with
      | 0 => some r
      | d + 1 => doctypeEnd d r
    else if b = 60 then doctypeEnd (d + 1) r
    else doctypeEnd d r

/-- Without leading white space. -/
def trimB (bs : List UInt8) : List UInt8 := bs.dropWhile isWsB

/-- Without trailing white space. -/
def trimEndB (bs : List UInt8) : List UInt8 := (bs.reverse.dropWhile isWsB).reverse

/-- Name of a tag: up to the first white space. -/
def tagName (bs : List UInt8) : List UInt8 := bs.takeWhile fun b => !isWsB b

/-- A byte that ends the name of an attribute. -/
def keyEnd (b : UInt8) : Bool := b == 61 || isWsB b

/-- One step of `Attributes`: an attribute and what follows it. The outer `none`: there is no attribute left; the inner one: an
error. `seen` are the names so far. -/
def nextAttr (seen : List (List UInt8)) (bs : List UInt8) : Option (Option (Attr × List UInt8)) :=
  match trimB bs with
  | [] => none
  | c :: cs =>
    let key := (c :: cs).takeWhile fun b => !keyEnd b
    match trimB ((c :: cs).dropWhile fun b => !keyEnd b) with
    | 61 :: r =>
      if key = [] ∨ key ∈ seen then some none
      else
        match trimB r with
        | q :: r' =>
          if q = 34 ∨ q = 39 then
            match r'.dropWhile (· != q) with
            | _ :: rest => some (some (⟨key, r'.takeWhile (· != q)⟩, rest))
            | [] => some none
          else some none
        | [] => some none
    | _ => some none

/-- What `BytesStart::attributes` yields, up to the first error (its users stop there). The first number is a bound on the
number of attributes. -/
def attrsAux : Nat → List (List UInt8) → List UInt8 → Attrs
  | 0, _, _ => []
  | n + 1, seen, bs =>
    match nextAttr seen bs with
    | none => []
    | some none => [none]
    | some (some (a, r)) => some a :: attrsAux n (seen ++ [a.key]) r

/-- `BytesStart::attributes` -/
def attributes (bs : List UInt8) : Attrs := attrsAux bs.length [] bs

/-- What is left of the source and the names of the open elements. -/
structure Src where
  bytes : List UInt8
  opened : List (List UInt8) := []

/-- After `<!`. -/
def readBang (s : Src) (r : List UInt8) : Option Event × Src :=
  if (Utf8.encode (str% "--")).isPrefixOf r then
    match after (Utf8.encode (str% "-->")) (r.drop 2) with
    | some r' => (some .other, { s with bytes := r' })
    | none => (none, { s with bytes := [] })
  else if (Utf8.encode (str% "[CDATA[")).isPrefixOf r then
    match after (Utf8.encode (str% "]]>")) (r.drop 7) with
    | some r' => (some .other, { s with bytes := r' })
    | none => (none, { s with bytes := [] })
  else if (Utf8.encode (str% "DOCTYPE")).isPrefixOf r ∨ (Utf8.encode (str% "doctype")).isPrefixOf r then
    match doctypeEnd 0 (r.drop 7) with
    | some r' => (some .other, { s with bytes := r' })
    | none => (none, { s with bytes := [] })
  else (none, { s with bytes := r })

/-- After `<?`. -/
def readPi (s : Src) (r : List UInt8) : Option Event × Src :=
  match after (Utf8.encode (str% "?>")) r with
  | some r' => (some .other, { s with bytes := r' })
  | none => (none, { s with bytes := [] })

/-- After `</`: the name must be that of the last open element. -/
def readEnd (s : Src) (r : List UInt8) : Option Event × Src :=
  match tagEnd none r with
  | some (content, r') =>
    match s.opened with
    | n :: up => (if trimEndB content = n then some (.end_ n) else none, ⟨r', up⟩)
    | [] => (none, ⟨r', []⟩)
  | none => (none, { s with bytes := [] })

/-- After `<`, when none of the above follows. -/
def readStart (s : Src) (r : List UInt8) : Option Event × Src :=
  match tagEnd none r with
  | some (content, r') =>
    let name := tagName content
    if content.getLast? = some 47 then
      let inner := content.dropLast
      (some (.empty (tagName inner) (attributes (inner.drop (tagName inner).length))), { s with bytes := r' })
    else (some (.start name (attributes (content.drop name.length))), ⟨r', name :: s.opened⟩)
  | none => (none, { s with bytes := [] })

/-- After `<`. -/
def readMarkup (s : Src) : List UInt8 → Option Event × Src
  | [] => (none, { s with bytes := [] })
  | b :: r =>
    if b = 33 then readBang s r
    else if b = 63 then readPi s r
    else if b = 47 then readEnd s r
    else readStart s (b :: r)

/-- After `&`: a reference ends at `;`. -/
def readRef (s : Src) : List UInt8 → Option Event × Src
  | [] => (none, { s with bytes := [] })
  | b :: r =>
    if b = 59 then (some .other, { s with bytes := r })
    else if b = 38 ∨ b = 60 then (none, { s with bytes := b :: r })
    else readRef s r

/-- A byte of text. -/
def isTextB (b : UInt8) : Bool := b != 60 && b != 38

/-- One call of `read_event_into` before the end of the file; `b` is the first byte. -/
def readOne (s : Src) (b : UInt8) (r : List UInt8) : Option Event × Src :=
  if b = 60 then readMarkup s r
  else if b = 38 then readRef s r
  else (some .other, { s with bytes := r.dropWhile isTextB })

/-- The calls of `read_event_into` up to `Eof`; the number bounds how many there are. -/
def eventsAux : Nat → Src → Events
  | 0, _ => []
  | n + 1, s =>
    match s.bytes with
    | [] => []
    | b :: r => (readOne s b r).1 :: eventsAux n (readOne s b r).2

/-- `Reader::from_reader`, then calls of `read_event_into` up to `Eof`. A byte order mark is dropped. -/
def eventsOf (bytes : List UInt8) : Events :=
  let body := if [0xEF, 0xBB, 0xBF].isPrefixOf bytes then bytes.drop 3 else bytes
  eventsAux body.length ⟨body, []⟩

end Osmio.QuickXml
