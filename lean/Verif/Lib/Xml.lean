import Verif.Lib.Utf8
import Verif.Lib.StrLit
/-!
# Library model: the pull parser of `xml-rs`

A document is a text; the parser turns it into events. The model is an automaton that reads one
character at a time, collecting the events; at the first error it stops.

Modelled: elements, attributes (either quote), the predefined entities and character references,
comments, CDATA sections, processing instructions and the XML declaration, well-formedness of tags (names,
nesting, no repeated attribute), namespaces as far as prefixes must be declared (and the reserved ones not be misused) and
`xmlns` attributes are not reported. Not modelled: document type declarations and encodings other than UTF-8 (errors here), a
byte order mark, and the size limits of the parser's configuration. The parser is taken to let `]]>` pass in text and to
check of the part of a name after the colon only that it is there. Whether white space in attribute values is replaced by spaces, and whether an element may follow the root element
(`allow_multiple_root_elements`) are parameters.
-/

namespace Osmio.Xml

/-- `xml_rs::name::OwnedName`, without the namespace URI. -/
structure Name where
  pre : Option Str
  loc : Str
  deriving DecidableEq

/-- `xml_rs::attribute::OwnedAttribute` -/
structure Attr where
  name : Name
  value : Str
  deriving DecidableEq

/-- `xml_rs::reader::XmlEvent`. Only start and end tags are told apart: osmio does not look at the others
(text, white space, comments, processing instructions, start and end of the document). -/
inductive XmlEvent where
  | start (name : Name) (attrs : List Attr)
  | stop (name : Name)
  | other
  deriving DecidableEq

/-- What is left open about the parser: how it reports each character of an attribute value, and whether it accepts further elements after the
root element. -/
structure Config where
  char : Char → Char
  manyRoots : Bool

instance : Coe Config (Char → Char) := ⟨Config.char⟩
instance : CoeFun Config fun _ => Char → Char := ⟨Config.char⟩

/-- White space is reported as it is, and there is one root element. -/
def Config.keep : Config := ⟨id, false⟩

/-- White space. -/
def isWs (c : Char) : Bool := c == ' ' || c == '\t' || c == '\n' || c == '\r'

/-- XML 1.0, production [2] -/
def isXmlChar (c : Char) : Bool :=
  let n := c.toNat
  n == 9 || n == 10 || n == 13 || (decide (0x20 ≤ n) && decide (n ≤ 0xD7FF)) ||
    (decide (0xE000 ≤ n) && decide (n ≤ 0xFFFD)) || decide (0x10000 ≤ n)

/-- Ranges of code points. -/
def inRanges (n : Nat) : List (Nat × Nat) → Bool
  | [] => false
  | (a, b) :: r => (decide (a ≤ n) && decide (n ≤ b)) || inRanges n r

/-- XML 1.0, production [4] -/
def isNameStart (c : Char) : Bool :=
  c == ':' || c == '_' || inRanges c.toNat [(65, 90), (97, 122), (0xC0, 0xD6), (0xD8, 0xF6), (0xF8, 0x2FF),
    (0x370, 0x37D), (0x37F, 0x1FFF), (0x200C, 0x200D), (0x2070, 0x218F), (0x2C00, 0x2FEF), (0x3001, 0xD7FF),
    (0xF900, 0xFDCF), (0xFDF0, 0xFFFD), (0x10000, 0xEFFFF)]

/-- XML 1.0, production [4a] -/
def isNameChar (c : Char) : Bool :=
  isNameStart c || c == '-' || c == '.' ||
    inRanges c.toNat [(48, 57), (0xB7, 0xB7), (0x300, 0x36F), (0x203F, 0x2040)]

/-- Value of a digit in base 10 or 16. -/
def digit (base : Nat) (c : Char) : Option Nat :=
  let n := c.toNat
  if 48 ≤ n ∧ n ≤ 57 then some (n - 48)
  else if base = 16 ∧ 97 ≤ n ∧ n ≤ 102 then some (n - 87)
  else if base = 16 ∧ 65 ≤ n ∧ n ≤ 70 then some (n - 55)
  else none

/-- Value of a number. -/
def number (base : Nat) : Nat → Str → Option Nat
  | acc, [] => some acc
  | acc, c :: r =>
    match digit base c with
    | some d => number base (base * acc + d) r
    | none => none

/-- A character given by its number. -/
def charRef (n : Option Nat) : Option Char :=
  match n with
  | some n => if n.isValidChar ∧ isXmlChar (Char.ofNat n) then some (Char.ofNat n) else none
  | none => none

/-- What stands between `&` and `;`. -/
def resolve (e : Str) : Option Char :=
  if e = str% "amp" then some '&'
  else if e = str% "lt" then some '<'
  else if e = str% "gt" then some '>'
  else if e = str% "quot" then some '"'
  else if e = str% "apos" then some '\''
  else
    match e with
    | '#' :: 'x' :: c :: r => charRef (number 16 0 (c :: r))
    | '#' :: c :: r => charRef (number 10 0 (c :: r))
    | _ => none

/-- A qualified name. -/
def splitName (s : Str) : Option Name :=
  match s.span (· != ':') with
  | ([], _) => none
  | (a, []) => some ⟨none, a⟩
  | (a, _ :: r) => if r = [] ∨ ':' ∈ r then none else some ⟨some a, r⟩

/-- Where the parser is. -/
inductive Mode where
  /-- text; the flag says whether there is any to report -/
  | text (pending : Bool)
  | textEnt (ent : Str)
  | lt
  | bang (seen : Str)
  | comment (dashes : Nat)
  | cdata (brackets : Nat)
  | pi (seen : Str)
  | tagName (name : Str)
  | inTag (name : Str) (attrs : List (Str × Str))
  | attrName (name : Str) (attrs : List (Str × Str)) (key : Str)
  | attrEq (name : Str) (attrs : List (Str × Str)) (key : Str)
  | attrPre (name : Str) (attrs : List (Str × Str)) (key : Str)
  | attrVal (name : Str) (attrs : List (Str × Str)) (key : Str) (quote : Char) (value : Str)
  | attrEnt (name : Str) (attrs : List (Str × Str)) (key : Str) (quote : Char) (value : Str) (ent : Str)
  | attrDone (name : Str) (attrs : List (Str × Str))
  | slash (name : Str) (attrs : List (Str × Str))
  | endName (name : Str)
  | endWs (name : Str)
  | fail
  deriving DecidableEq

/-- The parser. `opened` are the open elements, innermost first, each with the prefixes it declares. -/
structure PState where
  mode : Mode
  opened : List (Str × List Str)
  rooted : Bool
  events : List XmlEvent
  deriving DecidableEq

/-- Change the mode. -/
def PState.goto (s : PState) (m : Mode) : PState := { s with mode := m }
/-- An error. -/
def PState.err (s : PState) : PState := { s with mode := .fail }

/-- Is it a namespace declaration? -/
def isXmlns (k : Str) : Bool := k == str% "xmlns" || (str% "xmlns:").isPrefixOf k

/-- The names of the two reserved name spaces. -/
def nsXml : Str := str% "http://www.w3.org/XML/1998/namespace"
def nsXmlns : Str := str% "http://www.w3.org/2000/xmlns/"

/-- May the name space be declared so? True for other attributes. -/
def declareOk (a : Str × Str) : Bool :=
  if a.1 = str% "xmlns" then
    a.2 != str% "xmlns" && a.2 != str% "xml" && a.2 != nsXml && a.2 != nsXmlns
  else if (str% "xmlns:").isPrefixOf a.1 then
    let p := a.1.drop 6
    p != [] && !p.contains ':' && p != str% "xmlns" && (p != str% "xml" || a.2 == nsXml) && a.2 != []
  else true

/-- The prefixes declared by the attributes of an element. -/
def declared (attrs : List (Str × Str)) : List Str :=
  (attrs.filter (fun a => (str% "xmlns:").isPrefixOf a.1)).map (fun a => a.1.drop 6)

/-- May the name be used? -/
def nameOk (scopes : List (Str × List Str)) (decls : List Str) (n : Name) : Bool :=
  match n.pre with
  | none => true
  | some p => p == str% "xml" || decls.contains p || scopes.any (fun s => s.2.contains p)

/-- One attribute as reported. -/
def mkAttr (scopes : List (Str × List Str)) (decls : List Str) (a : Str × Str) : Option Attr :=
  match splitName a.1 with
  | some n => if nameOk scopes decls n then some ⟨n, a.2⟩ else none
  | none => none

/-- The attributes as reported. -/
def mkAttrs (scopes : List (Str × List Str)) (decls : List Str) : List (Str × Str) → Option (List Attr)
  | [] => some []
  | a :: r =>
    if isXmlns a.1 then mkAttrs scopes decls r
    else
      match mkAttr scopes decls a, mkAttrs scopes decls r with
      | some x, some xs => some (x :: xs)
      | _, _ => none

/-- The name of an element as reported. -/
def mkName (scopes : List (Str × List Str)) (decls : List Str) (name : Str) : Option Name :=
  match splitName name with
  | some n => if nameOk scopes decls n then some n else none
  | none => none

/-- The end of a start tag. -/
def finishTag (norm : Config) (s : PState) (name : Str) (attrs : List (Str × Str)) (empty : Bool) : PState :=
  let decls := declared attrs
  match mkName s.opened decls name, mkAttrs s.opened decls attrs with
  | some n, some as =>
    if (s.opened = [] ∧ s.rooted = true ∧ norm.manyRoots = false) ∨ ¬ (attrs.map Prod.fst).Nodup ∨
        n.pre = some (str% "xml") ∨ n.pre = some (str% "xmlns") ∨ attrs.all declareOk = false then s.err
    else
      { mode := .text false
        opened := if empty then s.opened else (name, decls) :: s.opened
        rooted := true
        events := s.events ++ (if empty then [.start n as, .stop n] else [.start n as]) }
  | _, _ => s.err

/-- The end of an end tag. -/
def finishEnd (s : PState) (name : Str) : PState :=
  match s.opened with
  | [] => s.err
  | (n, _) :: r =>
    if n = name then
      match splitName name with
      | some q => { mode := .text false, opened := r, rooted := s.rooted, events := s.events ++ [.stop q] }
      | none => s.err
    else s.err

/-- Report pending text. -/
def flush (s : PState) (pending : Bool) : PState :=
  if pending then { s with events := s.events ++ [.other] } else s

/-- Text. -/
def stepText (s : PState) (pending : Bool) (c : Char) : PState :=
  if c = '<' then (flush s pending).goto .lt
  else if s.opened = [] then (if isWs c then s.goto (.text true) else s.err)
  else if c = '&' then s.goto (.textEnt [])
  else if isXmlChar c then s.goto (.text true)
  else s.err

/-- After `<`. -/
def stepLt (s : PState) (c : Char) : PState :=
  if c = '/' then s.goto (.endName [])
  else if c = '!' then s.goto (.bang [])
  else if c = '?' then s.goto (.pi [])
  else if isNameStart c then s.goto (.tagName [c])
  else s.err

/-- After `<!`: a comment or a CDATA section. -/
def stepBang (s : PState) (seen : Str) (c : Char) : PState :=
  let t := seen ++ [c]
  if t = str% "--" then s.goto (.comment 0)
  else if t = str% "[CDATA[" then (if s.opened = [] then s.err else s.goto (.cdata 0))
  else if t.isPrefixOf (str% "--") || t.isPrefixOf (str% "[CDATA[") then s.goto (.bang t)
  else s.err

/-- In a comment, after a number of dashes. Two dashes must be its end. -/
def stepComment (s : PState) (dashes : Nat) (c : Char) : PState :=
  if 2 ≤ dashes then (if c = '>' then (flush s true).goto (.text false) else s.err)
  else if c = '-' then s.goto (.comment (dashes + 1))
  else if isXmlChar c then s.goto (.comment 0)
  else s.err

/-- In a CDATA section, after a number of closing brackets. -/
def stepCdata (s : PState) (brackets : Nat) (c : Char) : PState :=
  if c = ']' then s.goto (.cdata (brackets + 1))
  else if c = '>' ∧ 2 ≤ brackets then (flush s true).goto (.text false)
  else if isXmlChar c then s.goto (.cdata 0)
  else s.err

/-- Something of the form `name="value"` after white space, with one of the names of the XML declaration: the value, and what
follows. -/
def pseudo (key : Str) : Str → Option (Str × Str)
  | [] => none
  | c :: r =>
    if isWs c ∧ key.isPrefixOf (r.dropWhile isWs) then
      match ((r.dropWhile isWs).drop key.length).dropWhile isWs with
      | '=' :: r =>
        match r.dropWhile isWs with
        | q :: r =>
          if q = '"' ∨ q = '\'' then
            match r.span (· != q) with
            | (v, _ :: r) => some (v, r)
            | _ => none
          else none
        | [] => none
      | _ => none
    else none

/-- The same, but it may be missing; `none` if its value is wrong. -/
def pseudo? (key : Str) (ok : Str → Bool) (s : Str) : Option Str :=
  match pseudo key s with
  | some (v, r) => if ok v then some r else none
  | none => some s

/-- What may stand in an XML declaration after `xml`. Encodings other than UTF-8, which may also be
written `utf8`, are not modelled (an error here). -/
def declOk (s : Str) : Bool :=
  match pseudo (str% "version") s with
  | some (v, r) =>
    (v == str% "1.0" || v == str% "1.1") &&
      match (pseudo? (str% "encoding") (fun e => e.map Char.toLower == str% "utf-8" || e.map Char.toLower == str% "utf8") r).bind
          (pseudo? (str% "standalone") (fun y => y == str% "yes" || y == str% "no")) with
      | some r => r.all isWs
      | none => false
  | none => false

/-- Processing instructions need a name; `xml` stands for the XML declaration, which must be at the beginning. -/
def piOk (first : Bool) (s : Str) : Bool :=
  let n := s.takeWhile isNameChar
  let r := s.dropWhile isNameChar
  if n = str% "xml" then first && declOk r
  else n.head?.any isNameStart && n.map Char.toLower != str% "xml" && r.head?.all isWs

/-- In a processing instruction or XML declaration. -/
def stepPi (s : PState) (seen : Str) (c : Char) : PState :=
  if c = '>' ∧ seen.getLast? = some '?' then
    (if piOk s.events.isEmpty seen.dropLast then (flush s true).goto (.text false) else s.err)
  else if isXmlChar c then s.goto (.pi (seen ++ [c]))
  else s.err

/-- In the name of a start tag. -/
def stepTagName (norm : Config) (s : PState) (name : Str) (c : Char) : PState :=
  if isNameChar c then s.goto (.tagName (name ++ [c]))
  else if isWs c then s.goto (.inTag name [])
  else if c = '>' then finishTag norm s name [] false
  else if c = '/' then s.goto (.slash name [])
  else s.err

/-- In a start tag, after white space. -/
def stepInTag (norm : Config) (s : PState) (name : Str) (attrs : List (Str × Str)) (c : Char) : PState :=
  if isWs c then s.goto (.inTag name attrs)
  else if isNameStart c then s.goto (.attrName name attrs [c])
  else if c = '>' then finishTag norm s name attrs false
  else if c = '/' then s.goto (.slash name attrs)
  else s.err

/-- In the name of an attribute. -/
def stepAttrName (s : PState) (name : Str) (attrs : List (Str × Str)) (key : Str) (c : Char) : PState :=
  if isNameChar c then s.goto (.attrName name attrs (key ++ [c]))
  else if c = '=' then s.goto (.attrPre name attrs key)
  else if isWs c then s.goto (.attrEq name attrs key)
  else s.err

/-- Before `=`. -/
def stepAttrEq (s : PState) (name : Str) (attrs : List (Str × Str)) (key : Str) (c : Char) : PState :=
  if isWs c then s.goto (.attrEq name attrs key)
  else if c = '=' then s.goto (.attrPre name attrs key)
  else s.err

/-- After `=`. -/
def stepAttrPre (s : PState) (name : Str) (attrs : List (Str × Str)) (key : Str) (c : Char) : PState :=
  if isWs c then s.goto (.attrPre name attrs key)
  else if c = '"' ∨ c = '\'' then s.goto (.attrVal name attrs key c [])
  else s.err

/-- In the value of an attribute. -/
def stepAttrVal (norm : Config) (s : PState) (name : Str) (attrs : List (Str × Str)) (key : Str)
    (quote : Char) (value : Str) (c : Char) : PState :=
  if c = quote then s.goto (.attrDone name (attrs ++ [(key, value)]))
  else if c = '<' then s.err
  else if c = '&' then s.goto (.attrEnt name attrs key quote value [])
  else if isXmlChar c then s.goto (.attrVal name attrs key quote (value ++ [norm c]))
  else s.err

/-- In a reference in the value of an attribute. -/
def stepAttrEnt (s : PState) (name : Str) (attrs : List (Str × Str)) (key : Str)
    (quote : Char) (value : Str) (ent : Str) (c : Char) : PState :=
  if c = ';' then
    match resolve ent with
    | some x => s.goto (.attrVal name attrs key quote (value ++ [x]))
    | none => s.err
  else if isNameChar c || c == '#' then s.goto (.attrEnt name attrs key quote value (ent ++ [c]))
  else s.err

/-- After the value of an attribute. -/
def stepAttrDone (norm : Config) (s : PState) (name : Str) (attrs : List (Str × Str)) (c : Char) : PState :=
  if isWs c then s.goto (.inTag name attrs)
  else if c = '>' then finishTag norm s name attrs false
  else if c = '/' then s.goto (.slash name attrs)
  else s.err

/-- In a reference in text. -/
def stepTextEnt (s : PState) (ent : Str) (c : Char) : PState :=
  if c = ';' then (if (resolve ent).isSome then s.goto (.text true) else s.err)
  else if isNameChar c || c == '#' then s.goto (.textEnt (ent ++ [c]))
  else s.err

/-- In the name of an end tag. -/
def stepEndName (s : PState) (name : Str) (c : Char) : PState :=
  if isNameChar c then s.goto (.endName (name ++ [c]))
  else if c = '>' then finishEnd s name
  else if isWs c then s.goto (.endWs name)
  else s.err

/-- Read one character. -/
def step (norm : Config) (s : PState) (c : Char) : PState :=
  match s.mode with
  | .text p => stepText s p c
  | .textEnt e => stepTextEnt s e c
  | .lt => stepLt s c
  | .bang t => stepBang s t c
  | .comment d => stepComment s d c
  | .cdata b => stepCdata s b c
  | .pi q => stepPi s q c
  | .tagName n => stepTagName norm s n c
  | .inTag n a => stepInTag norm s n a c
  | .attrName n a k => stepAttrName s n a k c
  | .attrEq n a k => stepAttrEq s n a k c
  | .attrPre n a k => stepAttrPre s n a k c
  | .attrVal n a k q v => stepAttrVal norm s n a k q v c
  | .attrEnt n a k q v e => stepAttrEnt s n a k q v e c
  | .attrDone n a => stepAttrDone norm s n a c
  | .slash n a => if c = '>' then finishTag norm s n a true else s.err
  | .endName n => stepEndName s n c
  | .endWs n => if isWs c then s else if c = '>' then finishEnd s n else s.err
  | .fail => s

/-- Before the document. -/
def initial : PState := ⟨.text false, [], false, []⟩

/-- Is the document complete? -/
def complete (s : PState) : Bool :=
  match s.mode with
  | .text _ => s.opened.isEmpty && s.rooted
  | _ => false

/-- The events of a text, `none` for an error, which ends the stream. `whole` says that the text was not cut short
by invalid UTF-8. -/
def events (norm : Config) (text : Str) (whole : Bool) : List (Option XmlEvent) :=
  let s := text.foldl (step norm) initial
  s.events.map some ++ [if complete s && whole then some .other else none]

/-- What iterating over the `Events` of a byte stream gives. -/
def eventsOfBytes (norm : Config) (bs : List UInt8) : List (Option XmlEvent) :=
  let p := Utf8.decodePrefix bs
  events norm p.1 p.2

/-- Attribute values are reported with white space either unchanged or replaced by spaces. -/
def IsNorm (norm : Config) : Prop := ∀ c, c ≠ '\t' → c ≠ '\n' → c ≠ '\r' → norm c = c

end Osmio.Xml
