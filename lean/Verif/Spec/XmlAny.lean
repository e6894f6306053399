import Verif.Spec.XmlGrammar
import Verif.Spec.XmlNested
/-!
# Specification: what any bytes say, as XML

Bytes of which nothing is known, perhaps no document: what counts is the longest beginning that consists of whole parts of a document, in
UTF-8 and with matching tags. Elements may be open at its end.
-/

namespace Osmio.Spec.Gram
open Xml

/-- The start and end tags of parts that begin a document. `opened` are the open elements, innermost first, with their attributes; `rooted` says
whether there was an element yet. -/
inductive Begins (many : Bool) : (opened : List (Str × List (Str × Str))) → (rooted : Bool) → List Tok → List XmlEvent → Prop where
  | nil {up r} : Begins many up r [] []
  | space {up r ts evs} : Begins many up r ts evs → Begins many up r (.space :: ts) evs
  | text {up r ts evs} : up ≠ [] → Begins many up r ts evs → Begins many up r (.text :: ts) evs
  | start {up r name as n l ts evs} : TagSays (as ++ up.flatMap Prod.snd) name as n l → (up = [] → r = false ∨ many = true) →
      Begins many ((name, as) :: up) true ts evs → Begins many up r (.start name as :: ts) (.start n l :: evs)
  | empty {up r name as n l ts evs} : TagSays (as ++ up.flatMap Prod.snd) name as n l → (up = [] → r = false ∨ many = true) →
      Begins many up true ts evs → Begins many up r (.empty name as :: ts) (.start n l :: .stop n :: evs)
  | stop {name as up r n ts evs} : QName name n → Begins many up r ts evs →
      Begins many ((name, as) :: up) r (.stop name :: ts) (.stop n :: evs)

/-- A text that is made of whole parts and begins a document, and its tags. -/
def Begun (report : Char → Char) (many : Bool) (t : Str) (evs : List XmlEvent) : Prop :=
  ∃ ts, Toks report true true t ts ∧ Begins many [] false ts evs

/-- The bytes begin with the text, which begins a document and has these tags, and with no longer one. -/
structure Longest (report : Char → Char) (many : Bool) (bs : List UInt8) (t : Str) (evs : List XmlEvent) : Prop where
  begins : Utf8.encode t <+: bs
  begun : Begun report many t evs
  longest : ∀ t' evs', Utf8.encode t' <+: bs → Begun report many t' evs' → t' <+: t

/-- The tags among what is reported. -/
def onlyTags (evs : List XmlEvent) : List XmlEvent := evs.filter (· ≠ .other)

/-- No element of a piece has two attributes with the same local name, if it is one of those that mean something in an OSM file. -/
def Clear (p : List XmlEvent) : Prop := ∀ n as, .start n as ∈ p → ((as.map fun a => a.name.loc).filter (· ∈ Forest.attrNames)).Nodup

/-- Of the attributes with the same local name (they have different prefixes) one is taken. -/
structure Chosen (as as' : List Attr) : Prop where
  among : ∀ a ∈ as', a ∈ as
  all : ∀ a ∈ as, a.name.loc ∈ Forest.attrNames → ∃ a' ∈ as', a'.name.loc = a.name.loc
  once : ((as'.map fun a => a.name.loc).filter (· ∈ Forest.attrNames)).Nodup

/-- A tag as it is read: with one attribute of each local name. -/
inductive ReadAs : XmlEvent → XmlEvent → Prop where
  | start {n as as'} : Chosen as as' → ReadAs (.start n as) (.start n as')
  | stop {n} : ReadAs (.stop n) (.stop n)
  | other : ReadAs .other .other

/-- What a call returns for a piece: what the piece stands for, when one attribute of each local name is taken in every tag. -/
def Answers (r : Option ObjData) (p : List XmlEvent) : Prop := ∃ p', List.Forall₂ ReadAs p p' ∧ r = pieceObject p'

end Osmio.Spec.Gram
