import Verif.Spec.XmlLex
/-!
# Specification: well formed XML documents with name spaces

XML 1.0 and Namespaces in XML 1.0 as relations between a text and what it says, without document types and with UTF-8 as the
only encoding. Unlike the grammar in `Spec/XmlLex.lean` it has prefixes, white space of all kinds in values, and every XML
declaration, so that every document without document type is covered. It is wider than XML in two points, in which the parser is taken to be lenient:
`]]>` is allowed in text, and the part of a name after the colon need not begin like a name.

`report` is how a character of a value is reported, `many` whether there may be several elements at the top.
-/

namespace Osmio.Spec.Gram
open Xml Osmio.Spec.Lex

/-- A name (production [5]). -/
def NameText (s : Str) : Prop := ∃ c r, s = c :: r ∧ NameStart c ∧ ∀ d ∈ r, NameChar d

/-- The parts of a name that is a qualified name (Namespaces in XML, production [7]): one part, or a prefix and a local part. -/
def QName (s : Str) (n : Name) : Prop :=
  n.loc ≠ [] ∧ ':' ∉ n.loc ∧ ((n.pre = none ∧ s = n.loc) ∨ ∃ p, n.pre = some p ∧ p ≠ [] ∧ ':' ∉ p ∧ s = p ++ ':' :: n.loc)

/-- The inside of a quoted attribute value (production [10]) and the value that is reported. -/
inductive Quoted (report : Char → Char) (quote : Char) : Str → Str → Prop where
  | nil : Quoted report quote [] []
  | plain {c s v} : XmlChar c → c ≠ '<' → c ≠ '&' → c ≠ quote → Quoted report quote s v → Quoted report quote (c :: s) (report c :: v)
  | ref {r c s v} : Reference r c → Quoted report quote s v → Quoted report quote (r ++ s) (c :: v)

/-- The attributes of a tag, each after white space (productions [41], [25]): names and values. -/
inductive Attrs (report : Char → Char) : Str → List (Str × Str) → Prop where
  | nil : Attrs report [] []
  | cons {w key w1 w2 q src value t as} : w ≠ [] → Ws w → NameText key → Ws w1 → Ws w2 → q = '"' ∨ q = '\'' →
      Quoted report q src value → Attrs report t as →
      Attrs report (w ++ (key ++ (w1 ++ '=' :: (w2 ++ q :: (src ++ q :: t))))) ((key, value) :: as)

/-- What a text consists of. -/
inductive Tok where
  | start (name : Str) (attrs : List (Str × Str))
  | empty (name : Str) (attrs : List (Str × Str))
  | stop (name : Str)
  /-- text or a CDATA section: not allowed outside the root element -/
  | text
  /-- white space, a comment, a processing instruction or the XML declaration -/
  | space

/-- A part of an XML declaration: white space, the key, an equals sign, the value in quotes. -/
def Pseudo (key value s : Str) : Prop :=
  ∃ w w1 w2 q, w ≠ [] ∧ Ws w ∧ Ws w1 ∧ Ws w2 ∧ (q = '"' ∨ q = '\'') ∧ s = w ++ (key ++ (w1 ++ '=' :: (w2 ++ q :: (value ++ [q]))))

/-- An XML declaration (production [23]). The name of the encoding may be written without the hyphen. -/
def Declaration (d : Str) : Prop :=
  ∃ version a b c w, (version = str% "1.0" ∨ version = str% "1.1") ∧ Pseudo (str% "version") version a ∧
    (b = [] ∨ ∃ e, (e.map Char.toLower = str% "utf-8" ∨ e.map Char.toLower = str% "utf8") ∧ Pseudo (str% "encoding") e b) ∧
    (c = [] ∨ ∃ y, (y = str% "yes" ∨ y = str% "no") ∧ Pseudo (str% "standalone") y c) ∧ Ws w ∧
    d = str% "<?xml" ++ (a ++ (b ++ (c ++ (w ++ str% "?>"))))

/-- A text and its parts. The first flag says that nothing precedes it, so that an XML declaration may come, the second whether text may come
first: text between two tags is one part. -/
inductive Toks (report : Char → Char) : Bool → Bool → Str → List Tok → Prop where
  | nil {a b} : Toks report a b [] []
  | declaration {b d t ts} : Declaration d → Toks report false true t ts → Toks report true b (d ++ t) (.space :: ts)
  | space {a s t ts} : s ≠ [] → Ws s → Toks report false false t ts → Toks report a true (s ++ t) (.space :: ts)
  | text {a s t ts} : s ≠ [] → Text s → Toks report false false t ts → Toks report a true (s ++ t) (.text :: ts)
  | comment {a b s t ts} : XmlChars s → ¬ (str% "--") <:+: s → s.getLast? ≠ some '-' → Toks report false true t ts →
      Toks report a b (str% "<!--" ++ (s ++ (str% "-->" ++ t))) (.space :: ts)
  | cdata {a b s t ts} : XmlChars s → ¬ (str% "]]>") <:+: s → Toks report false true t ts →
      Toks report a b (str% "<![CDATA[" ++ (s ++ (str% "]]>" ++ t))) (.text :: ts)
  | pi {a b n s t ts} : NameText n → n.map Char.toLower ≠ str% "xml" → (∀ c ∈ s.head?, Ws [c]) → XmlChars s →
      ¬ (str% "?>") <:+: s → Toks report false true t ts →
      Toks report a b (str% "<?" ++ (n ++ (s ++ (str% "?>" ++ t)))) (.space :: ts)
  | start {a b n x as w t ts} : NameText n → Attrs report x as → Ws w → Toks report false true t ts →
      Toks report a b ('<' :: (n ++ (x ++ (w ++ '>' :: t)))) (.start n as :: ts)
  | empty {a b n x as w t ts} : NameText n → Attrs report x as → Ws w → Toks report false true t ts →
      Toks report a b ('<' :: (n ++ (x ++ (w ++ '/' :: '>' :: t)))) (.empty n as :: ts)
  | stop {a b n w t ts} : NameText n → Ws w → Toks report false true t ts →
      Toks report a b ('<' :: '/' :: (n ++ (w ++ '>' :: t))) (.stop n :: ts)

/-- Does the attribute declare a name space (Namespaces in XML, production [1])? -/
def Declares (key : Str) : Prop := key = str% "xmlns" ∨ ∃ p, key = str% "xmlns:" ++ p

/-- A declaration that is allowed (Namespaces in XML, section 3): prefixes are not undone, and the reserved prefixes and names are left alone. -/
def Allowed (a : Str × Str) : Prop :=
  (a.1 = str% "xmlns" ∧ a.2 ∉ [str% "xml", str% "xmlns", str% "http://www.w3.org/XML/1998/namespace", str% "http://www.w3.org/2000/xmlns/"]) ∨
  ∃ p, a.1 = str% "xmlns:" ++ p ∧ p ≠ [] ∧ ':' ∉ p ∧ p ≠ str% "xmlns" ∧
    (p = str% "xml" → a.2 = str% "http://www.w3.org/XML/1998/namespace") ∧ a.2 ≠ []

/-- The prefix is declared by one of the attributes (of an element or one around it), or is `xml`. -/
def Bound (scope : List (Str × Str)) (p : Str) : Prop := p = str% "xml" ∨ ∃ uri, (str% "xmlns:" ++ p, uri) ∈ scope

/-- The attributes of a tag as they are reported: without the declarations. -/
inductive Reported (scope : List (Str × Str)) : List (Str × Str) → List Attr → Prop where
  | nil : Reported scope [] []
  | declares {a as l} : Allowed a → Reported scope as l → Reported scope (a :: as) l
  | attr {a n as l} : ¬ Declares a.1 → QName a.1 n → (∀ p, n.pre = some p → Bound scope p) → Reported scope as l →
      Reported scope (a :: as) (⟨n, a.2⟩ :: l)

/-- A tag in order, and the name and attributes reported: no attribute twice, and every prefix is declared. -/
structure TagSays (scope : List (Str × Str)) (name : Str) (as : List (Str × Str)) (n : Name) (l : List Attr) : Prop where
  once : (as.map Prod.fst).Nodup
  name : QName name n
  bound : ∀ p, n.pre = some p → Bound scope p ∧ p ≠ str% "xml" ∧ p ≠ str% "xmlns"
  attrs : Reported scope as l

/-- Tags match: the tree of the parts, inside elements with these attributes. -/
inductive Tree : List (Str × Str) → List Tok → Forest → Prop where
  | nil {sc} : Tree sc [] .nil
  | text {sc ts f} : Tree sc ts f → Tree sc (.text :: ts) (.text f)
  | space {sc ts f} : Tree sc ts f → Tree sc (.space :: ts) (.text f)
  | empty {sc name as n l ts f} : TagSays (as ++ sc) name as n l → Tree sc ts f → Tree sc (.empty name as :: ts) (.elem n l .nil f)
  | elem {sc name as n l ks k ts f} : TagSays (as ++ sc) name as n l → Tree (as ++ sc) ks k → Tree sc ts f →
      Tree sc (.start name as :: (ks ++ .stop name :: ts)) (.elem n l k f)

/-- A document outside of all elements: no text, and a number of elements. -/
inductive Top : Nat → List Tok → Forest → Prop where
  | nil : Top 0 [] .nil
  | space {i ts f} : Top i ts f → Top i (.space :: ts) (.text f)
  | empty {i name as n l ts f} : TagSays as name as n l → Top i ts f → Top (i + 1) (.empty name as :: ts) (.elem n l .nil f)
  | elem {i name as n l ks k ts f} : TagSays as name as n l → Tree as ks k → Top i ts f →
      Top (i + 1) (.start name as :: (ks ++ .stop name :: ts)) (.elem n l k f)

/-- A well formed document (production [1]) and its tree. -/
def WellFormed (report : Char → Char) (many : Bool) (t : Str) (f : Forest) : Prop :=
  ∃ ts i, Toks report true true t ts ∧ Top i ts f ∧ (i = 1 ∨ (many = true ∧ 1 < i))

/-- The bytes of a file that is a well formed document, in UTF-8. -/
def IsDocument (report : Char → Char) (many : Bool) (bs : List UInt8) : Prop := ∃ t f, bs = Utf8.encode t ∧ WellFormed report many t f

end Osmio.Spec.Gram
