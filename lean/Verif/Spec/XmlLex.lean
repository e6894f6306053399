import Verif.Spec.XmlDoc
import Verif.Spec.Xml
import Verif.Spec.XmlChars
import Verif.Spec.XmlValue
/-!
# Specification: XML documents as texts

The grammar of XML 1.0 as relations between a text and what it says. The layout is free: white space, either quote, any
spelling of a character in a value, comments, CDATA sections and processing instructions. Left out are colons in names
(name spaces), document types, and line breaks and tabs written as such in attribute values (which XML replaces by
spaces).
-/

namespace Osmio.Spec.Lex
open Xml

/-- White space, possibly none (production [3]). -/
def Ws (s : Str) : Prop := ∀ c ∈ s, c = ' ' ∨ c = '\t' ∨ c = '\n' ∨ c = '\r'

/-- A name without colon (production [5]). -/
def IsName (s : Str) : Prop :=
  ∃ c r, s = c :: r ∧ NameStart c ∧ c ≠ ':' ∧ ∀ d ∈ r, NameChar d ∧ d ≠ ':'

/-- Characters a document may contain (production [2]). -/
def XmlChars (s : Str) : Prop := ∀ c ∈ s, XmlChar c

/-- The ways to write a character, other than as itself: a predefined entity or a character reference. -/
inductive Reference : Str → Char → Prop where
  | entity {name c} : (name, c) ∈ predefined → Reference ('&' :: (name ++ [';'])) c
  | dec {s c} : Value.Number 10 s c.toNat → XmlChar c → Reference ('&' :: '#' :: (s ++ [';'])) c
  | hex {s c} : Value.Number 16 s c.toNat → XmlChar c → Reference ('&' :: '#' :: 'x' :: (s ++ [';'])) c

/-- The inside of a quoted attribute value (production [10]) and the value it stands for. -/
inductive Quoted (quote : Char) : Str → Str → Prop where
  | nil : Quoted quote [] []
  | plain {c s v} : XmlChar c → c ≠ '<' → c ≠ '&' → c ≠ quote → c ≠ '\t' → c ≠ '\n' → c ≠ '\r' →
      Quoted quote s v → Quoted quote (c :: s) (c :: v)
  | ref {r c s v} : Reference r c → Quoted quote s v → Quoted quote (r ++ s) (c :: v)

/-- An attribute: name, text between the quotes, value. -/
structure SrcAttr where
  key : Str
  src : Str
  value : Str

/-- The attributes of a tag, each after white space (productions [41], [25]). -/
inductive Attrs : Str → List SrcAttr → Prop where
  | nil : Attrs [] []
  | cons {w key w1 w2 q src value t as} : w ≠ [] → Ws w → IsName key → key ≠ str% "xmlns" → Ws w1 → Ws w2 →
      q = '"' ∨ q = '\'' → Quoted q src value → Attrs t as →
      Attrs (w ++ (key ++ (w1 ++ '=' :: (w2 ++ q :: (src ++ q :: t))))) (⟨key, src, value⟩ :: as)

/-- Text between tags (production [14], and references). -/
inductive Text : Str → Prop where
  | nil : Text []
  | plain {c s} : XmlChar c → c ≠ '<' → c ≠ '&' → Text s → Text (c :: s)
  | ref {r c s} : Reference r c → Text s → Text (r ++ s)

/-- What a text consists of. -/
inductive Tok where
  | start (name : Str) (attrs : List SrcAttr)
  | empty (name : Str) (attrs : List SrcAttr)
  | stop (name : Str)
  /-- text or a CDATA section: not allowed outside the root element -/
  | text
  /-- white space, a comment or a processing instruction -/
  | space

/-- A text and its parts. The flag says whether text may come first: text between two tags is one part. -/
inductive Toks : Bool → Str → List Tok → Prop where
  | nil {b} : Toks b [] []
  | space {s t ts} : s ≠ [] → Ws s → Toks false t ts → Toks true (s ++ t) (.space :: ts)
  | text {s t ts} : s ≠ [] → Text s → ¬ (str% "]]>") <:+: s → Toks false t ts → Toks true (s ++ t) (.text :: ts)
  | comment {b s t ts} : XmlChars s → ¬ (str% "--") <:+: s → s.getLast? ≠ some '-' → Toks true t ts →
      Toks b (str% "<!--" ++ (s ++ (str% "-->" ++ t))) (.space :: ts)
  | cdata {b s t ts} : XmlChars s → ¬ (str% "]]>") <:+: s → Toks true t ts →
      Toks b (str% "<![CDATA[" ++ (s ++ (str% "]]>" ++ t))) (.text :: ts)
  | pi {b n s t ts} : IsName n → n.map Char.toLower ≠ str% "xml" → (∀ c ∈ s.head?, Ws [c]) → XmlChars s →
      ¬ (str% "?>") <:+: s → Toks true t ts → Toks b (str% "<?" ++ (n ++ (s ++ (str% "?>" ++ t)))) (.space :: ts)
  | start {b n a as w t ts} : IsName n → Attrs a as → (as.map SrcAttr.key).Nodup → Ws w → Toks true t ts →
      Toks b ('<' :: (n ++ (a ++ (w ++ '>' :: t)))) (.start n as :: ts)
  | empty {b n a as w t ts} : IsName n → Attrs a as → (as.map SrcAttr.key).Nodup → Ws w → Toks true t ts →
      Toks b ('<' :: (n ++ (a ++ (w ++ '/' :: '>' :: t)))) (.empty n as :: ts)
  | stop {b n w t ts} : IsName n → Ws w → Toks true t ts → Toks b ('<' :: '/' :: (n ++ (w ++ '>' :: t))) (.stop n :: ts)

/-- An attribute as a reader sees it. -/
def SrcAttr.attr (a : SrcAttr) : Attr := ⟨⟨none, a.key⟩, a.value⟩

/-- Tags match: the tree of the parts. -/
inductive Tree : List Tok → Forest → Prop where
  | nil : Tree [] .nil
  | text {ts f} : Tree ts f → Tree (.text :: ts) (.text f)
  | space {ts f} : Tree ts f → Tree (.space :: ts) (.text f)
  | empty {n as ts f} : Tree ts f → Tree (.empty n as :: ts) (.elem ⟨none, n⟩ (as.map SrcAttr.attr) .nil f)
  | elem {n as ks k ts f} : Tree ks k → Tree ts f →
      Tree (.start n as :: (ks ++ .stop n :: ts)) (.elem ⟨none, n⟩ (as.map SrcAttr.attr) k f)

/-- The XML declarations. -/
def declarations : List Str :=
  [str% "<?xml version=\"1.0\"?>", str% "<?xml version=\"1.0\" encoding=\"UTF-8\"?>",
    str% "<?xml version=\"1.0\" encoding=\"utf-8\"?>", str% "<?xml version='1.0' encoding='UTF-8'?>"]

/-- The body of a document, its parts and its tree: one root element; around it white space, comments and processing
instructions. -/
inductive Body : Str → List Tok → Forest → Prop where
  | mk {t before root after n as ks k f} : Toks true t (before ++ (root ++ after)) →
      (∀ x ∈ before, x = .space) → (∀ x ∈ after, x = .space) →
      root = [.empty n as] ∨ root = .start n as :: (ks ++ [.stop n]) → Tree ks k →
      Tree (before ++ (root ++ after)) f → Body t (before ++ (root ++ after)) f

/-- A document (production [1]), its parts and its tree: perhaps a declaration, then the body. -/
inductive Document : Str → List Tok → Forest → Prop where
  | plain {t ts f} : Body t ts f → Document t ts f
  | declared {decl t ts f} : decl ∈ declarations → Body t ts f → Document (decl ++ t) (.space :: ts) (.text f)

end Osmio.Spec.Lex
