import Verif.Spec.XmlLex
/-!
# Specification: document types

Documents with a document type declaration, of which only the extent matters: it ends with the `>` that matches its beginning. (Quotes
in it hide no angle brackets here.)
-/

namespace Osmio.Spec.Lex

/-- Characters in which every `<` is followed by the `>` that closes it. -/
inductive Nested : Str → Prop where
  | nil : Nested []
  | plain {c s} : c ≠ '<' → c ≠ '>' → Nested s → Nested (c :: s)
  | nest {a s} : Nested a → Nested s → Nested ('<' :: (a ++ '>' :: s))

/-- A document with a document type (production [22]): perhaps a declaration, white space, the document type (with a name), the body. -/
inductive Typed : Str → List Tok → Prop where
  | plain {w w1 n d t ts f} : Ws w → w1 ≠ [] → Ws w1 → IsName n → Nested d → Body t ts f →
      Typed (w ++ (str% "<!DOCTYPE" ++ (w1 ++ (n ++ (d ++ '>' :: t))))) (.space :: .space :: ts)
  | declared {decl w w1 n d t ts f} : decl ∈ declarations → Ws w → w1 ≠ [] → Ws w1 → IsName n → Nested d → Body t ts f →
      Typed (decl ++ (w ++ (str% "<!DOCTYPE" ++ (w1 ++ (n ++ (d ++ '>' :: t)))))) (.space :: .space :: .space :: ts)

end Osmio.Spec.Lex
