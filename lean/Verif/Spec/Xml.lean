import Verif.Lib.StrLit
/-! # Specification: undoing XML escapes -/

namespace Osmio.Spec

/-- The names of the five predefined entities and the characters they stand for (XML 1.0, section 4.6). -/
def predefined : List (Str × Char) :=
  [(str% "amp", '&'), (str% "quot", '"'), (str% "apos", '\''), (str% "lt", '<'), (str% "gt", '>')]

/-- Replace the predefined entities; any other use of `&` is an error. -/
def unescape : Str → Option Str
  | [] => some []
  | '&' :: 'a' :: 'm' :: 'p' :: ';' :: r => (unescape r).map ('&' :: ·)
  | '&' :: 'q' :: 'u' :: 'o' :: 't' :: ';' :: r => (unescape r).map ('"' :: ·)
  | '&' :: 'a' :: 'p' :: 'o' :: 's' :: ';' :: r => (unescape r).map ('\'' :: ·)
  | '&' :: 'l' :: 't' :: ';' :: r => (unescape r).map ('<' :: ·)
  | '&' :: 'g' :: 't' :: ';' :: r => (unescape r).map ('>' :: ·)
  | '&' :: _ => none
  | c :: r => (unescape r).map (c :: ·)

end Osmio.Spec
