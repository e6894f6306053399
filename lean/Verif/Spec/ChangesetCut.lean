import Verif.Spec.ChangesetText
/-! Specification: a number of calls of a changeset reader, one after the other, and the beginning of a file. -/

namespace Osmio.Spec.Cs

/-- Calls are made one after the other; these are their answers, all of them. -/
inductive Answers {σ α : Type} (f : Nat → σ → Option (Except Changesets.Err (Option α) × σ)) :
    σ → List (Except Changesets.Err (Option α)) → σ → Prop where
  | nil {s} : Answers f s [] s
  | cons {s s1 s' r rs} : Returns f s r s1 → Answers f s1 rs s' → Answers f s (r :: rs) s'

/-- The answer of a call that gives this result. -/
def answer {α : Type} : Except Changesets.Err α → Except Changesets.Err (Option α)
  | .ok a => .ok (some a)
  | .error e => .error e

open Spec.Lex in
/-- The text is the beginning of a document, up to the end of one of its parts (the tags, the texts, …, given by the grammar of
`Verif/Spec/XmlLex.lean`); elements may still be open. -/
inductive Begins : Str → List Tok → Prop where
  | plain {t ts} : Toks true t ts → Matched [] ts → (∀ c ∈ t.head?, c.toNat < 128) → Begins t ts
  | declared {decl t ts} : decl ∈ declarations → Toks true t ts → Matched [] ts → Begins (decl ++ t) (.space :: ts)

end Osmio.Spec.Cs
