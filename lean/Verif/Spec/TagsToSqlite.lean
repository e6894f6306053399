import Verif.Spec.Json
import Verif.Spec.Changesets
import Verif.Model.TagsToSqlite
/-! # Specification of the program that stores the tags of changesets in a database -/

namespace Osmio.Spec.Json

/-- Pairs, each an array of two strings, and the closing bracket of the list; the first argument bounds their number. -/
def pairsBody : Nat → Str → Option (List (Str × Str) × Str)
  | 0, _ => none
  | n + 1, '[' :: '"' :: r =>
    match strBody r with
    | some (k, ',' :: '"' :: r) =>
      match strBody r with
      | some (v, ']' :: ']' :: r) => some ([(k, v)], r)
      | some (v, ']' :: ',' :: r) =>
        match pairsBody n r with
        | some (ps, r) => some ((k, v) :: ps, r)
        | none => none
      | _ => none
    | _ => none
  | _, _ => none

/-- Decode an array of pairs of strings, without white space; nothing may follow. -/
def decodePairs : Str → Option (List (Str × Str))
  | ['[', ']'] => some []
  | '[' :: r =>
    match pairsBody r.length r with
    | some (ps, []) => some ps
    | _ => none
  | _ => none

end Osmio.Spec.Json

namespace Osmio.Spec.Cs
open TagsToSqlite

/-- The row of a changeset: its id (as a 64 bit pattern) and a JSON text of its tags. -/
def Stores (row : Row) (d : UInt64 × List (Str × Str)) : Prop :=
  row.1.toInt % 2 ^ 64 = d.1.toNat ∧ ∃ text, row.2 = Utf8.encode text ∧ Json.decodePairs text = some d.2

/-- Nothing has been stored. -/
def NoRows (file : File) : Prop := ∀ rows, file = some (some rows) → rows = []

/-- A source without errors has these changesets (those with an end tag, see `TagDump`). -/
def Provides (evs : QuickXml.Events) (ds : List (UInt64 × List (Str × Str))) : Prop :=
  ∃ s', Results Changesets.nextTag (Changesets.newTagReader evs) (ds.map .ok) s'

/-- How often a key occurs. -/
def occurrences (ds : List (UInt64 × List (Str × Str))) (k : Str) : Nat :=
  ((ds.flatMap (·.2)).map (·.1)).count k

/-- One key is more popular than another: more occurrences, or as many and later in the alphabet. -/
def MorePopular (a b : Nat × Str) : Prop := b.1 < a.1 ∨ (a.1 = b.1 ∧ compareStr b.2 a.2 = .lt)

/-- The lines of the report after the first: the keys of at least one occurrence per thousand changesets, the most popular
first, at most a hundred. -/
structure Report (ds : List (UInt64 × List (Str × Str))) (top : List (Nat × Str)) : Prop where
  counts : ∀ p ∈ top, p.1 = occurrences ds p.2 ∧ 0 < p.1 ∧ ds.length ≤ p.1 * 1000
  order : top.Pairwise MorePopular
  size : top.length ≤ 100
  complete : ∀ k, 0 < occurrences ds k → ds.length ≤ occurrences ds k * 1000 →
    (occurrences ds k, k) ∈ top ∨ (top.length = 100 ∧ ∀ p ∈ top, MorePopular p (occurrences ds k, k))

end Osmio.Spec.Cs
