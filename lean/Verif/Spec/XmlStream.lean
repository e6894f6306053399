import Verif.Model.XmlSource
import Verif.Spec.Drain
/-!
# Specification: what part of a file the first results of a reader come from

A beginning `a` of a file settles the first `k` results of an XML reader if they are the same whatever follows: more text, something else,
a failure, or the end. The results are objects, or `None` for an element that is not one, and no panics.
-/

namespace Osmio.Spec
open Xml

/-- The first `k` results are settled by `a`. -/
def Settles (norm : Config) (k : Nat) (a : List UInt8) : Prop :=
  ∃ results : List (Res (Option StringOSMObj)), (∀ r ∈ results, ∃ o, r = .ok o) ∧
    ∀ after : Source, (calls XMLReader.next k (XMLReader.over norm (a.map some ++ after))).1 = results

/-- The beginning that it takes to settle them, and no more. -/
def JustSettles (norm : Config) (k : Nat) (a : List UInt8) : Prop :=
  Settles norm k a ∧ ∀ a', a' <+: a → a' ≠ a → ¬ Settles norm k a'

end Osmio.Spec
