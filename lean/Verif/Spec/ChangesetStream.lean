import Verif.Lib.QuickXmlPull
import Verif.Spec.ChangesetCut
/-!
# Specification: what part of a file the first answers of a changeset reader come from

A beginning `a` of a file settles the first `k` answers if they are the same whatever follows: more text, something else, a failure, or the end. The
answers are changesets, or errors about them, and not errors in the XML. `later` stands for what the tokenizer gives after a failure.
-/

namespace Osmio.Spec.Cs
open QuickXml Changesets

/-- The first `k` answers are settled by `a`; `start` makes the reader. -/
def SettlesFor {σ α : Type} (next : Nat → σ → Option (Except Err (Option α) × σ)) (start : Events → σ) (k : Nat) (a : List UInt8) : Prop :=
  ∃ rs : List (Except Err (Option α)), rs.length = k ∧ .error .xml ∉ rs ∧
    ∀ (after : Source) (later : Events), ∃ s', Answers next (start (eventsOfSource later (a.map some ++ after))) rs s'

/-- The first `k` answers of `ChangesetReader`. -/
def Settles (k : Nat) (a : List UInt8) : Prop := SettlesFor nextChangeset id k a

/-- The first `k` answers of `ChangesetTagReader`. -/
def SettlesTags (k : Nat) (a : List UInt8) : Prop := SettlesFor nextTag newTagReader k a

/-- `a` has the property, and no shorter beginning of `a` has it. -/
def Just (P : List UInt8 → Prop) (a : List UInt8) : Prop := P a ∧ ∀ a', a' <+: a → a' ≠ a → ¬ P a'

end Osmio.Spec.Cs
