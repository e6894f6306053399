/-!
# Specification: a loop

A loop is given by its body, which either goes on with another state or leaves the loop with a result. There is no bound on the rounds: a loop
that never leaves is related to nothing.
-/

namespace Osmio.Spec

/-- Repeating `body` from `s` ends, with the result `r`. -/
inductive Iterates {σ ρ : Type} (body : σ → σ ⊕ ρ) : σ → ρ → Prop
  | stop {s : σ} {r : ρ} : body s = .inr r → Iterates body s r
  | again {s s' : σ} {r : ρ} : body s = .inl s' → Iterates body s' r → Iterates body s r

/-- At most one result. -/
theorem Iterates.unique {σ ρ : Type} {body : σ → σ ⊕ ρ} {s : σ} {r r' : ρ} (h : Iterates body s r) (h' : Iterates body s r') : r = r' := by
  induction h with
  | stop h => cases h' with | stop h1 => cases h.symm.trans h1; rfl | again h1 _ => cases h.symm.trans h1
  | again h _ ih => cases h' with | stop h1 => cases h.symm.trans h1 | again h1 h2 => cases h.symm.trans h1; exact ih h2

end Osmio.Spec
