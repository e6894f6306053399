import Verif.Lib.Basic
/-! # Specification: reading a reader to its end -/

namespace Osmio.Spec

/-- Calling `next` until it returns `None` or panics: the objects seen, how it ended (`none`: with `None`), and the
state left behind. -/
inductive Drain {σ Obj : Type} (next : σ → Res (Option Obj) × σ) : σ → List Obj → Option Panic → σ → Prop
  | done {s s' : σ} : next s = (.ok none, s') → Drain next s [] none s'
  | panic {s s' : σ} {p : Panic} : next s = (.error p, s') → Drain next s [] (some p) s'
  | more {s s1 s2 : σ} {o : Obj} {os : List Obj} {e : Option Panic} :
      next s = (.ok (some o), s1) → Drain next s1 os e s2 → Drain next s (o :: os) e s2

/-- At most one outcome. -/
theorem Drain.unique {σ Obj : Type} {next : σ → Res (Option Obj) × σ} {s : σ} {os os' : List Obj}
    {e e' : Option Panic} {t t' : σ} (h : Drain next s os e t) (h' : Drain next s os' e' t') :
    os = os' ∧ e = e' ∧ t = t' := by
  induction h generalizing os' with
  | done h =>
    cases h' with
    | done h2 => rw [h] at h2; cases h2; exact ⟨rfl, rfl, rfl⟩
    | panic h2 => rw [h] at h2; cases h2
    | more h2 _ => rw [h] at h2; cases h2
  | panic h =>
    cases h' with
    | done h2 => rw [h] at h2; cases h2
    | panic h2 => rw [h] at h2; cases h2; exact ⟨rfl, rfl, rfl⟩
    | more h2 _ => rw [h] at h2; cases h2
  | more h _ ih =>
    cases h' with
    | done h2 => rw [h] at h2; cases h2
    | panic h2 => rw [h] at h2; cases h2
    | more h2 h3 =>
      rw [h] at h2; cases h2
      obtain ⟨rfl, rfl, rfl⟩ := ih h3
      exact ⟨rfl, rfl, rfl⟩

/-- Calling `next` a number of times: what the calls return, and the state left behind. -/
def calls {σ Obj : Type} (next : σ → Res (Option Obj) × σ) : Nat → σ → List (Res (Option Obj)) × σ
  | 0, s => ([], s)
  | n + 1, s => ((next s).1 :: (calls next n (next s).2).1, (calls next n (next s).2).2)

end Osmio.Spec
