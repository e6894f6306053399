import Verif.Proofs.NodeChain
/-!
# C60: the chains that cannot be encoded

`src/nodechain.rs:18` asks: "might we get overflow here?". Here is the answer.
-/

namespace Osmio
open Spec

namespace NodeChain

/-- The difference of two neighbours, as signed numbers, is not an `i64`. -/
def TooFar (x y : UInt64) : Prop :=
  y.toInt64.toInt - x.toInt64.toInt < -9223372036854775808 ∨ 9223372036854775807 < y.toInt64.toInt - x.toInt64.toInt

theorem encodeStep_panics_iff (b : Build) (first last n : UInt64) (p : Panic) :
    encodeStep b first last n = .error p ↔ b = .debug ∧ p = .overflow ∧ TooFar last n := by
  unfold encodeStep TooFar asI64 Build.i64
  by_cases h : -9223372036854775808 ≤ n.toInt64.toInt - last.toInt64.toInt ∧ n.toInt64.toInt - last.toInt64.toInt ≤ 9223372036854775807
  · refine ⟨fun he => ?_, fun ⟨_, _, ht⟩ => by omega⟩
    rw [if_pos h] at he
    exfalso
    revert he
    show ¬ (if n = first then _ else if _ then _ else if _ then _ else _) = _
    split
    · simp
    · split
      · simp
      · split <;> simp
  · rw [if_neg h]
    cases b with
    | debug =>
      refine ⟨fun he => ?_, fun ⟨_, hp, _⟩ => by rw [hp]; rfl⟩
      have : Panic.overflow = p := Except.error.inj he
      exact ⟨rfl, this.symm, by omega⟩
    | release =>
      refine ⟨fun he => ?_, fun ⟨hb, _⟩ => by cases hb⟩
      exfalso
      revert he
      show ¬ (if n = first then _ else if _ then _ else if _ then _ else _) = _
      split
      · simp
      · split
        · simp
        · split <;> simp

theorem follows_cons {l n : UInt64} {ns : List UInt64} {R : UInt64 → UInt64 → Prop} :
    (∃ before x y, Follows (l :: n :: ns) before x y ∧ R x y) ↔ R l n ∨ ∃ before x y, Follows (n :: ns) before x y ∧ R x y := by
  constructor
  · rintro ⟨before, x, y, ⟨after, e⟩, h⟩
    cases before with
    | nil =>
      injection e with e1 e2
      injection e2 with e2 _
      subst e1 e2
      exact Or.inl h
    | cons z before =>
      injection e with _ e2
      exact Or.inr ⟨before, x, y, ⟨after, e2⟩, h⟩
  · rintro (h | ⟨before, x, y, ⟨after, e⟩, h⟩)
    · exact ⟨[], l, n, ⟨ns, rfl⟩, h⟩
    · exact ⟨l :: before, x, y, ⟨after, by rw [e]; rfl⟩, h⟩

theorem encodeFrom_panics_iff (b : Build) (first last : UInt64) (ns : List UInt64) (p : Panic) :
    encodeFrom b first last ns = .error p ↔ b = .debug ∧ p = .overflow ∧ ∃ before x y, Follows (last :: ns) before x y ∧ TooFar x y := by
  induction ns generalizing last with
  | nil =>
    refine ⟨fun h => (by cases h), ?_⟩
    rintro ⟨_, _, before, x, y, ⟨after, e⟩, _⟩
    have := congrArg List.length e
    simp only [List.length_append, List.length_cons, List.length_nil] at this
    omega
  | cons n ns ih =>
    rw [follows_cons, encodeFrom]
    have hs := encodeStep_panics_iff b first last n p
    rcases h1 : encodeStep b first last n with q | bytes
    · obtain ⟨hb, hq, ht⟩ := (encodeStep_panics_iff b first last n q).1 h1
      refine ⟨fun h => ?_, fun ⟨_, hp, _⟩ => by rw [hp, hq]; rfl⟩
      have : q = p := Except.error.inj h
      exact ⟨hb, this ▸ hq, Or.inl ht⟩
    · have hn : ¬ (b = .debug ∧ p = .overflow ∧ TooFar last n) := fun h => by rw [hs.2 h] at h1; cases h1
      have hi := ih n
      rcases h2 : encodeFrom b first n ns with q | r
      · rw [h2] at hi
        have e : ((Except.ok bytes : Res _) >>= fun bytes => (Except.error q : Res (List UInt8)) >>= fun r => .ok (bytes ++ r)) = .error q := rfl
        refine ⟨fun h => ?_, fun ⟨hb, hp, h⟩ => ?_⟩
        · obtain ⟨a, c, d⟩ := hi.1 (e.symm.trans h)
          exact ⟨a, c, Or.inr d⟩
        · rcases h with h | h
          · exact absurd ⟨hb, hp, h⟩ hn
          · exact e.trans (hi.2 ⟨hb, hp, h⟩)
      · rw [h2] at hi
        refine ⟨fun h => (by cases h), fun ⟨hb, hp, h⟩ => ?_⟩
        rcases h with h | h
        · exact absurd ⟨hb, hp, h⟩ hn
        · cases hi.2 ⟨hb, hp, h⟩

end NodeChain

/-- **C60**, the encoder. It panics exactly in a build that checks for overflow, for chains with two neighbours whose difference, as signed numbers, does not fit into 64 bits. -/
theorem C60_encode_panics_iff (b : Build) (ns : List UInt64) (p : Panic) :
    NodeChain.encode b ns = .error p ↔ b = .debug ∧ p = .overflow ∧ ∃ before x y, Follows ns before x y ∧
      (y.toInt64.toInt - x.toInt64.toInt < -9223372036854775808 ∨ 9223372036854775807 < y.toInt64.toInt - x.toInt64.toInt) := by
  cases ns with
  | nil =>
    refine ⟨fun h => (by cases h), ?_⟩
    rintro ⟨_, _, before, x, y, ⟨after, e⟩, _⟩
    cases before <;> cases e
  | cons first ns =>
    rw [NodeChain.encode]
    have h := NodeChain.encodeFrom_panics_iff b first first ns p
    rcases h1 : NodeChain.encodeFrom b first first ns with q | r
    · rw [h1] at h; exact h
    · rw [h1] at h
      exact ⟨fun e => (by cases e), fun e => (by cases h.2 e)⟩

/-- **C60**, the encoder: with ids below `2^63` it does not panic. -/
theorem C60_encode_small (b : Build) {ns : List UInt64} (hsmall : ∀ n ∈ ns, n.toNat < 2 ^ 63) : ∃ bytes, NodeChain.encode b ns = .ok bytes := by
  rcases h : NodeChain.encode b ns with p | bytes
  · obtain ⟨_, _, before, x, y, ⟨after, e⟩, ht⟩ := (C60_encode_panics_iff b ns p).1 h
    have hx := NodeChain.asI64_small (hsmall x (by rw [e]; simp))
    have hy := NodeChain.asI64_small (hsmall y (by rw [e]; simp))
    have hx' := hsmall x (by rw [e]; simp)
    have hy' := hsmall y (by rw [e]; simp)
    unfold NodeChain.asI64 at hx hy
    omega
  · exact ⟨bytes, rfl⟩

/-- The smallest signed number after 1. -/
example : NodeChain.encode .debug [7, 1, 9223372036854775808] = .error .overflow :=
  (C60_encode_panics_iff _ _ _).2 ⟨rfl, rfl, [7], 1, 9223372036854775808, ⟨[], rfl⟩, by decide⟩

example : ∃ bytes, NodeChain.encode .debug [10, 9, 9223372036854775807, 10] = .ok bytes := C60_encode_small _ (by decide)

end Osmio
