import Verif.Lib.AnyIo
/-!
# Specification: what an implementation of `Read` delivers

`R s src` is meant to say that from state `s` the bytes and errors `src` are still to come. Nothing is said about how many bytes
a call gives.
-/

namespace Osmio.Spec

/-- A call (for at least one byte) gave the next bytes, some of them; the next error, if that was what came next; the end, if nothing was left;
or it was interrupted and nothing is lost. -/
def GaveNext {S : Type} (R : S → Source → Prop) (answer : ReadOut × S) (src : Source) : Prop :=
  match answer with
  | (.ok [], s) => src = [] ∧ R s []
  | (.ok (b :: bs), s) => ∃ rest, src = (b :: bs).map some ++ rest ∧ R s rest
  | (.failed, s) => ∃ rest, src = none :: rest ∧ R s rest
  | (.interrupted, s) => R s src

/-- The relation describes the reader. -/
def Delivers (rd : AnyReader) (R : rd.S → Source → Prop) : Prop :=
  ∀ s src, R s src → ∀ n, 0 < n → GaveNext R (rd.read s n) src

/-- Something a source of portions has in store. -/
inductive Portion where
  | bytes (b : UInt8) (bs : List UInt8)
  | interruption
  | error

/-- What the portions amount to. -/
def contents : List Portion → Source
  | [] => []
  | .bytes b bs :: r => (b :: bs).map some ++ contents r
  | .interruption :: r => contents r
  | .error :: r => none :: contents r

/-- One call: as much of the next portion as is asked for. -/
def readPortion : List Portion → Nat → ReadOut × List Portion
  | [], _ => (.ok [], [])
  | .interruption :: r, _ => (.interrupted, r)
  | .error :: r, _ => (.failed, r)
  | .bytes b bs :: r, n =>
    match (b :: bs).drop n with
    | [] => (.ok (b :: bs), r)
    | c :: cs => (.ok ((b :: bs).take n), .bytes c cs :: r)

/-- A source that has its bytes in portions, such as packets of a network connection. -/
def portions : AnyReader where
  S := List Portion
  read := readPortion
  patience s := s.length
  short s n bs h := by
    unfold readPortion at h
    split at h
    · simp only [ReadOut.ok.injEq] at h; subst h; simp
    · cases h
    · cases h
    · split at h
      · rename_i e
        simp only [ReadOut.ok.injEq] at h; subst h
        exact List.drop_eq_nil_iff.1 e
      · simp only [ReadOut.ok.injEq] at h; subst h
        rw [List.length_take]; omega
  calm s n h := by
    unfold readPortion at h ⊢
    split at h
    · cases h
    · simp
    · cases h
    · split at h <;> cases h

end Osmio.Spec
