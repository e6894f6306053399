import Verif.Lib.AnyIo
/-! # Library model: `std::io::Take` -/

namespace Osmio

/-- The state of `std::io::Take`. -/
structure Taken (S : Type) where
  inner : S
  limit : Nat

/-- `Read::read` of `std::io::Take`: nothing once the limit is used up, otherwise no more than is left of it. -/
def takeRead (rd : AnyReader) (t : Taken rd.S) (n : Nat) : ReadOut × Taken rd.S :=
  if t.limit = 0 then (.ok [], t)
  else
    match rd.read t.inner (min n t.limit) with
    | (.ok bs, s) => (.ok bs, ⟨s, t.limit - bs.length⟩)
    | (r, s) => (r, { t with inner := s })

/-- `Read::take`: it is an implementation of `Read`. -/
def AnyReader.take (rd : AnyReader) : AnyReader where
  S := Taken rd.S
  read := takeRead rd
  patience t := rd.patience t.inner
  short t n bs h := by
    unfold takeRead at h
    split at h
    · simp only [ReadOut.ok.injEq] at h
      subst h; simp
    · have hs := rd.short t.inner (min n t.limit)
      rcases e : rd.read t.inner (min n t.limit) with ⟨r, s⟩
      rw [e] at h hs
      cases r with
      | ok bs' =>
        simp only [ReadOut.ok.injEq] at h
        subst h
        have := hs _ rfl
        omega
      | interrupted => cases h
      | failed => cases h
  calm t n h := by
    unfold takeRead at h ⊢
    split at h
    · cases h
    · rename_i h0
      have hs := rd.calm t.inner (min n t.limit)
      rw [if_neg h0]
      rcases e : rd.read t.inner (min n t.limit) with ⟨r, s⟩
      rw [e] at h hs
      cases r with
      | ok bs' => cases h
      | interrupted => exact hs rfl
      | failed => cases h

/-- `inner.take(limit)`. -/
def taking {rd : AnyReader} (inner : rd.S) (limit : Nat) : rd.take.S := (⟨inner, limit⟩ : Taken rd.S)

end Osmio
