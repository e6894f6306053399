import Verif.Lib.AnyIo
/-! # Library model: `std::io::Chain` -/

namespace Osmio

/-- The state of `std::io::Chain`. -/
structure Chained (S T : Type) where
  doneFirst : Bool
  first : S
  second : T

/-- `Read::read` of `std::io::Chain`: the first source until it gives no bytes although some were asked for, then the second. -/
def chainRead (rd1 rd2 : AnyReader) (c : Chained rd1.S rd2.S) (n : Nat) : ReadOut × Chained rd1.S rd2.S :=
  if c.doneFirst then ((rd2.read c.second n).1, { c with second := (rd2.read c.second n).2 })
  else
    match rd1.read c.first n with
    | (.ok [], s) => if n = 0 then (.ok [], { c with first := s }) else ((rd2.read c.second n).1, ⟨true, s, (rd2.read c.second n).2⟩)
    | (r, s) => (r, { c with first := s })

/-- `Read::chain`: it is an implementation of `Read`. -/
def AnyReader.chain (rd1 rd2 : AnyReader) : AnyReader where
  S := Chained rd1.S rd2.S
  read := chainRead rd1 rd2
  patience c := if c.doneFirst then rd2.patience c.second else rd1.patience c.first + rd2.patience c.second
  short c n bs h := by
    unfold chainRead at h
    split at h
    · exact rd2.short _ _ _ h
    · split at h
      · split at h
        · simp only [ReadOut.ok.injEq] at h
          subst h; simp
        · exact rd2.short _ _ _ h
      · rename_i r s _ e
        exact rd1.short c.first n bs (by rw [e]; exact h)
  calm c n h := by
    unfold chainRead at h ⊢
    split
    · rename_i hd
      rw [if_pos hd] at h
      simp only []
      exact rd2.calm _ _ h
    · rename_i hd
      rw [if_neg hd] at h
      split at h
      · split at h
        · cases h
        · rename_i hn
          have := rd2.calm _ _ h
          simp only [hd, if_neg hn, if_true]
          simp
          omega
      · rename_i r s _ e
        simp only at h
        subst h
        have := rd1.calm c.first n (by rw [e])
        rw [e] at this
        simp only [hd]
        simpa using this

/-- `first.chain(second)`. -/
def chained {rd1 rd2 : AnyReader} (first : rd1.S) (second : rd2.S) : (rd1.chain rd2).S := (⟨false, first, second⟩ : Chained rd1.S rd2.S)

end Osmio
