import Verif.Model.LatLon
/-! # Specifications for the modules that are not compiled -/

namespace Osmio.Spec

/-- The position last set for `id`. -/
def lastSet (ops : List (Nat × Lat × Lon)) (id : Nat) : Option (Lat × Lon) :=
  match ops with
  | [] => none
  | op :: ops => (lastSet ops id).or (if op.1 = id then some op.2 else none)

/-- `y` comes right after `x` in `l`, and `before` is what is in front of them. -/
def Follows {α : Type} (l before : List α) (x y : α) : Prop := ∃ after, l = before ++ x :: y :: after

/-- More than a byte can tell apart. -/
def Far (x y : UInt64) : Prop := (y.toNat : Int) - x.toNat ≤ -126 ∨ 125 ≤ (y.toNat : Int) - x.toNat

end Osmio.Spec
