import Verif.Lib.Protobuf
/-!
# Specification: what accessors of a message are to do

A message of the type `M` has singular fields, each with a value or without one. `Member` has the accessors of one field.
-/

namespace Osmio.Spec.Access

/-- The accessors that only fields of texts and bytes have: lending the value, and taking it out. -/
structure Lend (M V : Type) where
  mutate : M → (V → V) → M
  take : M → V × M

/-- A field: the type of its values, what is shown if it has none, how it is encoded, and its accessors. -/
structure Member (M : Type) where
  V : Type
  default : V
  wire : V → List UInt8
  get : M → V
  has : M → Bool
  set : M → V → M
  clear : M → M
  lend : Option (Lend M V)

/-- What a field of a message holds, as far as its accessors show it. -/
def Member.held {M : Type} (f : Member M) (m : M) : Option f.V := if f.has m then some (f.get m) else none

/-- A call of an accessor that changes a message: of the `i`-th field. -/
inductive Call {M : Type} (fs : List (Member M)) where
  | set (i : Fin fs.length) (v : (fs.get i).V)
  | clear (i : Fin fs.length)
  | mutate (i : Fin fs.length) (l : Lend M (fs.get i).V) (h : (fs.get i).lend = some l) (f : (fs.get i).V → (fs.get i).V)
  | take (i : Fin fs.length) (l : Lend M (fs.get i).V) (h : (fs.get i).lend = some l)

variable {M : Type} {fs : List (Member M)}

/-- The message after the call. -/
def Call.run : Call fs → M → M
  | .set i v, m => (fs.get i).set m v
  | .clear i, m => (fs.get i).clear m
  | .mutate _ l _ f, m => l.mutate m f
  | .take _ l _, m => (l.take m).2

/-- The values of all fields. -/
abbrev Values (fs : List (Member M)) : Type := (i : Fin fs.length) → Option (fs.get i).V

/-- `s`, but with the value `v` in the field `i`. -/
def Values.put (s : Values fs) (i : Fin fs.length) (v : Option (fs.get i).V) : Values fs :=
  fun j => if h : i = j then h ▸ v else s j

/-- The values after the call, given those before. What is lent is the default value if there is none. -/
def Call.effect : Call fs → Values fs → Values fs
  | .set i v, s => s.put i (some v)
  | .clear i, s => s.put i none
  | .mutate i _ _ f, s => s.put i (some (f ((s i).getD (fs.get i).default)))
  | .take i _ _, s => s.put i none

/-- The accessors do what they are for. `rest` are the fields without accessors, `encode` is the encoding, `new` a fresh message and
`reset` what `clear()` makes of one. -/
structure Sound (fs : List (Member M)) {D : Type} (rest : M → D) (encode : M → List UInt8) (new : M) (reset : M → M) : Prop where
  /-- After any calls every field has the value that the calls gave it last, or the one it had; or it has none and shows the default. -/
  history : ∀ (m : M) (calls : List (Call fs)) (i : Fin fs.length),
    (fs.get i).held (calls.foldl (fun m c => c.run m) m) = calls.foldl (fun s c => c.effect s) (fun i => (fs.get i).held m) i
  /-- A field without value shows the default. -/
  default : ∀ (m : M) (i : Fin fs.length), (fs.get i).held m = none → (fs.get i).get m = (fs.get i).default
  /-- What is taken out is what the field showed. -/
  taken : ∀ (m : M) (i : Fin fs.length) (l : Lend M (fs.get i).V), (fs.get i).lend = some l → (l.take m).1 = (fs.get i).get m
  /-- The other fields stay. -/
  others : ∀ (m : M) (calls : List (Call fs)), rest (calls.foldl (fun m c => c.run m) m) = rest m
  /-- There is nothing else in a message. -/
  all : ∀ m m' : M, (∀ i : Fin fs.length, (fs.get i).held m = (fs.get i).held m') → rest m = rest m' → m = m'
  /-- A fresh message is encoded by no bytes, so has no values, nor has a message that is cleared. -/
  fresh : encode new = [] ∧ (∀ i : Fin fs.length, (fs.get i).held new = none) ∧ ∀ m, reset m = new
  /-- A message with one value is encoded as this value with the number of the field. -/
  wire : ∀ (i : Fin fs.length) (v : (fs.get i).V), encode ((fs.get i).set new v) = (fs.get i).wire v

end Osmio.Spec.Access
