import Verif.Spec.Calendar
import Verif.Spec.Coord
/-! # Specification of timestamp text -/

namespace Osmio.Spec

/-- A string of exactly `w` ASCII digits. -/
def IsNumeral (w : Nat) (s : List Char) : Prop := s.length = w ∧ ∀ c ∈ s, isDigit c = true

/-- `s` is the 20 character text `YYYY-MM-DDThh:mm:ssZ` of the (valid) UTC date-time `t`. -/
def IsIsoText (s : List Char) (t : DateTime) : Prop :=
  ∃ Y M D h m sec : List Char,
    IsNumeral 4 Y ∧ IsNumeral 2 M ∧ IsNumeral 2 D ∧ IsNumeral 2 h ∧ IsNumeral 2 m ∧ IsNumeral 2 sec ∧
    s = Y ++ '-' :: (M ++ '-' :: (D ++ 'T' :: (h ++ ':' :: (m ++ ':' :: (sec ++ ['Z']))))) ∧
    t = ⟨⟨number Y, number M, number D⟩, number h, number m, number sec⟩ ∧ t.Valid

/-- A time zone suffix and its offset in seconds east of UTC. -/
inductive IsZone : List Char → Int → Prop
  | zulu : IsZone ['Z'] 0
  | zuluLower : IsZone ['z'] 0
  | east {h m : List Char} : IsNumeral 2 h → IsNumeral 2 m → number h ≤ 23 → number m ≤ 59 →
      IsZone ('+' :: (h ++ ':' :: m)) (number h * 3600 + number m * 60)
  | west {c : Char} {h m : List Char} : c = '-' ∨ c = '−' → IsNumeral 2 h → IsNumeral 2 m →
      number h ≤ 23 → number m ≤ 59 →
      IsZone (c :: (h ++ ':' :: m)) (-(number h * 3600 + number m * 60 : Int))

/-- An optional fraction of a second. -/
def IsFraction (s : List Char) : Prop :=
  s = [] ∨ ∃ ds : List Char, ds ≠ [] ∧ (∀ c ∈ ds, isDigit c = true) ∧ s = '.' :: ds

/-- `s` is an RFC 3339 date-time (with the leniencies `t`, space, `z` and U+2212 and a leap second 60)
naming the instant `z`, in whole seconds since the epoch; second 60 counts as 59. -/
def IsRfc3339 (s : List Char) (z : Int) : Prop :=
  ∃ (Y M D h m sec frac zone : List Char) (sep : Char) (off : Int),
    IsNumeral 4 Y ∧ IsNumeral 2 M ∧ IsNumeral 2 D ∧ IsNumeral 2 h ∧ IsNumeral 2 m ∧ IsNumeral 2 sec ∧
    (sep = 'T' ∨ sep = 't' ∨ sep = ' ') ∧ IsFraction frac ∧ IsZone zone off ∧
    s = Y ++ '-' :: (M ++ '-' :: (D ++ sep :: (h ++ ':' :: (m ++ ':' :: (sec ++ (frac ++ zone)))))) ∧
    (Date.mk (number Y) (number M) (number D)).Valid ∧ number h ≤ 23 ∧ number m ≤ 59 ∧ number sec ≤ 60 ∧
    z = epochSeconds ⟨⟨number Y, number M, number D⟩, number h, number m, min (number sec) 59⟩ - off

end Osmio.Spec
