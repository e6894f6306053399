import Verif.Spec.Coord
import Verif.Lib.StrLit
import Mathlib.Data.Rat.Floor
/-!
# Specification: numbers with commas, and the lines of `osmio-pbf-read-speed`
-/

namespace Osmio.Spec.Programs

/-- A number with commas between groups of three digits and no needless zero, as `1,234,567`. -/
def IsGrouped (s : List Char) (n : Nat) : Prop :=
  ∃ (g : List Char) (gs : List (List Char)), s = g ++ gs.flatMap (',' :: ·) ∧ g ≠ [] ∧ g.length ≤ 3 ∧ (∀ x ∈ gs, x.length = 3) ∧
    (∀ c ∈ g ++ gs.flatten, isDigit c = true) ∧ (g.head? = some '0' → s = ['0']) ∧ number (g ++ gs.flatten) = n

/-- Thousandths, with commas before the point and three digits after it, as `1,234.500`. -/
def IsThousandths (s : List Char) (z : Nat) : Prop :=
  ∃ a f, s = a ++ '.' :: f ∧ IsGrouped a (z / 1000) ∧ f.length = 3 ∧ (∀ c ∈ f, isDigit c = true) ∧ number f = z % 1000

/-- Milliseconds as seconds, with as few digits after the point as there can be. -/
def IsSeconds (s : List Char) (millis : Nat) : Prop :=
  ∃ a f, s = a ++ (if f = [] then [] else '.' :: f) ∧ a ≠ [] ∧ (∀ c ∈ a ++ f, isDigit c = true) ∧ (a.head? = some '0' → a = ['0']) ∧
    f.length ≤ 3 ∧ f.getLast? ≠ some '0' ∧ number a * 1000 + number f * 10 ^ (3 - f.length) = millis

/-- So many objects in so many milliseconds: the rate to three places, as a program that computes with doubles can know it. -/
def IsRate (s : List Char) (objects millis : Nat) : Prop :=
  (millis = 0 ∧ objects = 0 ∧ s = str% "NaN") ∨ (millis = 0 ∧ objects ≠ 0 ∧ s = str% "inf") ∨
  (millis ≠ 0 ∧ ∃ z : Nat, IsThousandths s z ∧
    |(z : ℚ) / 1000 - (objects : ℚ) * 1000 / millis| ≤ 1 / 2000 + (objects : ℚ) * 1000 / millis / 2 ^ 51)

/-- A line on the way. -/
def IsLine (s : List Char) (objects millis : Nat) : Prop :=
  ∃ n t r, IsGrouped n objects ∧ IsSeconds t millis ∧ IsRate r objects millis ∧
    s = str% "Processed " ++ n ++ str% " objects so far. Total time " ++ t ++ str% " s. " ++ r ++ str% " objects/sec\n"

/-- The last line, after an empty one. -/
def IsLastLine (s : List Char) (objects millis : Nat) : Prop :=
  ∃ n t r, IsGrouped n objects ∧ IsSeconds t millis ∧ IsRate r objects millis ∧
    s = str% "\nProcessed " ++ n ++ str% " objects in " ++ t ++ str% " s. " ++ r ++ str% " objects/sec\n"

end Osmio.Spec.Programs
