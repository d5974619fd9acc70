import Verif.Axes.Model
import Verif.Measurable.Props

/-!
# Specification for the axes and for observing

Nothing here refers to how the code finds positions.
-/

namespace Verif.Axes

open Verif.Py Verif.Iterables Verif.Measurable
open Verif.Metric (Str)

/-- Units as sizes of one of them: a value `x` in the unit `u` is the physical value `x * size u`. -/
structure Sizes {U : Type} (M : Units U) (size : U → Rat) : Prop where
  pos : ∀ u, 0 < size u
  refl : ∀ u, M.consistent u u = true
  same : ∀ u v, M.same u v = true → size u = size v
  factor : ∀ u v, M.consistent u v = true → M.factor u v = .ok (size u / size v)

/-- The points are the positions in the axis, whose unit has size `a`, of the values nearest to the wanted
physical values; the first of several that are equally near. -/
def Selects (axis : List Rat) (a : Rat) (wanted : List Rat) (points : List Int) : Prop :=
  points.length = wanted.length ∧
  ∀ k (h : k < points.length) (h' : k < wanted.length), ∃ i, ∃ hi : i < axis.length, points[k] = (i : Int) ∧
    (∀ j (hj : j < axis.length), |axis[i] * a - wanted[k]| ≤ |axis[j] * a - wanted[k]|) ∧
    ∀ j (hj : j < i), |axis[i] * a - wanted[k]| < |axis[j] * a - wanted[k]|

/-- The values reported are those of the axis at the selected points. -/
def Reports {V : Type} (axis : List V) (d : Data V) : Prop :=
  d.points.length = d.values.length ∧
  ∀ k (h : k < d.points.length) (h' : k < d.values.length), getItem axis d.points[k] = .ok d.values[k]

/-- The position of a species: the first with the symbol, or the number without its fraction. -/
inductive Picks (symbols : List Str) : Species → Int → Prop where
  | symbol (s : Str) (i : Nat) (h : i < symbols.length) (hs : symbols[i] = s)
      (first : ∀ j (hj : j < i), symbols[j] ≠ s) : Picks symbols (.symbol s) i
  | number (q : Rat) (n : Int) (low : 0 ≤ q → n ≤ q ∧ q < n + 1) (high : q < 0 → n - 1 < q ∧ q ≤ n) :
      Picks symbols (.number q) n

end Verif.Axes
