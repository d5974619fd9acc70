import Verif.Axes.Model

/-!
# Model of the axes that an observer shows
-/

namespace Verif.Axes

open Verif.Py Verif.Iterables Verif.Measurable
open Verif.Metric (Str)

variable {U V : Type}

/-- `index.Array` (index.py 113-186): points, values and a unit. -/
structure Shown (U V : Type) where
  points : List Int
  values : List V
  unit : Option U
  deriving DecidableEq

/-- `index.Quantity(data, unit=unit)` (index.py 43-52): it reads the first value. -/
def indexQuantity (d : Data V) (unit : Option U) : Res (Shown U V) :=
  match d.values with
  | [] => .error .indexError
  | _ :: _ => .ok ⟨d.points, d.values, unit⟩

/-- `index.Array(quantity)` (index.py 127-139): points, values and unit of the quantity. -/
def indexArray (q : Shown U V) : Res (Shown U V) := indexQuantity ⟨q.points, q.values⟩ q.unit

/-- `len(array)` (index.py 58-60). -/
def Shown.len (a : Shown U V) : Nat := a.points.length

/-- `array[i]` for a number (index.py 54-56, 165-166). -/
def Shown.at (a : Shown U V) (i : Int) : Res Int := getItem a.points i

/-- The members in a loop: `collections.abc.Sequence` asks for `array[0]`, `array[1]`, … (index.py 40). -/
def Shown.members (a : Shown U V) : List Int := a.points

/-- `numpy.array(array)` (index.py 141-143). -/
def Shown.numpy (a : Shown U V) : List V := a.values

/-- `axis.Quantity.reference` (axis.py 111-116) for the result of the indexing method. -/
def reference (d : Res (Data V)) (unit : Option U) : Res (Shown U V) := do
  let q ← indexQuantity (← d) unit
  indexArray q

/-- `Observer.time` and `Observer.mu` (eprem/__init__.py 779-782, 799-802) for the values of the variable and its unit, which
is the unit of the axis (118-126). -/
def shownCoordinate (M : Units U) (text : Arg → Str) (depth : Nat) (axis : List Rat) (unit : U) : Res (Shown U Rat) :=
  reference (coordinateIndex M text depth axis unit .nothing unit) (some unit)

/-- `Observer.energy` (eprem/__init__.py 794-797) for a grid with one row for each species. -/
def shownEnergy (M : Units U) (text : Arg → Str) (depth : Nat) (grid : List (List Rat)) (unit : U) : Res (Shown U Rat) :=
  reference (energyIndex M text depth grid unit .nothing unit) (some unit)

/-- `Observer.shell` (eprem/__init__.py 784-787). -/
def shownShell (size : Nat) (unit : U) : Res (Shown U Int) := reference (shellIndex size .nothing) (some unit)

/-- `Observer.species` (eprem/__init__.py 789-792): an axis without unit, for there is no variable of that name. -/
def shownSpecies (symbols : List Str) : Res (Shown U Str) := reference (speciesIndex symbols []) none

end Verif.Axes
