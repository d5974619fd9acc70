import Verif.Axes.Model
import Verif.Defaults.Tables

/-!
# Model of observing coordinates, and quantities along energies, in `src/goats/eprem/__init__.py`
-/

namespace Verif.Axes

open Verif.Py Verif.Iterables Verif.Measurable Verif.Numerical
open Verif.Metric (Str)
open Verif.Defaults (referenceBase)

/-- `reference.ALIASES.find(key, [])` (reference.py 149, aliased.py 197-210). -/
def aliasesOf (key : Str) : List Str := (((referenceBase.map (·.1)).find? (·.contains key))).getD []

/-- The names of `Context.coordinates` (eprem/__init__.py 540-554): those of the axes (eprem/__init__.py 109-116), and
those under which the variables of the grid are known. `names` is `self.variables.alias(k, include=True)`. -/
def coordinateNames (names : Str → List Str) : List Str :=
  [c!"time", c!"shell", c!"species", c!"energy", c!"mu"].flatMap (fun k => k :: aliasesOf k) ++
    [c!"radius", c!"theta", c!"phi"].flatMap (fun k => k :: names k)

/-- Whether `Context._observe` takes the name for that of an axis-reference quantity (eprem/__init__.py 386). -/
def isCoordinate (names : Str → List Str) (key : Str) : Bool :=
  (aliasesOf key).any (fun k => decide (k ∈ coordinateNames names))

/-- `Context._observe` (eprem/__init__.py 383-393) for a quantity over time and shells with the given name. -/
def observeNamed (names : Str → List Str) (key : Str) (g : Grid) (rows : List (List Rat)) (more : Bool)
    (time : Data Rat) (shell : Data Int) (radius : Option Rat) : Res (List (List Rat)) :=
  if isCoordinate names key then subscript rows time.points shell.points else observe g rows more time shell radius

/-- The values of all species at one target: `numpy.swapaxes` (interpolation.py 97-98) needs a row of values for
every target; a single value among them makes the list ragged, and numpy raises `ValueError`. -/
def rowOf : Interpolated Rat → Res (List Rat)
  | .rows vs => .ok vs
  | .single _ => .error .valueError

/-- `numpy.swapaxes(interpolated, 0, 1)` for rows of `n` values. -/
def swapRows (n : Nat) (rows : List (List Rat)) : List (List Rat) :=
  (List.range n).map (fun k => rows.filterMap (fun r => r[k]?))

/-- `Context._observe` (eprem/__init__.py 383-393, 437-538) for a quantity over species and energies, for given
positions along the other axes. `grid` has a row of energies for each species. The energies are interpolated unless each is an
energy of some species (eprem/__init__.py 455-473); the positions are those that `energyIndex` found. Interpolation
is along the second axis of the reference (eprem/__init__.py 449-453, 519-538; interpolation.py 84-99). -/
def observeEnergy (grid rows : List (List Rat)) (species : List Int) (energy : Data Rat) : Res (List (List Rat)) :=
  if energy.values.all (contains grid.flatten) then subscript rows species energy.points
  else match energy.values.mapM (applyTwo rows grid) with
    | .error e => .error e
    | .ok results => match results.mapM rowOf with
      | .error e => .error e
      | .ok swapped => subscriptRows (swapRows grid.length swapped) species

end Verif.Axes
