import Verif.Axes.Whole
import Verif.Subscripts.Model

/-!
# Model of `Context.compute_index` and `Context._subscript` for any number of axes
-/

namespace Verif.Axes

open Verif.Py Verif.Iterables Verif.Measurable Verif.Subscripts
open Verif.Metric (Str)

/-- The values along an axis, as numpy has them. -/
inductive Values where
  | floats (qs : List Rat)
  | ints (is : List Int)
  | symbols (ss : List Str)
  deriving DecidableEq

/-- The numbers among them. -/
def Values.numbers : Values → List Rat
  | .floats qs => qs
  | .ints is => is.map (fun i : Int => (i : Rat))
  | .symbols _ => []

/-- What stands for an axis in a context (eprem/__init__.py 556-578): an `index.Quantity` (index.py 40-72), which may be an
`index.Array` (index.py 112-143), with or without a unit. -/
structure Along where
  points : List Int
  values : Values
  unit : Bool
  array : Bool
  deriving DecidableEq

/-- The array that `numpy.ix_` makes of it: that of the members, which are the points (index.py 57-59), unless there is a
method `__array__`, which gives the values (index.py 141-143). Only integers can be positions; an empty array becomes one of
integers. -/
def Along.positions (x : Along) : Res (List Int) :=
  if x.array then
    match x.values with
    | .ints is => .ok is
    | .floats [] => .ok []
    | .symbols [] => .ok []
    | _ => .error .indexError
  else .ok x.points

/-- Is interpolation needed along this axis (eprem/__init__.py 455-469)? `coordinate` are the values of the reference of the axis;
the unit of the object is not looked at. -/
def Along.needed (coordinate : List Rat) (x : Along) : Bool :=
  x.points ≠ [] && x.unit && ! x.values.numbers.all (contains coordinate)

/-- The constraint on an axis: something to compute an index from, or an index. -/
inductive Constraint where
  | request (r : Request)
  | index (x : Along)

/-- `Context.compute_index` (eprem/__init__.py 568-577) for the method that indexes the axis: an index is returned as it is. -/
def computeIndex (index : Request → Res Along) : Option Constraint → Res Along
  | none => index .nothing
  | some (.index x) => .ok x
  | some (.request r) => index r

/-- The index of a coordinate axis (eprem/__init__.py 225-262, axis.py 118-126). -/
def alongCoordinate {U : Type} (M : Units U) (text : Arg → Str) (depth : Nat) (axis : List Rat) (axisUnit : U) (unit : U)
    (r : Request) : Res Along := do
  let d ← coordinateIndex M text depth axis axisUnit r unit
  return ⟨d.points, .floats d.values, true, false⟩

/-- The index of the shell axis (eprem/__init__.py 158-167). -/
def alongShell (size : Nat) (r : Request) : Res Along := do
  let d ← shellIndex size r
  return ⟨d.points, .ints d.values, true, false⟩

/-- What an observer shows for an axis (axis.py 111-116): the `index.Array` of the whole axis. -/
def shown (index : Request → Res Along) : Res Along := do return { ← index .nothing with array := true }

variable {U N : Type}

/-- `Context._subscript(q)` (eprem/__init__.py 437-447, variable.py 117-159): one object for each axis. -/
def subscriptAll (a : Arr Rat U N) (xs : List Along) : Res (Arr Rat U N) := do
  return ⟨← a.loadCross (← xs.mapM Along.positions), 1, a.unit, a.name⟩

/-- `Context._observe` (eprem/__init__.py 383-393) when nothing has to be interpolated; `none` otherwise. -/
def observeStored (a : Arr Rat U N) (coordinates : List (List Rat)) (xs : List Along) : Option (Res (Arr Rat U N)) :=
  if (coordinates.zip xs).any (fun p => p.2.needed p.1) then none else some (subscriptAll a xs)

end Verif.Axes
