import Verif.Measurable.Model
import Verif.Numerical.Model

/-!
# Model of the axes and of `Context.observe` in `src/goats/eprem/__init__.py`, and of `core/axis.py`, `core/index.py`

Numbers are rational. Units belong to any type, with the operations of `metadata.Unit` as parameters.
-/

namespace Verif.Axes

open Verif.Py Verif.Iterables Verif.Measurable Verif.Numerical
open Verif.Metric (Str)

/-- What the modelled code asks of units. `factor old new` is `new // old`, the number by which values in
the old unit are multiplied. -/
structure Units (U : Type) where
  /-- `metadata.Unit('1')`. -/
  one : U
  /-- `metadata.Unit(string)`. -/
  read : Str → Res U
  /-- `u == v`. -/
  same : U → U → Bool
  /-- `u | v`. -/
  consistent : U → U → Bool
  factor : U → U → Res Rat

variable {U : Type}

/-! ## What the user asks for -/

/-- A target value: an integer, which has `__index__`, or any other object that can be measured (a float is
`.other (.atom q)`). -/
inductive Item where
  | int (i : Int)
  | other (a : Arg)

/-- The same object as an argument of `measure`. -/
def Item.arg : Item → Arg
  | .int i => .atom i
  | .other a => a

/-- The integer, if it is one. -/
def Item.position : Item → Option Int
  | .int i => some i
  | .other _ => none

def Item.isInt : Item → Bool
  | .int _ => true
  | .other _ => false

/-- The members of `iterables.whole(this)` for the constraint `this` on an axis
(eprem/__init__.py 568-578). -/
inductive Request where
  | nothing
  | slice (s : Slice)
  | range (is : List Int)
  | targets (ts : List Item)

/-- `Indexer.normalize` (axis.py 40-48); a request for no targets at all is one for the whole axis. -/
def normalize (size : Nat) : Request → List Item
  | .nothing => (List.range size).map (fun i : Nat => .int i)
  | .slice s => (sliceToRange s size).map .int
  | .range is => is.map .int
  | .targets [] => (List.range size).map (fun i : Nat => .int i)
  | .targets ts => ts

/-- `index.Data` and `index.Quantity` (index.py 13-88) without the unit. -/
structure Data (V : Type) where
  points : List Int
  values : List V
  deriving DecidableEq

/-! ## Coordinates -/

/-- `this[unit]` (variable.py 571-600, measurable.py 197-236): the values in another unit. -/
def rescale (M : Units U) (values : List Rat) (old new : U) : Res (List Rat) :=
  if M.same new old then .ok values
  else if ¬ M.consistent old new then .error .valueError
  else match M.factor old new with
    | .error e => .error e
    | .ok f => .ok (values.map (f * ·))

/-- The number that a measured object holds. -/
def number : Arg → Res Rat
  | .atom q => .ok q
  | _ => .error .typeError

/-- `measurable.measure(targets)` (measurable.py 334-346): the values and the unit. A result of `None`
cannot be indexed. `text` is `str`, `depth` limits the nesting. -/
def measure (text : Arg → Str) (depth : Nat) (ts : List Item) : Res (List Rat × Str) :=
  match parse text depth (.tuple (ts.map Item.arg)) with
  | .error e => .error e
  | .ok none => .error .typeError
  | .ok (some (vs, u)) => match vs.mapM number with
    | .error e => .error e
    | .ok qs => .ok (qs, u)

/-- The unit of the targets (eprem/__init__.py 241-253): the default for numbers without unit. -/
def targetUnit (M : Units U) (s : Str) (unit : U) : Res U :=
  match M.read s with
  | .error e => .error e
  | .ok u => .ok (if M.same u M.one then unit else u)

/-- `array[converted.unit]` for consistent units; values of any other unit are used as they are
(eprem/__init__.py 254-256). -/
def intoUnit (M : Units U) (qs : List Rat) (u unit : U) : Res (List Rat) :=
  if M.consistent u unit then rescale M qs u unit else .ok qs

/-- The method that `Axes._build_coordinate` creates (eprem/__init__.py 225-262), for the reference values
`axis` with unit `axisUnit`. -/
def coordinate (M : Units U) (text : Arg → Str) (depth : Nat) (axis : List Rat) (axisUnit : U)
    (targets : List Item) (unit : U) : Res (Data Rat) :=
  match rescale M axis axisUnit unit with
  | .error e => .error e
  | .ok converted =>
    if targets = [] then .ok ⟨(List.range converted.length).map Int.ofNat, converted⟩
    else if targets.all Item.isInt then
      .ok ⟨targets.filterMap Item.position, converted⟩
    else match measure text depth targets with
      | .error e => .error e
      | .ok (qs, s) => match targetUnit M s unit with
        | .error e => .error e
        | .ok u => match intoUnit M qs u unit with
          | .error e => .error e
          | .ok values => match values.mapM (fun v => nearestIndex converted v .free) with
            | .error e => .error e
            | .ok points => .ok ⟨points, values⟩

/-- `axis.Quantity.index` for a coordinate axis (axis.py 118-126). -/
def coordinateIndex (M : Units U) (text : Arg → Str) (depth : Nat) (axis : List Rat) (axisUnit : U)
    (r : Request) (unit : U) : Res (Data Rat) :=
  coordinate M text depth axis axisUnit (normalize axis.length r) unit

/-- The index of the shell axis (eprem/__init__.py 158-167, index.py 16-32): the targets must be integral
numbers, and they are also the values. `index.Quantity` reads the first value (index.py 47-52). -/
def shellIndex (size : Nat) (r : Request) : Res (Data Int) :=
  if (normalize size r).all Item.isInt then
    match (normalize size r).filterMap Item.position with
    | [] => .error .indexError
    | i :: is => .ok ⟨i :: is, i :: is⟩
  else .error .valueError

/-- The index of the energy axis (eprem/__init__.py 186-206) for a grid with one row for each species. The
method has an argument `species`, which no caller gives, so that it is 0. -/
def energyIndex (M : Units U) (text : Arg → Str) (depth : Nat) (grid : List (List Rat)) (axisUnit : U)
    (r : Request) (unit : U) : Res (Data Rat) :=
  match getItem grid 0 with
  | .error e => .error e
  | .ok row => coordinateIndex M text depth row axisUnit r unit

/-- A species: a symbol or a number. -/
inductive Species where
  | symbol (s : Str)
  | number (q : Rat)

/-- `int(q)`: the part before the point. -/
def truncate (q : Rat) : Int := if q < 0 then -(-q).floor else q.floor

/-- `symbols.index(target)` for a string, `int(target)` otherwise (eprem/__init__.py 216-220). -/
def Species.point (symbols : List Str) : Species → Res Int
  | .symbol s => if s ∈ symbols then .ok (symbols.idxOf s) else .error .valueError
  | .number q => .ok (truncate q)

/-- The index of the species axis (eprem/__init__.py 209-223). -/
def speciesIndex (symbols : List Str) (targets : List Species) : Res (Data Str) :=
  match (if targets = [] then (List.range symbols.length).map (fun i : Nat => Species.number i) else targets).mapM
      (Species.point symbols) with
  | .error e => .error e
  | .ok points => .ok ⟨points, symbols⟩

/-! ## Observing a quantity over time and shells -/

/-- `array_contains` (variable.py 242-263): the value is in the array, or between its extremes and close to a
member of it. The default relative tolerance of `numpy.isclose` is one in 100000. -/
def contains (array : List Rat) (v : Rat) : Bool :=
  decide (v ∈ array) ||
    (array.any (fun x => decide (x ≤ v)) && array.any (fun x => decide (v ≤ x)) &&
      array.any (fun x => decide (|v - x| ≤ 1 / 100000 * |x|)))

/-- `interpolation.apply` (interpolation.py 84-99) along the leading axis, for a reference of one dimension.
For each target, every column is interpolated. `axis` is the argument of that name: for one beyond the
leading axis, `numpy.apply_along_axis` raises `AxisError`. -/
def interpolateRows (axis : Option Nat) (reference : List Rat) (width : Nat) (rows : List (List Rat))
    (targets : List Rat) : Res (List (List Rat)) :=
  targets.mapM (fun t =>
    if axis ≠ none ∧ axis ≠ some 0 ∧ t ∉ reference then .error (.named "AxisError")
    else (columns width rows).mapM (fun c => applyOne c reference t axis.isSome))

/-- The same along the second axis, which `_interpolate_coordinate` moves to the front and back
(eprem/__init__.py 519-538). -/
def interpolateWithin (reference : List Rat) (rows : List (List Rat)) (targets : List Rat) :
    Res (List (List Rat)) :=
  rows.mapM (fun r => targets.mapM (fun t => applyOne r reference t false))

/-- `interpolation.apply` (interpolation.py 84-99) for a reference of two dimensions, along the second, and
one target: each row of the result has one entry. For a target in the reference there is a single value,
which has no axes to swap. -/
def interpolateRadius (reference rows : List (List Rat)) (t : Rat) : Res (List (List Rat)) :=
  match applyTwo rows reference t with
  | .error e => .error e
  | .ok (.single _) => .error (.named "AxisError")
  | .ok (.rows vs) => .ok (vs.map ([·]))

/-- Subscription of the first axis by positions (variable.py 134-159). -/
def subscriptRows (rows : List (List Rat)) (is : List Int) : Res (List (List Rat)) := is.mapM (getItem rows)

/-- Subscription of the second axis by positions. -/
def subscriptColumns (rows : List (List Rat)) (js : List Int) : Res (List (List Rat)) :=
  rows.mapM (fun r => js.mapM (getItem r))

/-- Subscription of both axes: `q[numpy.ix_(is, js)]`. -/
def subscript (rows : List (List Rat)) (is js : List Int) : Res (List (List Rat)) :=
  match subscriptRows rows is with
  | .error e => .error e
  | .ok picked => subscriptColumns picked js

/-- A dataset: its times, its shells, and the radius of every shell at every time. -/
structure Grid where
  times : List Rat
  shells : List Rat
  radius : List (List Rat)

/-- `_compute_interpolants` (eprem/__init__.py 455-473) for the time axis: some value is not on it. -/
def Grid.timeNeeded (g : Grid) (time : Data Rat) : Bool := ! time.values.all (contains g.times)

/-- The same for the shell axis. -/
def Grid.shellNeeded (g : Grid) (shell : Data Int) : Bool := ! shell.values.all (fun i => contains g.shells i)

/-- The first step of `Context.interpolate` (eprem/__init__.py 494-508). -/
def Grid.overTime (g : Grid) (rows : List (List Rat)) (time : Data Rat) : Res (List (List Rat)) :=
  if g.timeNeeded time then interpolateRows (some 0) g.times g.shells.length rows time.values else .ok rows

/-- The second step. -/
def Grid.overShell (g : Grid) (rows : List (List Rat)) (shell : Data Int) : Res (List (List Rat)) :=
  if g.shellNeeded shell then interpolateWithin g.shells rows (shell.values.map (fun i : Int => (i : Rat)))
  else .ok rows

/-- The last step. -/
def Grid.overRadius (g : Grid) (rows : List (List Rat)) : Option Rat → Res (List (List Rat))
  | none => .ok rows
  | some r => interpolateRadius g.radius rows r

/-- `Context._observe` (eprem/__init__.py 383-393, 437-538) for a quantity over time and shells, in terms of
the indices of both axes and the radius in the constraints. `more` tells whether the quantity has further
axes that are not interpolated; then the rows are those for one position along these. `_subscript` without
any dimensions subscripts all axes (eprem/__init__.py 437-447), so that this happens when there is no
interpolation, but also when all axes were interpolated. -/
def observe (g : Grid) (rows : List (List Rat)) (more : Bool) (time : Data Rat) (shell : Data Int)
    (radius : Option Rat) : Res (List (List Rat)) :=
  match g.overTime rows time with
  | .error e => .error e
  | .ok a => match g.overShell a shell with
    | .error e => .error e
    | .ok b => match g.overRadius b radius with
      | .error e => .error e
      | .ok c => match g.timeNeeded time, g.shellNeeded shell || radius.isSome with
        | false, false => subscript c time.points shell.points
        | true, false => subscriptColumns c shell.points
        | false, true => subscriptRows c time.points
        | true, true => if more then .ok c else subscript c time.points shell.points

/-- The radius to which a quantity is interpolated (eprem/__init__.py 479-491, 591-606): a single number,
in the unit of the metric system for its own unit; that it is a length is not checked. `base` is
`metric.System.get_unit(unit=...)`. -/
def radiusTarget (M : Units U) (base : U → Res U) (text : Arg → Str) (depth : Nat) (ts : List Item) : Res Rat :=
  match measure text depth ts with
  | .error e => .error e
  | .ok ([q], s) => match M.read s with
    | .error e => .error e
    | .ok u => match base u with
      | .error e => .error e
      | .ok v => match rescale M [q] u v with
        | .ok [x] => .ok x
        | .ok _ => .error .valueError
        | .error e => .error e
  | .ok _ => .error .valueError

/-- `Context._observe` for a quantity along pitch angles, for given positions along the other axes: the
argument `axis` is 1 (eprem/__init__.py 449-453), whatever the number of dimensions of the reference. -/
def observeMu (mus : List Rat) (values : List Rat) (mu : Data Rat) : Res (List Rat) :=
  if mu.values.all (contains mus) then mu.points.mapM (getItem values)
  else match interpolateRows (some 1) mus 1 (values.map ([·])) mu.values with
    | .error e => .error e
    | .ok rows => .ok rows.flatten

end Verif.Axes
