import Verif.Aliased.Views
import Verif.Eprem.Model

/-!
# Model of `src/goats/core/datafile.py` (variables and axes of a dataset) and of the variable
quantities in `src/goats/core/variable.py` and `src/goats/eprem/__init__.py`

What netCDF provides is given: the names of the variables and axes with their attributes.
-/

namespace Verif.Datasets

open Verif.Py Verif.Aliased

/-- Strings. -/
abbrev Str := List Char

variable {δ U : Type}

/-- A variable as given by the file format: an attribute that is not there is `none`. -/
structure Raw (δ : Type) where
  data : δ
  unit : Option Str
  units : Option Str
  dimensions : Option (List Str)
  shape : List Nat
  deriving DecidableEq

/-- `Variable` (datafile.py 45-51).  The shape belongs to the data. -/
structure Var (δ : Type) where
  data : δ
  shape : List Nat
  unit : Option Str
  dimensions : List Str
  name : Str
  deriving DecidableEq

/-- `_get_unit_from_data` (datafile.py 97-103): the first attribute that exists. -/
def unitFromData (r : Raw δ) : Option Str :=
  match r.unit with
  | some u => some u
  | none => r.units

/-- `_get_dimensions_from_data` (datafile.py 93-95). -/
def dimensionsFromData (r : Raw δ) : List Str := r.dimensions.getD []

/-- The variable with a name (datafile.py 85-90). -/
def toVariable (name : Str) (r : Raw δ) : Var δ := ⟨r.data, r.shape, unitFromData r, dimensionsFromData r, name⟩

/-- `NetCDFVariables.__getitem__` (datafile.py 85-91). -/
def viewVariable (members : Dict Str (Raw δ)) (name : Str) : Res (Var δ) :=
  match members.get? name with
  | some r => .ok (toVariable name r)
  | none => .error .keyError

/-- `Axis` (datafile.py 106-110). -/
structure Axis where
  size : Option Nat
  name : Str
  deriving DecidableEq

/-- `NetCDFAxes.__getitem__` (datafile.py 130-135). -/
def viewAxis (members : Dict Str (Option Nat)) (name : Str) : Res Axis :=
  match members.get? name with
  | some n => .ok ⟨n, name⟩
  | none => .error .keyError

/-- `Interface.variables` (datafile.py 220-227) when it is first used; `groups` are the aliases. -/
def variablesOf (groups : List (Aliased.Group Str)) (members : Dict Str (Raw δ)) : AMap Str (Var δ) :=
  buildFromGroups groups (members.map (fun p => (p.1, toVariable p.1 p.2)))

/-- `Interface.axes` (datafile.py 241-248) when it is first used. -/
def axesOf (groups : List (Aliased.Group Str)) (members : Dict Str (Option Nat)) : AMap Str Axis :=
  buildFromGroups groups (members.map (fun p => (p.1, ⟨p.2, p.1⟩)))

/-- `Interface.units` (datafile.py 230-238) when it is first used. -/
def unitsOf (m : AMap Str (Var δ)) : Res (AMap Str (Option Str)) := do
  return ofGroups (Dict.ofPairs ((← itemsAliased m).map (fun p => (p.1, p.2.unit))))

/-- `SubsetKeys` (datafile.py 190-198). -/
structure SubsetKeys where
  full : List Str
  grouped : List (Aliased.Group Str)
  canonical : List Str
  deriving DecidableEq

/-- The names of the variables or axes in a mapping and a viewer (datafile.py 253-257, 259-263). -/
def subsetKeys {ν μ : Type} (m : AMap Str ν) (members : Dict Str μ) : SubsetKeys := ⟨flatKeys m, m.keys, members.keys⟩

/-- A dataset interface (datafile.py 212-217): what its viewers show, and the mappings that were already built. -/
structure State (δ : Type) where
  varMembers : Dict Str (Raw δ)
  axisMembers : Dict Str (Option Nat)
  varMap : Option (AMap Str (Var δ))
  axisMap : Option (AMap Str Axis)

/-- A new interface. -/
def State.new (vs : Dict Str (Raw δ)) (as : Dict Str (Option Nat)) : State δ := ⟨vs, as, none, none⟩

/-- `variables` (datafile.py 220-227). -/
def State.getVariables (groups : List (Aliased.Group Str)) (s : State δ) : AMap Str (Var δ) × State δ :=
  match s.varMap with
  | some m => (m, s)
  | none => (variablesOf groups s.varMembers, { s with varMap := some (variablesOf groups s.varMembers) })

/-- `axes` (datafile.py 241-248). -/
def State.getAxes (groups : List (Aliased.Group Str)) (s : State δ) : AMap Str Axis × State δ :=
  match s.axisMap with
  | some m => (m, s)
  | none => (axesOf groups s.axisMembers, { s with axisMap := some (axesOf groups s.axisMembers) })

/-- `available` (datafile.py 250-263). -/
def State.available (groups : List (Aliased.Group Str)) (s : State δ) (key : Str) : Option SubsetKeys × State δ :=
  if key ∈ [c!"variable", c!"variables"] then
    (some (subsetKeys (s.getVariables groups).1 s.varMembers), (s.getVariables groups).2)
  else if key ∈ [c!"axis", c!"axes", c!"dimension", c!"dimensions"] then
    (some (subsetKeys (s.getAxes groups).1 s.axisMembers), (s.getAxes groups).2)
  else (none, s)

/-- `use(variables=…)` (datafile.py 265-268) with a viewer that shows other members. -/
def State.useVariables (s : State δ) (vs : Dict Str (Raw δ)) : State δ := { s with varMembers := vs }

/-! ## Variable quantities -/

/-- A `variable.Quantity` (variable.py 459-506). -/
structure Qty (δ U : Type) where
  data : δ
  shape : List Nat
  dimensions : List Str
  unit : U
  deriving DecidableEq

/-- The name of axis `i` if no names are given (variable.py 494). -/
def defaultNames (n : Nat) : List Str := (List.range n).map (fun i => 'x' :: (Nat.repr i).toList)

/-- `variable.Quantity(data, dimensions=…, unit=…)` (variable.py 479-506): `parse` reads a unit. -/
def newQty (parse : Str → Res U) (data : δ) (shape : List Nat) (dims : List Str) (unit : Str) : Res (Qty δ U) := do
  let u ← parse (if unit = [] then c!"1" else unit)
  let names := if dims = [] then defaultNames shape.length else dims
  if names.length ≠ shape.length then throw .valueError
  return ⟨data, shape, names, u⟩

/-- `Variables.build` (eprem/__init__.py 50-61).  `convert name u` is the unit to which a variable is converted.  The test `'/' in unit` in
`standardize` (eprem/__init__.py 86) is a `TypeError` if there is no unit. -/
def buildEprem (parse : Str → Res U) (convert : Str → U → Res U) (v : Var δ) : Res (Qty δ U) :=
  match v.unit with
  | none => .error .typeError
  | some unit => do
    let q ← newQty parse v.data v.shape v.dimensions (Eprem.standardize unit)
    return { q with unit := ← convert v.name q.unit }

/-- `variable.Interface.build` (variable.py 678-699): a dataset variable has no attribute `axes`. -/
def buildBase (_v : Var δ) : Res (Qty δ U) := .error .attributeError

/-- The truth value of a quantity is that of its length (variable.py 76-82), which an array without axes does not have. -/
def truth (q : Qty δ U) : Res Bool :=
  match q.shape with
  | [] => .error .typeError
  | n :: _ => .ok (n ≠ 0)

/-- `variable.Interface.__getitem__` (variable.py 665-676): the result and the new cache. -/
def lookup (build : Var δ → Res (Qty δ U)) (m : AMap Str (Var δ)) (cache : Dict Str (Qty δ U)) (key : Str) :
    Res (Qty δ U) × Dict Str (Qty δ U) :=
  match cache.get? key with
  | some q => (.ok q, cache)
  | none =>
    match (do
      let v ← Aliased.getItem m key
      let q ← build v
      return (q, ← truth q)) with
    | .error e => (.error e, cache)
    | .ok (_, false) => (.error .keyError, cache)
    | .ok (q, true) => (.ok q, cache.set key q)

/-- The cache after a number of lookups. -/
def lookups (build : Var δ → Res (Qty δ U)) (m : AMap Str (Var δ)) (keys : List Str) : Dict Str (Qty δ U) :=
  keys.foldl (fun c k => (lookup build m c k).2) []

end Verif.Datasets
