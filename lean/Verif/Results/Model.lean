import Verif.Py.Basic
import Verif.Py.Chars
import Verif.Iterables.Model
import Verif.Shapes.Registry

/-!
# Observable quantities, their parameters, and observations

`observing.Parameters`, `observing.Observation`, `observing.Observable` (observing.py 26-246, 455-575), `observed.Quantity`
(observed.py 12-92), and the parts of the EPREM context that collect the parameters of an observation
(eprem/__init__.py 375-443).
-/

namespace Verif.Results

open Verif.Py Verif.Iterables
open Verif.Metric (Str)

/-! ## `Parameters` -/

/-- `Parameters(*names)` for strings (observing.py 29-39): the attribute `_names`, a list. -/
def newParameters (names : List Str) : List Str := unique names

/-- What a `Parameters` object is compared with. -/
inductive Other where
  | params (names : List Str)
  | str (s : Str)
  | seq (names : List Str)

/-- `Parameters.__eq__` (observing.py 74-88).  A string is iterable too. -/
def paramEq (self : List Str) : Other → Bool
  | .params names => names = self || (names.length = self.length && names.all (· ∈ self))
  | .str s => (self.length = 1 && some s = self[0]?) || (s.length = self.length && s.all (fun c => [c] ∈ self))
  | .seq names => names.length = self.length && names.all (· ∈ self)

/-- `Parameters.__hash__` (observing.py 90-92): the attribute is a list, which has no hash. -/
def paramHash (_self : List Str) : Res Nat := .error .typeError

/-- `Parameters.merge` (observing.py 53-59) with parameters or other objects (`none`); also `*` and `/`.  `order` is the order
in which the interpreter iterates over `set(names)`. -/
def merge (order : List Str → List Str) (a : List Str) (others : List (Option (List Str))) : List Str :=
  newParameters (order (a ++ (others.map (·.getD [])).flatten))

/-- `Parameters.__add__`, `__sub__` (observing.py 48-51, metadata.py 467-474). -/
def paramAdd (a : List Str) : Option (List Str) → Res (List Str)
  | some b => if paramEq b (.params a) then .ok a else .error .typeError
  | none => .ok a

/-! ## `Observation` -/

section
variable {D I X A : Type}

/-- An `Observation` (observing.py 132-168): its observed quantity, the indices of its axes by name, and the assumptions. -/
structure Obs (D I A : Type) where
  data : D
  indices : Dict Str I
  assumptions : Option (Dict Str A)

/-- The attribute `_axes` (observing.py 139-160): an array of axis values for each index that is not empty.  The indices are a
dictionary, as given by the EPREM context; `empty` and `array` are the length zero and `physical.Array(index.values, ...)`. -/
def Obs.axes (empty : I → Bool) (array : I → X) (o : Obs D I A) : Dict Str X :=
  (o.indices.filter (fun e => ! empty e.2)).map (fun e => (e.1, array e.2))

/-- What `observation[x]` gives. -/
inductive Found (D I X A : Type) where
  | axis (x : X)
  | assumption (a : A)
  | observation (o : Obs D I A)

/-- `Observation.__getitem__` (observing.py 207-226) for a string; `convert` is `data[unit]`. -/
def Obs.get (empty : I → Bool) (array : I → X) (convert : D → Str → Res D) (o : Obs D I A) (x : Str) :
    Res (Found D I X A) :=
  match (o.axes empty array).get? x with
  | some a => .ok (.axis a)
  | none =>
    match o.assumptions with
    | none => .error .typeError
    | some as =>
      match as.get? x with
      | some a => .ok (.assumption a)
      | none => do
        let d ← convert o.data x
        return .observation ⟨d, o.indices, o.assumptions⟩

/-- `Observation.parameters` (observing.py 190-195). -/
def Obs.parameters (o : Obs D I A) : Res (List Str) :=
  match o.assumptions with
  | none => .error .typeError
  | some as => .ok as.keys

/-- `observed.Quantity.__getitem__` (observed.py 55-74) for a string: here the axes are the indices themselves, and the data are
not converted. -/
def Obs.getObserved (o : Obs D I A) (x : Str) : Res (Found D I I A) :=
  match o.indices.get? x with
  | some a => .ok (.axis a)
  | none =>
    match o.assumptions with
    | none => .error .typeError
    | some as =>
      match as.get? x with
      | some a => .ok (.assumption a)
      | none => .ok (.observation o)

/-- `a == b` for two `Observation` objects with the given identities (observing.py 228-235): neither is an
`observing.Quantity`, so that both methods give `NotImplemented`, and Python compares identities. -/
def Obs.equal (a b : Nat × Obs D I A) : Bool := a.1 = b.1

/-- `a == b` for two `observed.Quantity` objects (observed.py 76-83); `dataEq` compares the data.  There is no attribute
`indices`. -/
def Obs.equalObserved (dataEq : D → D → Bool) (a b : Obs D I A) : Res Bool :=
  if ¬ dataEq a.data b.data then .ok false else .error .attributeError

end

/-! ## `Observable` -/

/-- What a context knows about a name: attributes of a variable or function under this name.  Variables have no attribute
`parameters` (`none`). -/
structure Known (U : Type) where
  unit : U
  dimensions : List Str
  parameters : Option (List Str)

/-- An `Observable` (observing.py 455-575): a name, and the unit it was given, if any. -/
structure Observable (U : Type) where
  name : Str
  unit : Option U

section
variable {U : Type}

/-- `Context.get_parameters` (observing.py 393-395) with `get_metadata` (404-415): for an expression of several terms,
`built *= None ** exponent`, or the same with a tuple, raises `TypeError`.  `terms` are the bases of the terms of the name as an
expression; the coefficient and exponent of a single term do not matter. -/
def getParameters (known : Str → Option (Known U)) (terms : Str → Res (List Str)) (name : Str) : Res (List Str) :=
  let found := (known name).bind (·.parameters)
  match found with
  | some (p :: ps) => .ok (newParameters (p :: ps))
  | _ => do
    match ← terms name with
    | [] => .error .indexError
    | [base] => .ok (newParameters (((known base).bind (·.parameters)).getD []))
    | _ => .error .typeError

/-- `Observable.__eq__` (observing.py 558-565): the unit, the dimensions and the parameters are compared in this order until two of
them differ.  `unitOf` and `dimsOf` are those of the context (C101, C56). -/
def Observable.equal (ueq : U → U → Bool) (deq : List Str → List Str → Bool) (unitOf : Str → Res U)
    (dimsOf : Str → Res (List Str)) (paramsOf : Str → Res (List Str)) (a b : Observable U) : Res Bool := do
  let ua ← match a.unit with | some u => .ok u | none => unitOf a.name
  let ub ← match b.unit with | some u => .ok u | none => unitOf b.name
  if ¬ ueq ua ub then return false
  if ¬ deq (← dimsOf a.name) (← dimsOf b.name) then return false
  return paramEq (← paramsOf a.name) (.params (← paramsOf b.name))

end

/-! ## Parameters of an EPREM observation -/

/-- The names an EPREM context knows: variables, functions with their arguments, and constants. -/
structure Names where
  arrays : List Str
  functions : Dict Str (List Str)
  constants : List Str

/-- `get_observable` (eprem/__init__.py 424-435): the parameters of the `observing.Quantity`.  Variables have none, and a function
those of its arguments that are constants; the parameters of what the arguments are computed from are not included, since
`compute` gives a `variable.Quantity`. -/
def Names.reported (N : Names) (key : Str) : List Str :=
  if key ∈ N.arrays then []
  else match N.functions.get? key with
    | some args => newParameters (args.filter (· ∈ N.constants))
    | none => []

/-- `_build` (eprem/__init__.py 395-411): the parameters of a product are merged; a single term keeps its own. -/
def Names.build (order : List Str → List Str) (N : Names) : List Str → List Str
  | [] => []
  | base :: rest => rest.foldl (fun acc b => merge order acc [some (N.reported b)]) (N.reported base)

/-- `get_dependency` (eprem/__init__.py 418-422), as it is used by `compute`: an argument that is a variable or function is observed,
any other is looked up among the constants. -/
def Names.observable (N : Names) (key : Str) : Bool := key ∈ N.arrays || (N.functions.get? key).isSome

end Verif.Results
