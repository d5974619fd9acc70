import Verif.Systems.Model

/-!
# Model of reductions, dimensions, quantities and systems in `src/goats/core/metric.py`

`Metric/Dims.lean` has the reduction of a named unit; here is what can be done with the result. The text of a number
(`str(x)`) is an argument, so that the theorems hold for any numbers whose text can be read back.
-/

namespace Verif.Reductions

open Verif.Py Verif.Symbolic Verif.Metric Verif.Systems

/-! ## Arithmetic of reductions -/

section Arithmetic
variable (num : Rat → Res Str)

/-- `x * expression` for a number: `Expression.__rmul__` makes an expression of the text of the number
(symbolic.py 1582-1584, 1321-1330). -/
def scaleBy (x : Rat) (e : List Term) : Res (List Term) := do exprMul (← ofString (← num x)) e

/-- `Reduction.__init__` (metric.py 980-989). -/
def init (terms : List Term) (scale : Rat) : Res Reduction := do
  return ⟨← scaleBy num scale (← ofTerms terms), scale⟩

/-- `Reduction.__mul__` and `__rmul__` (metric.py 1001-1010). -/
def mul (r : Reduction) (x : Rat) : Res Reduction := do
  let scale := r.scale * x
  init num (← scaleBy num scale r.terms) scale

/-- `Reduction.__truediv__` (metric.py 1012-1018). -/
def div (r : Reduction) (x : Rat) : Res Reduction := do
  if x = 0 then .error .zeroDivision
  let scale := r.scale / x
  init num (← scaleBy num scale r.terms) scale

/-- `Reduction.__pow__` (metric.py 1020-1026). -/
def pow (r : Reduction) (p : Rat) : Res Reduction := do
  let scale ← powCoef r.scale p
  init num (← scaleBy num scale (← exprPow r.terms p)) scale

end Arithmetic

/-! ## `reduction` -/

section Reduce
variable (num : Rat → Res Str) (b : Book)

/-- `NamedUnit.reduce(system)` (metric.py 1273-1303), for a system or `None`. The cache does not change the result. -/
def reduceTo (system : Option System) (u : NamedUnit) : Res (Option Reduction) :=
  match system with
  | some s => reduceIn b s u
  | none => reduceUnit b u

/-- The exceptions that the loop of `reduction` catches (metric.py 2801-2805). -/
def orNone : Res (Option Reduction) → Res (Option Reduction)
  | .ok r => .ok r
  | .error (.named "UnitParsingError") => .ok none
  | .error (.named "SystemAmbiguityError") => .ok none
  | .error e => .error e

/-- One term of the loop of `reduction` (metric.py 2800-2807). -/
def reduceTerm (system : Option System) (t : Term) : Res (Option Reduction) := do
  match ← orNone (do reduceTo b system (← b.ident t.base)) with
  | some r => return some (← pow num r t.exp)
  | none => return none

/-- The loop that combines the reductions (metric.py 2810-2813). -/
def combine (r : Reduction) : List Reduction → Res Reduction
  | [] => .ok r
  | s :: rest => do combine (← mul num r s.scale) rest

/-- `reduction(unit, system)` (metric.py 2791-2813), for an expression. -/
def reductionOf (system : Option System) (unit : List Term) : Res (Option Reduction) := do
  match (← unit.mapM (reduceTerm num b system)).filterMap id with
  | [] => return none
  | r :: rest => return some (← combine num r rest)

end Reduce

/-! ## `Dimension.quantities` -/

/-- `Dimension.quantities(system)` (metric.py 2394-2401): the keys whose value compares equal. A string compares with a
`Dimension` as an expression does. The cache does not change the result. -/
def quantitiesOf (table : List (Str × PerSystem Str)) (s : System) (d : List Term) : Res (List Str) := do
  return (← table.mapM (fun e => do return (e.1, exprEq d (← ofString (e.2.get s))))).filterMap
    (fun p => if p.2 then some p.1 else none)

/-! ## `Dimensions` -/

/-- The names of the systems. -/
def systemNames : List Str := [c!"mks", c!"cgs"]

/-- An argument of `Dimensions`: `None`, or a string. -/
abbrev Arg := Option Str

/-- `Dimension(a) if a else default` (metric.py 2442-2446). -/
def dimensionOr (default : Option (List Term)) (a : Arg) : Res (Option (List Term)) :=
  match a with
  | none => .ok default
  | some s => if s = [] then .ok default else do return some (← ofString s)

/-- `Dimensions.__init__` and `_init_from` (metric.py 2415-2453); `systems` are the keyword arguments. -/
def dimensionsInit (common : Arg) (systems : List (Str × Arg)) : Res (Dict Str (Option (List Term))) := do
  let created : Dict Str (Option (List Term)) := systemNames.map (fun s => (s, none))
  let default ← dimensionOr none common
  let updates ← systems.mapM (fun p => do return (p.1, ← dimensionOr default p.2))
  let created := created.update updates
  if created.values.any (·.isSome) then return created else .error .typeError

/-- `Dimensions.__getitem__` (metric.py 2461-2465). -/
def dimensionsGet (d : Dict Str (Option (List Term))) (key : Str) : Res (Option (List Term)) :=
  orKeyError (d.get? (lower key))

/-! ## Instances of `Quantity` and `System` -/

/-- An object of one of the two classes: its identity and its name. -/
structure Object where
  id : Nat
  name : Str
  deriving DecidableEq

/-- The instances of a class, and the number of objects created. -/
structure Instances where
  known : Dict Str Object
  count : Nat

/-- No instances. -/
def Instances.empty : Instances := ⟨[], 0⟩

/-- `Quantity(arg)` (metric.py 2533-2556) and `System(arg)` (metric.py 2630-2650) for a string; `valid` tells whether the
tables have the name, and otherwise the exception. -/
def getInstance (valid : Str → Res Unit) (c : Instances) (arg : Str) : Instances × Res Object :=
  let name := lower arg
  match c.known.get? name with
  | some o => (c, .ok o)
  | none =>
    match valid name with
    | .error e => (c, .error e)
    | .ok _ => (⟨c.known.set name ⟨c.count, name⟩, c.count + 1⟩, .ok ⟨c.count, name⟩)

/-- The instances after a series of calls. -/
def after (valid : Str → Res Unit) (c : Instances) (history : List Str) : Instances :=
  history.foldl (fun c arg => (getInstance valid c arg).1) c

/-- The other operand of `==`. -/
inductive Other where
  | text (s : Str)
  | object (o : Object)

/-- `Quantity.__eq__` (metric.py 2577-2591). -/
def quantityEq (o : Object) : Other → Bool
  | .text s => lower s = o.name
  | .object p => p.id = o.id

/-- `System.__eq__` (metric.py 2766-2771); with anything but a system, Python falls back to identity. -/
def systemEq (o : Object) : Other → Bool
  | .text _ => false
  | .object p => p.name = o.name

end Verif.Reductions
