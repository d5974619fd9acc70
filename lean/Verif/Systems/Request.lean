import Verif.Systems.Model

/-!
# Model of changing a unit by subscription

Five classes implement `object[unit]`, in five copies of the same few lines. The model keeps the copies apart.
-/

namespace Verif.Systems

open Verif.Py Verif.Symbolic Verif.Metric

/-- What changing a unit asks of `metric`: `==` (metric.py 2196-2252), `|` (metric.py 2254-2274), the factor `new // old`
(metric.py 2134-2170) and the norm (metric.py 2009-2025). -/
structure Rules where
  same : Str → Str → Res Bool
  consistent : Str → Str → Res Bool
  /-- The factor from the first unit to the second. -/
  factor : Str → Str → Res Rat
  norm : Str → Res (PerSystem Str)

/-- The requested unit: `self.unit.norm[arg] if str(arg).lower() in metric.SYSTEMS else arg` (measurable.py 205-208,
variable.py 581-584, index.py 171-174, axis.py 152-155, observing.py 517-520). -/
def requested (R : Rules) (unit arg : Str) : Res Str :=
  if lower arg = c!"mks" ∨ lower arg = c!"cgs" then do
    let n ← R.norm unit
    if arg = c!"mks" then .ok n.mks else if arg = c!"cgs" then .ok n.cgs else .error .keyError
  else .ok arg

/-- Values with a unit. `array` tells a numpy array from a tuple. -/
structure Held where
  unit : Str
  values : List Rat
  array : Bool
  deriving DecidableEq

/-- Values times a number: a tuple times a `float` raises `TypeError`. -/
def Held.times (h : Held) (f : Rat) : Res (List Rat) :=
  if h.array then .ok (h.values.map (· * f)) else .error .typeError

/-- `measurable.Quantity.__getitem__` (measurable.py 197-236), for data that are an array. -/
def measurableGet (R : Rules) (h : Held) (arg : Str) : Res Held := do
  let u ← requested R h.unit arg
  if ← R.same u h.unit then return h
  else if ← R.consistent h.unit u then return { h with unit := u, values := ← h.times (← R.factor h.unit u) }
  else .error .valueError

/-- `variable.Quantity._update_unit` (variable.py 571-600), with the scale factor applied. -/
def variableGet (R : Rules) (h : Held) (arg : Str) : Res Held := do
  let u ← requested R h.unit arg
  if ← R.same u h.unit then return h
  else if ¬ (← R.consistent h.unit u) then .error .valueError
  else
    let f ← R.factor h.unit u
    return { h with unit := u, values := ← h.times f }

/-- `index.Array.__getitem__` with a unit (index.py 147-186): the values are converted before the units are compared. -/
def indexGet (R : Rules) (h : Held) (arg : Str) : Res Held := do
  let u ← requested R h.unit arg
  if ← R.same u h.unit then return h
  else
    let vs ← h.times (← R.factor h.unit u)
    if ← R.consistent h.unit u then return { h with unit := u, values := vs } else .error .valueError

/-- The unit after `axis.Quantity.__getitem__` (axis.py 130-163): the values are computed later, in that unit. -/
def axisGet (R : Rules) (unit arg : Str) : Res Str := do
  let u ← requested R unit arg
  if ← R.same u unit then return unit
  else if ← R.consistent unit u then return u
  else .error .valueError

/-- The unit after `Observable.__getitem__` (observing.py 515-524), which does not compare the units. -/
def observableGet (R : Rules) (unit arg : Str) : Res Str := do
  let u ← requested R unit arg
  if ← R.same u unit then return unit else return u

/-- The rules of the module. -/
def actualRules (limit : Nat) : Rules :=
  ⟨actualUnitEq, actualOr, actualConversion tableOrder, fun u => do
    let n ← norm actualBook (lookupUnits limit) (← ofString u)
    return ⟨exprStr n.mks, exprStr n.cgs⟩⟩

end Verif.Systems
