import Verif.Metric.Tables
import Verif.Aliased.Model
import Mathlib.Algebra.Field.Rat

/-!
# Model of named units in `src/goats/core/metric.py`
-/

namespace Verif.Metric

open Verif.Py Verif.Aliased

/-- `build_unit_aliases` (metric.py 915-920). -/
def aliasesOf (p : Prefix) (u : BaseUnit) : List Str :=
  [p.name ++ u.name, p.symbol ++ u.symbol] ++ (if p.symbol = c!"μ" then [c!"u" ++ u.symbol] else [])

/-- A prefix and a base unit: the attributes of a `NamedUnit` (metric.py 1111-1183). -/
structure NamedUnit where
  pre : Prefix
  base : BaseUnit
  deriving DecidableEq

/-- `NamedUnit.name` (metric.py 1184-1189). -/
def NamedUnit.name (u : NamedUnit) : Str := u.pre.name ++ u.base.name

/-- `NamedUnit.symbol` (metric.py 1191-1196). -/
def NamedUnit.symbol (u : NamedUnit) : Str := u.pre.symbol ++ u.base.symbol

/-- `NamedUnit.scale` (metric.py 1198-1203). -/
def NamedUnit.scale (u : NamedUnit) : Rat := u.pre.factor

/-- `NamedUnit.quantity` (metric.py 1205-1210). -/
def NamedUnit.quantity (u : NamedUnit) : Str := u.base.quantity

/-- All pairs of a prefix and a base unit, in the order of the comprehension
(metric.py 924-929). -/
def allUnits : List NamedUnit := prefixes.flatMap (fun p => units.map (fun u => ⟨p, u⟩))

/-- `named_units` (metric.py 924-929). -/
def namedUnits : AMap Str NamedUnit :=
  buildFromAliases (allUnits.map (fun u => (.inr (aliasesOf u.pre u.base), u)))

/-- `identify` (metric.py 1032-1062), with the table `named_units` as an argument. -/
def identifyIn (table : AMap Str NamedUnit) (s : Str) : Res NamedUnit :=
  match getItem table s with
  | .ok u => .ok u
  | .error _ => .error (.named "UnitParsingError")

/-- `identify` (metric.py 1032-1062). -/
def identify (s : Str) : Res NamedUnit := identifyIn namedUnits s

/-- `ratio(this, that)` for named units (metric.py 1480-1532). -/
def ratio (u v : NamedUnit) : Res Rat :=
  if v = u then .ok 1
  else if v.base ≠ u.base then .error .valueError
  else if v.scale = 0 then .error .zeroDivision
  else .ok (u.scale / v.scale)

/-- `NamedUnit.__floordiv__` (metric.py 1434-1457). -/
def NamedUnit.floordiv (u v : NamedUnit) : Res Rat := ratio v u

/-! ## The singleton cache -/

/-- `_NamedUnitMeta.__call__` with a string (metric.py 1078-1108), with `identify` as an argument:
the instance and the new contents of `_instances`. -/
def callIn (ident : Str → Res NamedUnit) (cache : AMap Str NamedUnit) (s : Str) :
    AMap Str NamedUnit × Res NamedUnit :=
  match getItem cache s with
  | .ok u => (cache, .ok u)
  | .error _ =>
    match ident s with
    | .error e => (cache, .error e)
    | .ok u => (setTuple cache [u.name, u.symbol] u, .ok u)

/-- `_NamedUnitMeta.__call__` with a string (metric.py 1078-1108). -/
def callNamed (cache : AMap Str NamedUnit) (s : Str) : AMap Str NamedUnit × Res NamedUnit :=
  callIn identify cache s

/-- The cache after a history of calls, from the empty cache. -/
def cacheAfter (history : List Str) : AMap Str NamedUnit :=
  history.foldl (fun c s => (callNamed c s).1) []

end Verif.Metric
