import Verif.Metric.Dims
import Verif.Metric.Lookup
import Verif.Metric.Conversions

/-!
# The tables of `src/goats/core/metric.py`, put together
-/

namespace Verif.Metric

open Verif.Py Verif.Symbolic

/-- A lookup in an evaluated property table. -/
def findProperty (table : List (Str × PerSystem Str)) (q : Str) : Option (PerSystem Str) :=
  (table.find? (fun e => e.1 = q)).map (·.2)

/-- The tables of the module, in a session in which no named unit was created before. -/
def actualBook : Book :=
  ⟨identify, findProperty canonicalUnits, findProperty canonicalDimensions⟩

/-- The same, in a form that is faster to evaluate. -/
def fastBook : Book :=
  ⟨fun s => orUnknown (lookupFast s), findProperty canonicalUnits, findProperty canonicalDimensions⟩

theorem actualBook_eq : actualBook = fastBook := by
  have h : identify = fun s => orUnknown (lookupFast s) := funext fun s => by
    rw [identify_eq, lookup_fast]
  rw [actualBook, fastBook, h]

section
variable {K : Type _} [Field K] [DecidableEq K]

/-- `env` in a form that is faster to evaluate. -/
def fastEnv (pi : K) (units : List Str) : Env Str BaseUnit K :=
  ⟨mkConns (declaredConversions pi), units, fun s => toNamed? (orUnknown (lookupFast s))⟩

theorem env_eq (pi : K) (units : List Str) : env pi units = fastEnv pi units := by
  have h : named (K := K) = fun s => toNamed? (orUnknown (lookupFast s)) := funext fun s => by
    rw [named, identify_eq, lookup_fast]
  rw [env, fastEnv, h]

end

/-- `x ** q` for rational numbers, where it is rational. -/
def powInt (x : Rat) (q : Rat) : Rat := x ^ q.num

/-- `float(Conversion(u0, u1))` with the tables of the module and exact numbers (metric.py
1580-1610); `units` is the order of the set of declared units. -/
def actualConversion (units : List Str) (u0 u1 : Str) : Res Rat :=
  conversion actualBook (env numpyPi units) powInt u0 u1

theorem actualConversion_eq (units : List Str) (u0 u1 : Str) :
    actualConversion units u0 u1 = conversion fastBook (fastEnv numpyPi units) powInt u0 u1 := by
  rw [actualConversion, actualBook_eq, env_eq]

end Verif.Metric
