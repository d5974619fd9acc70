import Verif.Metric.Convert
import Verif.Metric.Units
import Mathlib.Algebra.Field.Rat

/-!
# The declared conversions of `src/goats/core/metric.py`

The table is copied from the source by a script. The entries are elements of a field, with `pi` as a
parameter (Python: `numpy.pi`). Decimal fractions are exact (Python: rounded to floats).
-/

namespace Verif.Metric

open Verif.Py

section
variable {K : Type _} [Field K]

/-- `C` (metric.py 723). -/
def lightSpeed : K := 29979245800

/-- `_CONVERSIONS` (metric.py 729-765). -/
def declaredConversions (pi : K) : List ((Str × Str) × K) :=
  [((c!"F", c!"cm"), ((lightSpeed ^ 2) * (1 / 1000000000))),
   ((c!"C", c!"statC"), (10 * lightSpeed)),
   ((c!"e", c!"C"), (8011 / 50000000000000000000000)),
   ((c!"S", c!"cm / s"), ((lightSpeed ^ 2) * (1 / 100000))),
   ((c!"A", c!"statA"), (10 * lightSpeed)),
   ((c!"Gy", c!"erg / g"), 10000),
   ((c!"J", c!"erg"), 10000000),
   ((c!"eV", c!"J"), (8011 / 50000000000000000000000)),
   ((c!"N", c!"dyn"), 100000),
   ((c!"ohm", c!"s / cm"), (100000 / (lightSpeed ^ 2))),
   ((c!"H", c!"s^2 / cm"), (100000 / (lightSpeed ^ 2))),
   ((c!"au", c!"m"), 149597870700),
   ((c!"Wb", c!"Mx"), 100000000),
   ((c!"T", c!"G"), 10000),
   ((c!"A / m", c!"Oe"), ((4 * pi) * (1 / 1000))),
   ((c!"nuc", c!"kg"), (3321 / 2000000000000000000000000000000)),
   ((c!"amu", c!"kg"), (3321 / 2000000000000000000000000000000)),
   ((c!"H / m", c!"1"), ((10000000 / 4) * pi)),
   ((c!"F / m", c!"1"), ((36 * pi) * 1000000000)),
   ((c!"rad", c!"deg"), (180 / pi)),
   ((c!"V", c!"statV"), (1000000 / lightSpeed)),
   ((c!"W", c!"erg / s"), 10000000),
   ((c!"Pa", c!"dyn / cm^2"), 10),
   ((c!"Bq", c!"Ci"), (1 / 37000000000)),
   ((c!"A / Wb", c!"1 / cm"), ((4 * pi) * (1 / 1000000000))),
   ((c!"s", c!"min"), (1 / 60)),
   ((c!"s", c!"h"), (1 / 3600)),
   ((c!"s", c!"d"), (1 / 86400)),
   ((c!"Wb / m", c!"G * cm"), 1000000),
   ((c!"kg / (m * s)", c!"P"), 10)]

/-- The attributes of a named unit that the conversion search uses. -/
def NamedUnit.toNamed (u : NamedUnit) : Named Str BaseUnit K :=
  ⟨u.symbol, u.name, u.base, (u.scale : K)⟩

/-- `NamedUnit(s)` if `s in named_units` (metric.py 1078-1108), for the outcome of `identify`. -/
def toNamed? : Res NamedUnit → Option (Named Str BaseUnit K)
  | .ok u => some u.toNamed
  | .error _ => none

/-- `NamedUnit(s)` if `s in named_units` (metric.py 1078-1108, with no other units created before). -/
def named (s : Str) : Option (Named Str BaseUnit K) := toNamed? (identify s)

/-- The ends of declared conversions (metric.py 1680; iterables.py 1149-1152), in the order of the
table, with repetitions. -/
def declaredUnits (pi : K) : List Str :=
  (declaredConversions pi).flatMap (fun p => [p.1.1, p.1.2])

variable [DecidableEq K]

/-- The search of `Conversion` with the tables of the module; `units` is the order in which the set
of ends is iterated. -/
def env (pi : K) (units : List Str) : Env Str BaseUnit K :=
  ⟨mkConns (declaredConversions pi), units, named⟩

end

/-- `numpy.pi`, a double. -/
def numpyPi : Rat := 884279719003555 / 281474976710656

end Verif.Metric
