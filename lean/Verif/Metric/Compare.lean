import Verif.Metric.Dims
import Verif.Metric.Lookup

/-!
# Model of comparisons of named units, and of `conversion`, in `src/goats/core/metric.py`
-/

namespace Verif.Metric

open Verif.Py Verif.Symbolic

/-- What a named unit may be compared with: another, or the text of anything else. -/
inductive Other where
  | unit (u : NamedUnit)
  | text (s : Str)

/-- `type(self)(other)`: an instance is returned as is; anything else is looked up by its text
(metric.py 1077-1107; the cache of instances is in `callNamed`, which is `identify` by C72). -/
def Other.toUnit : Other → Res NamedUnit
  | .unit u => .ok u
  | .text s => identify s

/-- `NamedUnit.__eq__` (metric.py 1423-1428). -/
def NamedUnit.eqTo (u : NamedUnit) (o : Other) : Res Bool := do
  let that ← o.toUnit
  return decide (u.pre = that.pre) && decide (u.base = that.base)

/-- `NamedUnit.__hash__` (metric.py 1430-1432), for any way to hash pairs. -/
def NamedUnit.hashBy (hash : BaseUnit × Prefix → Int) (u : NamedUnit) : Int := hash (u.base, u.pre)

/-- `ratio(this, that)` for names (metric.py 1480-1532): texts are looked up. -/
def ratioOf (s t : Str) : Res Rat := do ratio (← identify s) (← identify t)

/-- `conversion(u0, u1, strict)` (metric.py 2288-2361), given `float(Conversion(str(u0), str(u1)))`. -/
def orNone {K : Type _} (strict : Bool) (factor : Res K) : Res (Option K) :=
  match factor with
  | .ok f => .ok (some f)
  | .error e =>
    if e = .named "UnitConversionError" then
      if strict then .error e else .ok none
    else .error e

/-- `Unit.__floordiv__` for a text or unit (metric.py 2133-2183). -/
def unitFloordiv {K : Type _} (conv : Str → Str → Res K) (self other : Str) : Res (Option K) :=
  orNone true (conv other self)

/-- `Unit.__rfloordiv__` for a text or unit (metric.py 2185-2198). -/
def unitRFloordiv {K : Type _} (conv : Str → Str → Res K) (self other : Str) : Res (Option K) :=
  orNone true (conv self other)

end Verif.Metric
