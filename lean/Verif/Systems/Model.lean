import Verif.Metric.UnitProps
import Verif.Metric.ConversionProps

/-!
# Model of unit norms, metric systems and consistency in `src/goats/core/metric.py`

As in `Metric/Dims.lean`, the definitions take the tables (`Book`) and the way in which factors are computed as arguments.
The cache of `Unit` instances is modelled separately (`Systems/Cache.lean`): here, `Unit(x)` is a new expression.
-/

namespace Verif.Systems

open Verif.Py Verif.Symbolic Verif.Metric

/-! ## `Unit.quantity` and `Unit.norm` -/

/-- The quantity of a named unit as a base of a term (metric.py 2032-2034). -/
def quantityName (u : NamedUnit) : Name := pyReplace u.quantity c!" " c!"_"

/-- One term of `Unit.quantity` (metric.py 2031-2036). -/
def quantityTerm (b : Book) (t : Term) : Res Term := do
  (mkOperand 1 (quantityName (← b.ident t.base)) 1).pow t.exp

/-- `Unit.quantity` (metric.py 2027-2038). -/
def unitQuantity (b : Book) (unit : List Term) : Res (List Term) := do
  ofTerms (← unit.mapM (quantityTerm b))

/-- `standard(expressions, joiner=' * ')` (symbolic.py 1301-1332) for expressions. -/
def standardExprs (es : List (List Term)) : Str :=
  join c!" * " (es.map (fun e => c!"(" ++ exprStr e ++ c!")"))

/-- `symbolic.power(UNITS[term.base][system], term.exponent)` (metric.py 2021; symbolic.py 1738-1740); `get` is the lookup
in `UNITS`. -/
def normTerm (get : Str → Res (PerSystem Str)) (s : System) (t : Term) : Res (List Term) := do
  exprPow (← ofString ((← get t.base).get s)) t.exp

/-- The entry of `Unit.norm` for one system (metric.py 2020-2023), given the quantity of the unit. -/
def normIn (get : Str → Res (PerSystem Str)) (quantity : List Term) (s : System) : Res (List Term) := do
  ofString (standardExprs (← quantity.mapM (normTerm get s)))

/-- `Unit.norm` (metric.py 2009-2025): the entries for both systems are computed together. The order of the systems is that
of a `set`; here `mks` is first. -/
def norm (b : Book) (get : Str → Res (PerSystem Str)) (unit : List Term) : Res (PerSystem (List Term)) := do
  let q ← unitQuantity b unit
  return ⟨← normIn get q .mks, ← normIn get q .cgs⟩

/-- `UNITS[q]` (metric.py 824-851, 896), with the recursion limit of the interpreter. -/
def lookupUnits (limit : Nat) : Str → Res (PerSystem Str) := getProperty quantities .units limit

/-- `DIMENSIONS[q]` (metric.py 824-851, 889), with the recursion limit of the interpreter. -/
def lookupDims (limit : Nat) : Str → Res (PerSystem Str) := getProperty quantities .dimensions limit

/-- `Unit(string).norm[system]`, formatted. -/
def normText (b : Book) (limit : Nat) (s : System) (unit : Str) : Res Str := do
  return exprStr ((← norm b (lookupUnits limit) (← ofString unit)).get s)

/-! ## `System` -/

/-- An argument of `System.get_unit`: a string, or an object that formats as an expression. -/
inductive Target where
  | text (s : Str)
  | expr (ts : List Term)
  deriving DecidableEq

/-- `str(arg)`. -/
def Target.str : Target → Str
  | .text s => s
  | .expr ts => exprStr ts

/-- `Unit(target)` and `Expression(target)`. -/
def Target.terms : Target → Res (List Term)
  | .text s => ofString s
  | .expr ts => .ok ts

/-- `if v` in `_get_unit` (metric.py 2722): the empty string is false; an expression has terms. -/
def Target.truthy : Target → Bool
  | .text s => s ≠ []
  | .expr ts => ts ≠ []

/-- `dimension == target` (metric.py 2757) for a canonical dimension, which is a string: strings are compared as such; a
`Dimension` parses the string. -/
def sameAs (dimension : Str) : Target → Res Bool
  | .text s => .ok (dimension = s)
  | .expr ts => do return exprEq ts (← ofString dimension)

/-- `_unit_from_dimension` (metric.py 2751-2758), over the entries of the table of canonical dimensions. -/
def searchDimension (units : Str → Option (PerSystem Str)) (s : System) (target : Target) :
    List (Str × PerSystem Str) → Res (Option (List Term))
  | [] => .ok none
  | (q, d) :: rest => do
    if ← sameAs (d.get s) target then
      return some (← ofString ((← orKeyError (units q)).get s))
    else searchDimension units s target rest

/-- `str.lower()` for the letters of names of quantities. -/
def lower (s : Str) : Str := s.map Char.toLower

/-- `Quantity(name)[system].unit` (metric.py 2534-2562): both properties of the quantity are looked up. -/
def quantityUnit (limit : Nat) (s : System) (name : Str) : Res (List Term) := do
  let u ← lookupUnits limit (lower name)
  let _ ← lookupDims limit (lower name)
  ofString (u.get s)

/-- The three ways to find a unit (metric.py 2742-2765). -/
inductive Way where
  | unit | dimension | quantity
  deriving DecidableEq

/-- What the method for one keyword returns (metric.py 2742-2765). -/
def method (b : Book) (limit : Nat) (s : System) (w : Way) (target : Target) : Res (Option (List Term)) :=
  match w with
  | .unit => do return some ((← norm b (lookupUnits limit) (← target.terms)).get s)
  | .dimension => searchDimension b.units s target canonicalDimensions
  | .quantity => do return some (← quantityUnit limit s target.str)

/-- The loop of `_get_unit` (metric.py 2724-2728) and the exception after it (2729-2731). -/
def tryWays (b : Book) (limit : Nat) (s : System) : List (Way × Target) → Res (List Term)
  | [] => .error (.named "SearchError")
  | (w, target) :: rest =>
    if target.str = one then do ofString (exprStr (← quantityUnit limit s c!"identity"))
    else do
      match ← method b limit s w target with
      | some u => return u
      | none => tryWays b limit s rest

/-- `System.get_unit` (metric.py 2669-2731): the arguments in the order in which they are tried, without those that are
`None` or false. -/
def getUnit (b : Book) (limit : Nat) (s : System) (unit dimension quantity : Option Target) : Res (List Term) :=
  tryWays b limit s ((([(Way.unit, unit), (Way.dimension, dimension), (Way.quantity, quantity)].filterMap
    (fun p => p.2.map (fun t => (p.1, t))))).filter (fun p => p.2.truthy))

/-! ## Consistency -/

/-- `d == defined` for an entry of `Dimensions` (metric.py 2267; symbolic.py 1547-1566): `None` is compared by the right
operand, which makes an expression of it. -/
def looseEq (d : Option (List Term)) (defined : List Term) : Res Bool :=
  match d with
  | some e => .ok (exprEq e defined)
  | none => do return exprEq defined (← ofString one)

/-- `Unit.dimensions` (metric.py 2058-2063). -/
def unitDimensions (b : Book) (u : List Term) : Res (PerSystem (Option (List Term))) := do
  return ⟨← unitDimension b u .mks, ← unitDimension b u .cgs⟩

/-- `any(d == defined for d in given)` unless `defined` is `None` (metric.py 2265-2268). -/
def matchesAny (given : PerSystem (Option (List Term))) : Option (List Term) → Res Bool
  | none => .ok false
  | some defined => do
    if ← looseEq given.mks defined then return true
    else looseEq given.cgs defined

/-- Whether a factor exists; only `UnitConversionError` is caught (metric.py 2269-2274). -/
def factorExists : Res Rat → Res Bool
  | .ok _ => .ok true
  | .error (.named "UnitConversionError") => .ok false
  | .error e => .error e

/-- `Unit.__or__` (metric.py 2254-2274); `conv` computes factors from strings. -/
def unitOr (b : Book) (conv : Str → Str → Res Rat) (u v : List Term) : Res Bool := do
  let du ← unitDimensions b u
  let dv ← unitDimensions b v
  if ← matchesAny dv du.mks then return true
  else if ← matchesAny dv du.cgs then return true
  else if exprEq (← unitQuantity b u) (← unitQuantity b v) then return true
  else factorExists (conv (exprStr v) (exprStr u))

/-- `Unit(u) | Unit(v)` with the tables of the module. -/
def actualOr (u v : Str) : Res Bool := do
  unitOr actualBook (actualConversion tableOrder) (← ofString u) (← ofString v)

/-- `_validate_unit` (measurable.py 214-224) and then the factor of `apply_unit` (measurable.py 226-236): the number by which
changing the unit from `u` to `v` multiplies a value. -/
def changeUnit (b : Book) (conv : Str → Str → Res Rat) (u v : List Term) : Res Rat := do
  if ← unitOr b conv u v then conv (exprStr u) (exprStr v) else .error .valueError

/-- `changeUnit` with the tables of the module. -/
def actualChange (u v : Str) : Res Rat := do
  changeUnit actualBook (actualConversion tableOrder) (← ofString u) (← ofString v)

/-! ## `Quantity` and `_Converter` -/

/-- The dimension of a quantity in a system: that of its canonical unit (metric.py 2482-2487). -/
def quantityDimension (b : Book) (s : System) (q : Str) : Res (Option (List Term)) := do
  unitDimension b (← ofString ((← orKeyError (b.units q)).get s)) s

/-- `!=` for two entries of `Dimensions` that may be `None` (symbolic.py 1547-1566). -/
def dimensionNe (x y : Option (List Term)) : Res Bool :=
  match x, y with
  | none, none => .ok false
  | some e, none => do return !exprEq e (← ofString one)
  | none, some e => do return !exprEq e (← ofString one)
  | some e, some f => .ok (!exprEq e f)

/-- `Quantity.__or__` (metric.py 2593-2610). -/
def quantityOr (b : Book) (q r : Str) : Res Bool := do
  if ← dimensionNe (← quantityDimension b .mks q) (← quantityDimension b .mks r) then return false
  else if ← dimensionNe (← quantityDimension b .cgs q) (← quantityDimension b .cgs r) then return false
  else return true

/-- `self._substitutions.get(unit) or unit` (metric.py 1884-1885, 1912). -/
def substitute (units : PerSystem Str) (unit : Str) : Str :=
  let known := if unit = c!"mks" then units.mks else if unit = c!"cgs" then units.cgs else []
  if known = [] then unit else known

/-- `_Converter(unit, quantity).to(target)` (metric.py 1874-1921), with the result of `UNITS[quantity]`. A failed
conversion raises before the test of `Conversion` (1915), which is an object and so always true. -/
def convertTo (conv : Str → Str → Res Rat) (units : PerSystem Str) (unit target : Str) : Res Rat :=
  let u0 := substitute units unit
  let u1 := substitute units target
  if u0 = u1 then .ok 1 else conv u0 u1

end Verif.Systems
