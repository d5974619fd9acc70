import Verif.Metric.Units
import Verif.Metric.Canonical
import Verif.Metric.Convert
import Verif.Symbolic.Parser

/-!
# Model of dimensions, decompositions and compound conversions in `src/goats/core/metric.py`

Everything is stated for arbitrary tables (`Book`), so that the proofs do not unfold the actual ones;
`Book.actual` in `Metric/Actual.lean` holds the tables of the module.
-/

namespace Verif.Metric

open Verif.Py Verif.Symbolic

/-- What the functions below look up. -/
structure Book where
  /-- `NamedUnit(s)` (metric.py 1032-1108). -/
  ident : Str → Res NamedUnit
  /-- `CANONICAL['units'][...][q]` (metric.py 902-912). -/
  units : Str → Option (PerSystem Str)
  /-- `DIMENSIONS[q]` (metric.py 891). -/
  dims : Str → Option (PerSystem Str)

/-- A dictionary lookup that raises `KeyError`. -/
def orKeyError {α : Type _} : Option α → Res α
  | some a => .ok a
  | none => .error .keyError

section NamedUnits
variable (b : Book)

/-- `CANONICAL['units'][system][self.quantity]`. -/
def canonicalUnit (s : System) (u : NamedUnit) : Res Str := do
  return (← orKeyError (b.units u.quantity)).get s

/-- `is_fundamental_in` (metric.py 1414-1421). -/
def isFundamentalIn (s : System) (u : NamedUnit) : Res Bool := do
  let canonical ← canonicalUnit b s u
  return u.symbol = canonical ∨ u.name = canonical

/-- Whether `NamedUnit(string)` exists and has the given base unit. -/
def sameBase (base : BaseUnit) : Res NamedUnit → Bool
  | .ok r => base = r.base
  | .error _ => false

/-- `is_defined_in` (metric.py 1403-1412). -/
def isDefinedIn (s : System) (u : NamedUnit) : Res Bool := do
  if ← isFundamentalIn b s u then return true
  let canonical ← canonicalUnit b s u
  return sameBase u.base (b.ident canonical)

/-- `systems['defined']` (metric.py 1213-1235), for both systems. -/
def definedIn (u : NamedUnit) : Res (PerSystem Bool) := do
  return ⟨← isDefinedIn b .mks u, ← isDefinedIn b .cgs u⟩

/-- `is_allowed_in` (metric.py 1383-1401), for both systems. -/
def allowedIn (u : NamedUnit) : Res (PerSystem Bool) := do
  let d ← definedIn b u
  return if d.mks ∨ d.cgs then d else ⟨true, true⟩

/-- `dimensions` (metric.py 1343-1360). `Expression(None)`, which stands for a missing dimension, is
the expression of the empty string. -/
def dimensionsOf (u : NamedUnit) : Res (PerSystem (List Term)) := do
  let d ← definedIn b u
  let dims ← orKeyError (b.dims u.quantity)
  return ⟨← ofString (if d.mks ∨ ¬ d.cgs then dims.mks else []),
    ← ofString (if d.cgs ∨ ¬ d.mks then dims.cgs else [])⟩

/-- `_resolve_system(None)` (metric.py 1282-1301). The comparisons with `None` (1293, 1296) are
always false, since the values are expressions. -/
def resolveSystem (u : NamedUnit) : Res System := do
  let m ← isFundamentalIn b .mks u
  let c ← isFundamentalIn b .cgs u
  if m ∧ ¬ c then return .mks
  else if c ∧ ¬ m then return .cgs
  else
    let d ← dimensionsOf b u
    if exprEq d.mks d.cgs then return .mks
    else .error (.named "SystemAmbiguityError")

/-- `_BASE_QUANTITIES.find(dimension)[0]['name']` and then `_QUANTITIES[name]['units'][system]`
(metric.py 1260-1267, 1329-1336). -/
def baseUnitOf (s : System) (dimension : Name) : Res Name :=
  match baseQuantities.find? (fun q => dimension ∈ [q.1, q.2.1, q.2.2]) with
  | none => .error .valueError
  | some q =>
    match findQuantity quantities q.1 with
    | some (.explicit _ units) => .ok (units.get s)
    | _ => .error .typeError

/-- The terms of a dimension with the base units of the system in place of the base dimensions
(metric.py 1260-1271, 1329-1340). -/
def inBaseUnits (s : System) (dimension : List Term) : Res (List Term) :=
  dimension.mapM (fun t => do return mkOperand 1 (← baseUnitOf s t.base) t.exp)

/-- `str(x)` for a float that is a power of ten: positional from `1e-4` to below `1e16`, scientific otherwise. -/
def powerStr (k : Int) : Str :=
  if 0 ≤ k ∧ k < 16 then c!"1" ++ List.replicate k.toNat '0' ++ c!".0"
  else if -4 ≤ k ∧ k < 0 then c!"0." ++ List.replicate (k.natAbs - 1) '0' ++ c!"1"
  else c!"1e" ++ (if 0 ≤ k then c!"+" else c!"-") ++ (if k.natAbs < 10 then c!"0" else []) ++ intStr k.natAbs

/-- The string that `symbolic.standard` makes of the scale of a unit (symbolic.py 1321-1330), which is zero or a power of
ten: the ratio of two prefixes. Zero is replaced by `'1'`, as is the empty string. -/
def scaleStr (x : Rat) : Res Str :=
  if x = 0 then .ok []
  else match ((List.range 97).map (fun n => (n : Int) - 48)).find? (fun k => (10 : Rat) ^ k = x) with
    | some k => .ok (powerStr k)
    | none => .error (.named "inexact")

/-- A `Reduction` (metric.py 977-998): the terms of its expression, and the scale. -/
structure Reduction where
  terms : List Term
  scale : Rat

/-- `Reduction.__init__` (metric.py 980-989). The number `scale` is formatted and parsed (symbolic.py 1582-1584). The
coefficient that results is not that of the code, where it is formatted as a fraction with a large denominator; nothing
depends on it here. -/
def mkReduction (terms : List Term) (scale : Rat) : Res Reduction := do
  return ⟨← exprMul (← ofString (← scaleStr scale)) (← ofTerms terms), scale⟩

/-- `Reduction.units` (metric.py 991-999). -/
def Reduction.units (r : Reduction) : List Term := r.terms.filter (fun t => t.base ≠ one)

/-- `_reduce(system)` (metric.py 1303-1341). -/
def reduceIn (s : System) (u : NamedUnit) : Res (Option Reduction) := do
  if ← isDefinedIn b s u then
    let e := (← dimensionsOf b u).get s
    if e.length = 1 then
      let canonical ← canonicalUnit b s u
      if u.symbol = canonical then return some (← mkReduction [mkOperand 1 u.symbol 1] 1)
      else return some (← mkReduction [mkOperand 1 canonical 1] (← ratio u (← b.ident canonical)))
    else return some (← mkReduction (← inBaseUnits s e) u.scale)
  else return none

/-- `reduce()` (metric.py 1273-1280). The cache does not change the result. -/
def reduceUnit (u : NamedUnit) : Res (Option Reduction) := do reduceIn b (← resolveSystem b u) u

/-- `_decompose(system)` (metric.py 1248-1271). -/
def decomposeIn (s : System) (u : NamedUnit) : Res (Option (List Term)) := do
  if ← isDefinedIn b s u then
    let e := (← dimensionsOf b u).get s
    if e.length = 1 then return some [mkOperand 1 u.symbol 1]
    else return some (← inBaseUnits s e)
  else return none

/-- `decomposed` (metric.py 1237-1246): in the first system in which the unit is fundamental. (The
order of the two systems is that of a `set`; here `mks` is first.) -/
def decomposedUnit (u : NamedUnit) : Res (Option (List Term)) := do
  if ← isFundamentalIn b .mks u then decomposeIn b .mks u
  else if ← isFundamentalIn b .cgs u then decomposeIn b .cgs u
  else return none

end NamedUnits

section Units
variable (b : Book)

/-- The result of decomposing one term, given that of decomposing its unit: only `UnitParsingError`
and `SystemAmbiguityError` are caught (metric.py 2110-2132). -/
def decomposeTermWith (t : Term) : Res (Option (List Term)) → Res (List Term)
  | .ok (some ts) => ts.mapM (fun u => u.pow t.exp)
  | .ok none => .ok [t]
  | .error (.named "UnitParsingError") => .ok [t]
  | .error (.named "SystemAmbiguityError") => .ok [t]
  | .error e => .error e

/-- `Unit._decompose` (metric.py 2110-2132). -/
def decomposeTerm (t : Term) : Res (List Term) :=
  decomposeTermWith t (do decomposedUnit b (← b.ident t.base))

/-- `Unit.decompose` (metric.py 2100-2108). -/
def decompose (unit : List Term) : Res (List Term) := do
  reduce (← unit.mapM (decomposeTerm b)).flatten

/-- One step of the loop of `Dimension.fromunit` (metric.py 2375-2385): the expression and the set of
systems. -/
def fromUnitStep (info : Name → Res (PerSystem Bool × PerSystem (List Term))) (s : System)
    (acc : List Term × PerSystem Bool) (t : Term) : Res (List Term × PerSystem Bool) := do
  let (allowed, dims) ← info t.base
  let d := if allowed.mks ∧ allowed.cgs then dims.get s
    else if allowed.mks then dims.mks else dims.cgs
  return (← exprMul acc.1 (← exprPow d t.exp), ⟨acc.2.mks || allowed.mks, acc.2.cgs || allowed.cgs⟩)

/-- `Dimension.fromunit` (metric.py 2370-2388). -/
def fromUnit (info : Name → Res (PerSystem Bool × PerSystem (List Term))) (unit : List Term)
    (s : System) : Res (List Term) := do
  let (e, systems) ← unit.foldlM (fromUnitStep info s) ([mkOperand 1 one 1], ⟨false, false⟩)
  if systems.get s then return e else .error .valueError

/-- The systems in which a unit is allowed, and its dimensions. -/
def unitInfo (x : Name) : Res (PerSystem Bool × PerSystem (List Term)) := do
  let u ← b.ident x
  return (← allowedIn b u, ← dimensionsOf b u)

/-- `Unit.dimensions[system]`: `None` in place of `ValueError` (metric.py 2063-2068, 2411-2417). -/
def unitDimension (unit : List Term) (s : System) : Res (Option (List Term)) :=
  match fromUnit (unitInfo b) unit s with
  | .ok e => .ok (some e)
  | .error .valueError => .ok none
  | .error e => .error e

end Units

/-! ## Conversion of compound units -/

section Conversion
variable {K : Type _} [DecidableEq K] [Field K]

/-- `UNITY` (metric.py 42). -/
def unity : List Name := [c!"#", c!"1"]

/-- The loop over like terms in `_match_terms` (metric.py 1783-1786), with the list of units that the
string conversions have checked. -/
def tryLike (e : Env Str BaseUnit K) (pow : K → Rat → K) (target : Term) :
    List Term → List Str → Option (K × Term) × List Str
  | [], checked => (none, checked)
  | t :: ts, checked =>
    match convert e (enough e) checked target.base t.base with
    | some (some f, checked) => (some (pow f target.exp, t), checked)
    | some (none, checked) => tryLike e pow target ts checked
    | none => (none, checked)

/-- `like_terms` (metric.py 1779-1782). -/
def likeTerms (target : Term) (terms : List Term) : List Term :=
  terms.filter (fun t => t ≠ target ∧ t.exp = -target.exp)

/-- `_match_terms` (metric.py 1771-1789). `dimless` tells whether `NamedUnit(u0)` is dimensionless in
both systems; it fails if there is no such unit. -/
def matchTerms (e : Env Str BaseUnit K) (pow : K → Rat → K) (dimless : Name → Res Bool)
    (target : Term) (terms : List Term) (checked : List Str) :
    Res (Option (K × Term) × List Str) :=
  match tryLike e pow target (likeTerms target terms) checked with
  | (some r, checked) => .ok (some r, checked)
  | (none, checked) => do
    if ← dimless target.base then return (some (1, target), checked)
    else return (none, checked)

/-- The state of the loop of `_resolve_terms`. -/
structure Resolving (K : Type _) where
  factor : K
  matched : List Term
  unmatched : List Term
  checked : List Str

/-- One step of the loop of `_resolve_terms` (metric.py 1799-1810). -/
def resolveStep (e : Env Str BaseUnit K) (pow : K → Rat → K) (dimless : Name → Res Bool)
    (r : Resolving K) (target : Term) : Res (Resolving K) :=
  if target ∈ r.matched then .ok r
  else do
    match ← matchTerms e pow dimless target r.unmatched r.checked with
    | (none, checked) => return { r with checked := checked }
    | (some (value, term), checked) =>
      if term ≠ target then
        return ⟨r.factor * value, r.matched ++ [target, term],
          (r.unmatched.erase target).erase term, checked⟩
      else
        return ⟨r.factor * value, r.matched ++ [target], r.unmatched.erase target, checked⟩

/-- `_resolve_terms` (metric.py 1791-1812), with the list of checked units. -/
def resolveTerms (e : Env Str BaseUnit K) (pow : K → Rat → K) (dimless : Name → Res Bool)
    (terms : List Term) (checked : List Str) : Res (Option K × List Str) :=
  if terms.length ≤ 1 then .ok (none, checked)
  else do
    let r ← terms.foldlM (resolveStep e pow dimless) ⟨1, [], terms, checked⟩
    return (if r.unmatched = [] then some r.factor else none, r.checked)

/-- `NamedUnit(u).dimensions` is `'1'` in both systems (metric.py 1787-1788). -/
def dimensionless (b : Book) (x : Name) : Res Bool := do
  let d ← dimensionsOf b (← b.ident x)
  let unit ← ofString one
  return exprEq d.mks unit && exprEq d.cgs unit

/-- The terms that one term contributes to `decomposed` (metric.py 1754-1766). -/
def reduceTerm (b : Book) (t : Term) : Res (List Term) := do
  match ← reduceUnit b (← b.ident t.base) with
  | none => return []
  | some r => r.units.mapM (fun u => do
      return mkOperand (← powCoef r.scale t.exp) u.base (t.exp * u.exp))

/-- `_convert_by_dimensions` (metric.py 1751-1769). -/
def convertByDimensions (b : Book) (e : Env Str BaseUnit K) (pow : K → Rat → K) (terms : List Term)
    (checked : List Str) : Res (Option K) := do
  let decomposed := (← terms.mapM (reduceTerm b)).flatten
  if exprEq (← ofTerms decomposed) (← ofString one) then return some 1
  else return (← resolveTerms e pow (dimensionless b) decomposed checked).1

/-- `_convert_as_expressions` (metric.py 1739-1749). -/
def convertAsExpressions (b : Book) (e : Env Str BaseUnit K) (pow : K → Rat → K) (u0 u1 : Str) :
    Res K := do
  let e0 ← ofString u0
  let e1 ← ofString u1
  if exprEq e0 e1 then return 1
  else
    let terms := (← exprDiv e0 e1).filter (fun t => t.base ∉ unity)
    let (first, checked) ← resolveTerms e pow (dimensionless b) terms []
    match truthy first with
    | some f => return f
    | none =>
      match truthy (← convertByDimensions b e pow terms checked) with
      | some f => return f
      | none => .error (.named "UnitConversionError")

/-- `float(Conversion(u0, u1))` (metric.py 1580-1610). -/
def conversion (b : Book) (e : Env Str BaseUnit K) (pow : K → Rat → K) (u0 u1 : Str) : Res K :=
  match convertStrings e u0 u1 with
  | some (some f) => .ok f
  | _ => convertAsExpressions b e pow u0 u1

end Conversion

end Verif.Metric
