import Verif.Py.Basic
import Mathlib.Algebra.Field.Defs

/-!
# Model of the conversion search in `src/goats/core/metric.py`

The search is modelled over an arbitrary graph of declared conversions and an arbitrary table of
named units. Weights are elements of a field (Python: floats). The parameter `scale` of the methods
is always `1.0` (lines 1632, 1690 and 1715 pass on the default) and is left out.
-/

namespace Verif.Metric

open Verif.Py

/-- The attributes of a `NamedUnit` (metric.py 1111-1211) that the search uses. -/
structure Named (U B K : Type _) where
  symbol : U
  name : U
  base : B
  scale : K

/-- What the search depends on. -/
structure Env (U B K : Type _) where
  /-- `CONVERSIONS.connections` (iterables.py 1131). -/
  conns : Dict (U × U) K
  /-- `Conversion.units` (metric.py 1680), a `set`, in the order of its iteration. -/
  units : List U
  /-- `NamedUnit(u)` if `u in named_units`. -/
  named : U → Option (Named U B K)

section
variable {U B K : Type _} [DecidableEq U] [DecidableEq B] [DecidableEq K] [Field K]

/-- `add_connection` (iterables.py 1181-1193) for a weight that is a number. -/
def addConn (c : Dict (U × U) K) (start stop : U) (w : K) : Dict (U × U) K :=
  let addEdge (c : Dict (U × U) K) (e : U × U) (v : K) := if c.has e then c else c.set e v
  addEdge (addEdge c (start, stop) w) (stop, start) (if w = 0 then w else 1 / w)

/-- `Connections(base)` (iterables.py 1121-1135). -/
def mkConns (base : List ((U × U) × K)) : Dict (U × U) K :=
  base.foldl (fun c p => addConn c p.1.1 p.1.2 p.2) []

/-- `get_adjacencies(node).items()` (iterables.py 1154-1171); the keys of `conns` are distinct, so
the comprehension does not merge entries. -/
def adjacencies (e : Env U B K) (node : U) : List (U × K) :=
  (e.conns.filter (fun p => p.1.1 = node)).map (fun p => (p.1.2, p.2))

/-- `if found := x`: `None` and `0.0` are false. -/
def truthy (o : Option K) : Option K := o.filter (· ≠ 0)

/-- `_get_aliases_of` (metric.py 1666-1678). -/
def getAliasesOf (e : Env U B K) (u : U) : List U :=
  match e.named u with
  | some n => [u, n.symbol, n.name]
  | none => [u]

/-- `_search` (metric.py 1648-1664). -/
def search (e : Env U B K) (u0 u1 : U) : Option K :=
  match e.conns.get? (u0, u1) with
  | some w => some w
  | none => (getAliasesOf e u0).findSome? (fun ux =>
      (getAliasesOf e u1).findSome? (fun uy => e.conns.get? (ux, uy)))

/-- `NamedUnit(u1) // NamedUnit(u0)`, or `None` for `ValueError` and `UnitParsingError`
(metric.py 1480-1532, 1641-1644). Scales are assumed not to be zero (Python raises
`ZeroDivisionError` otherwise). -/
def ratio? (e : Env U B K) (u0 u1 : U) : Option K :=
  match e.named u0, e.named u1 with
  | some n0, some n1 => if n1.base = n0.base then some (n0.scale / n1.scale) else none
  | _, _ => none

/-- `_simple_conversion` (metric.py 1626-1646). -/
def simple (e : Env U B K) (u0 u1 : U) : Option K :=
  if u0 = u1 then some 1
  else match truthy (search e u0 u1) with
    | some w => some w
    | none => ratio? e u0 u1

/-- The body of the loop of `_rescale` for one unit (metric.py 1732-1737). -/
def rescaleVia (e : Env U B K) (u0 u1 ux : U) : Option K :=
  match ratio? e u0 ux with
  | some r => (truthy (search e ux u1)).map (r * ·)
  | none => none

/-- `_rescale` (metric.py 1719-1737). -/
def rescale (e : Env U B K) (u0 u1 : U) : Option K :=
  match e.named u0 with
  | none => none
  | some _ => e.units.findSome? (rescaleVia e u0 u1)

/-- `_complex_conversion` before the loop (metric.py 1706-1711). -/
def rescaled (e : Env U B K) (u0 u1 : U) : Option K :=
  match (if u0 ∉ e.units then truthy (rescale e u0 u1) else none) with
  | some f => some f
  | none =>
    match (if u1 ∉ e.units then truthy (rescale e u1 u0) else none) with
    | some f => some (1 / f)
    | none => none

/-- What is tried before following declared conversions (metric.py 1620-1624, 1706-1711). -/
def direct (e : Env U B K) (u0 u1 : U) : Option K :=
  match truthy (simple e u0 u1) with
  | some f => some f
  | none => truthy (rescaled e u0 u1)

/-- The loop of `_complex_conversion` (metric.py 1712-1716), given the function it calls on each
adjacent unit. -/
def explore (visit : List U → U → Option (Option K × List U)) :
    List (U × K) → List U → Option (Option K × List U)
  | [], checked => some (none, checked)
  | (unit, weight) :: rest, checked =>
    if unit ∈ checked then explore visit rest checked
    else match visit checked unit with
      | none => none
      | some (some value, checked) => some (truthy (some (weight * value)), checked)
      | some (none, checked) => explore visit rest checked

/-- `_convert_as_strings` (metric.py 1612-1624): the factor, if any, and the units checked so far.
`none` means that the given amount of fuel does not suffice. -/
def convert (e : Env U B K) : Nat → List U → U → U → Option (Option K × List U)
  | 0, _, _, _ => none
  | fuel + 1, checked, u0, u1 =>
    match direct e u0 u1 with
    | some f => some (some f, checked ++ [u0])
    | none => explore (fun c u => convert e fuel c u u1) (adjacencies e u0) (checked ++ [u0])

/-- The fuel that always suffices: one more than the number of ends of declared conversions. -/
def enough (e : Env U B K) : Nat := e.conns.length + 1

/-- `_convert_as_strings(u0, u1)` with nothing checked yet. -/
def convertStrings (e : Env U B K) (u0 u1 : U) : Option (Option K) :=
  (convert e (enough e) [] u0 u1).map (·.1)

end

end Verif.Metric
