import Verif.Metric.Actual
import Verif.Symbolic.Lemmas

/-!
# Specification for norms and metric systems

Nothing here refers to the way in which norms are computed.
-/

namespace Verif.Systems

open Verif.Py Verif.Symbolic Verif.Metric

/-- The canonical unit of a quantity in a metric system, from the tables of the module, as terms. -/
def canonicalExpr (s : System) (q : Str) : List Term :=
  match findProperty canonicalUnits q with
  | some p => match ofString (p.get s) with
    | .ok e => e
    | .error _ => []
  | none => []

/-- The quantity that a named unit measures. -/
def quantityOf (x : Name) : Option Str := (identify x).toOption.map NamedUnit.quantity

/-- The exponent of `x` in the canonical unit of the quantity that the unit `y` measures. -/
def canonicalExp (s : System) (y x : Name) : Rat :=
  ((quantityOf y).map (fun q => totalExp (canonicalExpr s q) x)).getD 0

/-- The exponent of `x` when every named unit in `u` is replaced by the canonical unit of its quantity. -/
def normExp (s : System) (u : List Term) (x : Name) : Rat :=
  (u.map (fun t => t.exp * canonicalExp s t.base x)).sum

/-- The total exponent of a quantity in a unit. -/
def quantityTotal (u : List Term) (q : Str) : Rat :=
  (u.map (fun t => if quantityOf t.base = some q then t.exp else 0)).sum

/-- The sum of the sizes of the exponents of a unit. -/
def size (u : List Term) : Rat := (u.map (fun t => |t.exp|)).sum

/-- Names of units whose quantity has a canonical unit: all but those of illuminance. -/
def Known (x : Name) : Prop := ∃ q, quantityOf x = some q ∧ q ≠ c!"illuminance"

/-- Units of the kind to which the norm applies: known names and integer exponents. -/
def KnownUnit (u : List Term) : Prop := u ≠ [] ∧ ∀ t ∈ u, t.exp ≠ 0 ∧ t.exp.den = 1 ∧ Known t.base

/-- Not the units of luminous intensity, luminous flux and illuminance. -/
def Dark (x : Name) : Prop := ∃ q, quantityOf x = some q ∧ q ≠ c!"illuminance" ∧ q ≠ c!"luminous intensity"
  ∧ q ≠ c!"luminous flux"

end Verif.Systems
