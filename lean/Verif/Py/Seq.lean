import Mathlib.Data.List.Dedup
import Mathlib.Data.List.Nodup
import Verif.Py.Basic

/-!
# Python sequences

Subscripts with negative wrap-around, prefixes `xs[:k]`, `range`, and
`slice.indices`.  These model the language, not goats.
-/

namespace Verif.Py

/-- `xs[i]` for an integer `i`: negative indices count from the end; anything else raises
`IndexError`. -/
def getItem {α : Type _} (xs : List α) (i : Int) : Res α :=
  let j := if i < 0 then i + xs.length else i
  if j < 0 then .error .indexError
  else match xs[j.toNat]? with
    | some x => .ok x
    | none => .error .indexError

/-- `xs[:k]`. -/
def prefixTo {α : Type _} (xs : List α) (k : Int) : List α :=
  xs.take (if k < 0 then (k + xs.length).toNat else k.toNat)

/-- `list(range(start, stop, step))` for `0 < step`; the empty list otherwise (the modelled code
only reaches positive steps where a theorem is stated). -/
def rangeUp (start stop step : Int) : List Int :=
  if 0 < step then
    (List.range ((stop - start + step - 1) / step).toNat).map (fun k : Nat => start + (k : Int) * step)
  else []

/-- A Python `slice` object. -/
structure Slice where
  start : Option Int
  stop : Option Int
  step : Option Int
  deriving DecidableEq, Repr

end Verif.Py
