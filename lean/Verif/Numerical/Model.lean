import Mathlib.Algebra.Order.Field.Basic
import Verif.Py.Seq

/-!
# Model of `src/goats/core/numerical.py` and `src/goats/core/interpolation.py`

Numbers are the members of any ordered field. Arrays of one dimension are lists, those of two
dimensions are lists of rows.
-/

set_option linter.unusedSectionVars false

namespace Verif.Numerical

open Verif.Py

variable {K : Type _} [Field K] [LinearOrder K] [IsStrictOrderedRing K]

/-! ## `find_nearest` -/

/-- The rest of `argmin`: the position of the first minimum, given the best so far. -/
def argminFrom (best : Nat) (value : K) (i : Nat) : List K → Nat
  | [] => best
  | x :: xs => if x < value then argminFrom i x (i + 1) xs else argminFrom best value (i + 1) xs

/-- `array.argmin()` of numpy: the first position of the minimum. -/
def argmin : List K → Res Nat
  | [] => .error .valueError
  | x :: xs => .ok (argminFrom 0 x 1 xs)

/-- The loop for `bound == 'lower'` (numerical.py 109-114); `none` when it takes more than the given
number of steps. -/
def walkUp (array : List K) (target : K) : Nat → Int → Option Int
  | 0, _ => none
  | steps + 1, index =>
    match getItem array index with
    | .error _ => some (-1)
    | .ok v => if v < target then walkUp array target steps (index + 1) else some index

/-- The loop for `bound == 'upper'` (numerical.py 115-120). Negative positions count from the end. -/
def walkDown (array : List K) (target : K) : Nat → Int → Option Int
  | 0, _ => none
  | steps + 1, index =>
    match getItem array index with
    | .error _ => some 0
    | .ok v => if v > target then walkDown array target steps (index - 1) else some index

inductive Bound where
  | free | lower | upper
  deriving DecidableEq

/-- The position found (numerical.py 107-120). A run of `find_nearest` takes at most twice as many steps as
there are values, see `c36_bounded`. -/
def nearestIndex (array : List K) (target : K) (bound : Bound) : Res Int := do
  let index ← argmin (array.map (fun x => |x - target|))
  match bound with
  | .free => return index
  | .lower => match walkUp array target (2 * array.length + 2) index with
    | some i => return i
    | none => .error (.named "endless")
  | .upper => match walkDown array target (2 * array.length + 2) index with
    | some i => return i
    | none => .error (.named "endless")

/-- `find_nearest` for one-dimensional collections (numerical.py 66-123): index and value. -/
def findNearest (array : List K) (target : K) (bound : Bound) : Res (Int × K) := do
  let index ← nearestIndex array target bound
  return (index, ← getItem array index)

/-! ## Bounding indices -/

/-- The positions in the array where the condition holds: `numpy.where(condition)[0]`. -/
def whereIdx (p : K → Bool) (array : List K) : List Nat :=
  (List.range array.length).filter (fun i => match array[i]? with | some x => p x | none => false)

/-- `find_1d_indices` (numerical.py 44-53). For an empty array the second index is -1. -/
def find1dIndices (array : List K) (target : K) : Int × Int :=
  let leq := whereIdx (· ≤ target) array
  let geq := whereIdx (fun x => target ≤ x) array
  (match leq.getLast? with | some i => (i : Int) | none => 0,
    match geq.head? with | some i => (i : Int) | none => (array.length : Int) - 1)

/-- The columns of a matrix with rows of `n` entries. -/
def columns (n : Nat) (rows : List (List K)) : List (List K) :=
  (List.range n).map (fun j => rows.filterMap (fun r => r[j]?))

/-- `list(range(lower, upper + 1))`. -/
def closedRange (lower upper : Int) : List Int := rangeUp lower (upper + 1) 1

/-- `restrict_coordinate` for one dimension (interpolation.py 14-22). -/
def restrict1d (array : List K) (target : K) : List Int :=
  closedRange (find1dIndices array target).1 (find1dIndices array target).2

/-- `min(xs)`; Python raises `ValueError` for no values. -/
def minInt : List Int → Res Int
  | [] => .error .valueError
  | x :: xs => .ok (xs.foldl min x)

/-- `max(xs)`. -/
def maxInt : List Int → Res Int
  | [] => .error .valueError
  | x :: xs => .ok (xs.foldl max x)

/-- `restrict_coordinate` along the last axis of two (interpolation.py 14-26): the bounds form an array
with one row, of two entries, for each row. -/
def restrictRows (rows : List (List K)) (target : K) : Res (List Int) := do
  let lower ← minInt (rows.map (fun r => (find1dIndices r target).1))
  let upper ← maxInt (rows.map (fun r => (find1dIndices r target).2))
  return closedRange lower upper

/-- `restrict_coordinate` along the first axis of two (interpolation.py 14-26): the bounds form an array of
two rows, with one entry for each column; but the same columns 0 and 1 of it are used. -/
def restrictColumns (n : Nat) (rows : List (List K)) (target : K) : Res (List Int) := do
  let bounds := (columns n rows).map (fun c => find1dIndices c target)
  match bounds with
  | b0 :: b1 :: _ =>
    let lower ← minInt [b0.1, b0.2]
    let upper ← maxInt [b1.1, b1.2]
    return closedRange lower upper
  | _ => .error .indexError

/-! ## Interpolation -/

/-- The entries at the given positions. -/
def select {α : Type _} (xs : List α) (indices : List Int) : Res (List α) := indices.mapM (getItem xs)

/-- The straight line through two points. -/
def line (x0 y0 x1 y1 t : K) : K := (y1 - y0) / (x1 - x0) * (t - x0) + y0

/-- `scipy.interpolate.interp1d(x, y)(t)` for ascending `x`: values outside the range raise
`ValueError`; fewer than two points as well. -/
def interp1d (x y : List K) (t : K) : Res K := do
  if x.length ≠ y.length ∨ x.length < 2 then .error .valueError
  else
    let first ← getItem x 0
    let last ← getItem x (-1)
    if t < first ∨ last < t then .error .valueError
    else
      let hi := min (max (x.findIdx (fun v => t ≤ v)) 1) (x.length - 1)
      let x0 ← getItem x ((hi : Int) - 1)
      let y0 ← getItem y ((hi : Int) - 1)
      let x1 ← getItem x hi
      let y1 ← getItem y hi
      return line x0 y0 x1 y1 t

/-- `_apply_interp1d` for a reference of one dimension (interpolation.py 102-141); `axis` tells whether
an axis was given. The array has one entry (which numpy allows to be an array itself) for each
reference value. -/
def applyOne (array reference : List K) (t : K) (axis : Bool) : Res K := do
  if t ∈ reference then getItem array (← nearestIndex reference t .free)
  else
    let indices := if axis then restrict1d reference t else (List.range reference.length).map Int.ofNat
    let ref ← select reference indices
    let arr ← select array indices
    if ref.length = 1 then getItem arr 0 else interp1d ref arr t

/-- One value, or one value for each row. -/
inductive Interpolated (K : Type _) where
  | single (v : K)
  | rows (vs : List K)
  deriving DecidableEq

/-- `interps = [interp1d(x, y, axis=0) for x, y in zip(ref, arr)]` and their values. -/
def interpRows (t : K) : List (List K) → List (List K) → Res (List K)
  | x :: xs, y :: ys => do
    let v ← interp1d x y t
    return v :: (← interpRows t xs ys)
  | _, _ => .ok []

/-- `_apply_interp1d` for a reference of two dimensions, along the second (interpolation.py 102-141). -/
def applyTwo (array reference : List (List K)) (t : K) : Res (Interpolated K) := do
  if t ∈ reference.flatten then
    return .single (← getItem array.flatten (← nearestIndex reference.flatten t .free))
  else
    let indices ← restrictRows reference t
    let ref ← reference.mapM (select · indices)
    let arr ← array.mapM (select · indices)
    if ref.flatten.length = 1 then return .rows arr.flatten
    else return .rows (← interpRows t ref arr)

end Verif.Numerical
