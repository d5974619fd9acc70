import Verif.Metadata.Model
import Verif.Numerical.Model
import Verif.Systems.Model

/-!
# Model of `src/goats/core/variable.py`, `physical.py` (arrays), `axis.py`, and of the shifts in `computed.py`
-/

set_option linter.unusedSectionVars false

namespace Verif.Arrays

open Verif.Py Verif.Metadata Verif.Numerical

/-! ## Subscripts -/

/-- One entry of a subscript. -/
inductive Ix where
  | int (i : Int)
  | slice (s : Slice)
  | ellipsis
  | list (is : List Int)
  deriving DecidableEq

/-- `slice(None)`. -/
def Ix.full : Ix := .slice ⟨none, none, none⟩

/-- The bound of a slice object after `slice.indices`, for positive steps: negative values count from
the end, and all are clipped. -/
def clipUp (n : Nat) (x : Int) : Int := max 0 (min n (if x < 0 then x + n else x))

/-- The same for negative steps. -/
def clipDown (n : Nat) (x : Int) : Int := max (-1) (min (n - 1) (if x < 0 then x + n else x))

/-- The positions a slice selects from `n` positions (`range(*s.indices(n))` in Python). -/
def positions (s : Slice) (n : Nat) : Res (List Int) :=
  let step := s.step.getD 1
  if step = 0 then .error .valueError
  else if 0 < step then
    .ok (rangeUp ((s.start.map (clipUp n)).getD 0) ((s.stop.map (clipUp n)).getD n) step)
  else
    let start := (s.start.map (clipDown n)).getD (n - 1)
    let stop := (s.stop.map (clipDown n)).getD (-1)
    .ok ((List.range ((start - stop - step - 1) / (-step)).toNat).map (fun k : Nat => start + k * step))

/-- `xs[a:b]`. -/
def between {α : Type _} (xs : List α) (a b : Int) : List α :=
  let a := (clipUp xs.length a).toNat
  let b := (clipUp xs.length b).toNat
  (xs.drop a).take (b - a)

/-- `_expand_ellipsis` (variable.py 161-174, physical.py 375-388). -/
def expandEllipsis (ndim : Nat) (user : List Ix) : List Ix :=
  if user.all (· ≠ .ellipsis) then user
  else
    let length : Int := ndim - user.length + 1
    let start := user.idxOf .ellipsis
    user.take start ++ List.replicate length.toNat Ix.full ++ between user (start + length) ndim

/-- The replacement of slices by ranges in `_normalize_indices` (variable.py 154-158), for the axis
number `i`. -/
def rangeForSlice (shape : List Nat) (i : Nat) : Ix → Res Ix
  | .slice _ => match shape[i]? with
    | some n => .ok (.list ((List.range n).map Int.ofNat))
    | none => .error .indexError
  | x => .ok x

/-- The argument of `numpy.ix_`: only sequences are allowed. -/
def crossIndex : Ix → Res (List Int)
  | .list is => .ok is
  | _ => .error .valueError

/-- `_normalize_indices` when some entry is a list (variable.py 140-159): the positions along each axis. -/
def customIndices (shape : List Nat) (user : List Ix) : Res (List (List Int)) := do
  let expanded := expandEllipsis shape.length user
  let indices ← (expanded.zipIdx).mapM (fun p => rangeForSlice shape p.2 p.1)
  indices.mapM crossIndex

/-! ## Shape of a subarray -/

/-- An axis subscripted by numpy: the selected positions, and whether the axis remains. -/
def selectAxis (n : Nat) : Ix → Res (List Int × Bool)
  | .int i =>
    let j := if i < 0 then i + n else i
    if 0 ≤ j ∧ j < n then .ok ([j], false) else .error .indexError
  | .slice s => do return (← positions s n, true)
  | _ => .error .typeError

/-- Subscription of an array by integers and slices in numpy; the remaining axes are unaffected. -/
def selectAxes : List Nat → List Ix → Res (List (List Int × Bool))
  | shape, [] => .ok (shape.map (fun n => ((List.range n).map Int.ofNat, true)))
  | [], _ :: _ => .error .indexError
  | n :: shape, x :: xs => do
    let s ← selectAxis n x
    return s :: (← selectAxes shape xs)

/-- An ellipsis in numpy: all the axes that the other entries do not mention. More than one is not
allowed. -/
def numpyEllipsis (ndim : Nat) (idx : List Ix) : Res (List Ix) :=
  match idx.count .ellipsis with
  | 0 => .ok idx
  | 1 =>
    let k := idx.idxOf .ellipsis
    .ok (idx.take k ++ List.replicate (ndim + 1 - idx.length) Ix.full ++ idx.drop (k + 1))
  | _ => .error .indexError

/-- The shape of the array numpy returns. -/
def numpyShape (sel : List (List Int × Bool)) : List Nat := (sel.filter (·.2)).map (·.1.length)

/-- `_get_axis_size` (variable.py 132-138); `shape[i]` raises `IndexError` for an axis that does not
exist. A start or stop of zero is replaced like `None`. -/
def axisSize (shape : List Nat) (i : Nat) : Ix → Res Int
  | .int _ => .ok 1
  | .slice s => do
    let stop ← match s.stop with
      | some x => if x = 0 then axisLen else .ok x
      | none => axisLen
    return stop - (match s.start with | some x => x | none => 0)
  | _ => axisLen
where
  axisLen : Res Int := match shape[i]? with
    | some n => .ok n
    | none => .error .indexError

/-- `result.reshape(sizes)` for an array of `total` entries: one negative size stands for the size that
is left. -/
def reshape (total : Nat) (sizes : List Int) : Res (List Nat) :=
  match sizes.filter (· < 0) with
  | [] => if sizes.prod = total then .ok (sizes.map Int.toNat) else .error .valueError
  | [_] =>
    let known := (sizes.filter (0 ≤ ·)).prod
    if known = 0 ∨ (total : Int) % known ≠ 0 then .error .valueError
    else .ok (sizes.map (fun x => if x < 0 then (total / known.toNat) else x.toNat))
  | _ => .error .valueError

/-- The shape after `Array.__getitem__` with a tuple of two or more integers, slices and ellipses
(variable.py 117-130). The entries keep their order. `numpy.array(..., ndmin=...)` does not change the
number of entries. -/
def subscriptShape (shape : List Nat) (idx : List Ix) : Res (List Nat) := do
  let sel ← selectAxes shape (← numpyEllipsis shape.length idx)
  let sub := numpyShape sel
  if sub.length ≠ shape.length then
    reshape sub.prod (← idx.zipIdx.mapM (fun p => axisSize shape p.2 p.1))
  else return sub

/-- The shape after `Array.__getitem__` with a single integer or slice: iterating over it raises
`TypeError`, which is suppressed, and leading axes of size one are added. -/
def subscriptShape1 (shape : List Nat) (x : Ix) : Res (List Nat) := do
  let sub := numpyShape (← selectAxes shape [x])
  return List.replicate (shape.length - sub.length) 1 ++ sub

/-! ## Reading and converting -/

/-- An array: its value at each position. -/
abbrev Values (ι K : Type _) := ι → K

/-- The state of an array-like quantity (variable.py 35-45, 571-600): the data it was created from, the
cached array, the scale factor and the unit. -/
structure Quantity (ι K U : Type _) where
  data : Values ι K
  cached : Option (Values ι K)
  scale : K
  unit : U

variable {ι K U : Type _}

/-- A new quantity from an array (variable.py 35-45, 479-506). -/
def Quantity.new [One K] (data : Values ι K) (unit : U) : Quantity ι K U := ⟨data, none, 1, unit⟩

/-- `_load_array()` (variable.py 350-411) for the full array: the result and the state after it. -/
def Quantity.loadAll (q : Quantity ι K U) : Values ι K × Quantity ι K U :=
  match q.cached with
  | some a => (a, q)
  | none => (q.data, { q with cached := some q.data })

/-- `_load_array(index)` for an index, which selects a position of the array for each position of the
result. -/
def Quantity.loadPart (q : Quantity ι K U) (index : ι → ι) : Values ι K :=
  match q.cached with
  | some a => a ∘ index
  | none => q.data ∘ index

/-- `_get_array` (variable.py 336-348) with and without index. -/
def Quantity.read [Mul K] (q : Quantity ι K U) (index : Option (ι → ι)) :
    Values ι K × Quantity ι K U :=
  match index with
  | none => (fun i => q.scale * q.loadAll.1 i, q.loadAll.2)
  | some s => (fun i => q.scale * q.loadPart s i, q)

/-- The current values: `numpy.array(q)`. -/
def Quantity.values [Mul K] (q : Quantity ι K U) : Values ι K := (q.read none).1

/-- `Quantity(q)` (variable.py 35-45): the data are carried over, the cache is the scaled array, and the
scale factor is reset. -/
def Quantity.copy [Mul K] [One K] (q : Quantity ι K U) : Quantity ι K U :=
  ⟨q.data, some q.values, 1, q.unit⟩

/-- `q[index]` for a subarray (variable.py 117-130, 559-569). -/
def Quantity.part [Mul K] [One K] (q : Quantity ι K U) (index : ι → ι) : Quantity ι K U :=
  (Quantity.new (q.read (some index)).1 q.unit).copy

/-- `q[unit]` (variable.py 571-600, physical.py 339-345); `same` is equality of units, `consistent` is
`Unit.__or__`, and `factor old new` is `new // old`, the factor from the old unit to the new one. The name
of a metric system in place of a unit is not modelled. -/
def Quantity.convert [Mul K] [One K] (same consistent : U → U → Res Bool) (factor : U → U → Res K)
    (q : Quantity ι K U) (u : U) : Res (Quantity ι K U) := do
  if ← same u q.unit then return q
  else if ¬ (← consistent q.unit u) then .error .valueError
  else
    let f ← factor q.unit u
    return { Quantity.new q.data u with scale := q.scale * f }

/-- `q[u][v]…` -/
def Quantity.convertAll [Mul K] [One K] (same consistent : U → U → Res Bool) (factor : U → U → Res K)
    (q : Quantity ι K U) (us : List U) : Res (Quantity ι K U) :=
  us.foldlM (Quantity.convert same consistent factor) q

/-- `Unit.__or__` (metric.py 2254-2274) for strings. -/
def unitConsistent (b : Metric.Book) (conv : Str → Str → Res Rat) (u v : Str) : Res Bool := do
  Systems.unitOr b conv (← Symbolic.ofString u) (← Symbolic.ofString v)

/-- `q[unit]` with the tables of the module. -/
def actualConvert (q : Quantity ι Rat Str) (u : Str) : Res (Quantity ι Rat Str) :=
  q.convert Metric.actualUnitEq
    (unitConsistent Metric.actualBook (Metric.actualConversion (Metric.declaredUnits Metric.numpyPi)))
    (Metric.actualConversion (Metric.declaredUnits Metric.numpyPi)) u

/-! ## Products -/

/-- An array of several dimensions: its shape, and its entries. -/
structure Arr (α : Type _) where
  shape : List Nat
  get : List Nat → α

/-- One size of two broadcast shapes. -/
def bdim (a b : Nat) : Res Nat :=
  if a = b then .ok a else if a = 1 then .ok b else if b = 1 then .ok a else .error .valueError

/-- The shape of the result of broadcasting, for shapes of equal lengths. -/
def bshape : List Nat → List Nat → Res (List Nat)
  | a :: as, b :: bs => do
    let d ← bdim a b
    return d :: (← bshape as bs)
  | _, _ => .ok []

/-- The entry of a broadcast array: axes of size one are stretched. -/
def Arr.bget {α : Type _} (a : Arr α) (p : List Nat) : α :=
  a.get (List.zipWith (fun n i => if n = 1 then 0 else i) a.shape p)

/-- `numpy.ix_(*[range(n) for n in shape])[k]`. -/
def mesh (shape : List Nat) (k : Nat) : Arr Nat :=
  ⟨(List.range shape.length).map (fun j => if j = k then shape.getD j 0 else 1), fun p => p.getD k 0⟩

/-- All positions within a shape. -/
def grid : List Nat → List (List Nat)
  | [] => [[]]
  | n :: shape => (List.range n).flatMap (fun i => (grid shape).map (i :: ·))

/-- The shape of several broadcast arrays of `rank` dimensions. -/
def bshapes (rank : Nat) (shapes : List (List Nat)) : Res (List Nat) :=
  shapes.foldlM bshape (List.replicate rank 1)

/-- `a[idx]` for integer arrays of `rank` dimensions in numpy. -/
def Arr.fancy {α : Type _} (a : Arr α) (rank : Nat) (idx : List (Arr Nat)) : Res (Arr α) := do
  let shape ← bshapes rank (idx.map (·.shape))
  if (grid shape).all (fun p => (List.zipWith (fun (x : Arr Nat) n => decide (x.bget p < n)) idx a.shape).all id)
  then return ⟨shape, fun p => a.get (idx.map (·.bget p))⟩
  else .error .indexError

/-- A variable quantity: an array whose axes have names. -/
structure Var (K : Type _) where
  dims : List Str
  array : Arr K

/-- `shape_dict` (variable.py 620-623). -/
def Var.shapeDict {K : Type _} (v : Var K) : Dict Str Nat := Dict.ofPairs (v.dims.zip v.array.shape)

/-- `_ufunc_hook` for products and quotients (variable.py 602-618): the merged axes and the two arrays. -/
def alignAxes {K : Type _} (u v : Var K) : Res (List Str × Arr K × Arr K) := do
  let dims ← mergeAll u.dims [.dims u.dims, .dims v.dims]
  let sizes := u.shapeDict.update v.shapeDict
  let shape := dims.map (fun d => (sizes.get? d).getD 0)
  let meshes (w : Var K) := w.shapeDict.keys.map (fun d => mesh shape (dims.idxOf d))
  let a ← u.array.fancy dims.length (meshes u)
  let b ← v.array.fancy dims.length (meshes v)
  return (dims, a, b)

/-- The product (or any other elementwise operation) of two variable quantities. -/
def Var.combine {K : Type _} (op : K → K → K) (u v : Var K) : Res (Var K) := do
  let (dims, a, b) ← alignAxes u v
  let shape ← bshape a.shape b.shape
  return ⟨dims, ⟨shape, fun p => op (a.bget p) (b.bget p)⟩⟩

/-! ## Removing axes -/

/-- The check of `Quantity.__init__` (variable.py 491-506): names and dimensions agree in number; no names
are replaced by default names. -/
def named (dims : List Str) (shape : List Nat) : Res (List Str × List Nat) :=
  let dims := if dims = [] then (List.range shape.length).map (fun i => 'x' :: (toString i).toList) else dims
  if dims.length = shape.length then .ok (dims, shape) else .error .valueError

/-- The shape of `array.mean(axis=axis)` in numpy. -/
def meanShape (shape : List Nat) (axis : Int) : Res (List Nat) :=
  let j := if axis < 0 then axis + shape.length else axis
  if 0 ≤ j ∧ j < shape.length then .ok (shape.eraseIdx j.toNat) else .error (.named "AxisError")

/-- `_mean` with an axis (variable.py 637-647): names and shape of the result. -/
def mean (dims : List Str) (shape : List Nat) (axis : Int) : Res (List Str × List Nat) := do
  named (dims.filter (fun a => (dims.idxOf a : Int) ≠ axis)) (← meanShape shape axis)

/-- The shape of `array.squeeze(axis=axis)` in numpy. -/
def squeezeShape (shape : List Nat) : Option Int → Res (List Nat)
  | none => .ok (shape.filter (· ≠ 1))
  | some axis =>
    let j := if axis < 0 then axis + shape.length else axis
    if 0 ≤ j ∧ j < shape.length then
      if shape.getD j.toNat 0 = 1 then .ok (shape.eraseIdx j.toNat) else .error .valueError
    else .error (.named "AxisError")

/-- `_squeeze` (variable.py 626-634). -/
def squeeze (dims : List Str) (shape : List Nat) (axis : Option Int) : Res (List Str × List Nat) := do
  named (((dims.zip shape).filter (fun p => p.2 ≠ 1)).map (·.1)) (← squeezeShape shape axis)

/-! ## Shifts (computed.py 241-251) -/

/-- `_ahead` for one row of shells. -/
def ahead {α : Type _} (row : List α) : Res (List α) :=
  select row (rangeUp 1 row.length 1 ++ [(row.length : Int) - 1])

/-- `_behind` for one row of shells. -/
def behind {α : Type _} (row : List α) : Res (List α) :=
  select row (0 :: rangeUp 0 ((row.length : Int) - 1) 1)

/-! ## The default indexer -/

/-- A target of an axis: a number, or an object for which `int` raises `TypeError`. Strings are not
modelled. -/
inductive Target where
  | num (q : Rat)
  | other
  deriving DecidableEq

/-- `int(q)`: the part before the point. -/
def truncate (q : Rat) : Int := if q < 0 then -(-q).floor else q.floor

/-- `int(arg)` (axis.py 62). -/
def Target.toInt : Target → Res Int
  | .num q => .ok (truncate q)
  | .other => .error .typeError

/-- The method of `indexer(n)` (axis.py 58-74). -/
def indexer (n : Nat) (targets : List Target) : Res (List Int) :=
  match targets.mapM Target.toInt with
  | .error _ => .error (.named "IndexTypeError")
  | .ok is => if is.all (fun i => 0 ≤ i ∧ i < n) then .ok is else .error .valueError

/-- What the user gave for an axis (axis.py 40-48): nothing, a slice or a range first, or targets. -/
inductive User where
  | nothing
  | slice (s : Slice)
  | range (is : List Int)
  | targets (ts : List Target)

/-- `Indexer.normalize` followed by the method (axis.py 40-48, 118-126). -/
def defaultIndex (n : Nat) (u : User) : Res (List Int) :=
  indexer n (match u with
    | .nothing => (rangeUp 0 n 1).map (fun i : Int => .num (i : Rat))
    | .slice s => (Iterables.sliceToRange s n).map (fun i : Int => .num (i : Rat))
    | .range is => is.map (fun i : Int => .num (i : Rat))
    | .targets ts => ts)

end Verif.Arrays
