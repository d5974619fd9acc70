import Verif.Arrays.Model

/-!
# Model of subscription of `physical.Array` and `variable.Array`, with the contents of the arrays

`Arrays/Model.lean` has the shapes that `variable.Array.__getitem__` results in; here are the entries, the subscripts as users
write them, and `physical.Array.__getitem__`. The cache of an array is left out (C41).
-/

namespace Verif.Subscripts

open Verif.Py Verif.Arrays

/-! ## numpy -/

/-- A numpy array: its shape, and its entries in C order. -/
structure Nd (K : Type) where
  shape : List Nat
  entries : List K
  deriving DecidableEq

/-- One entry of a subscript: a Python integer, a slice, `...`, `None`, a list of Python integers, or an integer of a numpy type. -/
inductive Item where
  | int (i : Int)
  | slice (s : Slice)
  | ellipsis
  | newaxis
  | list (is : List Int)
  | numpy (i : Int)
  deriving DecidableEq

/-- `slice(None)`. -/
def Item.full : Item := .slice ⟨none, none, none⟩

/-- What numpy does with an axis: take a position and drop the axis, take positions, or insert an axis. -/
inductive Axis where
  | at (p : Nat)
  | keep (ps : List Nat)
  | new
  deriving DecidableEq

/-- The entries with position `p` along the first axis, for entries of `k` numbers each. -/
def chunk {K : Type} (k p : Nat) (es : List K) : List K := (es.drop (p * k)).take k

/-- The entries of a subarray in C order. -/
def pick {K : Type} : List Axis → List Nat → List K → List K
  | .new :: sel, shape, es => pick sel shape es
  | .at p :: sel, _ :: shape, es => pick sel shape (chunk shape.prod p es)
  | .keep ps :: sel, _ :: shape, es => ps.flatMap (fun p => pick sel shape (chunk shape.prod p es))
  | _, _, es => es

/-- The shape of a subarray. -/
def outShape : List Axis → List Nat
  | .new :: sel => 1 :: outShape sel
  | .at _ :: sel => outShape sel
  | .keep ps :: sel => ps.length :: outShape sel
  | [] => []

/-- An integer as a position among `n`. -/
def position (n : Nat) (i : Int) : Res Nat :=
  let j := if i < 0 then i + n else i
  if 0 ≤ j ∧ j < n then .ok j.toNat else .error .indexError

/-- The positions of a slice among `n`. -/
def slicePositions (n : Nat) (s : Slice) : Res (List Nat) := do
  return (← positions s n).map Int.toNat

/-- The meaning of a subscript without ellipsis and lists; axes that are not mentioned are kept. -/
def axes : List Nat → List Item → Res (List Axis)
  | shape, [] => .ok (shape.map (fun n => .keep (List.range n)))
  | shape, .newaxis :: xs => do return .new :: (← axes shape xs)
  | n :: shape, .int i :: xs => do return .at (← position n i) :: (← axes shape xs)
  | n :: shape, .numpy i :: xs => do return .at (← position n i) :: (← axes shape xs)
  | n :: shape, .slice s :: xs => do return .keep (← slicePositions n s) :: (← axes shape xs)
  | _, _ => .error .indexError

/-- An ellipsis stands for the axes that are not mentioned; `None` mentions none. More than one is not allowed. -/
def spread (ndim : Nat) (xs : List Item) : Res (List Item) :=
  match xs.count .ellipsis with
  | 0 => .ok xs
  | 1 =>
    let k := xs.idxOf .ellipsis
    let mentioned := (xs.filter (fun x => x ≠ .ellipsis ∧ x ≠ .newaxis)).length
    .ok (xs.take k ++ List.replicate (ndim - mentioned) Item.full ++ xs.drop (k + 1))
  | _ => .error .indexError

/-- `array[xs]` in numpy for a tuple of integers, slices, `...` and `None`. Which error is raised, if there are several reasons
for one, is not modelled. -/
def Nd.get {K : Type} (a : Nd K) (xs : List Item) : Res (Nd K) := do
  let sel ← axes a.shape (← spread a.shape.length xs)
  return ⟨outShape sel, pick sel a.shape a.entries⟩

/-- `array[numpy.ix_(*ls)]` in numpy: the positions along each axis are chosen independently. -/
def crossAxes : List Nat → List (List Int) → Res (List Axis)
  | shape, [] => .ok (shape.map (fun n => .keep (List.range n)))
  | n :: shape, is :: ls => do return .keep (← is.mapM (position n)) :: (← crossAxes shape ls)
  | [], _ :: _ => .error .indexError

def Nd.cross {K : Type} (a : Nd K) (ls : List (List Int)) : Res (Nd K) := do
  let sel ← crossAxes a.shape ls
  return ⟨outShape sel, pick sel a.shape a.entries⟩

/-- `c * array`. -/
def Nd.smul {K : Type} [Mul K] (c : K) (a : Nd K) : Nd K := ⟨a.shape, a.entries.map (c * ·)⟩

/-! ## Subscripts of an object -/

/-- What stands between the brackets: one entry, or a tuple. -/
inductive Sub where
  | one (x : Item)
  | many (xs : List Item)
  deriving DecidableEq

/-- `iterables.unwrap` (iterables.py 121-128) of one entry. -/
def unwrapItem : Item → Item
  | .list [i] => .int i
  | x => x

/-- `iterables.unwrap(args)` (physical.py 334, variable.py 119; iterables.py 121-128): sequences of length one are replaced by
their entry. -/
def unwrap : Sub → Sub
  | .one x => .one (unwrapItem x)
  | .many [x] => .one (unwrapItem x)
  | s => s

/-- The builtin types (physical.py 316, variable.py 115). -/
def Item.builtin : Item → Bool
  | .list _ => false
  | .numpy _ => false
  | _ => true

/-- `hastype(unwrapped, self._builtin, tuple, strict=True)` (physical.py 335, variable.py 150; iterables.py 1584-1595). -/
def Sub.standard : Sub → Bool
  | .one x => x.builtin
  | .many xs => xs.all Item.builtin

/-- `iterables.missing(index)` for a standard subscript (iterables.py 140-155): `None` or an empty tuple. -/
def Sub.missing : Sub → Bool
  | .one .newaxis => true
  | .many [] => true
  | _ => false

/-- The entries of a standard subscript: `numpy.index_exp[index]` (physical.py 569, 587). -/
def Sub.items : Sub → List Item
  | .one x => [x]
  | .many xs => xs

/-- `_expand_ellipsis` (physical.py 375-388, variable.py 161-174). -/
def expand (ndim : Nat) (user : List Item) : List Item :=
  if user.all (· ≠ .ellipsis) then user
  else
    let length : Int := ndim - user.length + 1
    let start := user.idxOf .ellipsis
    user.take start ++ List.replicate length.toNat Item.full ++ between user (start + length) ndim

/-- `range(self.shape[i]) if isinstance(arg, slice) else arg` (physical.py 367-371, variable.py 154-158). -/
def toRange (shape : List Nat) (i : Nat) : Item → Res Item
  | .slice _ => match shape[i]? with
    | some n => .ok (.list ((List.range n).map Int.ofNat))
    | none => .error .indexError
  | x => .ok x

/-- The argument of `numpy.ix_`: only sequences are allowed. -/
def crossItem : Item → Res (List Int)
  | .list is => .ok is
  | _ => .error .valueError

/-- `if not isinstance(args, (tuple, list)): args = [args]` (physical.py 364-365, variable.py 152-153): a list counts as a tuple. -/
def customItems : Sub → List Item
  | .one (.list is) => is.map .int
  | .one x => [x]
  | .many xs => xs

/-- The argument of `numpy.ix_` for the other subscripts (physical.py 364-372, variable.py 152-159). -/
def customIndex (shape : List Nat) (s : Sub) : Res (List (List Int)) := do
  let expanded := expand shape.length (customItems s)
  let idx ← expanded.zipIdx.mapM (fun p => toRange shape p.2 p.1)
  idx.mapM crossItem

/-- An array with a factor, a unit and a name (physical.py 240-247); the data are those that have been loaded (C41). -/
structure Arr (K U N : Type) where
  base : Nd K
  scale : K
  unit : U
  name : N
  deriving DecidableEq

/-- The result of a subscript: a `Scalar` or an `Array`. -/
inductive Got (K U N : Type) where
  | scalar (x : K) (unit : U) (name : N)
  | array (a : Arr K U N)
  deriving DecidableEq

variable {K U N : Type}

/-- `numpy.array(a)`: `_scale * _load_array()` (physical.py 499-529). -/
def Arr.values [Mul K] (a : Arr K U N) : Nd K := a.base.smul a.scale

/-- `_get_array(index)` for a standard subscript (physical.py 517-571). -/
def Arr.load [Mul K] (a : Arr K U N) (s : Sub) : Res (Nd K) := do
  if s.missing then return a.values
  return (← a.base.get s.items).smul a.scale

/-- `_get_array(numpy.ix_(...))` (physical.py 517-571): the tuple of no arrays is missing. -/
def Arr.loadCross [Mul K] (a : Arr K U N) (ls : List (List Int)) : Res (Nd K) := do
  if ls = [] then return a.values
  return (← a.base.cross ls).smul a.scale

/-- `Array(result, unit=…, name=…)`, a `Scalar` for a number (physical.py 354-356): numpy gives a number in place of an array
without axes, since the array has been multiplied by the factor. -/
def wrap [One K] (r : Nd K) (unit : U) (name : N) : Got K U N :=
  match r.shape, r.entries with
  | [], [x] => .scalar x unit name
  | _, _ => .array ⟨r, 1, unit, name⟩

/-- `physical.Array.__getitem__` other than for units (physical.py 330-373). -/
def Arr.get [Mul K] [One K] (a : Arr K U N) (s : Sub) : Res (Got K U N) := do
  let u := unwrap s
  if u.standard then return wrap (← a.load u) a.unit a.name
  return .array ⟨← a.loadCross (← customIndex a.base.shape u), 1, a.unit, a.name⟩

/-- `Array[unit]` where `factor` is the factor from the present unit (physical.py 339-345). -/
def Arr.convert [Mul K] (a : Arr K U N) (unit : U) (factor : K) : Arr K U N :=
  ⟨a.base, a.scale * factor, unit, a.name⟩

/-- `Scalar[unit]` or `Array[unit]` (measurable.py 226-236, physical.py 339-345): a scalar loses its name (C178), `none` is the
empty name. -/
def Got.convert [Mul K] (none : N) (g : Got K U N) (unit : U) (factor : K) : Got K U N :=
  match g with
  | .scalar x _ _ => .scalar (x * factor) unit none
  | .array a => .array (a.convert unit factor)

/-- The values of the result, as a numpy array. -/
def Got.values [Mul K] : Got K U N → Nd K
  | .scalar x _ _ => ⟨[], [x]⟩
  | .array a => a.values

def Got.unit : Got K U N → U
  | .scalar _ u _ => u
  | .array a => a.unit

def Got.name : Got K U N → N
  | .scalar _ _ n => n
  | .array a => a.name

/-! ## `variable.Array` -/

/-- An entry of a subscript in `Arrays/Model.lean`. -/
def Item.ofIx : Ix → Item
  | .int i => .int i
  | .slice s => .slice s
  | .ellipsis => .ellipsis
  | .list is => .list is

/-- The shape that `variable.Array.__getitem__` results in (variable.py 117-138); a tuple of one entry is unwrapped. -/
def varShape (shape : List Nat) : List Ix → Res (List Nat)
  | [x] => subscriptShape1 shape x
  | idx => subscriptShape shape idx

/-- `variable.Array.__getitem__` with a tuple of two or more integers, slices and ellipses, or with one integer or slice
(variable.py 117-138): the entries that numpy gives, in the shape of `Arrays/Model.lean`. -/
def Arr.getVar [Mul K] [One K] (a : Arr K U N) (idx : List Ix) : Res (Arr K U N) := do
  let r ← a.base.get (idx.map Item.ofIx)
  let shape ← varShape a.base.shape idx
  return ⟨⟨shape, (r.smul a.scale).entries⟩, 1, a.unit, a.name⟩

/-- `variable.Array.__getitem__` with lists (variable.py 117-159): if the number of axes changes, the sizes are computed from the
arrays of `numpy.ix_`, which is the case for no arrays only. -/
def Arr.getVarLists [Mul K] [One K] (a : Arr K U N) (s : Sub) : Res (Arr K U N) := do
  return ⟨← a.loadCross (← customIndex a.base.shape (unwrap s)), 1, a.unit, a.name⟩

end Verif.Subscripts
