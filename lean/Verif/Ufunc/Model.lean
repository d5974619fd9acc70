import Verif.Py.Basic
import Verif.Py.Chars
import Mathlib.Data.Real.Basic

/-!
# numpy functions on arrays with units

`__array_ufunc__` and `__array_function__` of `variable.Array` (variable.py 178-316) and `physical.Array` (physical.py 392-497),
which numpy calls for its functions, and which also implement the operators `+`, `<`, `!=` and so on through
`NDArrayOperatorsMixin`; with the metadata computed by `metadata.Operation.apply` (metadata.py 323-356).

An array is a value for each position; both operands of a function have the same positions (broadcasting and the alignment of
axes are in `Arrays` and `Shapes`).  The metadata here is the unit.
-/

namespace Verif.Ufunc

open Verif.Py

abbrev Str := List Char

/-- What the table `REFERENCE` has for an operation. -/
inductive Callable where
  /-- `None`. -/
  | nothing
  /-- `abs`, `pos`, `neg`, `ceil`, `floor`, `trunc` and `round`, which take one argument. -/
  | unary
  | add | sub | mul | div | pow
  deriving DecidableEq

/-- The table `_reference` (metadata.py 1059-1127), with all names of each operation. -/
def reference : List (List Str × Callable) := [
  ([c!"int"], .nothing),
  ([c!"float"], .nothing),
  ([c!"abs", c!"absolute"], .unary),
  ([c!"pos", c!"positive"], .unary),
  ([c!"neg", c!"negative"], .unary),
  ([c!"ceil", c!"ceiling"], .unary),
  ([c!"floor"], .unary),
  ([c!"trunc", c!"truncate"], .unary),
  ([c!"round"], .unary),
  ([c!"lt", c!"less"], .nothing),
  ([c!"le", c!"less_equal", c!"less equal"], .nothing),
  ([c!"gt", c!"greater"], .nothing),
  ([c!"ge", c!"greater_equal", c!"greater equal"], .nothing),
  ([c!"add"], .add),
  ([c!"sub", c!"subtract"], .sub),
  ([c!"mul", c!"multiply"], .mul),
  ([c!"truediv", c!"true_divide", c!"true divide"], .div),
  ([c!"pow", c!"power"], .pow)]

/-- `self.meta[name]` (metadata.py 427-431), if there is such an operation. -/
def operation (name : Str) : Option Callable := (reference.find? (fun e => name ∈ e.1)).map (·.2)

/-- What `metadata.Unit` (metadata.py 545-609) offers. -/
structure UnitOps (U : Type) where
  addSub : U → U → Res U
  mul : U → U → Res U
  div : U → U → Res U
  pow : U → ℝ → Res U

variable {ι U β : Type}

/-- An array with its unit. -/
structure Arr (ι U β : Type) where
  data : ι → β
  unit : U

/-- An operand: an array, or a number. -/
abbrev Operand (ι U : Type) := Arr ι U ℝ ⊕ ℝ

/-- The value of an operand at a position, as given to the numpy function (variable.py 230-240). -/
def entry (x : Operand ι U) (p : ι) : ℝ :=
  match x with
  | .inl a => a.data p
  | .inr q => q

/-- The unit of an operand, or the operand itself: `getall` in mode `'force'` (metadata.py 107-120). -/
def unitOf : Operand ι U → U ⊕ ℝ
  | .inl a => .inl a.unit
  | .inr q => .inr q

/-- A callable of the table applied to units and numbers.  `abs`, `pos` and the like are not available for units (metadata.py
535-539), which is a `TypeError`. -/
def Callable.onUnits (O : UnitOps U) : Callable → List (U ⊕ ℝ) → Res U
  | .add, [.inl u, .inl v] => O.addSub u v
  | .sub, [.inl u, .inl v] => O.addSub u v
  | .mul, [.inl u, .inl v] => O.mul u v
  | .mul, [.inl u, .inr _] => .ok u
  | .mul, [.inr _, .inl u] => .ok u
  | .div, [.inl u, .inl v] => O.div u v
  | .div, [.inl u, .inr _] => .ok u
  | .div, [.inr _, .inl u] => .ok u
  | .pow, [.inl u, .inr q] => O.pow u q
  | _, _ => .error .typeError

/-- The numpy function itself applied to units (metadata.py 535-539): only `sqrt` is defined (metadata.py 548-550). -/
noncomputable def ufuncOnUnits (O : UnitOps U) (name : Str) : List (U ⊕ ℝ) → Res U
  | [.inl u] => if name = c!"sqrt" then O.pow u (1 / 2) else .error .typeError
  | _ => .error .typeError

/-- `Operator.__call__` (metadata.py 165-175) for the attribute `unit`: after a `TypeError`, a single operand keeps its unit. -/
def fallback (values : List (U ⊕ ℝ)) : Res U → Res U
  | .error .typeError =>
    match values with
    | [.inl u] => .ok u
    | _ => if values.all Sum.isLeft then .error (.named "MetadataError") else .error .typeError
  | r => r

/-- The combinations of operands that are suppressed (variable.py 50-58, measurable.py 170-177). -/
def suppressed : Callable → List (U ⊕ ℝ) → Bool
  | .div, [.inr _, .inl _] => true
  | .pow, [_, .inl _] => true
  | _, _ => false

/-- The metadata of the result (variable.py 215-221, metadata.py 338-352): `none` if nothing is to be computed.  A function that is
not in the table is applied to the metadata itself (`implement`, metadata.py 408-410). -/
noncomputable def metaUnit (O : UnitOps U) (name : Str) (values : List (U ⊕ ℝ)) : Res (Option U) :=
  match operation name with
  | some .nothing => .ok none
  | some c =>
    if suppressed c values then .error (.named "OperandTypeError")
    else (fallback values (c.onUnits O values)).map some
  | none => (fallback values (ufuncOnUnits O name values)).map some

/-- The result of a numpy function: an object with a unit, or a plain array (`_new_from_func`, variable.py 307-316). -/
inductive Out (ι U β : Type) where
  | array (a : Arr ι U β)
  | plain (data : ι → β)

/-- `_new_from_func` (variable.py 307-316). -/
def newFromFunc (data : ι → β) : Option U → Out ι U β
  | some u => .array ⟨data, u⟩
  | none => .plain data

/-- `__array_ufunc__` (variable.py 178-228, physical.py 392-442) for a function of one argument. -/
noncomputable def call1 (O : UnitOps U) (name : Str) (f : ℝ → β) (a : Arr ι U ℝ) : Res (Out ι U β) :=
  (metaUnit O name [.inl a.unit]).map (newFromFunc (fun p => f (a.data p)))

/-- `__array_ufunc__` (variable.py 178-228, physical.py 392-442) for a function of two arguments. -/
noncomputable def call2 (O : UnitOps U) (name : Str) (f : ℝ → ℝ → β) (x y : Operand ι U) : Res (Out ι U β) :=
  (metaUnit O name [unitOf x, unitOf y]).map (newFromFunc (fun p => f (entry x p) (entry y p)))

/-! ## Other numpy functions -/

/-- The functions registered with `implements` (variable.py 625-648): those that have a unit, given whether an axis was chosen. -/
def keepsUnit (name : Str) (axis : Bool) : Bool := name = c!"squeeze" || (name = c!"mean" && axis)

/-- `__array_function__` (variable.py 277-305) for a function that gives an array with positions `κ` from the array; a number is an
array with one position. -/
def arrayFunction {κ : Type} (name : Str) (axis : Bool) (f : (ι → ℝ) → κ → ℝ) (a : Arr ι U ℝ) : Out κ U ℝ :=
  if keepsUnit name axis then .array ⟨f a.data, a.unit⟩ else .plain (f a.data)

/-! ## Results stored in existing arrays -/

/-- An object: the data that it has loaded, the factor by which they are to be multiplied, and the unit (variable.py 44-72). -/
structure Obj (U : Type) where
  buffer : Nat
  scale : ℝ
  unit : U

/-- The numpy arrays and the objects that exist; the index is the identity. -/
structure Store (ι U : Type) where
  buffers : List (ι → ℝ)
  objects : List (Obj U)

/-- The array with a unit that an object represents: `_scale * _load_array()` (variable.py 330-347). -/
noncomputable def Store.arr (s : Store ι U) (i : Nat) : Option (Arr ι U ℝ) :=
  match s.objects[i]? with
  | none => none
  | some o =>
    match s.buffers[o.buffer]? with
    | none => none
    | some d => some ⟨fun p => o.scale * d p, o.unit⟩

/-- `_array` (variable.py 331-347): the product is a new numpy array, whatever the factor is. -/
noncomputable def Store.array (s : Store ι U) (i : Nat) : Option (Nat × Store ι U) :=
  (s.arr i).map fun a => (s.buffers.length, { s with buffers := s.buffers ++ [a.data] })

/-- An operand: an object or a number. -/
noncomputable def Store.operand (s : Store ι U) : Nat ⊕ ℝ → Option (Operand ι U)
  | .inl i => (s.arr i).map .inl
  | .inr q => some (.inr q)

/-- `numpy_function(x, y, out=c)` (variable.py 200-228), and `x += y`, which calls the function with `out=x` and binds `x` to the
result: numpy fills the array `c._array`, and the result is a new object with these data (variable.py 307-316, 412-420). -/
noncomputable def callOut (O : UnitOps U) (name : Str) (f : ℝ → ℝ → ℝ) (s : Store ι U) (x y : Nat ⊕ ℝ) (c : Nat) :
    Res (Store ι U × Option Nat) :=
  match s.operand x, s.operand y, s.array c with
  | some x', some y', some (k, s1) =>
    let s2 := { s1 with buffers := s1.buffers.set k (fun p => f (entry x' p) (entry y' p)) }
    match metaUnit O name [unitOf x', unitOf y'] with
    | .ok (some u) => .ok ({ s2 with objects := s2.objects ++ [⟨k, 1, u⟩] }, some s2.objects.length)
    | .ok none => .ok (s2, none)
    | .error e => .error e
  | _, _, _ => .error .attributeError

end Verif.Ufunc
