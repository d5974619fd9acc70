import Verif.Arrays.Model

/-!
# Model of the numpy functions that classes of arrays implement

`variable.Array` and `physical.Array` keep a dictionary `_HANDLED_FUNCTIONS` from numpy functions to implementations. The
decorator `implements` adds to it, and `__array_function__` looks functions up in it when numpy is called.
-/

namespace Verif.Dispatch

open Verif.Py Verif.Arrays
open Verif.Metadata (Str)

/-! ## Registering implementations -/

/-- Classes: the method resolution order of each, and whether it has a dictionary `_HANDLED_FUNCTIONS` of its own
(variable.py 275, physical.py 456). -/
structure Classes (C : Type) where
  mro : C → List C
  owns : C → Bool

variable {C F I : Type} [DecidableEq C] [DecidableEq F]

/-- The class whose dictionary `cls._HANDLED_FUNCTIONS` is: attributes are looked up along the method resolution order. -/
def Classes.owner (H : Classes C) (c : C) : Option C := (H.mro c).find? H.owns

/-- The dictionaries of all classes. -/
abbrev Tables (C F I : Type) := Dict (C × F) I

/-- `cls._HANDLED_FUNCTIONS[numpy_function] = func` (variable.py 423-454, physical.py 604-635). -/
def implement (H : Classes C) (t : Tables C F I) (c : C) (f : F) (i : I) : Res (Tables C F I) :=
  match H.owner c with
  | none => .error .attributeError
  | some o => .ok (t.set (o, f) i)

/-- `func in self._HANDLED_FUNCTIONS` and `self._HANDLED_FUNCTIONS[func]` (variable.py 292-293, physical.py 473-474). -/
def handled (H : Classes C) (t : Tables C F I) (c : C) (f : F) : Option I :=
  (H.owner c).bind (fun o => t.get? (o, f))

/-- A registration: the class, the function, and the implementation. -/
abbrev Registration (C F I : Type) := C × F × I

/-- Registrations one after another, from given dictionaries. -/
def implementAll (H : Classes C) (t : Tables C F I) : List (Registration C F I) → Res (Tables C F I)
  | [] => .ok t
  | (c, f, i) :: rest => do implementAll H (← implement H t c f i) rest

/-! ## The classes of goats -/

/-- Classes of arrays: numpy's, `variable.Array`, `variable.Quantity`, `observing.Quantity` and `physical.Array`. -/
inductive Cls where
  | ndarray | varArray | varQuantity | obsQuantity | physArray
  deriving DecidableEq

/-- The classes with their bases among these (variable.py 32, 460; observing.py 106; physical.py 229), and those with a
dictionary (variable.py 275, physical.py 456). -/
def classes : Classes Cls where
  mro
    | .ndarray => [.ndarray]
    | .varArray => [.varArray]
    | .varQuantity => [.varQuantity, .varArray]
    | .obsQuantity => [.obsQuantity, .varQuantity, .varArray]
    | .physArray => [.physArray]
  owns c := c = .varArray ∨ c = .physArray

/-- The functions that goats implements. -/
inductive Func where
  | squeeze | mean | other (name : Str)
  deriving DecidableEq

/-- `@Quantity.implements(numpy.squeeze)` and `@Quantity.implements(numpy.mean)` (variable.py 626, 637). -/
def registrations : List (Registration Cls Func Str) :=
  [(.varQuantity, .squeeze, c!"_squeeze"), (.varQuantity, .mean, c!"_mean")]

/-- The dictionaries when goats has been imported. -/
def tables : Res (Tables Cls Func Str) := implementAll classes [] registrations

/-! ## Calling numpy -/

/-- `issubclass(ti, (Array, numpy.ndarray, numpy.ScalarType))` (variable.py 289-290, physical.py 470-471), where `Array` is the
class that defines the method. -/
def accepts (self ti : Cls) : Bool :=
  match classes.owner self with
  | some o => ti = .ndarray ∨ o ∈ classes.mro ti
  | none => ti = .ndarray

/-- Which method computes the function: numpy asks the arguments for one that does not return `NotImplemented`. numpy asks
subclasses first, which makes no difference here: they share the method. Arrays of numpy leave it to the others. -/
def responder (types : List Cls) : Option Cls :=
  (types.filter (· ≠ .ndarray)).find? (fun c => types.all (accepts c))

/-- How numpy computes a function. -/
inductive Route where
  /-- by numpy, from the numpy arrays -/
  | plain
  /-- by the implementation with this name -/
  | by (impl : Str)
  deriving DecidableEq

/-- `numpy.func(a, b, …)` for arguments of the given classes (variable.py 277-305, physical.py 458-486): without a method that
accepts them, numpy raises `TypeError`. -/
def route (t : Tables Cls Func Str) (types : List Cls) (f : Func) : Res Route :=
  if types.all (· = .ndarray) then .ok .plain
  else match responder types with
    | none => .error .typeError
    | some c => match handled classes t c f with
      | some i => .ok (.by i)
      | none => .ok .plain

/-! ## `numpy.mean` and `numpy.squeeze` -/

/-- The arguments of `numpy.mean` behind the array: `axis` by position or by keyword, and `keepdims`. -/
structure Args where
  position : Option Int
  axis : Option Int
  keepdims : Bool
  deriving DecidableEq

/-- `array.mean(axis=…, keepdims=…)` in numpy: the shape of the result. -/
def reduceShape (shape : List Nat) (axis : Option Int) (keepdims : Bool) : Res (List Nat) :=
  match axis with
  | none => .ok (if keepdims then shape.map (fun _ => 1) else [])
  | some k => do
    let less ← meanShape shape k
    return if keepdims then shape.set (if k < 0 then k + shape.length else k).toNat 1 else less

/-- `numpy.mean` of an array of numpy with this shape: the shape of the result. -/
def numpyMean (shape : List Nat) (args : Args) : Res (List Nat) :=
  match args.position, args.axis with
  | some _, some _ => .error .typeError
  | some k, none => reduceShape shape (some k) args.keepdims
  | none, a => reduceShape shape a args.keepdims

/-- What an array with a unit gives: numbers, or a quantity with names of axes. -/
inductive Given where
  | numbers (shape : List Nat)
  | quantity (dims : List Str) (shape : List Nat)
  deriving DecidableEq

/-- The shape of what is given. -/
def Given.shape : Given → List Nat
  | .numbers s => s
  | .quantity _ s => s

/-- `_mean` (variable.py 637-647), called with the arguments of `numpy.mean`: it takes one by position. `dims` are the names of
the axes, if the object has any. -/
def meanImpl (dims : Option (List Str)) (shape : List Nat) (args : Args) : Res Given :=
  match args.position with
  | some _ => .error .typeError
  | none => do
    let result ← reduceShape shape args.axis args.keepdims
    match args.axis, dims with
    | none, _ => return .numbers result
    | some _, none => .error .attributeError
    | some k, some ds =>
      let r ← named (ds.filter (fun a => (ds.idxOf a : Int) ≠ k)) result
      return .quantity r.1 r.2

/-- `_squeeze` (variable.py 626-634), called without further arguments. -/
def squeezeImpl (dims : Option (List Str)) (shape : List Nat) : Res Given :=
  match dims with
  | none => .error .attributeError
  | some ds => do
    let r ← Arrays.squeeze ds shape none
    return .quantity r.1 r.2

/-- An array of one of the classes; only quantities have names of axes (variable.py 44-55, 491-498). -/
structure Obj where
  cls : Cls
  dims : List Str
  shape : List Nat

/-- The names of the axes, if the object has any. -/
def Obj.names (o : Obj) : Option (List Str) :=
  if o.cls = .varQuantity ∨ o.cls = .obsQuantity then some o.dims else none

/-- `numpy.mean(o, …)`. -/
def mean (t : Tables Cls Func Str) (o : Obj) (args : Args) : Res Given := do
  match ← route t [o.cls] .mean with
  | .plain => return .numbers (← numpyMean o.shape args)
  | .by _ => meanImpl o.names o.shape args

/-- `numpy.squeeze(o)`. -/
def squeeze (t : Tables Cls Func Str) (o : Obj) : Res Given := do
  match ← route t [o.cls] .squeeze with
  | .plain => return .numbers (← squeezeShape o.shape none)
  | .by _ => squeezeImpl o.names o.shape

end Verif.Dispatch
