import Verif.Shapes.Model
import Verif.Symbolic.Parser

/-!
# Model of helper functions in `src/goats/core/interpolation.py`, `iterables.py` and `utilities.py`
-/

namespace Verif.Helpers

open Verif.Py
open Verif.Shapes (Arr)

abbrev Str := List Char

/-! ## `Restriction` -/

variable {K : Type}

/-- The number of an axis; negative numbers count from the end (`numpy.AxisError` otherwise). -/
def normAxis (n : Nat) (k : Int) : Res Nat :=
  if 0 ≤ k ∧ k < n then .ok k.toNat
  else if k < 0 ∧ -n ≤ k then .ok (k + n).toNat
  else .error (.named "AxisError")

/-- `numpy.moveaxis(a, source, destination)`: the other axes keep their order. -/
def moveaxis (a : Arr K) (source destination : Int) : Res (Arr K) := do
  let s ← normAxis a.shape.length source
  let d ← normAxis a.shape.length destination
  return ⟨(a.shape.eraseIdx s).insertIdx d (a.shape.getD s 0),
    fun i => a.entry ((i.eraseIdx d).insertIdx s (i.getD d 0))⟩

/-- A position along an axis of the given size; negative ones count from the end. -/
def position (n : Nat) (k : Int) : Option Nat :=
  if 0 ≤ k ∧ k < n then some k.toNat
  else if k < 0 ∧ -n ≤ k then some (k + n).toNat
  else none

/-- `a[indices, ...]` for a list of integers. -/
def takeFirst (a : Arr K) (indices : List Int) : Res (Arr K) :=
  match a.shape with
  | [] => .error .indexError
  | n :: rest =>
    match indices.mapM (position n) with
    | none => .error .indexError
    | some ps => .ok ⟨ps.length :: rest, fun i => a.entry (ps.getD (i.getD 0 0) 0 :: i.drop 1)⟩

/-- `Restriction(...).apply(array, axis)` (interpolation.py 60-81), for the given indices. -/
def restrict (indices : List Int) (a : Arr K) (axis : Option Int) : Res (Arr K) := do
  let axis := axis.getD (-1)
  let permuted ← moveaxis a axis 0
  let result ← takeFirst permuted indices
  moveaxis result 0 axis

/-! ## `batch_replace` -/

/-- `string.replace(old, new)` for `old` that is not empty, from left to right; the first argument bounds the length. -/
def replaceText (old new : Str) : Nat → Str → Str
  | 0, s => s
  | _ + 1, [] => []
  | n + 1, c :: s =>
    if old.isPrefixOf (c :: s) then new ++ replaceText old new n ((c :: s).drop old.length)
    else c :: replaceText old new n s

/-- `string.replace(old, new)`; the empty text is found before every character and at the end. -/
def replace (old new s : Str) : Str :=
  if old = [] then s.flatMap (fun c => new ++ [c]) ++ new else replaceText old new s.length s

/-- `batch_replace(string, replacement)` (iterables.py 1422-1426). -/
def batchReplace (s : Str) (replacement : List (Str × Str)) : Str :=
  replacement.foldl (fun s p => replace (Symbolic.strip p.1) p.2 s) s

/-! ## Attributes -/

/-- An attribute: a plain value, or a method with what it returns. Methods may set plain attributes. -/
inductive Attr (V : Type) where
  | value (v : V)
  | method (f : List V → Res (V × List (Str × V)))

/-- An object: its attributes, and what a call of the object itself gives, if it is callable. -/
structure Obj (V : Type) where
  attrs : Dict Str (Attr V)
  call : Option (List V → Res V)

/-- A value, or the object itself. -/
inductive Got (V : Type) where
  | value (v : V)
  | self

/-- Assignment of plain attributes. -/
def Obj.assign {V : Type} (o : Obj V) (updates : List (Str × V)) : Obj V :=
  { o with attrs := updates.foldl (fun d p => d.set p.1 (.value p.2)) o.attrs }

/-- `getattrval(object, name, *args)` (utilities.py 6-51): the object afterwards and the result. -/
def getattrval {V : Type} (o : Obj V) (name : Str) (args : List V) : Res (Obj V × Got V) :=
  match o.attrs.get? name with
  | some (.value v) => .ok (o, .value v)
  | some (.method f) => do
    let r ← f args
    return (o.assign r.2, .value r.1)
  | none =>
    match o.call with
    | some f => do return (o, .value (← f args))
    | none => .ok (o, .self)

/-- `setattrval(object, name, *args)` (utilities.py 66-114). -/
def setattrval {V : Type} (o : Obj V) (name : Str) (args : List V) : Res (Obj V) :=
  match o.attrs.get? name with
  | none => .error .attributeError
  | some (.method f) => do
    let r ← f args
    return o.assign r.2
  | some (.value _) =>
    match args with
    | [] => .error .indexError
    | v :: _ => .ok (o.assign [(name, v)])

/-- `equal_attrs(name, *objects)` (utilities.py 117-131), for objects as dictionaries of plain attributes. -/
def equalAttrs {V : Type} [DecidableEq V] (name : Str) (objects : List (Dict Str V)) : Res Bool :=
  match objects with
  | [] => .error .valueError
  | o :: rest =>
    match o.get? name with
    | none => .ok false
    | some v => .ok (allEqual v rest)
where
  /-- The generator in `all`: it stops at the first unequal value; a missing attribute ends it with `False`. -/
  allEqual (v : V) : List (Dict Str V) → Bool
    | [] => true
    | o :: rest =>
      match o.get? name with
      | none => false
      | some w => if w = v then allEqual v rest else false

/-! ## `Singleton` -/

/-- The classes that have `_instance` of their own, and the number of objects created. Class attributes are inherited. -/
structure Created (C : Type) where
  own : List (C × (Nat × C))
  count : Nat

/-- No instances. -/
def Created.none {C : Type} : Created C := ⟨[], 0⟩

/-- `Singleton.__new__(cls)` (iterables.py 1209-1215); `mro` lists a class and its bases in the order of attribute lookup.
An object has an identity and the class that it was created for. -/
def new {C : Type} [DecidableEq C] (mro : C → List C) (st : Created C) (c : C) : Created C × (Nat × C) :=
  match (mro c).findSome? (fun a => Dict.get? st.own a) with
  | some o => (st, o)
  | Option.none => (⟨Dict.set st.own c (st.count, c), st.count + 1⟩, (st.count, c))

/-- The state after a series of calls. -/
def news {C : Type} [DecidableEq C] (mro : C → List C) (st : Created C) (calls : List C) : Created C :=
  calls.foldl (fun st c => (new mro st c).1) st

/-! ## `UniformMapping` -/

/-- A parameter of a constructor: its name, and its default if it has one. -/
structure Param (V : Type) where
  name : Str
  default : Option V

/-- A call of a constructor with keyword arguments; the instance is the list of values of its parameters. -/
def construct {V : Type} (params : List (Param V)) (kwargs : Dict Str V) : Res (List (Str × V)) :=
  if kwargs.keys.all (fun k => k ∈ params.map (·.name)) then
    params.mapM (fun p => match (kwargs.get? p.name).or p.default with
      | some v => Except.ok (p.name, v)
      | none => Except.error .typeError)
  else .error .typeError

/-- `UniformMapping(mapping, type)[key]` (iterables.py 654-659), for a type whose constructor has the given parameters
(576-652); `null` is `None`. -/
def uniformGet {V : Type} (null : V) (params : List (Param V)) (mapping : Dict Str (Dict Str V)) (key : Str) :
    Res (List (Str × V)) :=
  match mapping.get? key with
  | none => .error .keyError
  | some m => construct params (params.map (fun p => (p.name, (m.get? p.name).getD null)))

/-! ## `class_attribute` -/

/-- `class_attribute(cls, name)` (iterables.py 1458-1478) for a class with the given classes in the order of attribute
lookup, the class itself first (single inheritance: the classes that follow are those of the bases). `own` has the values
of the attribute that a class defines itself. -/
def classAttribute {C V : Type} (own : C → Option (List V)) (mro : List C) : List V :=
  (mro.tails.reverse.map (fun t => (t.findSome? own).getD [])).flatten

/-! ## `apply` -/

/-- `apply(methods, ...)` (iterables.py 1430-1438): the result and the number of methods that are called. A method either
raises an exception or returns a value, which is true or false. -/
def applyFirst {V : Type} (truth : V → Bool) : List (Res V) → Res (Option V) × Nat
  | [] => (.ok none, 0)
  | .error e :: _ => (.error e, 1)
  | .ok v :: rest => if truth v then (.ok (some v), 1) else
      let r := applyFirst truth rest
      (r.1, r.2 + 1)

end Verif.Helpers
