import Verif.Py.Basic
import Verif.Py.Chars
import Verif.Runtime.Model
import Mathlib.Algebra.Field.Rat

/-!
# `src/goats/core/operational.py`

`Argument`. Values are numbers, Booleans, strings, Python sequences and numpy arrays. Arrays are given
by their items along the first axis; the conversion of types within arrays, and the rejection of
ragged ones, are not modelled. `numpy.bool_` is a Boolean, other numpy scalars are numbers. Of
units only equality is used.
-/

namespace Verif.Operational

open Verif.Py
open Verif.Runtime (Str)

/-- A value. -/
inductive Val
  | int (n : Int)
  | bool (b : Bool)
  | real (q : ℚ)
  | str (s : Str)
  | seq (xs : List Val)
  | arr (xs : List Val)

mutual
/-- What a value becomes as an item of an array. -/
def toItem : Val → Val
  | .seq xs => .arr (toItems xs)
  | .arr xs => .arr (toItems xs)
  | v => v
/-- The same for several. -/
def toItems : List Val → List Val
  | [] => []
  | x :: xs => toItem x :: toItems xs
end

/-- `numpy.array(data, ndmin=1)`. -/
def mkArray : Val → Val
  | .seq xs => .arr (toItems xs)
  | .arr xs => .arr (toItems xs)
  | v => .arr [v]

mutual
/-- The values of an array in order. -/
def flat : Val → List Val
  | .arr xs => flats xs
  | v => [v]
/-- The same for several. -/
def flats : List Val → List Val
  | [] => []
  | x :: xs => flat x ++ flats xs
end

/-- The attributes of an argument; no unit stands for a false one. -/
structure Argument (U : Type) where
  raw : Val
  unit : Option U

variable {U : Type}

/-- Whether `__new__` accepts a single argument without a unit that has no `data` and `unit` itself
(operational.py 55-64; `hastype` without wrappers is `isinstance`, iterables.py 1583-1595). -/
def accepts : Val → Bool
  | .int _ => true
  | .bool _ => true
  | .str _ => true
  | _ => false

/-- `__init__` (operational.py 89-96). -/
def Argument.new (data : Val) : Option U → Argument U
  | some u => ⟨mkArray data, some u⟩
  | none =>
    match data with
    | .str s => ⟨.seq [.str s], none⟩
    | d => ⟨d, none⟩

/-- `Argument(x)` (operational.py 55-96). -/
def Argument.ofValue (x : Val) : Res (Argument U) :=
  if accepts x then .ok (Argument.new x none) else .error .typeError

/-- `len(v)`, if it has a length. -/
def lenOf : Val → Option Nat
  | .str s => some s.length
  | .seq xs => some xs.length
  | .arr xs => some xs.length
  | _ => none

/-- `list(iter(v))`, if it can be iterated. -/
def itemsOf : Val → Option (List Val)
  | .str s => some (s.map (fun c => .str [c]))
  | .seq xs => some xs
  | .arr xs => some xs
  | _ => none

/-- `data` (operational.py 200-209). -/
def Argument.data (a : Argument U) : Val :=
  match a.raw with
  | .seq [x] => x
  | .arr [x] => x
  | v => v

/-- `bool(x)` for a scalar in an array of one value. -/
def scalarTruth : Val → Bool
  | .int n => n ≠ 0
  | .bool b => b
  | .real q => q ≠ 0
  | .str s => s ≠ []
  | .seq xs => !xs.isEmpty
  | .arr xs => !xs.isEmpty

/-- `bool(array)` for the values of an array: ambiguous for more than one. -/
def arrayTruth : List Val → Res Bool
  | [] => .ok false
  | [x] => .ok (scalarTruth x)
  | _ => .error .valueError

/-- `__bool__` (operational.py 117-139). -/
def Argument.truth (a : Argument U) : Res Bool :=
  match a.data with
  | .int _ => .ok true
  | .real _ => .ok true
  | .bool b => .ok b
  | .str s => .ok (Runtime.strip s ≠ [])
  | .seq xs => .ok (!xs.isEmpty)
  | .arr xs => arrayTruth (flats xs)

/-- `__len__` (operational.py 176-181). -/
def Argument.length (a : Argument U) : Nat := (lenOf a.data).getD 1

/-- `__iter__` (operational.py 169-174). -/
def Argument.members (a : Argument U) : List Val := (itemsOf a.data).getD [a.data]

/-- `int(v)` or `float(v)` for `v` without items, given the reader of strings and the conversion of
numbers. -/
def castScalar (read : Str → Option ℚ) (ofNumber : ℚ → ℚ) : Val → Res ℚ
  | .int n => .ok (ofNumber n)
  | .bool b => .ok (ofNumber (if b then 1 else 0))
  | .real q => .ok (ofNumber q)
  | .str s => match read s with
    | some q => .ok q
    | none => .error .valueError
  | .arr [x] => match x with
    | .int n => .ok (ofNumber n)
    | .real q => .ok (ofNumber q)
    | _ => .error .typeError
  | _ => .error .typeError

/-- `_cast_to` (operational.py 153-167). -/
def Argument.castTo (a : Argument U) (read : Str → Option ℚ) (ofNumber : ℚ → ℚ) : Res ℚ :=
  match lenOf a.data with
  | none => castScalar read ofNumber a.data
  | some 0 => castScalar read ofNumber a.data
  | some 1 => match itemsOf a.data with
    | some (x :: _) => castScalar read ofNumber x
    | _ => .error .indexError
  | some _ => .error (.named "NumericCastError")

/-- `int(q)`: towards zero. -/
def towardsZero (q : ℚ) : ℚ := (q.num.tdiv q.den : Int)

/-- `__int__` (operational.py 147-149). -/
def Argument.toInt (a : Argument U) (read : Str → Option ℚ) : Res ℚ := a.castTo read towardsZero

/-- `__float__` (operational.py 141-145); without a unit `NotImplemented` is returned, for which
`float` raises `TypeError`. -/
def Argument.toFloat (a : Argument U) (read : Str → Option ℚ) : Res ℚ :=
  match a.unit with
  | some _ => a.castTo read id
  | none => .error .typeError

/-- `xs[i]` with Python's negative indices. -/
def pyIndex (xs : List Val) (i : Int) : Res Val :=
  if 0 ≤ i then (xs[i.toNat]?).elim (.error .indexError) .ok
  else if 0 ≤ i + xs.length then (xs[(i + xs.length).toNat]?).elim (.error .indexError) .ok
  else .error .indexError

/-- `__getitem__` for an integer (operational.py 183-198): the value before it is made a scalar with the
unit of the argument, or its members if it has any. An item of a scalar raises `TypeError`
(Python numbers) or `IndexError` (numpy scalars). -/
def Argument.getItem (a : Argument U) (index : Int) : Res Val :=
  let i := if index < 0 then index + a.length else index
  match itemsOf a.data with
  | some xs => pyIndex xs i
  | none => if a.unit.isSome then .error .indexError else .error .typeError

/-- The result of `==`: a Boolean, or an array for each element. -/
inductive Comparison
  | same (b : Bool)
  | elementwise
deriving DecidableEq

/-- The value of a number or Boolean. -/
def numeric : Val → Option ℚ
  | .int n => some n
  | .bool b => some (if b then 1 else 0)
  | .real q => some q
  | _ => none

/-- `x == y` for numbers and strings. -/
def scalarEq : Val → Val → Bool
  | .str s, .str t => s = t
  | x, y => match numeric x, numeric y with
    | some p, some q => p = q
    | _, _ => false

/-- `x == y`; sequences within sequences are not modelled. -/
def compare (x y : Val) : Comparison :=
  match x, y with
  | .arr _, _ => .elementwise
  | _, .arr _ => .elementwise
  | .seq xs, .seq ys => .same (xs.length = ys.length && (xs.zip ys).all (fun p => scalarEq p.1 p.2))
  | x, y => .same (scalarEq x y)

/-- `__eq__` for two arguments (operational.py 216-223); `same` compares units.  The truth of an
elementwise comparison of more than one value is ambiguous. -/
def Argument.eq (same : U → U → Bool) (a b : Argument U) : Res Comparison :=
  let d := compare b.data a.data
  match a.unit with
  | none => .ok d
  | some u =>
    match d with
    | .elementwise => .error .valueError
    | .same false => .ok (.same false)
    | .same true => match b.unit with
      | some v => .ok (.same (same v u))
      | none => .ok (.same false)

end Verif.Operational
