import Verif.Measurable.Model

/-!
# Model of `ismeasurable` in `src/goats/core/measurable.py`
-/

namespace Verif.Measurable

open Verif.Py Verif.Iterables

/-- `all(f(i) for i in args)`: stops at the first false item (measurable.py 317). -/
def allItems (f : Arg → Res Bool) : List Arg → Res Bool
  | [] => .ok true
  | x :: xs => do if ← f x then allItems f xs else return false

/-- `values` (measurable.py 313-314): the members of the first argument if it is iterable, else all arguments but the
last. -/
def valuesOf (xs : List Arg) : List Arg :=
  match xs.head? with
  | some (.list ys) => ys
  | some (.tuple ys) => ys
  | some (.str s) => members (.str s)
  | _ => xs.dropLast

/-- `isinstance(args[-1], metadata.UnitLike)` (measurable.py 312); units themselves are strings here. -/
def endsInUnit (xs : List Arg) : Bool :=
  match xs.getLast? with
  | some (.str _) => true
  | _ => false

/-- `ismeasurable` (measurable.py 280-319) up to a depth of nesting. -/
def isMeasurable : Nat → Arg → Res Bool
  | 0, _ => .error (.named "fuel")
  | fuel + 1, o =>
    match unwrap o with
    | .none => .ok false
    | .str _ => .ok false
    | .atom _ => .ok true
    | u =>
      if (members u).all isNumber then .ok true
      else if endsInUnit (members u) ∧ (valuesOf (members u)).all isNumber then .ok true
      else allItems (isMeasurable fuel) (members u)

end Verif.Measurable
