import Verif.Metadata.Model

/-!
# Equality of arrays (`variable.py`, `physical.py`)

An array has a shape and its values in C order (no NaN). Equality of units is a parameter, since that of
the code has defects of its own (C79).
-/

namespace Verif.Arrays

open Verif.Py Verif.Metadata

/-- What kind of array an object is. -/
inductive ArrKind where
  /-- `variable.Array` -/
  | base
  /-- `variable.Quantity`, a subclass of the former. -/
  | quantity
  /-- `physical.Array` -/
  | physical
  deriving DecidableEq

/-- An array object. A `variable.Array` has neither unit nor axes, a `physical.Array` has no axes. -/
structure EqArr (U : Type) where
  kind : ArrKind
  shape : List Nat
  values : List Rat
  unit : U
  dims : List Str
  name : List Str

section
variable {U : Type} (same : U → U → Bool)

/-- `numpy.array_equal`. -/
def arrayEqual (a b : EqArr U) : Bool := a.shape = b.shape && a.values = b.values

/-- `utilities.equal_attrs` (utilities.py 117-131) for two objects that have the attribute: the value of
the second is compared with that of the first. -/
def equalAttrs {α : Type} (eq : α → α → Bool) (x y : α) : Bool := eq y x

/-- `a.__eq__(b)` (variable.py 70-74, 538-545; physical.py 269-275); `none` is `NotImplemented`. -/
def eqMethod (a b : EqArr U) : Option Bool :=
  match a.kind with
  | .base => if b.kind = .physical then none else some (arrayEqual b a)
  | .quantity =>
    if b.kind = .quantity then
      if equalAttrs same a.unit b.unit then
        if equalAttrs (fun y x => dimEq y (.dims x)) a.dims b.dims then some (arrayEqual b a)
        else some false
      else some false
    else none
  | .physical =>
    if b.kind = .physical then
      if same a.unit b.unit then some (arrayEqual b a) else some false
    else none

/-- `a == b` for two different objects: the method of a proper subclass goes first, then the other; if
neither knows the answer, they are compared by identity. -/
def eqArr (a b : EqArr U) : Bool :=
  let first := if a.kind = .base ∧ b.kind = .quantity then eqMethod same b a else eqMethod same a b
  let second := if a.kind = .base ∧ b.kind = .quantity then eqMethod same a b else eqMethod same b a
  match first with
  | some r => r
  | none => second.getD false

end

end Verif.Arrays
