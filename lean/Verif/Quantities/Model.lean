import Verif.Py.Chars
import Verif.Py.Seq
import Verif.Metadata.Model

/-!
# Measured and named quantities: creation, comparison, conversion and indexing

`measurable.Quantity` (measurable.py 84-241), `physical.Quantity`, `physical.Scalar` and `physical.Vector` (physical.py
20-214), `constant.Assumption` (constant.py 10-49).  Units are elements of any type `U`, with the comparison `ueq` that is
`Unit.__eq__` in the code.  Numbers are rational.
-/

namespace Verif.Quantities

open Verif.Py Verif.Metadata

variable {U : Type}

/-- The classes of single-valued quantities. -/
inductive Kind where
  /-- `measurable.Quantity`, which has a unit and no name. -/
  | measurable
  /-- `physical.Quantity`. -/
  | named
  /-- `physical.Scalar`. -/
  | scalar
  deriving DecidableEq

/-- A single-valued quantity.  `name` is its attribute of that name, with all aliases; `none` without the attribute. -/
structure Qty (U : Type) where
  kind : Kind
  data : Rat
  unit : U
  name : Option (List Str)
  deriving DecidableEq

/-- A quantity has a name just if its class has. -/
def Qty.Valid (q : Qty U) : Prop := q.name.isSome = true ↔ q.kind ≠ .measurable

/-- The first argument of a constructor: a number or a quantity. -/
inductive Arg (U : Type) where
  | number (x : Rat)
  | qty (q : Qty U)

/-- `Name('')` (metadata.py 612-616). -/
def noName : List Str := [[]]

/-- The constructors (measurable.py 167-184, physical.py 38-47 and 68-69) with the keyword arguments `unit` and `name`;
`one` is the unit `'1'`.  Attributes come from a quantity or from the keywords (measurable.py 186-190). -/
def create (one : U) : Kind → Arg U → Option U → Option (List Str) → Res (Qty U)
  | .measurable, .number x, unit, _ => .ok ⟨.measurable, x, unit.getD one, none⟩
  | .measurable, .qty q, _, _ => .ok ⟨.measurable, q.data, q.unit, none⟩
  | .named, .number x, unit, name => .ok ⟨.named, x, unit.getD one, some (name.getD noName)⟩
  | .named, .qty q, _, _ =>
    match q.name with
    | some n => .ok ⟨.named, q.data, q.unit, some n⟩
    | none => .error .attributeError
  | .scalar, .number x, unit, name => .ok ⟨.scalar, x, unit.getD one, some (name.getD noName)⟩
  -- `float(__data)`
  | .scalar, .qty q, unit, name => .ok ⟨.scalar, q.data, unit.getD one, some (name.getD noName)⟩

/-! ## Comparison -/

/-- `consistent('unit', self, other)` (metadata.py 25-34). -/
def consistentUnit (ueq : U → U → Bool) (x : Qty U) : Arg U → Bool
  | .number _ => true
  | .qty y => ueq y.unit x.unit

/-- `consistent('name', self, other)` (metadata.py 25-34). -/
def consistentName (x : Qty U) : Arg U → Bool
  | .number _ => true
  | .qty y => match x.name, y.name with
    | some m, some n => nameEq n m
    | _, _ => true

/-- `OperatorFactory.check(self, other)` (metadata.py 412-416): the registered parameters are `'unit'`, and `'name'` for
classes that have a name (measurable.py 180, physical.py 43). -/
def check (ueq : U → U → Bool) (x : Qty U) (y : Arg U) : Res Unit :=
  if ¬ consistentUnit ueq x y then .error .valueError
  else if x.name.isSome ∧ ¬ consistentName x y then .error .valueError
  else .ok ()

/-- The data of an operand (measurable.py 121-125). -/
def Arg.data : Arg U → Rat
  | .number x => x
  | .qty q => q.data

/-- The order comparisons (algebraic.py 274-288). -/
inductive Cmp where
  | lt | le | gt | ge

/-- The comparison of data. -/
def Cmp.holds : Cmp → Rat → Rat → Bool
  | .lt, x, y => x < y
  | .le, x, y => x ≤ y
  | .gt, x, y => y < x
  | .ge, x, y => y ≤ x

/-- `Quantified.implement` in mode `'comparison'` (measurable.py 126-128). -/
def compare (ueq : U → U → Bool) (c : Cmp) (x : Qty U) (y : Arg U) : Res Bool := do
  check ueq x y
  return c.holds x.data y.data

/-- `Quantified.__eq__` (measurable.py 100-110). -/
def equal (ueq : U → U → Bool) (x : Qty U) : Arg U → Bool
  | .number y => y = x.data
  | .qty y =>
    if y.data ≠ x.data then false
    else if ¬ ueq x.unit y.unit then false
    else match x.name, y.name with
      | some m, some n => nameEq m n
      | _, _ => true

/-! ## Changing the unit -/

/-- `Quantity.__getitem__` for a unit (measurable.py 197-236): the same object if the unit is the same, else
`type(self)(data, unit=unit)`.  `related` is `self.unit | unit` and `factor` is `unit // self._unit`. -/
def convert (one : U) (ueq related : U → U → Bool) (factor : U → U → Res Rat) (x : Qty U) (unit : U) : Res (Qty U) :=
  if ueq unit x.unit then .ok x
  else if ¬ related x.unit unit then .error .valueError
  else do
    let f ← factor unit x.unit
    create one x.kind (.number (x.data * f)) (some unit) none

/-! ## Vectors -/

/-- A vector (physical.py 118-168): numbers, unit and name. -/
structure Vec (U : Type) where
  data : List Rat
  unit : U
  name : List Str
  deriving DecidableEq

/-- What a vector can be created from. -/
inductive VecArg (U : Type) where
  | number (x : Rat)
  | list (xs : List Rat)
  /-- The result of `measure`. -/
  | measurement (xs : List Rat) (unit : U)
  | scalar (q : Qty U)
  | vector (v : Vec U)

/-- `Vector.__init__` (physical.py 160-168).  Measurements and scalars replace the keyword arguments; a vector is only
iterated. -/
def createVec (one : U) : VecArg U → Option U → Option (List Str) → Vec U
  | .number x, unit, name => ⟨[x], unit.getD one, name.getD noName⟩
  | .list xs, unit, name => ⟨xs, unit.getD one, name.getD noName⟩
  | .measurement xs u, _, _ => ⟨xs, u, noName⟩
  | .scalar q, _, _ => ⟨[q.data], q.unit, q.name.getD noName⟩
  | .vector v, unit, name => ⟨v.data, unit.getD one, name.getD noName⟩

/-- The adjustment of a negative index (physical.py 182-183, measurable.py 49-50). -/
def adjust (n : Nat) (i : Int) : Int := if i < 0 then i + n else i

/-- `Vector.__getitem__` for an integer (physical.py 178-190). -/
def Vec.get (one : U) (v : Vec U) (i : Int) : Res (Qty U) := do
  let x ← Py.getItem v.data (adjust v.data.length i)
  create one .scalar (.number x) (some v.unit) none

/-- `Assumption.__getitem__` for an integer (constant.py 18-31). -/
def Vec.getAssumption (one : U) (v : Vec U) (i : Int) : Res (Qty U) := do
  let s ← v.get one i
  create one .scalar (.qty s) (some v.unit) (some v.name)

/-- `Measurement.__getitem__` for an integer (measurable.py 47-53). -/
def getMeasured (data : List Rat) (unit : U) (i : Int) : Res (List (Rat × U)) := do
  let x ← Py.getItem data (adjust data.length i)
  return [(x, unit)]

/-- `Expression.__getitem__` for an integer (symbolic.py 1456-1465). -/
def getTerm {T : Type} (terms : List T) (i : Int) : Res T :=
  if i > terms.length then .error .indexError
  else Py.getItem terms (adjust terms.length i)

/-- `Vector.__eq__` for two vectors (physical.py 192-198). -/
def Vec.equal (ueq : U → U → Bool) (v w : Vec U) : Bool := ueq v.unit w.unit && v.data = w.data

/-- Changing the unit of a vector (measurable.py 197-236). -/
def Vec.convert (one : U) (ueq related : U → U → Bool) (factor : U → U → Res Rat) (v : Vec U) (unit : U) :
    Res (Vec U) :=
  if ueq unit v.unit then .ok v
  else if ¬ related v.unit unit then .error .valueError
  else do
    let f ← factor unit v.unit
    return createVec one (.list (v.data.map (· * f))) (some unit) none

/-- `Assumption._cast_to` (constant.py 43-49); `cast` is `int` or `float`. -/
def Vec.castTo {R : Type} (cast : Rat → R) (v : Vec U) : Res R :=
  match v.data with
  | [x] => .ok (cast x)
  | _ => .error .typeError

/-- `scalar(v)` for a vector with at least one value (physical.py 201-214): `measure` gives its values and unit
(measurable.py 238-241), and more than one is an error. -/
def Vec.toScalar (one : U) (v : Vec U) : Res (Qty U) :=
  if v.data.length = 1 then v.get one 0 else .error .valueError

end Verif.Quantities
