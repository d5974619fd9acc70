import Verif.Quantities.Model

/-!
# Arithmetic of single-valued quantities

`Quantified.implement` (measurable.py 112-147) for the operators of `algebraic.Quantity` and `algebraic.Scalar`
(algebraic.py 244-387), with the metadata of the result computed by `metadata.Operation.apply` (metadata.py 323-356) and
`metadata.Operator.__call__` (metadata.py 165-175).
-/

namespace Verif.Quantities

open Verif.Py Verif.Metadata

variable {U : Type}

/-- The binary operators. -/
inductive BinOp where
  | add | sub | mul | div | pow
  deriving DecidableEq

/-- What `metadata.Unit` (metadata.py 545-610) offers for two units: `+`, `-` (`_add_sub`), `*`, `/`; and powers. -/
structure UnitOps (U : Type) where
  addSub : U → U → Res U
  mul : U → U → Res U
  div : U → U → Res U
  pow : U → Rat → Res U

/-- The operation on the data; the power is a parameter. -/
def BinOp.onData (powData : Rat → Rat → Res Rat) : BinOp → Rat → Rat → Res Rat
  | .add, x, y => .ok (x + y)
  | .sub, x, y => .ok (x - y)
  | .mul, x, y => .ok (x * y)
  | .div, x, y => if y = 0 then .error .zeroDivision else .ok (x / y)
  | .pow, x, y => powData x y

/-- The text of an operator in a name (metadata.py 697-706). -/
def BinOp.symbol : BinOp → Str
  | .add => c!" + "
  | .sub => c!" - "
  | .mul => c!" * "
  | .div => c!" / "
  | .pow => c!"^"

/-- Whether an operator needs two names (metadata.py 697-700). -/
def BinOp.strict : BinOp → Bool
  | .add | .sub => true
  | _ => false

/-- `supports` (metadata.py 298-312) after the declarations of `measurable.Quantity.__init__` (measurable.py 170-177): a
number cannot be divided by a quantity, or raised to it, nor a quantity to a quantity. -/
def BinOp.supported : BinOp → (leftNumber rightNumber : Bool) → Bool
  | .div, true, false => false
  | .pow, _, false => false
  | _, _, _ => true

/-- The unit of the result (metadata.py 165-175 with `getall` in mode `'force'`, which gives the operand itself if it has no
unit): `left` and `right` are the units, or the numbers.  A number next to a unit is ignored by `*` and `/` (metadata.py
552-571), and not accepted by `+` and `-` (metadata.py 594-595). -/
def BinOp.onUnit (O : UnitOps U) : BinOp → (left right : Rat ⊕ U) → Res U
  | .add, .inr u, .inr v => O.addSub u v
  | .sub, .inr u, .inr v => O.addSub u v
  | .mul, .inr u, .inr v => O.mul u v
  | .div, .inr u, .inr v => O.div u v
  | .mul, .inr u, .inl _ => .ok u
  | .mul, .inl _, .inr u => .ok u
  | .div, .inr u, .inl _ => .ok u
  | .div, .inl _, .inr u => .ok u
  | .pow, .inr u, .inl p => O.pow u p
  | _, _, _ => .error .typeError

/-- The text of a number in a name: `str(Fraction(y))` (metadata.py 664-669). -/
def numberText (q : Rat) : Str := Symbolic.ratStr q

/-- The name of the result (metadata.py 660-695).  The operands are names, numbers, or quantities without a name (`none`).
Numbers are given as integers or fractions, so that the number one is written `1`. -/
def BinOp.onName (o : BinOp) : (left right : Option (Rat ⊕ List Str)) → Res (List Str)
  | some (.inr a), some (.inr b) => nameOp o.symbol o.strict a (.name b)
  | some (.inr a), some (.inl q) =>
    if ¬ nameTrue a ∨ q = 0 then .ok noName
    else if o.strict then .error .typeError
    else if q = 1 then .ok a
    else .ok (a.map (fun i => i ++ o.symbol ++ numberText q))
  | some (.inl q), some (.inr a) =>
    if ¬ nameTrue a ∨ q = 0 then .ok noName
    else if o.strict then .error .typeError
    else if q = 1 then .ok a
    else .ok (a.map (fun i => numberText q ++ o.symbol ++ i))
  | some (.inr a), none => if ¬ nameTrue a then .ok noName else .error .typeError
  | none, some (.inr a) => if ¬ nameTrue a then .ok noName else .error .typeError
  | _, _ => .error .typeError

/-- An operand as seen by the unit. -/
def Arg.unitOf : Arg U → Rat ⊕ U
  | .number q => .inl q
  | .qty y => .inr y.unit

/-- An operand as seen by the name. -/
def Arg.nameOf : Arg U → Option (Rat ⊕ List Str)
  | .number q => some (.inl q)
  | .qty y => y.name.map .inr

/-- Whether an operand is a number. -/
def Arg.isNumber : Arg U → Bool
  | .number _ => true
  | .qty _ => false

/-- Modes `'forward'` and `'reverse'` of `implement` (measurable.py 129-136) for the object `x`: `left` and `right` are `x`
and the other operand in their order.  First the data, then the metadata (`unit`, then `name` if the class has one) are
computed, and an object of the class of `x` is created from them. -/
def binary (O : UnitOps U) (powData : Rat → Rat → Res Rat) (o : BinOp) (x : Qty U) (left right : Arg U) : Res (Qty U) := do
  let data ← o.onData powData left.data right.data
  if o.supported left.isNumber right.isNumber then
    let unit ← o.onUnit O left.unitOf right.unitOf
    match x.name with
    | none => return ⟨x.kind, data, unit, none⟩
    | some _ => do
      let name ← o.onName left.nameOf right.nameOf
      return ⟨x.kind, data, unit, some name⟩
  else .error (.named "OperandTypeError")

/-- `x o y` (algebraic.py 290-340). -/
def forward (O : UnitOps U) (powData : Rat → Rat → Res Rat) (o : BinOp) (x : Qty U) (y : Arg U) : Res (Qty U) :=
  binary O powData o x (.qty x) y

/-- `q o x` for a number `q` (algebraic.py 294-344). -/
def reverse (O : UnitOps U) (powData : Rat → Rat → Res Rat) (o : BinOp) (q : Rat) (x : Qty U) : Res (Qty U) :=
  binary O powData o x (.number q) (.qty x)

/-- The unary operators (algebraic.py 258-268, 373-387). -/
inductive UnOp where
  | abs | pos | neg | round | floor | ceil | trunc

/-- The name of the result of a unary operator (metadata.py 708-742): without a name, `Name()` raises `TypeError`, and the
name is taken over (metadata.py 170-172). -/
def UnOp.onName (o : UnOp) (a : List Str) : List Str :=
  if ¬ nameTrue a then a
  else match o with
    | .abs => a.map (fun i => c!"abs(" ++ i ++ c!")")
    | .pos => a.map (fun i => c!"+" ++ i)
    | .neg => a.map (fun i => c!"-" ++ i)
    | .round => a.map (fun i => c!"round(" ++ i ++ c!")")
    | .floor => a.map (fun i => c!"floor(" ++ i ++ c!")")
    | .ceil => a.map (fun i => c!"ceil(" ++ i ++ c!")")
    | .trunc => a.map (fun i => c!"trunc(" ++ i ++ c!")")

/-- Python's `round` of a rational number: to the nearest integer, ties to even. -/
def roundHalfEven (q : Rat) : Int :=
  let d := q - q.floor
  if d < 1 / 2 then q.floor
  else if 1 / 2 < d then q.floor + 1
  else if q.floor % 2 = 0 then q.floor else q.floor + 1

/-- The unary operations on the data. -/
def UnOp.onData : UnOp → Rat → Rat
  | .abs, q => if q < 0 then -q else q
  | .pos, q => q
  | .neg, q => -q
  | .round, q => roundHalfEven q
  | .floor, q => q.floor
  | .ceil, q => q.ceil
  | .trunc, q => if q < 0 then q.ceil else q.floor

/-- Mode `'arithmetic'` of `implement` (measurable.py 117-120): a unit has none of the unary operators, so that it is taken
over (metadata.py 170-172). -/
def unary (o : UnOp) (x : Qty U) : Qty U := ⟨x.kind, o.onData x.data, x.unit, x.name.map o.onName⟩

end Verif.Quantities
