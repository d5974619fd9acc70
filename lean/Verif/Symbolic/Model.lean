import Mathlib.Data.Rat.Defs
import Mathlib.Algebra.Field.Rat
import Mathlib.Algebra.Order.Ring.Unbundled.Rat
import Mathlib.Data.Char
import Mathlib.Data.List.Lex
import Mathlib.Data.List.Sort
import Verif.Py.Seq
import Verif.Py.Float

/-!
# Model of `src/goats/core/symbolic.py`: operands, `reduce` and the operations of `Expression`

Coefficients and exponents are exact rationals (the code uses `fractions.Fraction`, but passes
through `float` in `_build_constant` and in `Expression.__pow__`, where `toFloat` rounds to
binary64).  `Operand.__eq__` compares floats; `exprEq` compares the exact numbers (C20 and C202 treat
the rounding).  A power of a coefficient that is
not exactly representable leaves the model: it is the pseudo-error `"inexact"`.
-/

namespace Verif.Symbolic

open Verif.Py

/-- Bases are strings. -/
abbrev Name := List Char

/-- The base of a constant term (symbolic.py 178). -/
def one : Name := ['1']

/-- Attributes of an `Operand` or `Term` (symbolic.py 170-181). -/
structure Operand where
  coef : Rat
  base : Name
  exp : Rat
  deriving DecidableEq

/-- A `Term` has the attributes of an operand; which strings are valid bases is
`_validate_base` (symbolic.py 319-324), modelled by `Symbolic.ValidBase` in the parser model. -/
abbrev Term := Operand

/-- `x or 1` for a number (symbolic.py 176, 180): zero is false. -/
def orOne (x : Rat) : Rat := if x = 0 then 1 else x

/-- `Operand.__init__` (symbolic.py 170-181), with the defaults already filled in. -/
def mkOperand (coef : Rat) (base : Name) (exp : Rat) : Operand :=
  ⟨orOne coef, if base = [] then one else base, orOne exp⟩

/-- `Fraction ** power` (symbolic.py 190): exact for integral powers; the float power of 1 is 1;
the power of a negative number is complex, which `Fraction` rejects with `TypeError`. The square root of a
perfect square below 2^53 is exact as a float; all other roots are not modelled (`inexact`). -/
def powCoef (c p : Rat) : Res Rat :=
  if p.den = 1 then
    if c = 0 ∧ p < 0 then .error .zeroDivision else .ok (c ^ p.num)
  else if c = 1 then .ok 1
  else if c = 0 then if p < 0 then .error .zeroDivision else .ok 0
  else if c < 0 then .error .typeError
  else if p = 1 / 2 ∧ c.den = 1 ∧ c.num < 2 ^ 53 ∧ c.num.toNat.sqrt * c.num.toNat.sqrt = c.num.toNat then
    .ok c.num.toNat.sqrt
  else .error (.named "inexact")

/-- `Operand.__pow__` (symbolic.py 188-192). -/
def Operand.pow (t : Operand) (p : Rat) : Res Operand := do
  let c ← powCoef t.coef p
  return mkOperand c t.base (t.exp * p)

/-- `Operand.__pow__` with a float (symbolic.py 188-192): `Fraction ** float` is `float ** float`, and
`Fraction * float` is `float * float`; both are taken to be correctly rounded. -/
def Operand.powFloat (t : Operand) (p : Rat) : Res Operand := do
  let c ← toFloat (← powCoef (← toFloat t.coef) p)
  let e ← toFloat ((← toFloat t.exp) * p)
  return mkOperand c t.base e

/-- `Operand.__mul__` and `__rmul__` (symbolic.py 194-199). -/
def Operand.scale (t : Operand) (x : Rat) : Operand := mkOperand (t.coef * x) t.base t.exp

/-! ## `reduce` -/

/-- One iteration of the loop in `reduce` (symbolic.py 1686-1695). -/
def reduceStep (d : Dict Name (Rat × Rat)) (t : Term) : Dict Name (Rat × Rat) :=
  match d.get? t.base with
  | some (c, e) => d.set t.base (c * t.coef, e + t.exp)
  | none => d.set t.base (t.coef, t.exp)

/-- The dictionary `reduced` after the loop (symbolic.py 1684-1695). -/
def collect (ts : List Term) : Dict Name (Rat × Rat) := ts.foldl reduceStep []

/-- `tmp` (symbolic.py 1700-1704). -/
def variablesOf (d : Dict Name (Rat × Rat)) : List Term :=
  (d.filter (fun p => p.1 ≠ one ∧ p.2.2 ≠ 0)).map (fun p => mkOperand 1 p.1 p.2.2)

/-- The two calls of `sorted` (symbolic.py 1706-1710). Both are stable. -/
def sortTerms (ts : List Term) : List Term :=
  (ts.insertionSort (fun a b => a.base ≤ b.base)).insertionSort (fun a b => b.exp ≤ a.exp)

/-- `reduce(*groups)` on the concatenation of the groups (symbolic.py 1669-1717).
`functools.reduce` without initial value raises `TypeError` for an empty collection. -/
def reduce (ts : List Term) : Res (List Term) :=
  let d := collect ts
  let vars := sortTerms (variablesOf d)
  match d.values.map (·.1) with
  | [] => .error .typeError
  | c0 :: cs =>
    let c := cs.foldl (· * ·) c0
    let constant := [mkOperand c one 1]
    if vars = [] then .ok constant
    else if c = 1 then .ok vars
    else .ok (constant ++ vars)

/-! ## Comparison of expressions -/

/-- The sort key `(base, exponent, coefficient)` (symbolic.py 1565). -/
def keyLe (a b : Term) : Prop :=
  a.base < b.base ∨ (a.base = b.base ∧ (a.exp < b.exp ∨ (a.exp = b.exp ∧ a.coef ≤ b.coef)))

instance : DecidableRel keyLe := fun a b => by unfold keyLe; infer_instance

/-- `Expression.__eq__` on the terms of two expressions (symbolic.py 1547-1566).  `Operand.__eq__`
(201-210) compares base, exponent and coefficient. -/
def exprEq (a b : List Term) : Bool :=
  if a.length ≠ b.length then false
  else a.insertionSort keyLe == b.insertionSort keyLe

/-- `Expression.difference` (symbolic.py 1476-1541): the terms of the first expression that the
second one lacks. -/
def difference (a b : List Term) : List Term := a.filter (· ∉ b)

end Verif.Symbolic
