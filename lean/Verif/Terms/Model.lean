import Verif.Symbolic.Parser

/-!
# Model of terms in `src/goats/core/symbolic.py`: creation, evaluation, comparison and sets of terms

Coefficients and exponents are exact rationals, as in `Verif.Symbolic.Model`; only the comparison of
terms, which goes through `float`, is also modelled with an arbitrary rounding function.
-/

namespace Verif.Terms

open Verif.Py Verif.Symbolic

/-! ## `OperandFactory.create` -/

/-- An argument of `OperandFactory.create`: a real number or a string. Arguments of other types
raise `OperandTypeError` (symbolic.py 651-655, 674-683) and are not modelled. -/
inductive Arg where
  | num (x : Rat)
  | str (s : List Char)
  deriving DecidableEq

/-- `fractions.Fraction(string)`. Only strings that match the pattern `rational` are numbers; Python
also accepts blanks and underscores. -/
def fractionArg (s : List Char) : Res Rat :=
  if (rational.fullmatch s).isSome then fractionOf s else .error .valueError

/-- The coefficient in `standardize` (symbolic.py 1016-1024): zero and the empty string are false. -/
def coefArg : Arg → Res Rat
  | .num x => .ok (orOne x)
  | .str [] => .ok 1
  | .str s => fractionArg s

/-- The base in `standardize` (symbolic.py 1016-1020, 1026-1028). -/
def baseArg : Arg → List Char
  | .num x => if x = 0 then one else ratStr x
  | .str s => if s = [] then one else s

/-- The exponent in `standardize` (symbolic.py 1016-1020, 1030-1034): raising tokens are removed. -/
def expArg : Arg → Res Rat
  | .num x => .ok (orOne x)
  | .str s =>
    match s.filter (· ≠ '^') with
    | [] => .ok 1
    | d => fractionArg d

/-- `normalize` (symbolic.py 619-699). A single string is a base (641-643). Of two arguments the first
possible reading of (coefficient, base), (coefficient, exponent), (base, exponent) counts
(668-673). Three arguments are not checked (687-699). -/
def normalize : List Arg → Res (Rat × List Char × Rat)
  | [.str b] => .ok (1, baseArg (.str b), 1)
  | [.num c] => .ok (orOne c, one, 1)
  | [.num c, .str b] => .ok (orOne c, baseArg (.str b), 1)
  | [.num c, .num e] => .ok (orOne c, one, orOne e)
  | [.str b, e] => do return (1, baseArg (.str b), ← expArg e)
  | [c, b, e] => do return (← coefArg c, baseArg b, ← expArg e)
  | _ => .error (.named "OperandValueError")

/-- `_match_complex` in mode `'fullmatch'` (symbolic.py 897-924). -/
def fullComplex (s : List Char) : Res (Option Operand) :=
  match findBounds s with
  | none => .ok none
  | some (i0, stop) => do
    let interior := (s.take (stop - 1)).drop (i0 + 1)
    let front ← fullSimplex (s.take i0)
    let coef := match front with
      | some t => t.coef
      | none => 1
    let start := if front.isSome then 0 else i0
    match exponentPat.match (s.drop stop) with
    | some (x, rest) =>
      if start ≠ 0 ∨ rest ≠ [] then return none
      else return some (mkOperand coef interior (← stdExp (some x)))
    | none =>
      if start ≠ 0 ∨ s.drop stop ≠ [] then return none
      else return some (mkOperand coef interior 1)

/-- `create` with normalized arguments (symbolic.py 752-787) and `strict=False`. The first argument
bounds the number of nested brackets. -/
def createWith : Nat → Rat → List Char → Rat → Res Part
  | 0, _, _, _ => .error .recursionError
  | n + 1, c0, b0, e0 =>
    if b0.head? = some '^' ∨ b0.getLast? = some '^' then .error (.named "OperandValueError")
    else do
      match ← fullSimplex b0 with
      | some t =>
        let k ← powCoef t.coef e0
        return .term (mkOperand (c0 * k) t.base (t.exp * e0))
      | none =>
        match ← fullComplex b0 with
        | none => return .group (mkOperand c0 b0 e0)
        | some o =>
          let k ← powCoef o.coef e0
          match ← createWith n 1 o.base 1 with
          | .term t =>
            let k' ← powCoef t.coef (o.exp * e0)
            return .term (mkOperand (c0 * k * k') t.base (o.exp * e0 * t.exp))
          | .group _ => return .group (mkOperand (c0 * k) o.base (o.exp * e0))

/-- `OperandFactory().create(*args)` (symbolic.py 701-787). Every bracket shortens the string, so its
length bounds the recursion. -/
def create (args : List Arg) : Res Part := do
  let (c, b, e) ← normalize args
  createWith (b.length + 1) c b e

/-! ## `Term` -/

/-- How a `Term` is called: `Term(*args)` with positional arguments only, or `Term(**kwargs)` where an
absent keyword is `none`. A mixture raises `TypeError` (symbolic.py 315-317). -/
inductive TermArgs where
  | positional (args : List Arg)
  | keywords (coef : Option Rat) (base : Option (List Char)) (exp : Option Rat)

/-- `_validate_base` (symbolic.py 319-324) followed by `Operand.__init__` (170-181). -/
def validated (c : Rat) (b : List Char) (e : Rat) : Res Term :=
  if ValidBase b then .ok (mkOperand c b e) else .error .valueError

/-- `Term.__init__` (symbolic.py 289-317). The three positional arguments are a number, a string and a
number. -/
def mkTerm : TermArgs → Res Term
  | .positional [] => .ok (mkOperand 1 one 1)
  | .positional [.str b] => validated 1 b 1
  | .positional [.num c, .str b, .num e] => validated c b e
  | .keywords c (some b) e => validated (c.getD 1) b (e.getD 1)
  | .keywords c none e => .ok (mkOperand (c.getD 1) one (e.getD 1))
  | _ => .error .typeError

/-- `Term.__call__` (symbolic.py 326-351). -/
def evalTerm (t : Term) (x : Rat) : Res Term :=
  if t.base ≠ one then do
    let k ← powCoef x t.exp
    return mkOperand (t.coef * k) one 1
  else .error .typeError

/-- `float(term)` (symbolic.py 393-403). -/
def castFloat (t : Term) : Res Rat := if t.base = one then .ok t.coef else .error .typeError

/-- `int(term)` (symbolic.py 389-391, 398-403): `int` of a fraction truncates. -/
def castInt (t : Term) : Res Int :=
  if t.base = one then .ok (t.coef.num.tdiv t.coef.den) else .error .typeError

/-- What `create` returns, as an operand. -/
def partOperand : Part → Operand
  | .term t => t
  | .group o => o

/-- `term == number` (symbolic.py 405-407). -/
def eqNumber (t : Term) (x : Rat) : Res Bool := do return decide ((← castFloat t) = x)

/-- `term == string` (symbolic.py 408-410, 201-210). -/
def eqString (t : Term) (s : List Char) : Res Bool := do
  return decide (partOperand (← create [.str s]) = t)

/-- `Operand.__eq__` (symbolic.py 201-210) where `fl` is the conversion to floating point. -/
def eqFloat (fl : Rat → Rat) (a b : Operand) : Bool :=
  decide (b.base = a.base) && decide (fl b.exp = fl a.exp) && decide (fl b.coef = fl a.coef)

/-- What `Term.__hash__` hashes (symbolic.py 413-418, 183-186): the attributes, exactly. -/
def hashKey (t : Operand) : Rat × Name × Rat := (t.coef, t.base, t.exp)

/-- The term that `_build_constant` makes of a number (symbolic.py 888-895): the coefficient is
converted to floating point. -/
def constantTerm (fl : Rat → Rat) (x : Rat) : Term := mkOperand (fl x) one 1

/-! ## `Expression` -/

/-- `Expression(x)` for an integer or fraction (symbolic.py 1301-1332, 1438-1442): zero is false. -/
def ofNumber (x : Rat) : Res (List Term) := ofString (if x = 0 then one else ratStr x)

/-- `expression * x` (symbolic.py 1568-1580). -/
def mulNumber (e : List Term) (x : Rat) : Res (List Term) := do exprMul e (← ofNumber x)

/-- `x * expression` (symbolic.py 1582-1584). -/
def numberMul (x : Rat) (e : List Term) : Res (List Term) := do exprMul (← ofNumber x) e

/-- `expression / x` (symbolic.py 1586-1598). -/
def divNumber (e : List Term) (x : Rat) : Res (List Term) := do exprDiv e (← ofNumber x)

/-- `x / expression` (symbolic.py 1600-1602). -/
def numberDiv (x : Rat) (e : List Term) : Res (List Term) := do exprDiv (← ofNumber x) e

/-- `expression[i]` for an integer (symbolic.py 1456-1465). -/
def item (ts : List Term) (i : Int) : Res Term :=
  if i > ts.length then .error .indexError
  else Py.getItem ts (if i < 0 then i + ts.length else i)

/-- `Expression.apply(update)` (symbolic.py 1617-1635), for any kind of value that `update` returns. -/
def apply {M : Type} (mul : M → M → M) (pow : M → Rat → M) (update : Name → M) :
    List Term → Res M
  | [] => .error .indexError
  | t :: ts =>
    .ok (ts.foldl (fun r u => mul r (pow (update u.base) u.exp)) (pow (update t.base) t.exp))

/-- The result of `Expression.difference` (symbolic.py 1533-1541): a set, or a list of two sets. Sets
are lists without order. -/
inductive Differ where
  | one (s : List Term)
  | two (s t : List Term)
  deriving DecidableEq

/-- `Expression.difference` (symbolic.py 1476-1541). -/
def differ (a b : List Term) (symmetric split : Bool) : Differ :=
  if split then .two (difference a b) (difference b a)
  else if symmetric then .one (difference a b ++ difference b a)
  else .one (difference a b)

end Verif.Terms
