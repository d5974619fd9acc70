import Verif.Metric.Tables
import Verif.Symbolic.Parser

/-!
# Model of `_Property` in `src/goats/core/metric.py`

The dimensions and units of the defined quantities. All explicit entries of the table give both
metric systems, so a property of a quantity is a pair of strings.
-/

namespace Verif.Metric

open Verif.Py Verif.Symbolic

/-! ## `OperandFactory.create` -/

/-- `_match_complex` in mode `'fullmatch'` (symbolic.py 897-924). The code looks at the end of the
match before it evaluates the exponent; the difference is a zero denominator. -/
def fullComplex (s : Str) : Res (Option Operand) := do
  match ← matchComplex s with
  | some (o, []) => return some o
  | _ => return none

/-- The result of `search` in mode `'fullmatch'` (symbolic.py 807-833). -/
def fullOperand (s : Str) : Res (Option Part) := do
  match ← fullSimplex s with
  | some t => return some (.term t)
  | none =>
    match ← fullComplex s with
    | some o => return some (.group o)
    | none => return none

/-- What `create` returns for a match with an operand that is not a term
(symbolic.py 770-782), given the result for its interior. -/
def absorb (o : Operand) (interior : Part) : Res Part :=
  match interior with
  | .term t => do
    let c ← powCoef t.coef o.exp
    return .term (mkOperand (o.coef * c) t.base (o.exp * t.exp))
  | .group _ => return .group o

/-- `OperandFactory.create(string, exponent)` (symbolic.py 701-787) for a non-empty string. -/
def createOperand : Nat → Str → Rat → Res Part
  | 0, _, _ => .error (.named "fuel")
  | fuel + 1, s, e0 =>
    if s.head? = some '^' ∨ s.getLast? = some '^' then .error (.named "OperandValueError")
    else do
      match ← fullOperand s with
      | none => return .group (mkOperand 1 s e0)
      | some (.term t) => return .term (← t.pow e0)
      | some (.group o) => absorb (← o.pow e0) (← createOperand fuel o.base 1)

/-- `Operand.format` (symbolic.py 216-225). -/
def operandStr (o : Operand) : Str :=
  if o.coef = 1 ∧ o.exp = 1 then o.base
  else
    (if o.coef ≠ 1 then ratStr o.coef else []) ++ c!"(" ++ o.base ++ c!")"
      ++ (if o.exp ≠ 1 then c!"^" ++ ratStr o.exp else [])

/-- `str(operand)`. -/
def partStr : Part → Str
  | .term t => termStr t
  | .group o => operandStr o

/-- `symbolic.Expression(operands)` (symbolic.py 1438-1442, 1301-1332). -/
def exprOfParts (ps : List Part) : Res (List Term) :=
  ofString (if ps = [] then one else join c!" * " (ps.map (fun p => c!"(" ++ partStr p ++ c!")")))

/-! ## `str.replace` -/

/-- `s.replace(old, new)` for a non-empty `old`. -/
def replaceAll (old new : Str) : Nat → Str → Str
  | 0, s => s
  | _, [] => []
  | fuel + 1, c :: s =>
    if old.isPrefixOf (c :: s) then new ++ replaceAll old new fuel ((c :: s).drop old.length)
    else c :: replaceAll old new fuel s

/-- `s.replace(old, new)`: as many steps as there are characters suffice. -/
def pyReplace (s old new : Str) : Str := replaceAll old new s.length s

/-- The loop that joins the words of quantity names (metric.py 862-863). -/
def joinWords (names : List Str) (s : Str) : Str :=
  names.foldl (fun s k => pyReplace s k (pyReplace k c!" " c!"_")) s

/-! ## `_Property` -/

/-- The property that an instance of `_Property` describes (metric.py 778-781). -/
inductive Property where
  | dimensions | units
  deriving DecidableEq

/-- `q.get(self.key, {})` for an explicit entry (metric.py 855). -/
def Quantity.part (p : Property) (dims units : PerSystem Str) : PerSystem Str :=
  match p with
  | .dimensions => dims
  | .units => units

/-- The part of `_parse` after the terms are expanded (metric.py 853-866), for one system. -/
def mergeParts (ps : List Part) : Res Str := do return exprStr (← exprOfParts ps)

/-- `_expand` (metric.py 869-874), given how a quantity is looked up. -/
def expandTerm (get : Str → Res (PerSystem Str)) (t : Term) : Res (Part × Part) := do
  let v ← get (pyReplace t.base c!"_" c!" ")
  return (← createOperand (v.mks.length + 1) v.mks t.exp,
    ← createOperand (v.cgs.length + 1) v.cgs t.exp)

/-- `_parse` (metric.py 853-866), given how a quantity is looked up. -/
def parseProperty (names : List Str) (get : Str → Res (PerSystem Str)) (s : Str) :
    Res (PerSystem Str) := do
  let parts ← (← ofString (joinWords names s)).mapM (expandTerm get)
  return ⟨← mergeParts (parts.map (·.1)), ← mergeParts (parts.map (·.2))⟩

/-- `_QUANTITIES.get(q)`. -/
def findQuantity (table : List (Str × Quantity)) (q : Str) : Option Quantity :=
  (table.find? (fun e => e.1 = q)).map (·.2)

/-- `_get_property` (metric.py 833-851), and `__getitem__` (824-831). The recursion depth of the
code is not bounded (it raises `RecursionError` when the interpreter's limit is reached); `fuel`
stands for that limit. The cache (826-828) does not influence the result. An empty result, which the
code turns into `KeyError`, does not occur: an expression has at least one term. -/
def getProperty (table : List (Str × Quantity)) (p : Property) : Nat → Str → Res (PerSystem Str)
  | 0, _ => .error (.named "RecursionError")
  | fuel + 1, q =>
    match findQuantity table q with
    | some (.explicit dims units) => .ok (Quantity.part p dims units)
    | some (.derived s) => parseProperty (table.map (·.1)) (getProperty table p fuel) s
    | none => parseProperty (table.map (·.1)) (getProperty table p fuel) q

end Verif.Metric
