import Verif.Symbolic.Model

/-!
# Model of the parser in `src/goats/core/symbolic.py`

Regular expressions are modelled by backtracking matchers: a matcher maps a string to the list of
its matches in the order in which Python's `re` tries them; `match` takes the first one and
`fullmatch` the first one that leaves nothing.  Digits and white space are the ASCII ones.
-/

namespace Verif.Symbolic

open Verif.Py

/-- A pattern: the captured value and the rest of the string, in order of preference. -/
abbrev Pat (α : Type) := List Char → List (α × List Char)

/-- Concatenation of two patterns. -/
def Pat.seq {α β : Type} (p : Pat α) (q : Pat β) : Pat (α × β) := fun s =>
  (p s).flatMap (fun a => (q a.2).map (fun b => ((a.1, b.1), b.2)))

/-- Concatenation of two patterns that capture text. -/
def Pat.cat (p q : Pat (List Char)) : Pat (List Char) := fun s =>
  (p.seq q s).map (fun m => (m.1.1 ++ m.1.2, m.2))

/-- `p?` -/
def Pat.opt {α : Type} (p : Pat α) : Pat (Option α) := fun s =>
  (p s).map (fun m => (some m.1, m.2)) ++ [(none, s)]

/-- `p?` for a pattern that captures text. -/
def Pat.optText (p : Pat (List Char)) : Pat (List Char) := fun s => p s ++ [([], s)]

/-- A single character of a class. -/
def Pat.char (f : Char → Bool) : Pat (List Char)
  | [] => []
  | c :: s => if f c then [([c], s)] else []

/-- Greedy `[...]*`. -/
def Pat.star (f : Char → Bool) : Pat (List Char)
  | [] => [([], [])]
  | c :: s => if f c then (Pat.star f s).map (fun m => (c :: m.1, m.2)) ++ [([], c :: s)]
      else [([], c :: s)]

/-- Lazy `[...]*?`. -/
def Pat.lazyStar (f : Char → Bool) : Pat (List Char)
  | [] => [([], [])]
  | c :: s => ([], c :: s) ::
      (if f c then (Pat.lazyStar f s).map (fun m => (c :: m.1, m.2)) else [])

/-- `re.match`. -/
def Pat.match {α : Type} (p : Pat α) (s : List Char) : Option (α × List Char) := (p s).head?

/-- `re.fullmatch`. -/
def Pat.fullmatch {α : Type} (p : Pat α) (s : List Char) : Option α :=
  ((p s).find? (fun m => m.2 = [])).map (·.1)

def isDigit (c : Char) : Bool := '0' ≤ c && c ≤ '9'

/-- `[a-zA-Z#_]` (symbolic.py 573). -/
def isLetter (c : Char) : Bool :=
  ('a' ≤ c && c ≤ 'z') || ('A' ≤ c && c ≤ 'Z') || c = '#' || c = '_'

def isSpace (c : Char) : Bool := c = ' ' || c = '\t' || c = '\n' || c = '\r'

/-- `(?=\d|\.\d)` (symbolic.py 563). -/
def numberAhead : List Char → Bool
  | '.' :: c :: _ => isDigit c
  | c :: _ => isDigit c
  | [] => false

/-- The pattern `rational` (symbolic.py 561-571); the denominator is lazy. -/
def rational : Pat (List Char) :=
  Pat.cat (Pat.optText (Pat.char (fun c => c = '-' || c = '+')))
    (fun s => if numberAhead s then
      Pat.cat (Pat.star isDigit)
        (fun t =>
          Pat.cat (Pat.char (· = '/')) (Pat.cat (Pat.char isDigit) (Pat.lazyStar isDigit)) t
          ++ Pat.cat
              (Pat.optText (Pat.cat (Pat.char (· = '.')) (Pat.star isDigit)))
              (Pat.optText (Pat.cat (Pat.char (fun c => c = 'e' || c = 'E'))
                (Pat.cat (Pat.optText (Pat.char (fun c => c = '-' || c = '+')))
                  (Pat.cat (Pat.char isDigit) (Pat.star isDigit))))) t) s
      else [])

/-- The pattern `base` (symbolic.py 572-575). -/
def basePat : Pat (List Char) :=
  Pat.cat (Pat.cat (Pat.char isLetter) (Pat.star isLetter)) (Pat.star isDigit)

/-- The pattern `exponent` (symbolic.py 583, 602) including the raising token. -/
def exponentPat : Pat (List Char) := Pat.cat (Pat.char (· = '^')) rational

/-- The pattern `variable` (symbolic.py 590-595). -/
def variablePat : Pat ((Option (List Char) × List Char) × Option (List Char)) :=
  Pat.seq (Pat.seq (Pat.opt rational) basePat) (Pat.opt exponentPat)

/-- The pattern `constant` (symbolic.py 585-589). -/
def constantPat : Pat (List Char × Option (List Char)) :=
  Pat.seq rational (Pat.opt exponentPat)

/-- `Term._base_re` (symbolic.py 256). -/
def ValidBase (b : Name) : Bool := (rational.fullmatch b).isSome || (basePat.fullmatch b).isSome

/-! ## Numbers -/

/-- Value of a string of digits. -/
def natOf (ds : List Char) : Nat := Nat.ofDigitChars 10 ds 0

/-- Optional sign in front of a number. -/
def splitSign : List Char → Rat × List Char
  | '-' :: s => (-1, s)
  | '+' :: s => (1, s)
  | s => (1, s)

/-- The exponent part of a decimal number. -/
def decimalExponent : List Char → Rat
  | _ :: s =>
    let (sg, d) := splitSign s
    (10 : Rat) ^ (sg * (natOf d : Rat)).num
  | [] => 1

/-- `fractions.Fraction(string)` on a string that matches `rational`. -/
def fractionOf (s : List Char) : Res Rat :=
  let (sg, body) := splitSign s
  let num := body.takeWhile isDigit
  match body.dropWhile isDigit with
  | '/' :: den =>
    if natOf den = 0 then .error .zeroDivision
    else .ok (sg * (natOf num : Rat) / (natOf den : Rat))
  | '.' :: rest =>
    let frac := rest.takeWhile isDigit
    .ok (sg * (natOf (num ++ frac) : Rat) / (10 : Rat) ^ frac.length
      * decimalExponent (rest.dropWhile isDigit))
  | rest => .ok (sg * (natOf num : Rat) * decimalExponent rest)

/-- `_standard_coefficient` on an optional captured string (symbolic.py 1022-1024, 1022-1024). -/
def stdCoef : Option (List Char) → Res Rat
  | none => .ok 1
  | some [] => .ok 1
  | some s => fractionOf s

/-- `_standard_exponent` on an optional captured string (symbolic.py 1030-1034, 1030-1034): every
raising token is removed. -/
def stdExp : Option (List Char) → Res Rat
  | none => .ok 1
  | some [] => .ok 1
  | some s =>
    match s.filter (· ≠ '^') with
    | [] => .ok 1
    | d => fractionOf d

/-! ## Operands -/

/-- The result of matching an operand: `Term` or general `Operand`. -/
inductive Part where
  | term (t : Term)
  | group (o : Operand)
  deriving DecidableEq

/-- `result ** power` (symbolic.py 188-192, 1237). -/
def Part.pow (p : Part) (x : Rat) : Res Part :=
  match p with
  | .term t => do return .term (← t.pow x)
  | .group o => do return .group (← o.pow x)

/-- `_build_variable` (symbolic.py 880-886). -/
def buildVariable (m : (Option (List Char) × List Char) × Option (List Char)) : Res Term := do
  let c ← stdCoef m.1.1
  let e ← stdExp m.2
  return mkOperand c m.1.2 e

/-- `_build_constant` (symbolic.py 888-895): the number becomes a float. -/
def buildConstant (m : List Char × Option (List Char)) : Res Term := do
  let c ← stdCoef (some m.1)
  let e ← stdExp m.2
  let v ← toFloat (← powCoef c e)
  return mkOperand v one 1

/-- `_match_simplex` in mode `'match'` (symbolic.py 835-863).  The two matches start at the same
place, so they are equal iff they leave the same rest. -/
def matchSimplex (s : List Char) : Res (Option (Term × List Char)) :=
  match variablePat.match s, constantPat.match s with
  | none, none => .ok none
  | some v, none => do return some (← buildVariable v.1, v.2)
  | none, some c => do return some (← buildConstant c.1, c.2)
  | some v, some c =>
    if v.2 = c.2 then do return some (← buildConstant c.1, c.2)
    else do return some (← buildVariable v.1, v.2)

/-- `_match_simplex` in mode `'fullmatch'` (symbolic.py 835-863). -/
def fullSimplex (s : List Char) : Res (Option Term) :=
  match variablePat.fullmatch s, constantPat.fullmatch s with
  | none, none => .ok none
  | some v, none => do return some (← buildVariable v)
  | _, some c => do return some (← buildConstant c)

/-- The loop of `find_bounds` (symbolic.py 990-1002). `start` is `none` until initialised. -/
def boundsLoop : Nat → Option Nat → Int → List Char → Option (Nat × Nat)
  | _, _, _, [] => none
  | i, start, count, c :: s =>
    let (start', count') :=
      if c = '(' then (some (start.getD i), count + 1)
      else if c = ')' then (start, count - 1)
      else (start, count)
    match start' with
    | some i0 => if count' = 0 then some (i0, i + 1) else boundsLoop (i + 1) start' count' s
    | none => boundsLoop (i + 1) start' count' s

/-- `find_bounds` (symbolic.py 926-1002). -/
def findBounds (s : List Char) : Option (Nat × Nat) := boundsLoop 0 none 0 s

/-- `_match_complex` in mode `'match'` (symbolic.py 897-924). An empty interior is false, so the
default base `'1'` is used. -/
def matchComplex (s : List Char) : Res (Option (Operand × List Char)) :=
  match findBounds s with
  | none => .ok none
  | some (i0, stop) => do
    let interior := (s.take (stop - 1)).drop (i0 + 1)
    let front ← fullSimplex (s.take i0)
    let coef := match front with
      | some t => t.coef
      | none => 1
    if front.isNone ∧ i0 ≠ 0 then return none
    match exponentPat.match (s.drop stop) with
    | some (x, rest) =>
      let e ← stdExp (some x)
      return some (mkOperand coef interior e, rest)
    | none => return some (mkOperand coef interior 1, s.drop stop)

/-- `str.strip()`. -/
def strip (s : List Char) : List Char :=
  ((s.dropWhile isSpace).reverse.dropWhile isSpace).reverse

/-- `OperandFactory.parse` (symbolic.py 789-833): the operand and the remaining string. -/
def parseOperand (s : List Char) : Res (Option (Part × List Char)) := do
  let t := strip s
  match ← matchSimplex t with
  | some (x, rest) => return some (.term x, rest)
  | none =>
    match ← matchComplex t with
    | some (o, rest) => return some (.group o, rest)
    | none => return none

/-! ## Operators -/

inductive Op where
  | multiply | divide | sqrt
  deriving DecidableEq

/-- `(?<!..)(\s*T\s*)(?!X)` matched at the start of a string, where nothing precedes
(symbolic.py 538-543). -/
def infixPat (tok avoid : Char) : Pat (List Char) := fun s =>
  (Pat.cat (Pat.star isSpace) (Pat.cat (Pat.char (· = tok)) (Pat.star isSpace)) s).filter
    (fun m => m.2.head? ≠ some avoid)

/-- `\s*sqrt\s*` (symbolic.py 544). -/
def sqrtPat : Pat (List Char) :=
  Pat.cat (Pat.star isSpace) (Pat.cat (Pat.char (· = 's')) (Pat.cat (Pat.char (· = 'q'))
    (Pat.cat (Pat.char (· = 'r')) (Pat.cat (Pat.char (· = 't')) (Pat.star isSpace)))))

/-- `OperatorFactory.parse` (symbolic.py 548-555). -/
def parseOperator (s : List Char) : Option (Op × List Char) :=
  match (infixPat '*' '/').match s with
  | some m => some (.multiply, m.2)
  | none =>
    match (infixPat '/' '*').match s with
    | some m => some (.divide, m.2)
    | none =>
      match sqrtPat.match s with
      | some m => some (.sqrt, m.2)
      | none => none

/-! ## The parser -/

/-- `_operator_error` (symbolic.py 1251-1276); `strict` is `operator_order != 'ignore'`. -/
def operatorError (strict : Bool) (cur : Op) (prev : Option Op) : Option Err :=
  if !strict then none
  else if prev = some .divide then
    match cur with
    | .divide => some (.named "RatioError")
    | .multiply => some (.named "ProductError")
    | .sqrt => none
  else none

/-- `_evaluate` (symbolic.py 1278-1286). -/
def evaluate (op : Op) (p : Part) : Res Part :=
  match op with
  | .multiply => .ok p
  | .divide => p.pow (-1)
  | .sqrt => p.pow (1/2)

/-- `_get_operator` (symbolic.py 1214-1227): the operator at the start, if any, unless it may not
follow the previous one. -/
def getOperator (strict : Bool) (prev : Option Op) (s : List Char) :
    Res (Option Op × List Char) :=
  match parseOperator s with
  | none => .ok (none, s)
  | some (o, rest) =>
    match operatorError strict o prev with
    | some e => .error e
    | none => .ok (some o, rest)

/-- `_get_operand` (symbolic.py 1230-1239): the operand at the start, raised to the current power.
The failure to find one is raised at 1247-1249. -/
def getOperand (power : Rat) (s : List Char) : Res (Part × List Char) := do
  match ← parseOperand s with
  | none => .error (.named "ParsingValueError")
  | some (p, rest) => return (← p.pow power, rest)

/-- `_compute_operand` (symbolic.py 1241-1249). -/
def computeOperand (op : Option Op) (p : Part) : Res Part :=
  match op with
  | some o => evaluate o p
  | none => .ok p

/-- One iteration of the loop of `_parse_operand` (symbolic.py 1206-1211): the new operand, the
operator for the next iteration to look back at, and the remaining string. -/
def parseStep (strict : Bool) (power : Rat) (prev : Option Op) (s : List Char) :
    Res (Part × Option Op × List Char) := do
  let r ← getOperator strict prev s
  let q ← getOperand power r.2
  let new ← computeOperand r.1 q.1
  return (new, r.1, q.2)

/-- The loop of `_parse_operand` (symbolic.py 1202-1212).  The first argument bounds the number
of iterations; `recursionError` stands for running out of it. -/
def parseLoop (strict : Bool) (power : Rat) : Nat → Option Op → List Char → Res (List Part)
  | _, _, [] => .ok []
  | 0, _, _ :: _ => .error .recursionError
  | n + 1, prev, c :: s => do
    let r ← parseStep strict power prev (c :: s)
    let more ← parseLoop strict power n r.2.1 r.2.2
    return r.1 :: more

/-- `_update_terms` for one operand (symbolic.py 1288-1294): a term is kept, any other operand is
resolved by `f`. -/
def Part.resolveWith (f : Operand → Res (List Term)) (p : Part) : Res (List Term) :=
  match p with
  | .term t => .ok [t]
  | .group g => f g

/-- `_resolve_operations` and `_update_terms` (symbolic.py 1187-1193, 1288-1294).  The first
argument bounds the depth of the recursion. -/
def resolve (strict : Bool) : Nat → Operand → Res (List Term)
  | 0, _ => .error .recursionError
  | n + 1, o => do
    let parts ← parseLoop strict o.exp o.base.length none o.base
    let terms ← parts.mapM (Part.resolveWith (resolve strict n))
    return terms.flatten ++ [mkOperand o.coef one 1]

/-- `Parser.parse` (symbolic.py 1182-1185). The depth bound is the length of the string plus two;
that it suffices is part of C23. -/
def parse (strict : Bool) (s : List Char) : Res (List Term) :=
  resolve strict (s.length + 2) (mkOperand 1 s 1)

/-! ## Formatting -/

/-- `str(n)` for an integer. -/
def intStr (n : Int) : List Char :=
  if n < 0 then '-' :: Nat.toDigits 10 n.natAbs else Nat.toDigits 10 n.natAbs

/-- `str(x)` for a fraction. -/
def ratStr (x : Rat) : List Char :=
  if x.den = 1 then intStr x.num else intStr x.num ++ '/' :: Nat.toDigits 10 x.den

/-- `Term._format_coefficient` (symbolic.py 361-369, 371-377). -/
def coefStr (t : Term) : List Char :=
  if t.base ≠ one ∧ t.coef = 1 then []
  else if t.base ≠ one ∧ t.coef.den ≠ 1 then '(' :: ratStr t.coef ++ [')']
  else ratStr t.coef

/-- `Term._format_exponent` without style (symbolic.py 379-384). -/
def expStr (t : Term) : List Char :=
  if t.base = one ∨ t.exp = 1 then [] else '^' :: ratStr t.exp

/-- `Term.format` (symbolic.py 353-359). -/
def termStr (t : Term) : List Char :=
  if t.base = one then coefStr t else coefStr t ++ t.base ++ expStr t

/-- `sep.join(parts)`. -/
def join (sep : List Char) : List (List Char) → List Char
  | [] => []
  | [p] => p
  | p :: q :: ps => p ++ sep ++ join sep (q :: ps)

/-- `Expression.format` with the default separator (symbolic.py 1471-1474). -/
def exprStr (ts : List Term) : List Char := join [' '] (ts.map termStr)

/-- `standard(terms, joiner=' * ')` for a non-empty iterable (symbolic.py 1301-1332). -/
def standardStr (ts : List Term) : List Char :=
  join " * ".toList (ts.map (fun t => '(' :: termStr t ++ [')']))

/-! ## `Expression` -/

/-- `Expression(string)` (symbolic.py 1438-1442); the empty string is replaced by `'1'`. -/
def ofString (s : List Char) : Res (List Term) := do
  reduce (← parse false (if s = [] then one else s))

/-- `Expression(terms)` for a list of terms (symbolic.py 1438-1442): the terms are formatted,
joined and parsed again. -/
def ofTerms (ts : List Term) : Res (List Term) :=
  ofString (if ts = [] then one else standardStr ts)

/-- `Expression.__mul__` (symbolic.py 1568-1580). -/
def exprMul (a b : List Term) : Res (List Term) := do ofTerms (← reduce (a ++ b))

/-- `Expression.__truediv__` (symbolic.py 1586-1598). -/
def exprDiv (a b : List Term) : Res (List Term) := do
  let inv ← b.mapM (fun t => Operand.pow t (-1))
  ofTerms (← reduce (a ++ inv))

/-- `Expression.__pow__` (symbolic.py 1604-1615): the power is a float; for a zero power Python raises
`TypeError`. -/
def exprPow (a : List Term) (x : Rat) : Res (List Term) := do
  let p ← toFloat x
  if p = 0 then .error .typeError
  else
    let ts ← a.mapM (fun t => Operand.powFloat t p)
    ofTerms (← reduce ts)

end Verif.Symbolic
