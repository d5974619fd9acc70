import Verif.Symbolic.Spec
import Verif.Symbolic.Semantics
import Verif.Terms.Spec

/-!
# Specification: expressions as people write them

Like `Symbolic/Spec.lean`, with decimal numbers, powers of numbers, coefficients, square roots,
operators with any white space (or none) around them, white space within brackets, and juxtaposed
brackets. Nothing here refers to the way the code parses.
-/

namespace Verif.Layout

open Verif.Py Verif.Symbolic Verif.Terms

/-- White space. -/
def Blank (s : List Char) : Prop := ∀ c ∈ s, isSpace c = true

/-- The value of a list of decimal digits. -/
def digitsValue (ds : List Char) : Nat :=
  ds.foldl (fun n c => 10 * n + (c.toNat - '0'.toNat)) 0

/-- A number as written: an integer or a fraction, or a decimal number with a sign, digits, an
optional point with digits, and an optional exponent without a sign, introduced by `e` or `E`. -/
inductive Lit where
  | frac (x : Rat)
  | dec (neg : Bool) (i : List Char) (f : Option (List Char)) (e : Option (Bool × List Char))

def fracText : Option (List Char) → List Char
  | none => []
  | some d => '.' :: d

def expText : Option (Bool × List Char) → List Char
  | none => []
  | some (big, d) => (if big then 'E' else 'e') :: d

/-- The number as written. -/
def Lit.text : Lit → List Char
  | .frac x => ratStr x
  | .dec neg i f e => (if neg then ['-'] else []) ++ (i ++ (fracText f ++ expText e))

/-- The value of the number. -/
def Lit.value : Lit → Rat
  | .frac x => x
  | .dec neg i f e =>
    (if neg then -1 else 1)
      * (digitsValue i + digitsValue (f.getD []) / 10 ^ (f.getD []).length)
      * 10 ^ digitsValue ((e.map (·.2)).getD [])

/-- Fractions have a denominator of one digit (see C26); decimal numbers have a digit before or
after the point, and a digit in the exponent if there is one; no number is zero. -/
def Lit.Ok : Lit → Prop
  | .frac x => Writable x
  | .dec neg i f e =>
    (∀ c ∈ i, isDigit c = true) ∧ (∀ d, f = some d → ∀ c ∈ d, isDigit c = true)
    ∧ (i ≠ [] ∨ ∃ d, f = some d ∧ d ≠ [])
    ∧ (∀ b d, e = some (b, d) → d ≠ [] ∧ ∀ c ∈ d, isDigit c = true)
    ∧ (Lit.dec neg i f e).value ≠ 0

/-- How one operand follows another: `*`, `/`, nothing, or the operator `sqrt`. -/
inductive Link where
  | star | slash | next | root
  deriving DecidableEq

def Link.text : Link → List Char
  | .star => ['*']
  | .slash => ['/']
  | .next => []
  | .root => ['s', 'q', 'r', 't']

/-- A written expression: a number with a power, a name with a coefficient and a power, an
expression in brackets with a power, a square root that starts an expression, or an operand that
follows an expression. The lists of characters are white space. -/
inductive Lay where
  | num (n : Lit) (x : Rat)
  | var (k : Rat) (n : Name) (x : Rat)
  | group (l : List Char) (t : Lay) (r : List Char) (x : Rat)
  | root (r : List Char) (b : Lay)
  | bin (o : Link) (l r : List Char) (a b : Lay)

/-- The expression as written: `1.5e3^2`, `2a^3`, `( … )^-1`, `sqrt …`, `… * …`, `…/…`, `… …`,
`… sqrt …`. -/
def Lay.render : Lay → List Char
  | .num n x => n.text ++ powStr x
  | .var k n x => coefText k ++ (n ++ powStr x)
  | .group l t r x => '(' :: (l ++ (t.render ++ (r ++ ')' :: powStr x)))
  | .root r b => Link.root.text ++ (r ++ b.render)
  | .bin o l r a b => a.render ++ (l ++ (o.text ++ (r ++ b.render)))

/-- A number, a name or brackets. -/
def Lay.IsAtom : Lay → Prop
  | .num _ _ => True
  | .var _ _ _ => True
  | .group _ _ _ _ => True
  | _ => False

def Lay.IsGroup : Lay → Prop
  | .group _ _ _ _ => True
  | _ => False

/-- The text ends in a number or an exponent. -/
def Lay.EndsNum : Lay → Prop
  | .num _ _ => True
  | .var _ _ x => x ≠ 1
  | .group _ _ _ x => x ≠ 1
  | .root _ b => b.EndsNum
  | .bin _ _ _ _ b => b.EndsNum

/-- The text ends in a closing bracket. -/
def Lay.EndsGroup : Lay → Prop
  | .num _ _ => False
  | .var _ _ _ => False
  | .group _ _ _ x => x = 1
  | .root _ b => b.EndsGroup
  | .bin _ _ _ _ b => b.EndsGroup

/-- The first character is a digit. -/
def DigitFirst (s : List Char) : Prop := ∃ c t, s = c :: t ∧ isDigit c = true

/-- When operators and operands can be told apart: between a number and a digit, a slash without
white space is the bar of a fraction; juxtaposed operands need white space or a bracket between
them, and so does `sqrt` on either side. -/
def Link.Clear (o : Link) (l r : List Char) (a b : Lay) : Prop :=
  match o with
  | .star => True
  | .slash => l ≠ [] ∨ r ≠ [] ∨ ¬ a.EndsNum ∨ ¬ DigitFirst b.render
  | .next => l ≠ [] ∨ r ≠ [] ∨ b.IsGroup ∨ a.EndsGroup
  | .root => (l ≠ [] ∨ a.EndsGroup) ∧ (r ≠ [] ∨ b.IsGroup)

/-- Well-formed texts: operations associate to the left; numbers and exponents are not zero,
exponents have denominators of one digit; names are letters followed by digits, do not start with
`sqrt`, and after a coefficient do not look like the exponent of a decimal number. Constants are floats,
since the code rounds them (symbolic.py 893); coefficients of names are not rounded. -/
def Lay.Ok : Lay → Prop
  | .num n x => n.Ok ∧ Writable x ∧ IsDouble (n.value ^ x.num)
  | .var k n x => k ≠ 0 ∧ ValidName n ∧ Writable x ∧ (k = 1 ∨ ¬ ENum n)
  | .group l t r x => Blank l ∧ t.Ok ∧ Blank r ∧ Writable x
  | .root r b => Blank r ∧ b.Ok ∧ b.IsAtom ∧ (r ≠ [] ∨ b.IsGroup)
  | .bin o l r a b => Blank l ∧ Blank r ∧ a.Ok ∧ b.Ok ∧ b.IsAtom ∧ o.Clear l r a b

/-- The exponent with which the right operand enters. -/
def Link.power (o : Link) (q : Rat) : Rat :=
  match o with
  | .slash => -q
  | .root => q / 2
  | _ => q

/-- The number or coefficient of the operand, if any, is 1. -/
def Lay.Pure : Lay → Prop
  | .num n _ => n.value = 1
  | .var k _ _ => k = 1
  | _ => True

/-- Every number is raised to an integral power, or is 1 (a fractional power of a number is
computed in floating point, which is not modelled). -/
def Lay.Exact : Lay → Rat → Prop
  | .num n x, q => n.value = 1 ∨ x.den = 1 ∧ q.den = 1
  | .var k _ _, q => k = 1 ∨ q.den = 1
  | .group _ t _ x, q => t.Exact (x * q)
  | .root _ b, q => b.Pure ∧ b.Exact (q / 2)
  | .bin o _ _ a b, q => a.Exact q ∧ (o = .root → b.Pure) ∧ b.Exact (o.power q)

/-- Numbers and coefficients are positive. -/
def Lay.Positive : Lay → Prop
  | .num n _ => 0 < n.value
  | .var k _ _ => 0 < k
  | .group _ t _ _ => t.Positive
  | .root _ b => b.Positive
  | .bin _ _ _ a b => a.Positive ∧ b.Positive

/-- The conventional meaning. -/
noncomputable def Lay.denote (v : Assignment) : Lay → ℝ
  | .num n x => (n.value : ℝ) ^ (x : ℝ)
  | .var k n x => (k : ℝ) * v.val n ^ (x : ℝ)
  | .group _ t _ x => t.denote v ^ (x : ℝ)
  | .root _ b => Real.sqrt (b.denote v)
  | .bin .star _ _ a b => a.denote v * b.denote v
  | .bin .slash _ _ a b => a.denote v / b.denote v
  | .bin .next _ _ a b => a.denote v * b.denote v
  | .bin .root _ _ a b => a.denote v * Real.sqrt (b.denote v)

end Verif.Layout
