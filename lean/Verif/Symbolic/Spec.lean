import Verif.Symbolic.Parser

/-!
# Specification for the parser: expression trees and how they are written

Nothing here refers to the way the code parses.
-/

namespace Verif.Symbolic

open Verif.Py

/-- Between two operands of an expression: `' * '`, `' / '` or a blank. -/
inductive Sep where
  | star | slash | blank
  deriving DecidableEq

def Sep.str : Sep → List Char
  | .star => [' ', '*', ' ']
  | .slash => [' ', '/', ' ']
  | .blank => [' ']

/-- Abstract syntax of an algebraic expression. -/
inductive Tree where
  | num (c : Rat)
  | var (n : Name) (x : Rat)
  | group (t : Tree) (x : Rat)
  | bin (o : Sep) (a b : Tree)

/-- An exponent as written; the exponent 1 is left out. -/
def powStr (x : Rat) : List Char := if x = 1 then [] else '^' :: ratStr x

/-- The expression as written: `2/3`, `a^2`, `(…)^-1`, `… * …`, `… / …`, `… …`. -/
def Tree.render : Tree → List Char
  | .num c => ratStr c
  | .var n x => n ++ powStr x
  | .group t x => '(' :: t.render ++ ')' :: powStr x
  | .bin o a b => a.render ++ (o.str ++ b.render)

/-- Letters followed by digits, not starting with the name of the operator `sqrt`. -/
def ValidName (n : Name) : Prop :=
  ∃ l d, n = l ++ d ∧ l ≠ [] ∧ (∀ c ∈ l, isLetter c = true) ∧ (∀ c ∈ d, isDigit c = true)
    ∧ ¬ ['s', 'q', 'r', 't'] <+: n

/-- Not a product or ratio. -/
def Tree.IsAtom : Tree → Prop
  | .bin _ _ _ => False
  | _ => True

/-- Numbers that can be written so that the code reads them back: nonzero, and with a denominator
of one digit (see C26). -/
def Writable (x : Rat) : Prop := x ≠ 0 ∧ x.den < 10

/-- Numbers that the code reads as constants without loss: constants become floats (symbolic.py 893). -/
def WritableNum (x : Rat) : Prop := Writable x ∧ IsDouble x

/-- Well-formed trees: operations associate to the left, so the right operand of an operation must
be a number, a variable or a group. -/
def Tree.Ok : Tree → Prop
  | .num c => WritableNum c
  | .var n x => ValidName n ∧ Writable x
  | .group t x => t.Ok ∧ Writable x
  | .bin _ a b => a.Ok ∧ b.Ok ∧ b.IsAtom

/-- Exponent with which the right operand enters. -/
def Sep.sign (o : Sep) (q : Rat) : Rat :=
  match o with
  | .slash => -q
  | _ => q

/-- Every number in the tree is raised to an integral power, or is 1 (a fractional power of a
number is computed in floating point, which is not modelled). -/
def Tree.Exact : Tree → Rat → Prop
  | .num c, q => c = 1 ∨ q.den = 1
  | .var _ _, _ => True
  | .group t x, q => t.Exact (x * q)
  | .bin o a b, q => a.Exact q ∧ b.Exact (o.sign q)

end Verif.Symbolic
