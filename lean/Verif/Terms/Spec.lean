import Verif.Symbolic.Spec
import Verif.Symbolic.Semantics

/-!
# Specification: operands as written, and what they mean
-/

namespace Verif.Terms

open Verif.Py Verif.Symbolic

/-- Letters followed by digits. -/
def Plain (n : Name) : Prop :=
  ∃ l d, n = l ++ d ∧ l ≠ [] ∧ (∀ c ∈ l, isLetter c = true) ∧ (∀ c ∈ d, isDigit c = true)

/-- A name that, after a number, could be taken for the exponent of a decimal number: its letters
are `e` or `E` and it ends in a digit. -/
def ENum (n : Name) : Prop :=
  (∃ c, n.getLast? = some c ∧ isDigit c = true) ∧ ∀ c ∈ n, isLetter c = true → c = 'e' ∨ c = 'E'

/-- A coefficient as written; the coefficient 1 is left out. -/
def coefText (c : Rat) : List Char := if c = 1 then [] else ratStr c

/-- An operand as written: a number, `2a^3` or `2(…)^3`. -/
inductive Nest where
  | num (c : Rat)
  | var (c : Rat) (n : Name) (x : Rat)
  | wrap (k : Rat) (i : Nest) (p : Int)

/-- The text of an operand. -/
def Nest.text : Nest → List Char
  | .num c => ratStr c
  | .var c n x => coefText c ++ (n ++ powStr x)
  | .wrap k i p => coefText k ++ ('(' :: i.text ++ ')' :: powStr p)

/-- Numbers and exponents are not zero; constants and coefficients of brackets are floats, since the code
rounds them (symbolic.py 893); a name after a coefficient does not look like the exponent
of a decimal number. -/
def Nest.Ok : Nest → Prop
  | .num c => c ≠ 0 ∧ IsDouble c
  | .var c n x => c ≠ 0 ∧ Plain n ∧ x ≠ 0 ∧ (c = 1 ∨ ¬ ENum n)
  | .wrap k i p => (k ≠ 0 ∧ IsDouble k) ∧ i.Ok ∧ p ≠ 0

/-- The conventional meaning of an operand. -/
noncomputable def Nest.denote (v : Assignment) : Nest → ℝ
  | .num c => (c : ℝ)
  | .var c n x => (c : ℝ) * v.val n ^ (x : ℝ)
  | .wrap k i p => (k : ℝ) * i.denote v ^ p

end Verif.Terms
