import Verif.Symbolic.Props

/-!
# Comparison of expressions through floats (C20)

`exprEq` compares exact numbers. Here is the comparison as the code does it, with `float` on both sides:
the two agree on expressions whose numbers are floats, and differ on others.
-/

set_option linter.unusedSimpArgs false

namespace Verif.Symbolic

open Verif.Py

/-- `Operand.__eq__` (symbolic.py 201-210): bases as strings, then exponents and coefficients as
floats. -/
def termEqFloat (t u : Term) : Res Bool := do
  if u.base ≠ t.base then return false
  if (← toFloat u.exp) ≠ (← toFloat t.exp) then return false
  return decide ((← toFloat u.coef) = (← toFloat t.coef))

/-- `==` of two lists of terms. -/
def termsEqFloat : List Term → List Term → Res Bool
  | [], [] => .ok true
  | t :: ts, u :: us => do
    if ← termEqFloat t u then termsEqFloat ts us else return false
  | _, _ => .ok false

/-- `Expression.__eq__` (symbolic.py 1547-1566). -/
def exprEqFloat (a b : List Term) : Res Bool :=
  if a.length ≠ b.length then .ok false
  else termsEqFloat (a.insertionSort keyLe) (b.insertionSort keyLe)

/-- The numbers of an expression are floats. -/
def Floats (a : List Term) : Prop := ∀ t ∈ a, IsDouble t.coef ∧ IsDouble t.exp

theorem termEqFloat_eq {t u : Term} (ht : IsDouble t.coef ∧ IsDouble t.exp)
    (hu : IsDouble u.coef ∧ IsDouble u.exp) : termEqFloat t u = .ok (decide (t = u)) := by
  obtain ⟨c, b, e⟩ := t
  obtain ⟨c', b', e'⟩ := u
  simp only at ht hu
  simp only [termEqFloat, toFloat_double ht.1, toFloat_double ht.2, toFloat_double hu.1,
    toFloat_double hu.2, bind, Except.bind, pure, Except.pure]
  by_cases h1 : b' = b
  · by_cases h2 : e' = e
    · by_cases h3 : c' = c
      · simp [h1, h2, h3]
      · simp [h1, h2, h3, Ne.symm h3]
    · simp [h1, h2, Ne.symm h2]
  · simp [h1, Ne.symm h1]

theorem termsEqFloat_eq : ∀ {a b : List Term}, Floats a → Floats b →
    termsEqFloat a b = .ok (a == b) := by
  intro a
  induction a with
  | nil => intro b _ _; cases b <;> rfl
  | cons t a ih =>
    intro b ha hb
    cases b with
    | nil => rfl
    | cons u b =>
      unfold termsEqFloat
      rw [termEqFloat_eq (ha t (by simp)) (hb u (by simp))]
      simp only [bind, Except.bind, pure, Except.pure]
      by_cases h : t = u
      · subst h
        simp only [decide_true, if_true]
        rw [ih (fun x hx => ha x (List.mem_cons_of_mem _ hx))
          (fun x hx => hb x (List.mem_cons_of_mem _ hx))]
        simp
      · simp [h]

/-- **C20 (partial), floats.** The comparison as the code does it succeeds, and two expressions whose
numbers are floats compare equal iff they have the same value under every assignment of positive reals to
the bases. -/
theorem c20_float_partial (a b : List Term) (ha : IsExpr a) (hb : IsExpr b) (hfa : Floats a)
    (hfb : Floats b) :
    ∃ q, exprEqFloat a b = .ok q ∧ (q = true ↔ a.Perm b)
      ∧ (q = true ↔ ∀ v, value v a = value v b) := by
  have h : exprEqFloat a b = .ok (exprEq a b) := by
    unfold exprEqFloat exprEq
    split
    · rfl
    · exact termsEqFloat_eq (fun t ht => hfa t ((List.mem_insertionSort keyLe).1 ht))
        (fun t ht => hfb t ((List.mem_insertionSort keyLe).1 ht))
  exact ⟨_, h, c20_eq a b ha hb⟩

/-- **C20 (counterexample), floats.** Expressions with different values compare equal when their numbers
round to the same float; and a comparison can fail because a number is out of range. -/
theorem c20_float_counterexample :
    (∃ a b, IsExpr a ∧ IsExpr b ∧ exprEqFloat a b = .ok true ∧ ∃ v, value v a ≠ value v b)
    ∧ exprEqFloat [⟨10 ^ 400, one, 1⟩] [⟨1, one, 1⟩] = .error (.named "OverflowError") := by
  refine ⟨⟨[⟨9007199254740993, one, 1⟩], [⟨9007199254740992, one, 1⟩], ?_, ?_, by decide +kernel,
    ⟨fun _ => 1, fun _ => one_pos, rfl⟩, ?_⟩, by decide +kernel⟩
  · exact ⟨[⟨9007199254740993, one, 1⟩], by simp, by simp [one], by decide +kernel⟩
  · exact ⟨[⟨9007199254740992, one, 1⟩], by simp, by simp [one], by decide +kernel⟩
  · rw [value_cons, value_cons, value_nil, value_const, value_const]
    norm_num

example : IsExpr [⟨2, one, 1⟩, ⟨1, ['a'], 1/2⟩] ∧ Floats [⟨2, one, 1⟩, ⟨1, ['a'], 1/2⟩]
    ∧ exprEqFloat [⟨2, one, 1⟩, ⟨1, ['a'], 1/2⟩] [⟨2, one, 1⟩, ⟨1, ['a'], 1/2⟩] = .ok true
    ∧ exprEqFloat [⟨2, one, 1⟩, ⟨1, ['a'], 1/2⟩] [⟨2, one, 1⟩, ⟨1, ['a'], 1/4⟩] = .ok false := by
  refine ⟨⟨[⟨2, one, 1⟩, ⟨1, ['a'], 1/2⟩], by simp, by simp [one], by decide +kernel⟩, ?_,
    by decide +kernel, by decide +kernel⟩
  intro t ht
  simp at ht
  rcases ht with rfl | rfl <;> decide +kernel

end Verif.Symbolic
