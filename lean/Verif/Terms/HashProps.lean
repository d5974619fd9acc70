import Verif.Terms.Props
import Verif.Symbolic.FloatProps

/-! C232: equal expressions have equal hashes -/

namespace Verif.Terms

open Verif.Py Verif.Symbolic

set_option linter.unusedSimpArgs false

/-- What `Expression.__hash__` hashes (symbolic.py 1543-1545): the tuple of the terms, each by its own hash. -/
def exprHashKey (a : List Term) : List (Rat × Name × Rat) := a.map hashKey

theorem exprHashKey_inj {a b : List Term} (h : exprHashKey a = exprHashKey b) : a = b := by
  refine List.map_injective_iff.2 ?_ h
  intro t u htu
  obtain ⟨c, n, e⟩ := t
  obtain ⟨c', n', e'⟩ := u
  simp only [hashKey, Prod.mk.injEq] at htu
  obtain ⟨h1, h2, h3⟩ := htu
  rw [h1, h2, h3]

theorem expr_eq_of_perm {a b : List Term} (ha : IsExpr a) (hb : IsExpr b) (h : a.Perm b) : a = b := by
  apply expr_ext ha hb
  · unfold totalCoef
    exact (h.map _).prod_eq
  · intro x _
    unfold totalExp
    exact ((h.filter _).map _).sum_eq

/-- **C232 (partial).** Two expressions whose numbers are floats are equal iff their hashes are taken of the same
terms, although the comparison ignores the order of the terms and the hash does not.

Missing: numbers that are not floats (`c232_counterexample`). -/
theorem c232_hash_partial (a b : List Term) (ha : IsExpr a) (hb : IsExpr b) (hfa : Floats a) (hfb : Floats b) :
    exprEqFloat a b = .ok true ↔ exprHashKey a = exprHashKey b := by
  obtain ⟨q, h1, h2, -⟩ := c20_float_partial a b ha hb hfa hfb
  rw [h1]
  constructor
  · intro h
    injection h with h
    rw [expr_eq_of_perm ha hb (h2.1 h)]
  · intro h
    have hab := exprHashKey_inj h
    rw [h2.2 (by rw [hab])]

/-- **C232 (counterexample).** Expressions that are equal and have different hashes. -/
theorem c232_counterexample :
    ∃ a b, IsExpr a ∧ IsExpr b ∧ exprEqFloat a b = .ok true ∧ exprHashKey a ≠ exprHashKey b := by
  refine ⟨[⟨9007199254740993, one, 1⟩], [⟨9007199254740992, one, 1⟩], ?_, ?_, by decide +kernel, by decide +kernel⟩
  · exact ⟨[⟨9007199254740993, one, 1⟩], by simp, by simp [one], by decide +kernel⟩
  · exact ⟨[⟨9007199254740992, one, 1⟩], by simp, by simp [one], by decide +kernel⟩

example : IsExpr [⟨2, one, 1⟩, ⟨1, ['a'], 1/2⟩] ∧ Floats [⟨2, one, 1⟩, ⟨1, ['a'], 1/2⟩]
    ∧ reduce [⟨1, ['a'], 1/2⟩, ⟨2, one, 1⟩] = .ok [⟨2, one, 1⟩, ⟨1, ['a'], 1/2⟩] := by
  refine ⟨⟨[⟨2, one, 1⟩, ⟨1, ['a'], 1/2⟩], by simp, by simp [one], by decide +kernel⟩, ?_, by decide +kernel⟩
  intro t ht
  simp only [List.mem_cons, List.not_mem_nil, or_false] at ht
  rcases ht with rfl | rfl <;> decide +kernel

end Verif.Terms
