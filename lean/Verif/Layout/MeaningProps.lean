import Verif.Layout.Props

/-!
# Properties C71, C207: expressions that are not read with the conventional meaning
-/

set_option linter.unusedSimpArgs false

/-- **C71 fails** for exponents whose denominator has two digits: `a^1/12` is accepted and has another value than the root. -/
theorem Verif.Symbolic.c71_counterexample : ∃ (t : Symbolic.Tree) (ts : List Symbolic.Term) (v : Symbolic.Assignment),
    t.Exact 1 ∧ t.Positive ∧ Symbolic.parse false t.render = .ok ts ∧ Symbolic.value v ts ≠ t.denote v := by
  refine ⟨.var ['a'] (1 / 12), [⟨1, ['a'], 1⟩, ⟨2, Symbolic.one, 1⟩, ⟨1, Symbolic.one, 1⟩], ⟨fun _ => 1, ?_, ?_⟩, trivial, trivial, ?_, ?_⟩
  · intros; norm_num
  · rfl
  · decide +kernel
  · simp [Symbolic.value, Symbolic.termValue, Symbolic.Tree.denote]

namespace Verif.Layout

open Verif.Symbolic

/-- **C207 fails** for a root after an operator: `a * sqrt(b)` is accepted and has another value than the product with the root. -/
theorem c207_counterexample : ∃ (t : Lay) (ts : List Term) (v : Assignment),
    t.Exact 1 ∧ t.Positive ∧ parse false t.render = .ok ts ∧ value v ts ≠ t.denote v := by
  refine ⟨.bin .star [' '] [' '] (.var 1 ['a'] 1) (.root [] (.group [] (.var 1 ['b'] 1) [] 1)),
    [⟨1, ['a'], 1⟩, ⟨1, ['s', 'q', 'r', 't'], 1⟩, ⟨1, ['b'], 1⟩, ⟨1, one, 1⟩, ⟨1, one, 1⟩],
    ⟨fun n => if n = ['s', 'q', 'r', 't'] then 2 else 1, ?_, ?_⟩, ?_, ?_, ?_, ?_⟩
  · intro n; split <;> norm_num
  · simp [one]
  · refine ⟨Or.inl rfl, by simp, ?_, ?_⟩
    · trivial
    · exact Or.inl rfl
  · exact ⟨by simp [Lay.Positive], by simp [Lay.Positive]⟩
  · rw [show Lay.render _ = "a * sqrt(b)".toList by decide +kernel]
    decide +kernel
  · simp [value, termValue, Lay.denote, one]

end Verif.Layout
