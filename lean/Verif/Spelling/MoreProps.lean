import Verif.Spelling.Props

/-!
# Property C289: more known words
-/

set_option linter.unusedSimpArgs false

namespace Verif.Spelling

open Verif.Py

/-- **C289, order.** The order of the known words affects only the order of the suggestions. -/
theorem c289_order (words words' : List Word) (h : words.Perm words') (name : Word) :
    (suggestions words name).Perm (suggestions words' name) ∧
    (∀ b, check words name (some c!"truth") = .ok (.truth b) ↔ check words' name (some c!"truth") = .ok (.truth b)) ∧
    check words name none = check words' name none := by
  have key : ∀ es, (suggestionsIn words es).Perm (suggestionsIn words' es) := fun es => h.filter _
  have hnil : ∀ es, suggestionsIn words es = [] ↔ suggestionsIn words' es = [] := fun es => by
    rw [← List.length_eq_zero_iff, (key es).length_eq, List.length_eq_zero_iff]
  have hp : (suggestions words name).Perm (suggestions words' name) := by
    unfold suggestions
    simp only [h.mem_iff, hnil]
    split
    · exact .nil
    · split
      · exact key _
      · exact key _
  have he : suggestions words name = [] ↔ suggestions words' name = [] := by
    rw [← List.length_eq_zero_iff, hp.length_eq, List.length_eq_zero_iff]
  refine ⟨hp, fun b => ?_, ?_⟩
  · simp [check, he]
  · simp [check, he]

/-- **C289, more words.** With more known words, every earlier suggestion remains, or all suggestions are among the new words; a word that
was reported is reported still, unless it is one of the new words. -/
theorem c289_more (words more : List Word) (name : Word) (hn : name ∉ more) :
    ((∀ v ∈ suggestions words name, v ∈ suggestions (words ++ more) name) ∨
      (suggestions (words ++ more) name ≠ [] ∧ ∀ v ∈ suggestions (words ++ more) name, v ∈ more)) ∧
    (check words name none = .error (.named "SpellingError") → check (words ++ more) name none = .error (.named "SpellingError")) := by
  have happ : ∀ es, suggestionsIn (words ++ more) es = suggestionsIn words es ++ suggestionsIn more es := fun es => by
    simp [suggestionsIn]
  have main : (∀ v ∈ suggestions words name, v ∈ suggestions (words ++ more) name) ∨
      (suggestions (words ++ more) name ≠ [] ∧ ∀ v ∈ suggestions (words ++ more) name, v ∈ more) := by
    by_cases hw : name ∈ words
    · left; intro v hv; simp [suggestions, hw] at hv
    · have hw' : name ∉ words ++ more := by simp [hw, hn]
      unfold suggestions
      rw [if_neg hw, if_neg hw']
      simp only [happ]
      by_cases h1 : suggestionsIn words (edits name) = []
      · rw [h1]
        simp only [List.nil_append, if_true]
        by_cases h2 : suggestionsIn more (edits name) = []
        · left
          rw [if_pos h2]
          exact fun v hv => List.mem_append_left _ hv
        · right
          rw [if_neg h2]
          exact ⟨h2, fun v hv => (List.mem_filter.1 hv).1⟩
      · left
        rw [if_neg h1, if_neg (by simp [h1])]
        exact fun v hv => List.mem_append_left _ hv
  refine ⟨main, ?_⟩
  have hc : ∀ ws, check ws name none = .error (.named "SpellingError") ↔ suggestions ws name ≠ [] := fun ws => by
    unfold check
    simp
  rw [hc, hc]
  intro h0
  rcases main with h | h
  · obtain ⟨v, hv⟩ := List.exists_mem_of_ne_nil _ h0
    exact List.ne_nil_of_mem (h v hv)
  · exact h.1

example : suggestions [c!"flux", c!"fluence"] c!"flx" = [c!"flux"] ∧
    suggestions [c!"flux", c!"fluence", c!"fix"] c!"flx" = [c!"flux", c!"fix"] := by decide +kernel

/-- Nearer new words replace the suggestions. -/
example : suggestions [c!"abcd"] c!"xycd" = [c!"abcd"] ∧ suggestions [c!"abcd", c!"xbcd"] c!"xycd" = [c!"xbcd"] := by decide +kernel

end Verif.Spelling
