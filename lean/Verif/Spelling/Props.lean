import Mathlib.Tactic.Tauto
import Verif.Spelling.Model

/-!
# Spelling suggestions: properties C61, C99
-/

set_option linter.unusedSimpArgs false

namespace Verif.Spelling

open Verif.Py

/-! ## Specification -/

/-- The letters of the alphabet, of either case. -/
def IsLetter (c : Char) : Prop := ('a' ≤ c ∧ c ≤ 'z') ∨ ('A' ≤ c ∧ c ≤ 'Z')

/-- `v` results from `w` by one edit: a character deleted, two neighbours exchanged, a character
replaced by a letter, or a letter inserted anywhere. -/
inductive Edit : Word → Word → Prop
  | delete (a : Word) (c : Char) (b : Word) : Edit (a ++ c :: b) (a ++ b)
  | transpose (a : Word) (c d : Char) (b : Word) : Edit (a ++ c :: d :: b) (a ++ d :: c :: b)
  | replace (a : Word) (c d : Char) (b : Word) : IsLetter d → Edit (a ++ c :: b) (a ++ d :: b)
  | insert (a : Word) (d : Char) (b : Word) : IsLetter d → Edit (a ++ b) (a ++ d :: b)

/-! ## Lemmas -/

theorem mem_letters (c : Char) : c ∈ letters ↔ IsLetter c := by
  constructor
  · intro h
    have : ∀ c ∈ letters, (('a' ≤ c ∧ c ≤ 'z') ∨ ('A' ≤ c ∧ c ≤ 'Z')) := by decide
    exact this c h
  · intro h
    have key : ∀ n : Nat, n < 123 → 65 ≤ n → (n ≤ 90 ∨ 97 ≤ n) → Char.ofNat n ∈ letters := by
      decide
    have hn : (65 ≤ c.toNat ∧ c.toNat ≤ 90) ∨ (97 ≤ c.toNat ∧ c.toNat ≤ 122) := by
      rcases h with ⟨h1, h2⟩ | ⟨h1, h2⟩
      · right
        exact ⟨h1, h2⟩
      · left
        exact ⟨h1, h2⟩
    have hc : Char.ofNat c.toNat = c := Char.ofNat_toNat c
    rw [← hc]
    rcases hn with ⟨h1, h2⟩ | ⟨h1, h2⟩
    · exact key _ (by omega) h1 (Or.inl h2)
    · exact key _ (by omega) (by omega) (Or.inr h1)

theorem mem_splits (w : Word) (p : Word × Word) :
    p ∈ splits w ↔ p.1 ++ p.2 = w ∧ p.2 ≠ [] := by
  obtain ⟨a, b⟩ := p
  simp only [splits, List.mem_map, List.mem_range, Prod.mk.injEq]
  constructor
  · rintro ⟨i, hi, rfl, rfl⟩
    refine ⟨List.take_append_drop i w, ?_⟩
    intro h
    have := congrArg List.length h
    simp at this
    omega
  · rintro ⟨rfl, hb⟩
    refine ⟨a.length, ?_, by simp, by simp⟩
    have : 0 < b.length := List.length_pos_iff.2 hb
    simp; omega

theorem mem_deletes (w v : Word) : v ∈ deletes w ↔ ∃ a c b, w = a ++ c :: b ∧ v = a ++ b := by
  simp only [deletes, List.mem_map, List.mem_filter, mem_splits, decide_eq_true_eq]
  constructor
  · rintro ⟨⟨a, b⟩, ⟨⟨h1, h2⟩, _⟩, rfl⟩
    cases b with
    | nil => exact absurd rfl h2
    | cons c b => exact ⟨a, c, b, h1.symm, rfl⟩
  · rintro ⟨a, c, b, rfl, rfl⟩
    exact ⟨(a, c :: b), ⟨⟨rfl, by simp⟩, by simp⟩, rfl⟩

theorem mem_transposes (w v : Word) :
    v ∈ transposes w ↔ ∃ a c d b, w = a ++ c :: d :: b ∧ v = a ++ d :: c :: b := by
  simp only [transposes, List.mem_map, List.mem_filter, mem_splits, decide_eq_true_eq]
  constructor
  · rintro ⟨⟨a, b⟩, ⟨⟨h1, _⟩, h3⟩, rfl⟩
    match b, h3 with
    | c :: d :: b, _ => exact ⟨a, c, d, b, h1.symm, rfl⟩
  · rintro ⟨a, c, d, b, rfl, rfl⟩
    exact ⟨(a, c :: d :: b), ⟨⟨rfl, by simp⟩, by simp⟩, rfl⟩

theorem mem_replaces (w v : Word) :
    v ∈ replaces w ↔ ∃ a c d b, IsLetter d ∧ w = a ++ c :: b ∧ v = a ++ d :: b := by
  simp only [replaces, List.mem_flatMap, List.mem_map, List.mem_filter, mem_splits,
    decide_eq_true_eq]
  constructor
  · rintro ⟨⟨a, b⟩, ⟨⟨h1, h2⟩, _⟩, d, hd, rfl⟩
    cases b with
    | nil => exact absurd rfl h2
    | cons c b => exact ⟨a, c, d, b, (mem_letters d).1 hd, h1.symm, rfl⟩
  · rintro ⟨a, c, d, b, hd, rfl, rfl⟩
    exact ⟨(a, c :: b), ⟨⟨rfl, by simp⟩, by simp⟩, d, (mem_letters d).2 hd, rfl⟩

theorem mem_inserts (w v : Word) :
    v ∈ inserts w ↔ ∃ a d b, IsLetter d ∧ b ≠ [] ∧ w = a ++ b ∧ v = a ++ d :: b := by
  simp only [inserts, List.mem_flatMap, List.mem_map, mem_splits]
  constructor
  · rintro ⟨⟨a, b⟩, ⟨h1, h2⟩, d, hd, rfl⟩
    exact ⟨a, d, b, (mem_letters d).1 hd, h2, h1.symm, rfl⟩
  · rintro ⟨a, d, b, hd, hb, rfl, rfl⟩
    exact ⟨(a, b), ⟨rfl, hb⟩, d, (mem_letters d).2 hd, rfl⟩

theorem mem_edits (w v : Word) : v ∈ edits w ↔ v ∈ deletes w ∨ v ∈ transposes w ∨ v ∈ replaces w
    ∨ v ∈ inserts w := by
  simp only [edits, List.mem_append]; tauto

theorem edit_of_mem {w v : Word} (h : v ∈ edits w) : Edit w v := by
  rcases (mem_edits w v).1 h with h | h | h | h
  · obtain ⟨a, c, b, rfl, rfl⟩ := (mem_deletes _ _).1 h; exact .delete a c b
  · obtain ⟨a, c, d, b, rfl, rfl⟩ := (mem_transposes _ _).1 h; exact .transpose a c d b
  · obtain ⟨a, c, d, b, hd, rfl, rfl⟩ := (mem_replaces _ _).1 h; exact .replace a c d b hd
  · obtain ⟨a, d, b, hd, _, rfl, rfl⟩ := (mem_inserts _ _).1 h; exact .insert a d b hd

/-- One edit of a non-empty word is found in one step, except for a letter appended at the end,
which takes two. -/
theorem mem_of_edit {w v : Word} (h : Edit w v) (hw : w ≠ []) :
    v ∈ edits w ∨ v ∈ (edits w).flatMap edits := by
  cases h with
  | delete a c b => exact Or.inl ((mem_edits _ _).2 (Or.inl ((mem_deletes _ _).2 ⟨a, c, b, rfl, rfl⟩)))
  | transpose a c d b =>
    exact Or.inl ((mem_edits _ _).2 (Or.inr (Or.inl ((mem_transposes _ _).2 ⟨a, c, d, b, rfl, rfl⟩))))
  | replace a c d b hd =>
    exact Or.inl ((mem_edits _ _).2 (Or.inr (Or.inr (Or.inl
      ((mem_replaces _ _).2 ⟨a, c, d, b, hd, rfl, rfl⟩)))))
  | insert a d b hd =>
    by_cases hb : b = []
    · subst hb
      right
      rw [List.append_nil] at hw ⊢
      obtain ⟨a', x, rfl⟩ : ∃ a' x, a = a' ++ [x] :=
        ⟨a.dropLast, a.getLast hw, (List.dropLast_concat_getLast hw).symm⟩
      rw [List.mem_flatMap]
      refine ⟨a' ++ [d, x], ?_, ?_⟩
      · exact (mem_edits _ _).2 (Or.inr (Or.inr (Or.inr
          ((mem_inserts _ _).2 ⟨a', d, [x], hd, by simp, rfl, rfl⟩))))
      · exact (mem_edits _ _).2 (Or.inr (Or.inl
          ((mem_transposes _ _).2 ⟨a', d, x, [], rfl, by simp⟩)))
    · exact Or.inl ((mem_edits _ _).2 (Or.inr (Or.inr (Or.inr
        ((mem_inserts _ _).2 ⟨a, d, b, hd, hb, rfl, rfl⟩)))))

theorem mem_suggestionsIn (words es : List Word) (v : Word) :
    v ∈ suggestionsIn words es ↔ v ∈ words ∧ v ∈ es := by
  simp [suggestionsIn]

/-! ## C61 -/

/-- **C61 (part).** For every vocabulary and every word: a known word gets no suggestion; every
suggestion is a known word at most two edits away; and every non-empty misspelling that is one edit
away from a known word gets a suggestion.  If the misspelling lacks nothing at its end, known
words at one edit are all suggested. -/
theorem c61_partial (words : List Word) (name : Word) :
    (name ∈ words → suggestions words name = [])
    ∧ (∀ v ∈ suggestions words name, v ∈ words ∧ (Edit name v ∨ ∃ u, Edit name u ∧ Edit u v))
    ∧ (name ∉ words → name ≠ [] → (∃ v ∈ words, Edit name v) → suggestions words name ≠ [])
    ∧ (name ∉ words → ∀ v ∈ words, Edit name v → (∀ d, v ≠ name ++ [d]) → v ∈ suggestions words name) := by
  refine ⟨?_, ?_, ?_, ?_⟩
  · intro h; simp [suggestions, h]
  · intro v hv
    unfold suggestions at hv
    split at hv
    · simp at hv
    · simp only at hv
      split at hv
      · obtain ⟨h1, h2⟩ := (mem_suggestionsIn _ _ _).1 hv
        obtain ⟨u, hu, huv⟩ := List.mem_flatMap.1 h2
        exact ⟨h1, Or.inr ⟨u, edit_of_mem hu, edit_of_mem huv⟩⟩
      · obtain ⟨h1, h2⟩ := (mem_suggestionsIn _ _ _).1 hv
        exact ⟨h1, Or.inl (edit_of_mem h2)⟩
  · rintro hn hne ⟨v, hv, he⟩ h0
    unfold suggestions at h0
    rw [if_neg hn] at h0
    simp only at h0
    split at h0
    · next h1 =>
      rcases mem_of_edit he hne with h | h
      · have := (mem_suggestionsIn words _ v).2 ⟨hv, h⟩
        rw [h1] at this; simp at this
      · have := (mem_suggestionsIn words _ v).2 ⟨hv, h⟩
        rw [h0] at this; simp at this
    · next h1 => exact h1 h0
  · intro hn v hv he hend
    have hmem : v ∈ edits name := by
      cases he with
      | delete a c b => exact (mem_edits _ _).2 (Or.inl ((mem_deletes _ _).2 ⟨a, c, b, rfl, rfl⟩))
      | transpose a c d b =>
        exact (mem_edits _ _).2 (Or.inr (Or.inl ((mem_transposes _ _).2 ⟨a, c, d, b, rfl, rfl⟩)))
      | replace a c d b hd =>
        exact (mem_edits _ _).2 (Or.inr (Or.inr (Or.inl
          ((mem_replaces _ _).2 ⟨a, c, d, b, hd, rfl, rfl⟩))))
      | insert a d b hd =>
        by_cases hb : b = []
        · subst hb; exact absurd (by simp) (hend d)
        · exact (mem_edits _ _).2 (Or.inr (Or.inr (Or.inr
            ((mem_inserts _ _).2 ⟨a, d, b, hd, hb, rfl, rfl⟩))))
    have hs := (mem_suggestionsIn words _ v).2 ⟨hv, hmem⟩
    unfold suggestions
    rw [if_neg hn]
    simp only
    rw [if_neg (by intro h; rw [h] at hs; simp at hs)]
    exact hs

example : suggestions [c!"flux", c!"rho"] c!"fluxx" = [c!"flux"]
    ∧ suggestions [c!"flux", c!"rho"] c!"rho" = []
    ∧ suggestions [c!"flux", c!"rho"] c!"hro" = [c!"rho"] := by decide +kernel

example : Edit c!"flu" c!"flux" ∧ c!"flux" ∉ edits c!"flu" := by
  refine ⟨?_, by decide +kernel⟩
  have := Edit.insert c!"flu" 'x' [] (Or.inl (by decide))
  simpa using this

/-- **C61 fails in the code** for the empty word, from which no edit is tried; and a missing last
letter is found only by two edits, so that `br` is not suggested for `b` when another known word is
one edit away. -/
theorem c61_counterexample :
    Edit [] c!"x" ∧ suggestions [c!"x"] [] = []
    ∧ Edit c!"b" c!"br" ∧ suggestions [c!"br", c!"p"] c!"b" = [c!"p"] := by
  refine ⟨?_, by decide +kernel, ?_, by decide +kernel⟩
  · have := Edit.insert [] 'x' [] (Or.inl (by decide))
    simpa using this
  · have := Edit.insert c!"b" 'r' [] (Or.inl (by decide))
    simpa using this

/-- The three modes of `check` and the exception agree with the suggestions. -/
theorem check_modes (words : List Word) (name : Word) :
    check words name (some c!"suggest") = .ok (.suggested (suggestions words name))
    ∧ check words name (some c!"truth") = .ok (.truth (suggestions words name = []))
    ∧ (check words name none = .error (.named "SpellingError") ↔ suggestions words name ≠ []) := by
  refine ⟨by simp [check], by simp [check], ?_⟩
  unfold check
  simp only [reduceCtorEq, if_false, ne_eq, not_true, not_false_eq_true]
  by_cases h : suggestions words name = [] <;> simp [h]

end Verif.Spelling
