import Mathlib.Tactic.Tauto
import Verif.Spelling.Props
import Verif.Observing.ComposeProps

/-!
# Requests for unknown quantities (C62, C99)
-/

set_option linter.unusedSimpArgs false
set_option linter.unusedSectionVars false

namespace Verif.Observing

open Verif.Py

/-- A name that the observer can be asked about but does not know: it is neither observable nor
available in the context. -/
def Unknown (observables available : List (List Str)) (fuel : Nat) (key : Str) : Prop :=
  observesName observables fuel key = .ok false ∧ key ∉ available.flatten

instance (observables available : List (List Str)) (fuel : Nat) (key : Str) :
    Decidable (Unknown observables available fuel key) := by
  unfold Unknown; infer_instance

/-- Groups are never suggested. -/
theorem entrySuggestions_groups (gs : List (List Str)) (key : Str) :
    entrySuggestions (gs.map Entry.group) key = [] := by
  have h : ∀ ws : List Str, (gs.map Entry.group).filter
      (fun e => decide (e ∈ ws.map Entry.word)) = [] := by
    intro ws
    rw [List.filter_eq_nil_iff]
    intro e he
    obtain ⟨g, -, rfl⟩ := List.mem_map.1 he
    simp
  unfold entrySuggestions
  split
  · rfl
  · simp only [h]
    split <;> rfl

theorem entrySuggestions_words (ws : List Str) (key : Str) :
    entrySuggestions (ws.map Entry.word) key = (Spelling.suggestions ws key).map Entry.word := by
  have hf : ∀ es : List Str, (ws.map Entry.word).filter (fun e => decide (e ∈ es.map Entry.word))
      = (Spelling.suggestionsIn ws es).map Entry.word := by
    intro es
    unfold Spelling.suggestionsIn
    rw [List.filter_map]
    congr 1
    refine List.filter_congr (fun w _ => ?_)
    simp
  have hm : Entry.word key ∈ ws.map Entry.word ↔ key ∈ ws := by simp
  unfold entrySuggestions Spelling.suggestions
  by_cases hk : key ∈ ws
  · simp [hk]
  · simp only [hm, hk, if_false, hf]
    by_cases h0 : Spelling.suggestionsIn ws (Spelling.edits key) = []
    · simp [h0]
    · simp [h0]

theorem getItem_unknown {observables available : List (List Str)} {fuel : Nat} {key : Str}
    (h : Unknown observables available fuel key) (s : Checker) :
    getItem observables available fuel s key
      = match s with
        | none => (.error .keyError, some (available.map Entry.group))
        | some ws => (.error .typeError, some ws) := by
  unfold getItem
  rw [h.1]
  simp only [h.2, if_false]
  cases s with
  | none => simp [checkSpelling, entrySuggestions_groups]
  | some ws => rfl

theorem getItem_known {observables available : List (List Str)} {fuel : Nat} {key : Str}
    (h : ¬ Unknown observables available fuel key) (s : Checker) :
    (getItem observables available fuel s key).2 = s
    ∧ ((getItem observables available fuel s key).1 = .ok (.observable key)
      ∨ (getItem observables available fuel s key).1 = .ok (.quantity key)
      ∨ ∃ e, observesName observables fuel key = .error e
          ∧ (getItem observables available fuel s key).1 = .error e) := by
  unfold getItem
  cases ho : observesName observables fuel key with
  | error e => exact ⟨rfl, Or.inr (Or.inr ⟨e, rfl, rfl⟩)⟩
  | ok b =>
    cases b with
    | true => exact ⟨rfl, Or.inl rfl⟩
    | false =>
      have : key ∈ available.flatten := by
        by_contra hk; exact h ⟨ho, hk⟩
      simp [this]

/-- The spell checker exists exactly if an unknown name has been requested. -/
theorem afterRequests_spec (observables available : List (List Str)) (fuel : Nat) :
    ∀ (keys : List Str) (s : Checker),
      (afterRequests observables available fuel s keys).isSome
        ↔ s.isSome ∨ ∃ k ∈ keys, Unknown observables available fuel k := by
  intro keys
  induction keys with
  | nil => intro s; simp [afterRequests]
  | cons k ks ih =>
    intro s
    show (afterRequests observables available fuel (getItem observables available fuel s k).2 ks).isSome
      ↔ _
    rw [ih]
    by_cases hk : Unknown observables available fuel k
    · have h1 : (getItem observables available fuel s k).2.isSome := by
        rw [getItem_unknown hk]; cases s <;> rfl
      simp [h1, hk]
    · rw [(getItem_known hk s).1]
      simp [hk]

/-- C62, partial. An unknown name raises `KeyError` as long as no unknown name has been requested
before, however many known ones have; known names keep their meaning throughout.

Missing: from the second unknown name on the exception is `TypeError` (proved here as well), and a
composite name that cannot be parsed raises the parser's exception (`c62_counterexample`). -/
theorem c62_partial (observables available : List (List Str)) (fuel : Nat) (earlier : List Str)
    (key : Str) (hk : Unknown observables available fuel key) :
    ((∀ k ∈ earlier, ¬ Unknown observables available fuel k) →
      (getItem observables available fuel
        (afterRequests observables available fuel none earlier) key).1 = .error .keyError)
    ∧ ((∃ k ∈ earlier, Unknown observables available fuel k) →
      (getItem observables available fuel
        (afterRequests observables available fuel none earlier) key).1 = .error .typeError)
    ∧ ∀ k, ¬ Unknown observables available fuel k →
      (getItem observables available fuel
        (afterRequests observables available fuel none earlier) k).1
        = (getItem observables available fuel none k).1 := by
  have hs := afterRequests_spec observables available fuel earlier none
  refine ⟨fun h => ?_, fun h => ?_, fun k hn => ?_⟩
  · cases he : afterRequests observables available fuel none earlier with
    | none => rw [getItem_unknown hk]
    | some ws =>
      rw [he] at hs
      rcases hs.1 rfl with h' | ⟨k, h1, h2⟩
      · simp at h'
      · exact absurd h2 (h k h1)
  · cases he : afterRequests observables available fuel none earlier with
    | none =>
      rw [he] at hs
      exact absurd (hs.2 (Or.inr h)) (by simp)
    | some ws => rw [getItem_unknown hk]
  · unfold getItem
    cases ho : observesName observables fuel k with
    | error e => rfl
    | ok b =>
      cases b with
      | true => rfl
      | false =>
        have : k ∈ available.flatten := by
          by_contra hk'; exact hn ⟨ho, hk'⟩
        simp only [this, if_true]

/-- C62: the same unknown name twice; and a name that cannot be parsed. -/
theorem c62_counterexample :
    (getItem someNames someNames 9 none c!"x").1 = .error .keyError
    ∧ (getItem someNames someNames 9
        (afterRequests someNames someNames 9 none [c!"x"]) c!"x").1 = .error .typeError
    ∧ (getItem someNames someNames 9 none c!"Vr / (x").1
        = .error (.named "ParsingValueError") := by
  have hu : Unknown someNames someNames 9 c!"x" := by decide +kernel
  refine ⟨((c62_partial _ _ _ [] _ hu).1 (by simp)), ((c62_partial _ _ _ [c!"x"] _ hu).2.1 ?_),
    by decide +kernel⟩
  exact ⟨_, List.mem_singleton.2 rfl, hu⟩

example : Unknown someNames someNames 9 c!"x" ∧ ¬ Unknown someNames someNames 9 c!"Vr"
    ∧ ¬ Unknown someNames someNames 9 c!"mfp / Vr" := by decide +kernel

/-- C99, partial. A spell checker that is given the single names as its words (as its documentation
has it) reports every unknown, nonempty name that is one edit away from one of them.

Missing: the observer gives it the groups of aliases instead, and no request for an unknown name,
however similar to a known one, in whatever state, raises `SpellingError` (proved here as well;
instance: `c99_counterexample`). -/
theorem c99_partial (words : List Str) (key : Str) :
    ((∃ w ∈ words, Spelling.Edit key w) → key ∉ words → key ≠ [] →
      entrySuggestions (words.map Entry.word) key ≠ []
      ∧ Spelling.check words key none = .error (.named "SpellingError"))
    ∧ ∀ (observables available : List (List Str)) (fuel : Nat) (s : Checker),
      Unknown observables available fuel key →
      (getItem observables available fuel s key).1 ≠ .error (.named "SpellingError") := by
  constructor
  · intro h hk hne
    have h1 := (Spelling.c61_partial words key).2.2.1 hk hne h
    refine ⟨by rw [entrySuggestions_words]; simpa using h1, ?_⟩
    unfold Spelling.check
    simp [h1]
  · intro observables available fuel s hu
    rw [getItem_unknown hu]
    cases s <;> simp

/-- C99: `Vrr` is one edit away from `Vr`; the first request raises `KeyError`. -/
theorem c99_counterexample :
    Spelling.Edit c!"Vrr" c!"Vr" ∧ c!"Vr" ∈ someNames.flatten
    ∧ (getItem someNames someNames 9 none c!"Vrr").1 = .error .keyError
    ∧ entrySuggestions (someNames.flatten.map Entry.word) c!"Vrr" ≠ [] := by
  have he : Spelling.Edit c!"Vrr" c!"Vr" := Spelling.edit_of_mem (by decide +kernel)
  have hu : Unknown someNames someNames 9 c!"Vrr" := by decide +kernel
  refine ⟨he, by decide +kernel, (c62_partial _ _ _ [] _ hu).1 (by simp), ?_⟩
  exact ((c99_partial someNames.flatten c!"Vrr").1 ⟨_, by decide +kernel, he⟩ (by decide +kernel)
    (by decide)).1

end Verif.Observing
