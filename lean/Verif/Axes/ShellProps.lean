import Verif.Axes.TimesProps

/-!
# Property C272: observing at several shells
-/

set_option linter.unusedSimpArgs false
set_option linter.unusedSectionVars false

namespace Verif.Axes

open Verif.Py Verif.Iterables Verif.Measurable Verif.Numerical

/-- An exception. -/
def Fails {α : Type} (r : Res α) : Prop := ∃ e, r = .error e

theorem mapM_fails {α β : Type} {f : α → Res β} {l : List α} {a : α} (ha : a ∈ l) (h : Fails (f a)) : Fails (l.mapM f) := by
  cases hm : l.mapM f with
  | error e => exact ⟨e, rfl⟩
  | ok vs =>
    obtain ⟨i, hi, rfl⟩ := List.mem_iff_getElem.1 ha
    have hok := (mapM_ok_iff _ _ _).1 hm
    have := hok.2 i hi (by rw [← hok.1]; exact hi)
    obtain ⟨e, he⟩ := h
    rw [he] at this
    exact absurd this (by simp)

/-- The observation at all shells consists of the observations at the single ones, side by side: `f i j` is the entry for the time at
position `i` and shell `j`. Or both fail. -/
def SideBySide (all : Res (List (List Rat))) (single : Int → Res (List (List Rat))) (js : List Int) : Prop :=
  (∃ (n : Nat) (f : Nat → Int → Rat), (∀ j ∈ js, single j = .ok ((List.range n).map (fun i => [f i j]))) ∧
      all = .ok ((List.range n).map (fun i => js.map (f i))))
    ∨ (Fails all ∧ ∃ j ∈ js, Fails (single j))

/-- The entry at two positions. -/
def entryAt (picked : List (List Rat)) (i : Nat) (j : Int) : Rat :=
  match getItem (picked.getD i []) j with
  | .ok v => v
  | .error _ => 0

theorem entryAt_eq {picked : List (List Rat)} {i : Nat} (hi : i < picked.length) {j : Int} {v : Rat} (hv : getItem picked[i] j = .ok v) :
    getItem picked[i] j = .ok (entryAt picked i j) := by
  unfold entryAt
  rw [List.getD_eq_getElem?_getD, List.getElem?_eq_getElem hi, Option.getD_some, hv]

theorem subscriptColumns_side (picked : List (List Rat)) (js : List Int) :
    SideBySide (subscriptColumns picked js) (fun j => subscriptColumns picked [j]) js := by
  unfold subscriptColumns
  by_cases h : ∀ r ∈ picked, ∀ j ∈ js, ∃ v, getItem r j = .ok v
  · left
    refine ⟨picked.length, entryAt picked, ?_, ?_⟩
    · intro j hj
      rw [mapM_ok_iff]
      refine ⟨by simp, fun i hi hi' => ?_⟩
      obtain ⟨v, hv⟩ := h picked[i] (List.getElem_mem hi) j hj
      simp only [List.getElem_map, List.getElem_range, List.mapM_cons, List.mapM_nil, bind, Except.bind, pure, Except.pure,
        entryAt_eq hi hv]
    · rw [mapM_ok_iff]
      refine ⟨by simp, fun i hi hi' => ?_⟩
      rw [mapM_ok_iff]
      simp only [List.getElem_map, List.getElem_range]
      refine ⟨by simp, fun k hk hk' => ?_⟩
      obtain ⟨v, hv⟩ := h picked[i] (List.getElem_mem hi) js[k] (List.getElem_mem hk)
      exact entryAt_eq hi hv
  · right
    push Not at h
    obtain ⟨r, hr, j, hj, hv⟩ := h
    have hf : Fails (getItem r j) := by
      cases e : getItem r j with
      | error e' => exact ⟨e', rfl⟩
      | ok v => exact absurd e (hv v)
    refine ⟨mapM_fails hr (mapM_fails hj hf), j, hj, mapM_fails hr (mapM_fails (List.mem_singleton.2 rfl) hf)⟩

/-- For shells of the dataset, without a radius. -/
theorem stored_side (g : Grid) (rows : List (List Rat)) (more : Bool) (time : Data Rat) (js : List Int) (hne : js ≠ [])
    (hs : ∀ j ∈ js, (j : Rat) ∈ g.shells) :
    SideBySide (observe g rows more time ⟨js, js⟩ none) (fun j => observe g rows more time ⟨[j], [j]⟩ none) js := by
  have hn : ∀ is : List Int, (∀ i ∈ is, i ∈ js) → g.shellNeeded ⟨is, is⟩ = false := by
    intro is hi
    unfold Grid.shellNeeded
    rw [Bool.not_eq_false', List.all_eq_true]
    exact fun i h => contains_mem (hs i (hi i h))
  have key : ∀ is : List Int, (∀ i ∈ is, i ∈ js) → observe g rows more time ⟨is, is⟩ none = (match g.overTime rows time with
      | .error e => .error e
      | .ok a => if g.timeNeeded time = true then subscriptColumns a is else subscript a time.points is) := by
    intro is hi
    unfold observe Grid.overShell
    rw [hn is hi]
    cases g.overTime rows time with
    | error e => rfl
    | ok a => simp only [Grid.overRadius, Bool.false_eq_true, if_false, Option.isSome_none, Bool.or_self]; cases g.timeNeeded time <;> rfl
  obtain ⟨j0, hj0⟩ := List.exists_mem_of_ne_nil js hne
  have key1 : ∀ j ∈ js, observe g rows more time ⟨[j], [j]⟩ none = _ := fun j hj => key [j] (fun i hi => by
    rw [List.mem_singleton] at hi; exact hi ▸ hj)
  have trans : ∀ (all : Res (List (List Rat))) (s : Int → Res (List (List Rat))),
      observe g rows more time ⟨js, js⟩ none = all → (∀ j ∈ js, observe g rows more time ⟨[j], [j]⟩ none = s j) →
      SideBySide all s js → SideBySide (observe g rows more time ⟨js, js⟩ none) (fun j => observe g rows more time ⟨[j], [j]⟩ none) js := by
    rintro all s h1 h2 (⟨n, f, a, b⟩ | ⟨a, j, hj, b⟩)
    · exact Or.inl ⟨n, f, fun j hj => (h2 j hj).trans (a j hj), h1.trans b⟩
    · exact Or.inr ⟨h1 ▸ a, j, hj, by simp only; rw [h2 j hj]; exact b⟩
  refine trans _ _ (key js (fun _ h => h)) key1 ?_
  cases g.overTime rows time with
  | error e => exact Or.inr ⟨⟨e, rfl⟩, j0, hj0, e, rfl⟩
  | ok a =>
    simp only
    cases g.timeNeeded time with
    | true => simpa using subscriptColumns_side a js
    | false =>
      simp only [Bool.false_eq_true, if_false, subscript]
      cases subscriptRows a time.points with
      | error e => exact Or.inr ⟨⟨e, rfl⟩, j0, hj0, e, rfl⟩
      | ok p => exact subscriptColumns_side p js

/-- The shells of a dataset with `n` of them. -/
def count (n : Nat) : List Rat := (List.range n).map (fun i : Nat => (i : Rat))

theorem mem_count {n : Nat} {q : Rat} (h : q ∈ count n) : 0 ≤ q ∧ q ≤ n - 1 := by
  obtain ⟨i, hi, rfl⟩ := List.mem_map.1 h
  rw [List.mem_range] at hi
  have : (i : Rat) + 1 ≤ n := by exact_mod_cast hi
  exact ⟨by positivity, by linarith⟩

theorem beyond {n : Nat} {j : Int} (h : (j : Rat) ∉ count n) : (j : Rat) < 0 ∨ (n : Rat) - 1 < j := by
  by_contra hc
  push Not at hc
  obtain ⟨h0, h1⟩ := hc
  have h0' : 0 ≤ j := by exact_mod_cast h0
  have h1' : j ≤ (n : Int) - 1 := by exact_mod_cast h1
  refine h (List.mem_map.2 ⟨j.toNat, List.mem_range.2 (by omega), ?_⟩)
  have : ((j.toNat : Int) : Rat) = (j : Rat) := by rw [Int.toNat_of_nonneg h0']
  exact_mod_cast this

theorem not_contains {n : Nat} {j : Int} (h : (j : Rat) ∉ count n) : contains (count n) j = false := by
  unfold contains
  rw [Bool.or_eq_false_iff]
  refine ⟨decide_eq_false h, ?_⟩
  rcases beyond h with hb | hb
  · have : (count n).any (fun x => decide (x ≤ (j : Rat))) = false := by
      rw [List.any_eq_false]
      intro x hx
      have := (mem_count hx).1
      simp only [decide_eq_true_eq, not_le]
      linarith
    rw [this]; rfl
  · have : (count n).any (fun x => decide ((j : Rat) ≤ x)) = false := by
      rw [List.any_eq_false]
      intro x hx
      have := (mem_count hx).2
      simp only [decide_eq_true_eq, not_le]
      linarith
    rw [this]; simp

theorem applyOne_beyond (r : List Rat) {n : Nat} (hn : 2 ≤ n) {j : Int} (h : (j : Rat) ∉ count n) :
    Fails (applyOne r (count n) j false) := by
  cases e : applyOne r (count n) j false with
  | error e' => exact ⟨e', rfl⟩
  | ok v =>
    exfalso
    have hl : (count n).length = n := by simp [count]
    have hsel : select (count n) ((List.range (count n).length).map Int.ofNat) = .ok (count n) := by
      unfold select
      rw [mapM_ok_iff]
      refine ⟨by simp, fun i hi hi' => ?_⟩
      simp only [List.getElem_map, List.getElem_range, Int.ofNat_eq_natCast]
      exact getItem_nat _ i hi'
    unfold applyOne at e
    rw [if_neg h] at e
    simp only [Bool.false_eq_true, if_false, bind, Except.bind, hsel] at e
    cases ea : select r ((List.range (count n).length).map Int.ofNat) with
    | error e' => rw [ea] at e; exact absurd e (by simp)
    | ok arr =>
      rw [ea] at e
      simp only at e
      rw [if_neg (by omega)] at e
      have hb := beyond h
      have hx0 : getItem (count n) 0 = .ok 0 := by
        have := getItem_nat (count n) 0 (by omega)
        rw [show ((0 : Nat) : Int) = 0 from rfl] at this
        rw [this]
        simp [count]
      have hx1 : getItem (count n) (-1) = .ok ((n : Rat) - 1) := by
        obtain ⟨m, rfl⟩ : ∃ m, n = m + 1 := ⟨n - 1, by omega⟩
        unfold getItem
        have : (if (-1 : Int) < 0 then (-1 : Int) + ((count (m + 1)).length : Int) else -1) = (m : Int) := by
          rw [if_pos (by omega), hl]; omega
        simp only [this]
        rw [if_neg (by omega)]
        simp [count]
      unfold interp1d at e
      split at e
      · exact absurd e (by simp)
      · simp only [hx0, hx1, bind, Except.bind] at e
        rw [if_pos hb] at e
        exact absurd e (by simp)

/-- **C272, all shells.** For all datasets of two shells or more, quantities, times and non-empty lists of shells, of the dataset or not:
the observation at all of them consists of the observations at each, side by side, and fails exactly if one of these does. -/
theorem c272_partial (times : List Rat) (n : Nat) (hn : 2 ≤ n) (radius rows : List (List Rat)) (hr : rows ≠ []) (more : Bool)
    (time : Data Rat) (ht : time.values ≠ []) (js : List Int) (hne : js ≠ []) :
    SideBySide (observe ⟨times, count n, radius⟩ rows more time ⟨js, js⟩ none)
      (fun j => observe ⟨times, count n, radius⟩ rows more time ⟨[j], [j]⟩ none) js := by
  by_cases hs : ∀ j ∈ js, (j : Rat) ∈ count n
  · exact stored_side ⟨times, count n, radius⟩ rows more time js hne hs
  · right
    push Not at hs
    obtain ⟨j0, hj0, hout⟩ := hs
    have key : ∀ is : List Int, j0 ∈ is → Fails (observe ⟨times, count n, radius⟩ rows more time ⟨is, is⟩ none) := by
      intro is hi
      have hnd : Grid.shellNeeded ⟨times, count n, radius⟩ ⟨is, is⟩ = true := by
        unfold Grid.shellNeeded
        rw [Bool.not_eq_true', List.all_eq_false]
        exact ⟨j0, hi, by simp [not_contains hout]⟩
      unfold observe
      cases ho : Grid.overTime ⟨times, count n, radius⟩ rows time with
      | error e => exact ⟨e, rfl⟩
      | ok a =>
        have hane : a ≠ [] := by
          unfold Grid.overTime at ho
          split at ho
          · unfold interpolateRows at ho
            have hlen := ((mapM_ok_iff _ _ _).1 ho).1
            intro ha
            rw [ha] at hlen
            exact ht (List.length_eq_zero_iff.1 hlen)
          · exact fun ha => hr (by rw [Except.ok.inj ho, ha])
        obtain ⟨r, hra⟩ := List.exists_mem_of_ne_nil a hane
        have : Fails (Grid.overShell ⟨times, count n, radius⟩ a ⟨is, is⟩) := by
          unfold Grid.overShell
          rw [if_pos hnd]
          exact mapM_fails hra (mapM_fails (List.mem_map.2 ⟨j0, hi, rfl⟩) (applyOne_beyond r hn hout))
        obtain ⟨e, he⟩ := this
        exact ⟨e, by simp only [he]⟩
    exact ⟨key js hj0, j0, hj0, key [j0] (List.mem_singleton.2 rfl)⟩

/-- Two shells, in reverse order, at a time in between. -/
example : observe ⟨[0, 10], [0, 1, 2], [[1, 2, 3], [1, 2, 3]]⟩ [[1, 2, 3], [3, 6, 9]] false ⟨[0], [5]⟩ ⟨[2, 0], [2, 0]⟩ none
    = .ok [[6, 2]] := by decide +kernel

example : observe ⟨[0, 10], [0, 1, 2], [[1, 2, 3], [1, 2, 3]]⟩ [[1, 2, 3], [3, 6, 9]] false ⟨[0], [5]⟩ ⟨[2], [2]⟩ none = .ok [[6]] := by
  decide +kernel

example : count 3 = [0, 1, 2] := by decide +kernel

/-- A shell that does not exist. -/
example : observe ⟨[0, 10], count 3, [[1, 2, 3], [1, 2, 3]]⟩ [[1, 2, 3], [3, 6, 9]] false ⟨[0], [5]⟩ ⟨[2, 3], [2, 3]⟩ none
    = .error .valueError := by decide +kernel

/-- **C272 fails in the code** for a dataset of a single shell, at a time in between: the second shell does not exist if it is requested
alone, but it does together with the first. -/
theorem c272_counterexample :
    observe ⟨[0, 10], [0], [[1], [1]]⟩ [[1], [3]] false ⟨[0], [5]⟩ ⟨[0], [0]⟩ none = .ok [[2]] ∧
    observe ⟨[0, 10], [0], [[1], [1]]⟩ [[1], [3]] false ⟨[0], [5]⟩ ⟨[1], [1]⟩ none = .error .indexError ∧
    observe ⟨[0, 10], [0], [[1], [1]]⟩ [[1], [3]] false ⟨[0], [5]⟩ ⟨[0, 1], [0, 1]⟩ none = .ok [[2, 2]] := by
  refine ⟨?_, ?_, ?_⟩ <;> decide +kernel

end Verif.Axes
