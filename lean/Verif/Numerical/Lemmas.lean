import Verif.Numerical.Model
import Mathlib.Data.List.Pairwise
import Mathlib.Data.List.Sort
import Mathlib.Tactic.Linarith
import Mathlib.Tactic.Ring
import Mathlib.Tactic.FieldSimp

set_option linter.unusedSimpArgs false
set_option linter.unusedSectionVars false

namespace Verif.Numerical

open Verif.Py

variable {K : Type _} [Field K] [LinearOrder K] [IsStrictOrderedRing K]

theorem getItem_nat {α : Type _} (xs : List α) (k : Nat) (h : k < xs.length) :
    getItem xs (k : Int) = .ok xs[k] := by
  have h1 : ¬ (k : Int) < 0 := by omega
  unfold getItem
  simp only [h1, if_false, Int.toNat_natCast]
  rw [List.getElem?_eq_getElem h]

theorem getItem_big {α : Type _} (xs : List α) (k : Nat) (h : xs.length ≤ k) :
    getItem xs (k : Int) = .error .indexError := by
  have : xs[k]? = none := by simp [h]
  have h1 : ¬ (k : Int) < 0 := by omega
  unfold getItem
  simp only [h1, if_false, Int.toNat_natCast, this]

theorem getItem_neg {α : Type _} (xs : List α) (k : Nat) (h : k < xs.length) :
    getItem xs (-((k : Int) + 1)) = .ok (xs[xs.length - 1 - k]'(by omega)) := by
  have h1 : -((k : Int) + 1) < 0 := by omega
  have h2 : ¬ (-((k : Int) + 1) + xs.length) < 0 := by omega
  have h3 : (-((k : Int) + 1) + xs.length).toNat = xs.length - 1 - k := by omega
  unfold getItem
  simp only [h1, if_true, h2, if_false, h3]
  rw [List.getElem?_eq_getElem (by omega)]

theorem getItem_neg_big {α : Type _} (xs : List α) (k : Nat) (h : xs.length ≤ k) :
    getItem xs (-((k : Int) + 1)) = .error .indexError := by
  have h1 : -((k : Int) + 1) < 0 := by omega
  have h2 : (-((k : Int) + 1) + xs.length) < 0 := by omega
  unfold getItem
  simp only [h1, if_true, h2]

theorem getItem_last {α : Type _} (xs : List α) (h : xs ≠ []) :
    getItem xs (-1) = .ok (xs.getLast h) := by
  have hl : 0 < xs.length := List.length_pos_of_ne_nil h
  have := getItem_neg xs 0 hl
  simp only [Nat.cast_zero, zero_add] at this
  rw [this, List.getLast_eq_getElem]
  simp

/-! ## `argmin` -/

theorem argminFrom_spec (pre xs : List K) (best : Nat) (hb : best < pre.length)
    (hmin : ∀ j (h : j < pre.length), pre[best] ≤ pre[j])
    (hfirst : ∀ j (h : j < best), pre[best] < pre[j]) :
    ∃ h : argminFrom best pre[best] pre.length xs < (pre ++ xs).length,
      (∀ j (hj : j < (pre ++ xs).length), (pre ++ xs)[argminFrom best pre[best] pre.length xs] ≤ (pre ++ xs)[j]) ∧
      ∀ j (hj : j < argminFrom best pre[best] pre.length xs),
        (pre ++ xs)[argminFrom best pre[best] pre.length xs] < (pre ++ xs)[j] := by
  induction xs generalizing pre best with
  | nil =>
    simp only [argminFrom, List.append_nil]
    exact ⟨hb, hmin, hfirst⟩
  | cons x xs ih =>
    have hpre : pre ++ x :: xs = (pre ++ [x]) ++ xs := by simp
    by_cases hx : x < pre[best]
    · have e : argminFrom best pre[best] pre.length (x :: xs)
          = argminFrom pre.length ((pre ++ [x])[pre.length]'(by simp)) (pre ++ [x]).length xs := by
        simp [argminFrom, hx]
      have := ih (pre ++ [x]) pre.length (by simp) (by
        intro j hj
        simp only [List.length_append, List.length_singleton] at hj
        rcases Nat.lt_succ_iff_lt_or_eq.1 hj with h | h
        · rw [List.getElem_append_right (by simp), List.getElem_append_left h]
          simpa using hx.le.trans (hmin j h)
        · subst h; exact le_rfl) (by
        intro j hj
        rw [List.getElem_append_right (by simp), List.getElem_append_left hj]
        simpa using hx.trans_le (hmin j hj))
      simp only [hpre, e]
      exact this
    · have e : argminFrom best pre[best] pre.length (x :: xs)
          = argminFrom best ((pre ++ [x])[best]'(by simp; omega)) (pre ++ [x]).length xs := by
        simp [argminFrom, hx, List.getElem_append_left hb]
      have := ih (pre ++ [x]) best (by simp; omega) (by
        intro j hj
        simp only [List.length_append, List.length_singleton] at hj
        rw [List.getElem_append_left hb]
        rcases Nat.lt_succ_iff_lt_or_eq.1 hj with h | h
        · rw [List.getElem_append_left h]; exact hmin j h
        · subst h
          rw [List.getElem_append_right (by simp)]
          simpa using not_lt.1 hx) (by
        intro j hj
        rw [List.getElem_append_left hb, List.getElem_append_left (by omega)]
        exact hfirst j hj)
      simp only [hpre, e]
      exact this

theorem argmin_spec (xs : List K) (h : xs ≠ []) :
    ∃ i, ∃ hi : i < xs.length, argmin xs = .ok i ∧ (∀ j (hj : j < xs.length), xs[i] ≤ xs[j]) ∧
      ∀ j (hj : j < i), xs[i] < xs[j] := by
  match xs, h with
  | x :: xs, _ =>
    obtain ⟨h1, h2, h3⟩ := argminFrom_spec [x] xs 0 (by simp) (by
      intro j hj
      simp only [List.length_singleton, Nat.lt_one_iff] at hj
      subst hj; exact le_rfl) (by intro j hj; omega)
    exact ⟨_, h1, rfl, h2, h3⟩

/-! ## The loops -/

theorem walkUp_spec (array : List K) (t : K) (steps k : Nat) (hk : k ≤ array.length)
    (hs : array.length + 1 ≤ steps + k) :
    (∃ m, ∃ hm : m < array.length, walkUp array t steps k = some (m : Int) ∧ k ≤ m ∧ t ≤ array[m] ∧
      ∀ j (hj : j < m), k ≤ j → array[j] < t) ∨
    (walkUp array t steps k = some (-1) ∧ ∀ j (hj : j < array.length), k ≤ j → array[j] < t) := by
  induction steps generalizing k with
  | zero => omega
  | succ steps ih =>
    rcases Nat.lt_or_eq_of_le hk with h | h
    · unfold walkUp
      rw [getItem_nat _ _ h]
      simp only
      by_cases hlt : array[k] < t
      · rw [if_pos hlt]
        rcases ih (k + 1) h (by omega) with ⟨m, hm, e, h1, h2, h3⟩ | ⟨e, h1⟩
        · left
          refine ⟨m, hm, by exact_mod_cast e, by omega, h2, fun j hj hkj => ?_⟩
          rcases Nat.lt_or_eq_of_le hkj with h' | h'
          · exact h3 j hj h'
          · subst h'; exact hlt
        · right
          refine ⟨by exact_mod_cast e, fun j hj hkj => ?_⟩
          rcases Nat.lt_or_eq_of_le hkj with h' | h'
          · exact h1 j hj h'
          · subst h'; exact hlt
      · rw [if_neg hlt]
        left
        exact ⟨k, h, rfl, le_rfl, not_lt.1 hlt, fun j hj hkj => by omega⟩
    · right
      unfold walkUp
      rw [getItem_big _ _ (by omega)]
      exact ⟨rfl, fun j hj hkj => by omega⟩

theorem walkDown_found (array : List K) (t : K) (steps k : Nat) (hk : k < array.length)
    (hs : k + 1 ≤ steps) (he : ∃ m, ∃ hm : m < array.length, m ≤ k ∧ array[m] ≤ t) :
    ∃ m, ∃ hm : m < array.length, walkDown array t steps k = some (m : Int) ∧ m ≤ k ∧ array[m] ≤ t ∧
      ∀ j (hj : j < array.length), m < j → j ≤ k → t < array[j] := by
  induction steps generalizing k with
  | zero => omega
  | succ steps ih =>
    unfold walkDown
    rw [getItem_nat _ _ hk]
    simp only
    by_cases hgt : array[k] > t
    · rw [if_pos hgt]
      obtain ⟨m, hm, hmk, hmt⟩ := he
      have hne : m ≠ k := by rintro rfl; exact absurd hmt (not_le.2 hgt)
      obtain ⟨m', hm', e, h1, h2, h3⟩ := ih (k - 1) (by omega) (by omega) ⟨m, hm, by omega, hmt⟩
      refine ⟨m', hm', ?_, by omega, h2, fun j hj hmj hjk => ?_⟩
      · rw [← e]; congr 1; omega
      · rcases Nat.lt_or_eq_of_le hjk with h' | h'
        · exact h3 j hj hmj (by omega)
        · subst h'; exact hgt
    · rw [if_neg hgt]
      exact ⟨k, hk, rfl, le_rfl, not_lt.1 hgt, fun j hj h1 h2 => by omega⟩

theorem walkDown_neg (array : List K) (t : K) (h : ∀ x ∈ array, t < x) (steps k : Nat)
    (hs : array.length + 1 ≤ steps + k) (hk : k ≤ array.length) :
    walkDown array t steps (-((k : Int) + 1)) = some 0 := by
  induction steps generalizing k with
  | zero => omega
  | succ steps ih =>
    unfold walkDown
    rcases Nat.lt_or_eq_of_le hk with h' | h'
    · rw [getItem_neg _ _ h']
      simp only
      rw [if_pos (h _ (List.getElem_mem _))]
      have := ih (k + 1) (by omega) h'
      rw [← this]
      congr 1
    · rw [getItem_neg_big _ _ (by omega)]

theorem walkDown_all (array : List K) (t : K) (h : ∀ x ∈ array, t < x) (steps k : Nat)
    (hk : k < array.length) (hs : array.length + k + 2 ≤ steps) :
    walkDown array t steps k = some 0 := by
  induction k generalizing steps with
  | zero =>
    obtain ⟨s, rfl⟩ : ∃ s, steps = s + 1 := ⟨steps - 1, by omega⟩
    unfold walkDown
    rw [getItem_nat _ _ hk]
    simp only
    rw [if_pos (h _ (List.getElem_mem _))]
    have := walkDown_neg array t h s 0 (by omega) (by omega)
    rw [← this]
    congr 1
  | succ k ih =>
    obtain ⟨s, rfl⟩ : ∃ s, steps = s + 1 := ⟨steps - 1, by omega⟩
    unfold walkDown
    rw [getItem_nat _ _ hk]
    simp only
    rw [if_pos (h _ (List.getElem_mem _))]
    have := ih s (by omega) (by omega)
    rw [← this]
    congr 1
    push_cast; omega

/-! ## Bounding indices -/

theorem le_iff_lt_countP (a : List K) (hs : a.Pairwise (· ≤ ·)) (t : K) (i : Nat) (hi : i < a.length) :
    a[i] ≤ t ↔ i < a.countP (· ≤ t) := by
  induction a generalizing i with
  | nil => simp at hi
  | cons x a ih =>
    rw [List.pairwise_cons] at hs
    by_cases hx : x ≤ t
    · rw [List.countP_cons_of_pos (by simpa using hx)]
      cases i with
      | zero => simpa using hx
      | succ i =>
        simp only [List.getElem_cons_succ]
        rw [ih hs.2 i (by simpa using hi)]
        omega
    · rw [List.countP_cons_of_neg (by simpa using hx)]
      have h0 : a.countP (· ≤ t) = 0 := by
        rw [List.countP_eq_zero]
        intro y hy
        simpa using lt_of_lt_of_le (not_le.1 hx) (hs.1 y hy)
      rw [h0]
      constructor
      · intro h
        exfalso
        cases i with
        | zero => exact hx h
        | succ i =>
          simp only [List.getElem_cons_succ] at h
          exact hx ((hs.1 _ (List.getElem_mem _)).trans h)
      · intro h; omega

theorem lt_iff_lt_countP (a : List K) (hs : a.Pairwise (· ≤ ·)) (t : K) (i : Nat) (hi : i < a.length) :
    a[i] < t ↔ i < a.countP (· < t) := by
  induction a generalizing i with
  | nil => simp at hi
  | cons x a ih =>
    rw [List.pairwise_cons] at hs
    by_cases hx : x < t
    · rw [List.countP_cons_of_pos (by simpa using hx)]
      cases i with
      | zero => simpa using hx
      | succ i =>
        simp only [List.getElem_cons_succ]
        rw [ih hs.2 i (by simpa using hi)]
        omega
    · rw [List.countP_cons_of_neg (by simpa using hx)]
      have h0 : a.countP (· < t) = 0 := by
        rw [List.countP_eq_zero]
        intro y hy
        simpa using (not_lt.1 hx).trans (hs.1 y hy)
      rw [h0]
      constructor
      · intro h
        exfalso
        cases i with
        | zero => exact hx h
        | succ i =>
          simp only [List.getElem_cons_succ] at h
          exact hx ((hs.1 _ (List.getElem_mem _)).trans_lt h)
      · intro h; omega

theorem countP_split (a : List K) (t : K) :
    a.countP (· ≤ t) = a.countP (· < t) + a.count t := by
  induction a with
  | nil => rfl
  | cons x a ih =>
    rcases lt_trichotomy x t with h | h | h
    · rw [List.countP_cons_of_pos (by simpa using h.le), List.countP_cons_of_pos (by simpa using h),
        List.count_cons_of_ne h.ne]
      omega
    · subst h
      rw [List.countP_cons_of_pos (by simp), List.countP_cons_of_neg (by simp), List.count_cons_self]
      omega
    · rw [List.countP_cons_of_neg (by simpa using h), List.countP_cons_of_neg (by simpa using h.le),
        List.count_cons_of_ne h.ne']
      omega

theorem filter_range_lt (n p : Nat) (hp : p ≤ n) :
    (List.range n).filter (fun i => decide (i < p)) = List.range p := by
  induction n with
  | zero => simp; omega
  | succ n ih =>
    rw [List.range_succ, List.filter_append]
    rcases Nat.lt_or_eq_of_le hp with h | h
    · rw [ih (by omega)]
      simp; omega
    · subst h
      rw [List.filter_eq_self.2 (by intro a ha; simp at ha ⊢; omega)]
      simp [List.range_succ]

theorem head_filter_range_ge (n c : Nat) :
    ((List.range n).filter (fun i => decide (c ≤ i))).head? = if c < n then some c else none := by
  induction n with
  | zero => simp
  | succ n ih =>
    rw [List.range_succ, List.filter_append, List.head?_append, ih]
    by_cases h : c < n
    · simp [h]; omega
    · simp only [h, if_false]
      by_cases h' : c ≤ n
      · have : c = n := by omega
        subst this; simp
      · simp [h']; omega

theorem whereIdx_eq (p : K → Bool) (q : Nat → Bool) (a : List K)
    (h : ∀ i (hi : i < a.length), p a[i] = q i) :
    whereIdx p a = (List.range a.length).filter q := by
  unfold whereIdx
  apply List.filter_congr
  intro i hi
  simp only [List.mem_range] at hi
  simp [List.getElem?_eq_getElem hi, h i hi]

theorem find1d_sorted (a : List K) (hs : a.Pairwise (· ≤ ·)) (t : K) :
    find1dIndices a t = (((a.countP (· ≤ t) - 1 : Nat) : Int),
      if a.countP (· < t) < a.length then (a.countP (· < t) : Int) else (a.length : Int) - 1) := by
  unfold find1dIndices
  rw [whereIdx_eq (fun x => decide (x ≤ t)) (fun i => decide (i < a.countP (· ≤ t))) a
      (fun i hi => by simp only [decide_eq_decide]; exact le_iff_lt_countP a hs t i hi),
    whereIdx_eq (fun x => decide (t ≤ x)) (fun i => decide (a.countP (· < t) ≤ i)) a
      (fun i hi => by
        simp only [decide_eq_decide]
        rw [← not_lt, ← not_lt]; exact not_congr (lt_iff_lt_countP a hs t i hi)),
    filter_range_lt _ _ List.countP_le_length]
  dsimp only
  rw [head_filter_range_ge]
  congr 1
  · rcases Nat.eq_zero_or_pos (a.countP (· ≤ t)) with h | h
    · rw [h]; simp
    · rw [List.getLast?_range]; simp [Nat.pos_iff_ne_zero.1 h]
  · split_ifs <;> rfl

end Verif.Numerical
