import Verif.Helpers.Props
import Verif.Numerical.Props

/-!
# Property C295: bounding indices along an axis of an array
-/

set_option linter.unusedSimpArgs false

namespace Verif.Helpers

open Verif.Py
open Verif.Shapes (Arr)
open Verif.Numerical (find1dIndices)

set_option linter.unusedSectionVars false

variable {K : Type} [Field K] [LinearOrder K] [IsStrictOrderedRing K]

/-- The entries of an array on the line along axis `k` through the position `i`. -/
def lineAt (a : Arr K) (k : Nat) (i : List Nat) : List K :=
  (List.range (a.shape.getD k 0)).map (fun j => a.entry (i.set k j))

/-- `get_bounding_indices` (numerical.py 9-41). `numpy.apply_along_axis` raises `ValueError` if another axis has no entries;
otherwise it calls `find_1d_indices` for each line along the axis, and puts the two results along that axis. The conversion to
floats by `numpy.asfarray` and `float` is the identity here. -/
def boundingIndices (a : Arr K) (target : K) (axis : Option Int) : Res (Arr Int) := do
  let k ← normAxis a.shape.length (axis.getD (-1))
  if 0 ∈ a.shape.eraseIdx k then .error .valueError
  else
    return ⟨a.shape.set k 2, fun i =>
      let b := find1dIndices (lineAt a k i) target
      if i.getD k 0 = 0 then b.1 else b.2⟩

/-- Specification: `l` and `u` bound the target on a line of `n` entries. Within the range of the line, the entry at `l` is not
above the target, and that at `u` is not below it; they are the same if the target is on the line, and neighbours if not; outside
of the range, both are the end that is nearer. -/
def Bounds (n : Nat) (x : Nat → K) (t : K) (l u : Nat) : Prop :=
  l < n ∧ u < n ∧ (x 0 ≤ t → t ≤ x (n - 1) → x l ≤ t ∧ t ≤ x u ∧
      (u = l ∧ x l = t ∨ u = l + 1 ∧ ∀ j < n, x j ≠ t)) ∧
    (t < x 0 → l = 0 ∧ u = 0) ∧ (x (n - 1) < t → l = n - 1 ∧ u = n - 1)

theorem boundingIndices_ok (a : Arr K) (t : K) (axis : Option Int) (k : Nat) (hax : Axis a.shape.length axis k)
    (h0 : 0 ∉ a.shape.eraseIdx k) : boundingIndices a t axis = .ok ⟨a.shape.set k 2, fun i =>
      let b := find1dIndices (lineAt a k i) t
      if i.getD k 0 = 0 then b.1 else b.2⟩ := by
  unfold boundingIndices
  rw [normAxis_of hax]
  simp only [bind, Except.bind, pure, Except.pure, if_neg h0]

theorem lineAt_set (a : Arr K) (k : Nat) (i : List Nat) (j : Nat) : lineAt a k (i.set k j) = lineAt a k i := by
  simp [lineAt, List.set_set]

/-- **C295.** For every array and axis, counted from the start or the end, on which every line is ascending and has the target at
most once: the result has the shape of the array, but for two entries along the axis; at each position, these are the bounds of
the target on the line through that position. -/
theorem c295_partial (a : Arr K) (t : K) (axis : Option Int) (k n : Nat) (hax : Axis a.shape.length axis k)
    (hn : a.shape[k]? = some n) (hpos : ∀ m ∈ a.shape, 0 < m)
    (hasc : ∀ i : List Nat, i.length = a.shape.length → ∀ p q, p ≤ q → q < n → a.entry (i.set k p) ≤ a.entry (i.set k q))
    (honce : ∀ i : List Nat, i.length = a.shape.length → ∀ p q, p < q → q < n →
      ¬ (a.entry (i.set k p) = t ∧ a.entry (i.set k q) = t)) :
    ∃ r, boundingIndices a t axis = .ok r ∧ r.shape = a.shape.set k 2 ∧
      ∀ i : List Nat, i.length = a.shape.length → ∃ l u : Nat,
        r.entry (i.set k 0) = l ∧ r.entry (i.set k 1) = u ∧ Bounds n (fun j => a.entry (i.set k j)) t l u := by
  have hk := hax.1
  have hnpos : 0 < n := hpos n (List.mem_of_getElem? hn)
  have h0 : 0 ∉ a.shape.eraseIdx k := fun h => absurd (hpos 0 (List.mem_of_mem_eraseIdx h)) (lt_irrefl _)
  refine ⟨_, boundingIndices_ok a t axis k hax h0, rfl, fun i hi => ?_⟩
  have hki : k < i.length := by omega
  have hl : (lineAt a k i).length = n := by simp [lineAt, List.getD_eq_getElem?_getD, hn]
  have hg : ∀ j (hj : j < (lineAt a k i).length), (lineAt a k i)[j] = a.entry (i.set k j) := by
    intro j hj; simp [lineAt]
  have hne : lineAt a k i ≠ [] := by
    intro h; rw [h] at hl; simp at hl; omega
  have hs : (lineAt a k i).Pairwise (· ≤ ·) := by
    rw [List.pairwise_iff_getElem]
    intro p q hp hq hpq
    rw [hg, hg]; exact hasc i hi p q hpq.le (by omega)
  have hcount : (lineAt a k i).count t ≤ 1 := by
    by_contra hc
    have h2 : 2 ≤ (lineAt a k i).count t := by omega
    obtain ⟨p, q, hpq, ep, eq⟩ := List.duplicate_iff_exists_distinct_get.1 (List.duplicate_iff_two_le_count.2 h2)
    rw [List.get_eq_getElem, hg] at ep eq
    exact honce i hi p q hpq (by have := q.2; omega) ⟨ep.symm, eq.symm⟩
  simp only [lineAt_set, List.getD_eq_getElem?_getD, List.getElem?_set_self hki, Option.getD_some, if_true,
    one_ne_zero, if_false]
  obtain ⟨h1, h2, h3⟩ := Verif.Numerical.c37_partial (lineAt a k i) hne hs t
  have ehead : (lineAt a k i).head hne = a.entry (i.set k 0) := by rw [List.head_eq_getElem, hg]
  have elast : (lineAt a k i).getLast hne = a.entry (i.set k (n - 1)) := by rw [List.getLast_eq_getElem, hg, hl]
  rw [ehead, elast] at h1
  rw [ehead] at h2
  rw [elast, hl] at h3
  rcases lt_or_ge t (a.entry (i.set k 0)) with hlo | hlo
  · refine ⟨0, 0, by rw [h2 hlo]; rfl, by rw [h2 hlo]; rfl, hnpos, hnpos, fun h => absurd h (not_le.2 hlo),
      fun _ => ⟨rfl, rfl⟩, fun h => ?_⟩
    exact absurd (lt_of_lt_of_le h (hlo.le.trans (hasc i hi 0 (n - 1) (by omega) (by omega)))) (lt_irrefl _)
  · rcases lt_or_ge (a.entry (i.set k (n - 1))) t with hhi | hhi
    · refine ⟨n - 1, n - 1, by rw [h3 hhi]; simp only; omega, by rw [h3 hhi]; simp only; omega, by omega, by omega,
        fun _ h => absurd h (not_le.2 hhi), fun h => absurd h (not_lt.2 hlo), fun _ => ⟨rfl, rfl⟩⟩
    · obtain ⟨l, u, hll, hul, e, hle, hge, hsum, hnot, hiff⟩ := h1 hlo hhi
      rw [hg] at hle hge
      refine ⟨l, u, by rw [e], by rw [e], by omega, by omega, fun _ _ => ⟨hle, hge, ?_⟩,
        fun h => absurd h (not_lt.2 hlo), fun h => absurd h (not_lt.2 hhi)⟩
      rcases Nat.le_one_iff_eq_zero_or_eq_one.1 hcount with hc | hc
      · refine Or.inr ⟨by omega, fun j hj ht => ?_⟩
        refine List.count_eq_zero.1 hc (ht ▸ ?_)
        have := List.getElem_mem (l := lineAt a k i) (by rw [hl]; exact hj)
        rwa [hg] at this
      · left
        have hlu := hiff.2 hc
        subst hlu
        exact ⟨rfl, le_antisymm hle hge⟩

/-- A table of two rows, each ascending. -/
def sampleRows : Arr Rat := ⟨[2, 3], fun i => if i.getD 0 0 = 0 then 2 * i.getD 1 0 else 5 + i.getD 1 0⟩

example : ∃ r, boundingIndices sampleRows 3 none = .ok r ∧ r.shape = [2, 2] ∧
    r.entry [0, 0] = 1 ∧ r.entry [0, 1] = 2 ∧ r.entry [1, 0] = 0 ∧ r.entry [1, 1] = 0 :=
  ⟨_, boundingIndices_ok sampleRows 3 none 1 (by unfold Axis sampleRows; simp) (by decide), rfl, by decide +kernel⟩

example : (∀ i : List Nat, i.length = 2 → ∀ p q, p ≤ q → q < 3 →
      sampleRows.entry (i.set 1 p) ≤ sampleRows.entry (i.set 1 q)) ∧
    ∀ i : List Nat, i.length = 2 → ∀ p q, p < q → q < 3 →
      ¬ (sampleRows.entry (i.set 1 p) = 3 ∧ sampleRows.entry (i.set 1 q) = 3) := by
  constructor
  · rintro i hi p q hpq hq
    obtain ⟨x, y, rfl⟩ := List.length_eq_two.1 hi
    have : (p : Rat) ≤ q := by exact_mod_cast hpq
    simp only [sampleRows, List.set_cons_succ, List.set_cons_zero, List.getD_cons_zero, List.getD_cons_succ]
    split <;> linarith
  · rintro i hi p q hpq hq ⟨h1, h2⟩
    obtain ⟨x, y, rfl⟩ := List.length_eq_two.1 hi
    have : (p : Rat) < q := by exact_mod_cast hpq
    simp only [sampleRows, List.set_cons_succ, List.set_cons_zero, List.getD_cons_zero, List.getD_cons_succ] at h1 h2
    split at h1 <;> rename_i hx <;> simp only [hx, if_true, if_false] at h2 <;> linarith

/-- **C295.** Each line is treated as if it were given alone. -/
theorem c295_lines (a : Arr K) (t : K) (axis : Option Int) (k n : Nat) (hax : Axis a.shape.length axis k)
    (hn : a.shape[k]? = some n) (h0 : 0 ∉ a.shape.eraseIdx k) :
    ∃ r, boundingIndices a t axis = .ok r ∧ ∀ i : List Nat, i.length = a.shape.length →
      ∃ s, boundingIndices ⟨[n], fun j => a.entry (i.set k (j.getD 0 0))⟩ t none = .ok s ∧
        s.shape = [2] ∧ r.entry (i.set k 0) = s.entry [0] ∧ r.entry (i.set k 1) = s.entry [1] := by
  refine ⟨_, boundingIndices_ok a t axis k hax h0, fun i hi => ?_⟩
  have hki : k < i.length := by have := hax.1; omega
  refine ⟨_, boundingIndices_ok _ t none 0 ⟨by simp, Or.inl ⟨rfl, by simp⟩⟩ (by simp), rfl, ?_, ?_⟩ <;>
  · simp only [lineAt_set, List.getD_eq_getElem?_getD, List.getElem?_set_self hki, Option.getD_some]
    simp [lineAt, hn, List.getD_eq_getElem?_getD]

example : 0 ∉ sampleRows.shape.eraseIdx 0 ∧ Axis sampleRows.shape.length (some (-2)) 0 := by
  unfold Axis sampleRows; simp

/-- **C295.** An axis that the array does not have, and an array without lines along the axis, are refused. -/
theorem c295_refused (a : Arr K) (t : K) (axis : Option Int) :
    ((∀ k, ¬ Axis a.shape.length axis k) → boundingIndices a t axis = .error (.named "AxisError")) ∧
      ∀ k, Axis a.shape.length axis k → 0 ∈ a.shape.eraseIdx k → boundingIndices a t axis = .error .valueError := by
  constructor
  · intro h
    have e : normAxis a.shape.length (axis.getD (-1)) = .error (.named "AxisError") := by
      cases hx : normAxis a.shape.length (axis.getD (-1)) with
      | error e =>
        unfold normAxis at hx
        split at hx
        · exact absurd hx (by simp)
        · split at hx
          · exact absurd hx (by simp)
          · rw [← hx]
      | ok k =>
        exfalso
        unfold normAxis at hx
        split at hx
        · injection hx with hx
          refine h k ⟨by omega, ?_⟩
          cases axis with
          | none => simp at *
          | some z => right; left; simp at *; omega
        · split at hx
          · injection hx with hx
            refine h k ⟨by omega, ?_⟩
            cases axis with
            | none => left; simp at *; omega
            | some z => right; right; simp at *; omega
          · exact absurd hx (by simp)
    unfold boundingIndices
    rw [e]; rfl
  · intro k hk h0
    unfold boundingIndices
    rw [normAxis_of hk]
    simp only [bind, Except.bind, if_pos h0]

example : boundingIndices (⟨[], fun _ => 1⟩ : Arr Rat) 1 none = .error (.named "AxisError") ∧
    boundingIndices (⟨[0, 2], fun _ => 1⟩ : Arr Rat) 1 none = .error .valueError := by
  refine ⟨(c295_refused _ _ _).1 (by unfold Axis; simp), (c295_refused _ _ _).2 1 (by unfold Axis; simp) (by decide)⟩

/-- **C295, violated.** On a descending line, the two indices are the ends of the line in the wrong order. -/
theorem c295_counterexample :
    ∃ r, boundingIndices (⟨[1, 4], fun i => 4 - (i.getD 1 0 : Rat)⟩ : Arr Rat) (5 / 2) none = .ok r ∧
      r.entry [0, 0] = 3 ∧ r.entry [0, 1] = 0 := by
  refine ⟨_, boundingIndices_ok _ _ none 1 (by unfold Axis; simp) (by decide), ?_, ?_⟩ <;> decide +kernel

end Verif.Helpers
