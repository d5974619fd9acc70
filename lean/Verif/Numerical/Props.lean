import Verif.Numerical.Lemmas
import Verif.Iterables.Lemmas

/-!
# Properties C35-C38, C92 of searches and interpolation
-/

set_option linter.unusedSimpArgs false
set_option linter.unusedSectionVars false

namespace Verif.Numerical

open Verif.Py

variable {K : Type _} [Field K] [LinearOrder K] [IsStrictOrderedRing K]

/-! ## C35: the nearest value -/

theorem nearest_spec (a : List K) (h : a ≠ []) (t : K) :
    ∃ i, ∃ hi : i < a.length, argmin (a.map (fun x => |x - t|)) = .ok i ∧
      (∀ j (hj : j < a.length), |a[i] - t| ≤ |a[j] - t|) ∧ ∀ j (hj : j < i), |a[i] - t| < |a[j] - t| := by
  obtain ⟨i, hi, h1, h2, h3⟩ := argmin_spec (a.map (fun x => |x - t|)) (by simpa using h)
  refine ⟨i, by simpa using hi, h1, fun j hj => ?_, fun j hj => ?_⟩
  · have := h2 j (by simpa using hj)
    rwa [List.getElem_map, List.getElem_map] at this
  · have := h3 j hj
    rwa [List.getElem_map, List.getElem_map] at this

/-- **C35.** The value found is at the position found, no value is nearer to the target, and all earlier
values are farther from it. -/
theorem c35_nearest (a : List K) (h : a ≠ []) (t : K) :
    ∃ i, ∃ hi : i < a.length, findNearest a t .free = .ok ((i : Int), a[i]) ∧
      (∀ j (hj : j < a.length), |a[i] - t| ≤ |a[j] - t|) ∧ ∀ j (hj : j < i), |a[i] - t| < |a[j] - t| := by
  obtain ⟨i, hi, h1, h2, h3⟩ := nearest_spec a h t
  refine ⟨i, hi, ?_, h2, h3⟩
  simp [findNearest, nearestIndex, h1, bind, Except.bind, pure, Except.pure, getItem_nat _ _ hi]

/-- **C35, no values.** There is nothing to find, and `ValueError` is raised, whatever the bound. -/
theorem c35_empty (t : K) (b : Bound) : findNearest [] t b = .error .valueError := rfl

example : findNearest [(5 : Rat), 1, 3, 1] 2 .free = .ok (1, 1) := by decide +kernel

/-! ## C36: bounded searches -/

/-- **C36.** In an ascending collection the bounds are respected: the smallest value not below the
target, or the last value if there is none; the largest value not above the target, or the first
value if there is none. -/
theorem c36_bounded (a : List K) (hne : a ≠ []) (hs : a.Pairwise (· ≤ ·)) (t : K) :
    ((∃ x ∈ a, t ≤ x) → ∃ i : Nat, ∃ hi : i < a.length, findNearest a t .lower = .ok ((i : Int), a[i]) ∧
      t ≤ a[i] ∧ ∀ x ∈ a, t ≤ x → a[i] ≤ x) ∧
    ((∀ x ∈ a, x < t) → findNearest a t .lower = .ok (-1, a.getLast hne)) ∧
    ((∃ x ∈ a, x ≤ t) → ∃ i : Nat, ∃ hi : i < a.length, findNearest a t .upper = .ok ((i : Int), a[i]) ∧
      a[i] ≤ t ∧ ∀ x ∈ a, x ≤ t → x ≤ a[i]) ∧
    ((∀ x ∈ a, t < x) → findNearest a t .upper = .ok (0, a.head hne)) := by
  obtain ⟨i0, hi0, h1, h2, -⟩ := nearest_spec a hne t
  have hmono : ∀ i j (hi : i < a.length) (hj : j < a.length), i ≤ j → a[i] ≤ a[j] := by
    intro i j hi hj hij
    rcases Nat.lt_or_eq_of_le hij with h | h
    · exact List.pairwise_iff_getElem.1 hs i j hi hj h
    · subst h; exact le_rfl
  have hlow : ∀ r, walkUp a t (2 * a.length + 2) i0 = some r →
      findNearest a t .lower = (do return (r, ← getItem a r)) := by
    intro r hr
    simp [findNearest, nearestIndex, h1, hr, bind, Except.bind, pure, Except.pure]
  have hup : ∀ r, walkDown a t (2 * a.length + 2) i0 = some r →
      findNearest a t .upper = (do return (r, ← getItem a r)) := by
    intro r hr
    simp [findNearest, nearestIndex, h1, hr, bind, Except.bind, pure, Except.pure]
  refine ⟨?_, ?_, ?_, ?_⟩
  · rintro ⟨x, hx, htx⟩
    obtain ⟨jx, hjx, rfl⟩ := List.getElem_of_mem hx
    rcases walkUp_spec a t (2 * a.length + 2) i0 hi0.le (by omega) with ⟨m, hm, e, k1, k2, k3⟩ | ⟨e, k1⟩
    · refine ⟨m, hm, ?_, k2, ?_⟩
      · rw [hlow _ e, getItem_nat _ _ hm]; rfl
      · intro y hy hty
        obtain ⟨j, hj, rfl⟩ := List.getElem_of_mem hy
        by_cases h0 : t ≤ a[i0]
        · have hmi : m = i0 := by
            by_contra hne'
            exact absurd (k3 i0 (by omega) le_rfl) (not_lt.2 h0)
          subst hmi
          have := h2 j hj
          rw [abs_of_nonneg (by linarith), abs_of_nonneg (by linarith)] at this
          linarith
        · rcases Nat.lt_or_ge j m with hjm | hjm
          · rcases Nat.lt_or_ge j i0 with hji | hji
            · exact absurd (hty.trans (hmono j i0 hj hi0 hji.le)) h0
            · exact absurd hty (not_le.2 (k3 j hjm hji))
          · exact hmono m j hm hj hjm
    · exfalso
      rcases Nat.lt_or_ge jx i0 with hji | hji
      · exact absurd (htx.trans (hmono jx i0 hjx hi0 hji.le)) (not_le.2 (k1 i0 hi0 le_rfl))
      · exact absurd htx (not_le.2 (k1 jx hjx hji))
  · intro hall
    rcases walkUp_spec a t (2 * a.length + 2) i0 hi0.le (by omega) with ⟨m, hm, e, k1, k2, k3⟩ | ⟨e, k1⟩
    · exact absurd k2 (not_le.2 (hall _ (List.getElem_mem hm)))
    · rw [hlow _ e, getItem_last a hne]; rfl
  · rintro ⟨x, hx, htx⟩
    obtain ⟨jx, hjx, rfl⟩ := List.getElem_of_mem hx
    have hex : ∃ m, ∃ hm : m < a.length, m ≤ i0 ∧ a[m] ≤ t := by
      rcases Nat.lt_or_ge i0 jx with h | h
      · exact ⟨i0, hi0, le_rfl, (hmono i0 jx hi0 hjx h.le).trans htx⟩
      · exact ⟨jx, hjx, h, htx⟩
    obtain ⟨m, hm, e, k1, k2, k3⟩ := walkDown_found a t (2 * a.length + 2) i0 hi0 (by omega) hex
    refine ⟨m, hm, ?_, k2, ?_⟩
    · rw [hup _ e, getItem_nat _ _ hm]; rfl
    · intro y hy hty
      obtain ⟨j, hj, rfl⟩ := List.getElem_of_mem hy
      by_cases h0 : a[i0] ≤ t
      · have hmi : m = i0 := by
          by_contra hne'
          exact absurd (k3 i0 hi0 (by omega) le_rfl) (not_lt.2 h0)
        subst hmi
        have := h2 j hj
        rw [abs_of_nonpos (by linarith), abs_of_nonpos (by linarith)] at this
        linarith
      · rcases Nat.lt_or_ge m j with hjm | hjm
        · rcases Nat.lt_or_ge i0 j with hji | hji
          · exact absurd ((hmono i0 j hi0 hj hji.le).trans hty) h0
          · exact absurd hty (not_le.2 (k3 j hj hjm hji))
        · exact hmono j m hj hm hjm
  · intro hall
    have e := walkDown_all a t hall (2 * a.length + 2) i0 hi0 (by omega)
    rw [hup _ e]
    have := getItem_nat a 0 (by omega)
    simp only [Nat.cast_zero] at this
    rw [this, List.head_eq_getElem]
    rfl

example : findNearest [(1 : Rat), 2, 4] 3 .lower = .ok (2, 4) ∧
    findNearest [(1 : Rat), 2, 4] (7 / 2) .upper = .ok (1, 2) ∧
    findNearest [(1 : Rat), 2, 4] 5 .lower = .ok (-1, 4) ∧
    findNearest [(1 : Rat), 2, 4] 0 .upper = .ok (0, 1) := by decide +kernel

/-! ## C37: bounding indices -/

/-- **C37, violated.** A value that occurs several times gives bounds in the wrong order, far apart if it
occurs often. -/
theorem c37_counterexample : find1dIndices [(1 : Rat), 2, 2, 3] 2 = (2, 1) ∧
    find1dIndices [(1 : Rat), 2, 2, 2, 2, 3] 2 = (4, 1) ∧
    restrict1d [(1 : Rat), 2, 2, 3] 2 = [] := by decide +kernel

/-- **C37.** In an ascending array with the target in its range, the entry at the lower bound is not
above, and that at the upper bound not below the target; the bounds are adjacent if the target does not
occur, and coincide exactly if it occurs once; in general the upper bound plus the number of occurrences
is one more than the lower bound. Outside of the range both are the nearest end. -/
theorem c37_partial (a : List K) (hne : a ≠ []) (hs : a.Pairwise (· ≤ ·)) (t : K) :
    (a.head hne ≤ t → t ≤ a.getLast hne →
      ∃ l u : Nat, ∃ hl : l < a.length, ∃ hu : u < a.length, find1dIndices a t = ((l : Int), (u : Int)) ∧
        a[l] ≤ t ∧ t ≤ a[u] ∧ u + a.count t = l + 1 ∧ (t ∉ a → u = l + 1) ∧
        (l = u ↔ a.count t = 1)) ∧
    (t < a.head hne → find1dIndices a t = (0, 0)) ∧
    (a.getLast hne < t → find1dIndices a t = ((a.length : Int) - 1, (a.length : Int) - 1)) := by
  have hlen := List.length_pos_of_ne_nil hne
  have hsplit := countP_split a t
  have e := find1d_sorted a hs t
  have hle := fun i hi => le_iff_lt_countP a hs t i hi
  have hlt := fun i hi => lt_iff_lt_countP a hs t i hi
  have hcl : a.countP (· ≤ t) ≤ a.length := List.countP_le_length
  rw [List.head_eq_getElem, List.getLast_eq_getElem]
  refine ⟨?_, ?_, ?_⟩
  · intro h1 h2
    have k1 := (hle 0 hlen).1 h1
    have k2 := fun h => not_lt.2 h2 ((hlt (a.length - 1) (by omega)).2 h)
    have k3 : a.countP (· < t) < a.length := by
      have : ¬ a.length - 1 < a.countP (· < t) := k2
      omega
    rw [if_pos k3] at e
    refine ⟨a.countP (· ≤ t) - 1, a.countP (· < t), by omega, k3, e, ?_, ?_, by omega, ?_, by omega⟩
    · exact (hle _ (by omega)).2 (by omega)
    · exact not_lt.1 fun h => absurd ((hlt _ k3).1 h) (lt_irrefl _)
    · intro hn
      have := List.count_eq_zero.2 hn
      omega
  · intro h1
    have k1 : ¬ 0 < a.countP (· ≤ t) := fun h => absurd ((hle 0 hlen).2 h) (not_le.2 h1)
    rw [e]
    have k0 : a.countP (· ≤ t) = 0 := by omega
    have k2 : a.countP (· < t) = 0 := by omega
    rw [k0, k2, if_pos hlen]
    rfl
  · intro h1
    have k1 := (hlt (a.length - 1) (by omega)).1 h1
    have k2 : a.countP (· ≤ t) = a.length := by omega
    have k3 : ¬ a.countP (· < t) < a.length := by omega
    rw [e, k2, if_neg k3]
    congr 1
    omega

example : find1dIndices [(1 : Rat), 2, 4] 3 = (1, 2) ∧ find1dIndices [(1 : Rat), 2, 4] 2 = (1, 1) ∧
    find1dIndices [(1 : Rat), 2, 4] 5 = (2, 2) := by decide +kernel

/-! ## C38: restriction of a coordinate -/

theorem mem_closedRange (l u i : Int) : i ∈ closedRange l u ↔ l ≤ i ∧ i ≤ u := by
  simp only [closedRange, rangeUp, Int.zero_lt_one, if_true, List.mem_map, List.mem_range]
  constructor
  · rintro ⟨k, hk, rfl⟩; omega
  · intro h
    exact ⟨(i - l).toNat, by omega, by omega⟩

theorem foldl_min_spec (xs : List Int) (x : Int) :
    xs.foldl min x ∈ x :: xs ∧ ∀ y ∈ x :: xs, xs.foldl min x ≤ y := by
  induction xs generalizing x with
  | nil => simp
  | cons z xs ih =>
    obtain ⟨h1, h2⟩ := ih (min x z)
    constructor
    · simp only [List.foldl_cons]
      rcases List.mem_cons.1 h1 with h | h
      · rw [h]
        rcases min_choice x z with h' | h' <;> rw [h'] <;> simp
      · simp [h]
    · intro y hy
      simp only [List.foldl_cons]
      have h0 := h2 (min x z) (by simp)
      rcases List.mem_cons.1 hy with rfl | hy
      · exact h0.trans (min_le_left _ _)
      · rcases List.mem_cons.1 hy with rfl | hy
        · exact h0.trans (min_le_right _ _)
        · exact h2 y (by simp [hy])

theorem foldl_max_spec (xs : List Int) (x : Int) :
    xs.foldl max x ∈ x :: xs ∧ ∀ y ∈ x :: xs, y ≤ xs.foldl max x := by
  induction xs generalizing x with
  | nil => simp
  | cons z xs ih =>
    obtain ⟨h1, h2⟩ := ih (max x z)
    constructor
    · simp only [List.foldl_cons]
      rcases List.mem_cons.1 h1 with h | h
      · rw [h]
        rcases max_choice x z with h' | h' <;> rw [h'] <;> simp
      · simp [h]
    · intro y hy
      simp only [List.foldl_cons]
      have h0 := h2 (max x z) (by simp)
      rcases List.mem_cons.1 hy with rfl | hy
      · exact (le_max_left _ _).trans h0
      · rcases List.mem_cons.1 hy with rfl | hy
        · exact (le_max_right _ _).trans h0
        · exact h2 y (by simp [hy])

theorem restrictRows_spec (rows : List (List K)) (hne : rows ≠ []) (t : K) :
    ∃ l u : Int, restrictRows rows t = .ok (closedRange l u) ∧
      (∃ r ∈ rows, l = (find1dIndices r t).1) ∧ (∃ r ∈ rows, u = (find1dIndices r t).2) ∧
      ∀ r ∈ rows, l ≤ (find1dIndices r t).1 ∧ (find1dIndices r t).2 ≤ u := by
  match rows, hne with
  | r0 :: rs, _ =>
    obtain ⟨a1, a2⟩ := foldl_min_spec (rs.map (fun r => (find1dIndices r t).1)) (find1dIndices r0 t).1
    obtain ⟨b1, b2⟩ := foldl_max_spec (rs.map (fun r => (find1dIndices r t).2)) (find1dIndices r0 t).2
    rw [← List.map_cons (f := fun r => (find1dIndices r t).1)] at a1 a2
    rw [← List.map_cons (f := fun r => (find1dIndices r t).2)] at b1 b2
    refine ⟨_, _, rfl, ?_, ?_, fun r hr => ⟨a2 _ (List.mem_map_of_mem hr), b2 _ (List.mem_map_of_mem hr)⟩⟩
    · obtain ⟨r, hr, he⟩ := List.mem_map.1 a1
      exact ⟨r, hr, he.symm⟩
    · obtain ⟨r, hr, he⟩ := List.mem_map.1 b1
      exact ⟨r, hr, he.symm⟩

/-- **C38, violated.** A value that occurs twice restricts the coordinate to nothing; along the first
axis only the first two columns are considered, and there must be two. -/
theorem c38_counterexample :
    restrictRows [[(1 : Rat), 2, 2, 3]] 2 = .ok [] ∧
    restrictColumns 3 [[(1 : Rat), 1, 0], [2, 2, 1], [3, 3, 2], [4, 4, 3]] (5 / 2) = .ok [1, 2] ∧
    find1dIndices [(0 : Rat), 1, 2, 3] (5 / 2) = (2, 3) ∧
    restrictColumns 1 [[(1 : Rat)], [2], [3]] (5 / 2) = .error .indexError := by decide +kernel

theorem find1d_ordered (r : List K) (hrne : r ≠ []) (hrs : r.Pairwise (· ≤ ·)) (t : K) (hc : r.count t ≤ 1) :
    (find1dIndices r t).1 ≤ (find1dIndices r t).2 := by
  obtain ⟨p1, p2, p3⟩ := c37_partial r hrne hrs t
  rcases lt_or_ge t (r.head hrne) with h | h
  · rw [p2 h]
  · rcases lt_or_ge (r.getLast hrne) t with h' | h'
    · rw [p3 h']
    · obtain ⟨l, u, hl, hu, e, _, _, hc', _⟩ := p1 h h'
      rw [e]
      simp only
      omega

/-- **C38.** Along the last axis, and for ascending rows in which the target occurs at most once: the range contains both bounds of
every row, and lies within every interval that does. -/
theorem c38_partial (rows : List (List K)) (hne : rows ≠ []) (t : K)
    (hs : ∀ r ∈ rows, r ≠ [] ∧ r.Pairwise (· ≤ ·) ∧ r.count t ≤ 1) :
    ∃ range, restrictRows rows t = .ok range ∧
      (∀ r ∈ rows, (find1dIndices r t).1 ∈ range ∧ (find1dIndices r t).2 ∈ range) ∧
      ∀ lo hi : Int, (∀ r ∈ rows, lo ≤ (find1dIndices r t).1 ∧ (find1dIndices r t).2 ≤ hi) →
        ∀ i ∈ range, lo ≤ i ∧ i ≤ hi := by
  have hord : ∀ r ∈ rows, (find1dIndices r t).1 ≤ (find1dIndices r t).2 := by
    intro r hr
    obtain ⟨hrne, hrs, hc⟩ := hs r hr
    exact find1d_ordered r hrne hrs t hc
  obtain ⟨l, u, e, ⟨r1, hr1, e1⟩, ⟨r2, hr2, e2⟩, hb⟩ := restrictRows_spec rows hne t
  refine ⟨_, e, ?_, ?_⟩
  · intro r hr
    simp only [mem_closedRange]
    have := hb r hr
    have := hord r hr
    omega
  · intro lo hi h i hi'
    rw [mem_closedRange] at hi'
    have a1 := (h r1 hr1).1
    have a2 := (h r2 hr2).2
    omega

/-- The entries at positions `i` and `j`, which are equal or next to each other, enclose the target; beyond the ends, the
end is taken. -/
def Encloses (r : List K) (t : K) (i j : Int) : Prop :=
  ∃ l u : Nat, i = l ∧ j = u ∧ l ≤ u ∧ u ≤ l + 1 ∧ ∃ (hl : l < r.length) (hu : u < r.length),
    (r[l] ≤ t ∧ t ≤ r[u]) ∨ (l = 0 ∧ u = 0 ∧ t < r[l]) ∨ (l + 1 = r.length ∧ u + 1 = r.length ∧ r[u] < t)

theorem find1d_encloses (r : List K) (hrne : r ≠ []) (hrs : r.Pairwise (· ≤ ·)) (t : K) (hc : r.count t ≤ 1) :
    Encloses r t (find1dIndices r t).1 (find1dIndices r t).2 := by
  have hlen := List.length_pos_of_ne_nil hrne
  obtain ⟨p1, p2, p3⟩ := c37_partial r hrne hrs t
  rcases lt_or_ge t (r.head hrne) with h | h
  · rw [p2 h]
    rw [List.head_eq_getElem] at h
    exact ⟨0, 0, rfl, rfl, le_rfl, by omega, hlen, hlen, .inr (.inl ⟨rfl, rfl, h⟩)⟩
  · rcases lt_or_ge (r.getLast hrne) t with h' | h'
    · rw [p3 h']
      rw [List.getLast_eq_getElem] at h'
      exact ⟨r.length - 1, r.length - 1, by simp only; omega, by simp only; omega, le_rfl, by omega, by omega, by omega,
        .inr (.inr ⟨by omega, by omega, h'⟩)⟩
    · obtain ⟨l, u, hl, hu, e, h1, h2, hc', _⟩ := p1 h h'
      rw [e]
      exact ⟨l, u, rfl, rfl, by omega, by omega, hl, hu, .inl ⟨h1, h2⟩⟩

/-- **C38, brackets.** Along the last axis, and for ascending rows in which the target occurs at most once: the range contains, for
every row, positions of entries that enclose the target. -/
theorem c38_encloses_partial (rows : List (List K)) (hne : rows ≠ []) (t : K)
    (hs : ∀ r ∈ rows, r ≠ [] ∧ r.Pairwise (· ≤ ·) ∧ r.count t ≤ 1) :
    ∃ range, restrictRows rows t = .ok range ∧ ∀ r ∈ rows, ∃ i ∈ range, ∃ j ∈ range, Encloses r t i j := by
  obtain ⟨range, e, h, _⟩ := c38_partial rows hne t hs
  refine ⟨range, e, fun r hr => ⟨_, (h r hr).1, _, (h r hr).2, ?_⟩⟩
  obtain ⟨hrne, hrs, hc⟩ := hs r hr
  exact find1d_encloses r hrne hrs t hc

/-- **C38, columns.** Along the first axis, and for two or more ascending columns that all have the bounds of the first: the
range consists of these bounds, and of nothing else. -/
theorem c38_columns_partial (n : Nat) (hn : 2 ≤ n) (rows : List (List K)) (hr : ∀ r ∈ rows, r.length = n) (t : K)
    (b : Int × Int) (hb : b.1 ≤ b.2) (hs : ∀ j < n, find1dIndices (rows.map (fun r => r.getD j 0)) t = b) :
    restrictColumns n rows t = .ok (closedRange b.1 b.2) := by
  replace hs : ∀ c ∈ columns n rows, find1dIndices c t = b := by
    intro c hc
    obtain ⟨j, hj, rfl⟩ := List.mem_map.1 hc
    rw [List.mem_range] at hj
    rw [← hs j hj]
    congr 1
    rw [← List.filterMap_eq_map]
    refine List.filterMap_congr ?_
    intro r hrr
    have := hr r hrr
    simp only [Function.comp_apply, List.getD_eq_getElem?_getD]
    rw [List.getElem?_eq_getElem (by omega)]
    rfl
  obtain ⟨m, rfl⟩ : ∃ m, n = m + 2 := ⟨n - 2, by omega⟩
  have hlen : (columns (m + 2) rows).length = m + 2 := by simp [columns]
  unfold restrictColumns
  match hc : columns (m + 2) rows with
  | [] => rw [hc] at hlen; simp at hlen
  | [_] => rw [hc] at hlen; simp at hlen
  | c0 :: c1 :: cs =>
    have h0 := hs c0 (by rw [hc]; simp)
    have h1 := hs c1 (by rw [hc]; simp)
    simp only [List.map_cons, h0, h1, minInt, maxInt, List.foldl_cons, List.foldl_nil, bind, Except.bind, pure, Except.pure]
    rw [min_eq_left hb, max_eq_right hb]

example : restrictColumns 2 [[(1 : Rat), 1], [2, 5 / 4], [3, 3]] (5 / 2) = .ok [1, 2] := by decide +kernel
example : restrictRows [[(1 : Rat), 2, 3, 4], [0, 1, 2, 3]] (3 / 2) = .ok [0, 1, 2] := by decide +kernel

/-! ## C92: interpolation -/

theorem interp1d_spec (x y : List K) (hl : x.length = y.length) (hs : x.Pairwise (· < ·)) (t : K) (i : Nat)
    (hi : i + 1 < x.length) (h0 : x[i] < t) (h1 : t < x[i + 1]) :
    interp1d x y t = .ok (line x[i] (y[i]'(by omega)) x[i + 1] (y[i + 1]'(by omega)) t) := by
  have hmono : ∀ j k (hj : j < x.length) (hk : k < x.length), j ≤ k → x[j] ≤ x[k] := by
    intro j k hj hk hjk
    rcases Nat.lt_or_eq_of_le hjk with h | h
    · exact (List.pairwise_iff_getElem.1 hs j k hj hk h).le
    · subst h; exact le_rfl
  have hne : x ≠ [] := by rintro rfl; simp at hi
  have hfind : x.findIdx (fun v => decide (t ≤ v)) = i + 1 := by
    rw [List.findIdx_eq hi]
    refine ⟨by simpa using h1.le, fun j hj => ?_⟩
    have := hmono j i (by omega) (by omega) (by omega)
    simpa using this.trans_lt h0
  have hfirst : getItem x 0 = .ok (x[0]'(by omega)) := by
    have := getItem_nat x 0 (by omega)
    simpa using this
  unfold interp1d
  rw [if_neg (by omega), hfirst, getItem_last x hne]
  simp only [bind, Except.bind]
  rw [if_neg]
  · rw [hfind]
    have hm : min (max (i + 1) 1) (x.length - 1) = i + 1 := by omega
    rw [hm]
    have hc : ((i + 1 : Nat) : Int) - 1 = (i : Int) := by push_cast; omega
    rw [hc, getItem_nat x i (by omega), getItem_nat y i (by omega), getItem_nat x (i + 1) hi,
      getItem_nat y (i + 1) (by omega)]
    rfl
  · rw [List.getLast_eq_getElem]
    refine not_or.2 ⟨not_lt.2 ?_, not_lt.2 ?_⟩
    all_goals clear hfirst
    · exact (hmono 0 i (by omega) (by omega) (by omega)).trans h0.le
    · exact h1.le.trans (hmono (i + 1) (x.length - 1) hi (by omega) (by omega))

theorem select_window {α : Type _} (xs : List α) (lo hi : Nat) (h : lo ≤ hi) (hh : hi < xs.length) :
    ∃ ys, select xs (closedRange lo hi) = .ok ys ∧ ys.length = hi + 1 - lo ∧
      ∀ k (hk : k < ys.length) (hk' : lo + k < xs.length), ys[k] = xs[lo + k] := by
  have hcr : closedRange lo hi = (List.range (hi + 1 - lo)).map (fun k : Nat => (lo : Int) + (k : Int) * 1) := by
    simp only [closedRange, rangeUp, Int.zero_lt_one, if_true]
    congr 2
    omega
  refine ⟨(xs.drop lo).take (hi + 1 - lo), ?_, by simp; omega, ?_⟩
  · rw [select, Iterables.mapM_ok_iff, hcr]
    refine ⟨by simp; omega, fun k hk hk' => ?_⟩
    simp only [List.length_map, List.length_range] at hk
    simp only [List.getElem_map, List.getElem_range, List.getElem_take, List.getElem_drop, mul_one]
    have := getItem_nat xs (lo + k) (by omega)
    simpa using this
  · intro k hk hk'
    simp

theorem pairwise_window (xs ys : List K) (lo : Nat) (hs : xs.Pairwise (· < ·))
    (hlen : lo + ys.length ≤ xs.length)
    (h : ∀ k (hk : k < ys.length) (hk' : lo + k < xs.length), ys[k] = xs[lo + k]) :
    ys.Pairwise (· < ·) := by
  rw [List.pairwise_iff_getElem]
  intro i j hi hj hij
  rw [h i hi (by omega), h j hj (by omega)]
  exact List.pairwise_iff_getElem.1 hs _ _ _ _ (by omega)

theorem find1d_strict (x : List K) (hs : x.Pairwise (· < ·)) (t : K) (i : Nat) (hi : i + 1 < x.length)
    (h0 : x[i] < t) (h1 : t < x[i + 1]) : find1dIndices x t = ((i : Int), ((i + 1 : Nat) : Int)) := by
  have hs' := hs.imp (fun h : _ < _ => h.le)
  have a1 := (le_iff_lt_countP x hs' t i (by omega)).1 h0.le
  have a2 := fun h => not_le.2 h1 ((le_iff_lt_countP x hs' t (i + 1) hi).2 h)
  have b1 := (lt_iff_lt_countP x hs' t i (by omega)).1 h0
  have b2 := fun h => not_lt.2 h1.le ((lt_iff_lt_countP x hs' t (i + 1) hi).2 h)
  have e1 : x.countP (· ≤ t) = i + 1 := by
    have : ¬ i + 1 < x.countP (· ≤ t) := a2
    omega
  have e2 : x.countP (· < t) = i + 1 := by
    have : ¬ i + 1 < x.countP (· < t) := b2
    omega
  rw [find1d_sorted x hs' t, e1, e2, if_pos hi]
  simp

theorem not_mem_between (x : List K) (hs : x.Pairwise (· < ·)) (t : K) (i : Nat) (hi : i + 1 < x.length)
    (h0 : x[i] < t) (h1 : t < x[i + 1]) : t ∉ x := by
  intro h
  obtain ⟨j, hj, rfl⟩ := List.getElem_of_mem h
  have hp := List.pairwise_iff_getElem.1 hs
  rcases lt_trichotomy j i with h | h | h
  · exact absurd (hp j i hj (by omega) h) (not_lt.2 h0.le)
  · subst h; exact lt_irrefl _ h0
  · rcases Nat.lt_or_eq_of_le (Nat.succ_le_of_lt h) with h' | h'
    · exact absurd (hp (i + 1) j hi hj h') (not_lt.2 h1.le)
    · subst h'; exact lt_irrefl _ h1

theorem interp_window (ref arr r a : List K) (lo hi : Nat) (hl : arr.length = ref.length)
    (hs : ref.Pairwise (· < ·)) (hlo : lo ≤ hi) (hhi : hi < ref.length)
    (hr : select ref (closedRange lo hi) = .ok r) (ha : select arr (closedRange lo hi) = .ok a) (t : K)
    (i : Nat) (h : i + 1 < ref.length) (h0 : ref[i] < t) (h1 : t < ref[i + 1]) (hi1 : lo ≤ i)
    (hi2 : i + 1 ≤ hi) :
    2 ≤ r.length ∧ interp1d r a t = .ok (line ref[i] (arr[i]'(by omega)) ref[i + 1] (arr[i + 1]'(by omega)) t) := by
  obtain ⟨r', hr', lr, gr⟩ := select_window ref lo hi hlo hhi
  obtain ⟨a', ha', la, ga⟩ := select_window arr lo hi hlo (by omega)
  rw [hr'] at hr
  rw [ha'] at ha
  cases hr
  cases ha
  refine ⟨by omega, ?_⟩
  have e1 : lo + (i - lo) = i := by omega
  have e2 : lo + (i - lo + 1) = i + 1 := by omega
  have g1 := gr (i - lo) (by omega) (by omega)
  have g2 := gr (i - lo + 1) (by omega) (by omega)
  have g3 := ga (i - lo) (by omega) (by omega)
  have g4 := ga (i - lo + 1) (by omega) (by omega)
  simp only [e1, e2] at g1 g2 g3 g4
  rw [interp1d_spec r a (by omega) (pairwise_window ref r lo hs (by omega) gr) t (i - lo) (by omega)
    (by rw [g1]; exact h0) (by rw [g2]; exact h1), g1, g2, g3, g4]

theorem all_closedRange (n : Nat) (h : 0 < n) :
    (List.range n).map Int.ofNat = closedRange ((0 : Nat) : Int) ((n - 1 : Nat) : Int) := by
  simp only [closedRange, rangeUp, Int.zero_lt_one, if_true]
  rw [show ((((n - 1 : Nat) : Int) + 1 - ((0 : Nat) : Int) + 1 - 1) / 1).toNat = n by omega]
  apply List.map_congr_left
  intro k _
  simp

theorem select_all {α : Type _} (xs : List α) : select xs ((List.range xs.length).map Int.ofNat) = .ok xs := by
  rw [select, Iterables.mapM_ok_iff]
  refine ⟨by simp, fun k hk hk' => ?_⟩
  simp only [List.getElem_map, List.getElem_range]
  exact getItem_nat xs k hk'

/-- For a reference of two dimensions, and an array with at most as many rows: a target strictly between
neighbours in every row gives the value on the line, for every row of the array. -/
theorem applyTwo_between (array reference : List (List K)) (t : K) (n : Nat) (pos : Nat → Nat)
    (hne : reference ≠ []) (hl : array.length ≤ reference.length)
    (hrows : ∀ r ∈ reference, r.length = n ∧ r.Pairwise (· < ·)) (harr : ∀ r ∈ array, r.length = n)
    (hpos : ∀ k (hk : k < reference.length), ∃ h : pos k + 1 < reference[k].length,
      reference[k][pos k] < t ∧ t < reference[k][pos k + 1]) :
    ∃ vs, applyTwo array reference t = .ok (.rows vs) ∧ vs.length = array.length ∧
      ∀ k (hk : k < reference.length) (h1 : k < array.length) (h2 : k < vs.length)
        (h3 : pos k + 1 < reference[k].length) (h4 : pos k + 1 < array[k].length),
        vs[k] = line reference[k][pos k] array[k][pos k] reference[k][pos k + 1] array[k][pos k + 1] t := by
  have hnot : t ∉ reference.flatten := by
    intro hm
    obtain ⟨r, hr, htr⟩ := List.mem_flatten.1 hm
    obtain ⟨k, hk, rfl⟩ := List.getElem_of_mem hr
    obtain ⟨h, h0, h1⟩ := hpos k hk
    exact not_mem_between _ (hrows _ hr).2 t _ h h0 h1 htr
  obtain ⟨l, u, e, ⟨r1, hr1, e1⟩, ⟨r2, hr2, e2⟩, hb⟩ := restrictRows_spec reference hne t
  have hfind : ∀ k (hk : k < reference.length),
      find1dIndices reference[k] t = ((pos k : Int), ((pos k + 1 : Nat) : Int)) := by
    intro k hk
    obtain ⟨h, h0, h1⟩ := hpos k hk
    exact find1d_strict _ (hrows _ (List.getElem_mem hk)).2 t _ h h0 h1
  obtain ⟨k1, hk1, rfl⟩ := List.getElem_of_mem hr1
  obtain ⟨k2, hk2, rfl⟩ := List.getElem_of_mem hr2
  rw [hfind k1 hk1] at e1
  rw [hfind k2 hk2] at e2
  simp only at e1 e2
  subst e1 e2
  have hlen : ∀ k (hk : k < reference.length), reference[k].length = n :=
    fun k hk => (hrows _ (List.getElem_mem hk)).1
  have hb' : ∀ k (hk : k < reference.length), pos k1 ≤ pos k ∧ pos k + 1 ≤ pos k2 + 1 := by
    intro k hk
    have := hb _ (List.getElem_mem hk)
    rw [hfind k hk] at this
    simp only at this
    omega
  have hu : pos k2 + 1 < n := by
    have := (hpos k2 hk2).1
    rwa [hlen k2 hk2] at this
  have hlu : pos k1 ≤ pos k2 + 1 := by have := hb' k2 hk2; omega
  have hsel : ∀ xs : List (List K), (∀ r ∈ xs, r.length = n) →
      ∃ ys, xs.mapM (select · (closedRange (pos k1) ((pos k2 + 1 : Nat) : Int))) = .ok ys := by
    intro xs hxs
    induction xs with
    | nil => exact ⟨[], rfl⟩
    | cons x xs ih =>
      obtain ⟨ys, hys⟩ := ih (fun r hr => hxs r (by simp [hr]))
      obtain ⟨y, hy, -, -⟩ := select_window x (pos k1) (pos k2 + 1) hlu (by rw [hxs x (by simp)]; exact hu)
      refine ⟨y :: ys, ?_⟩
      rw [List.mapM_cons, hy, hys]
      rfl
  obtain ⟨ref, href⟩ := hsel reference (fun r hr => (hrows r hr).1)
  obtain ⟨arr, harr'⟩ := hsel array harr
  obtain ⟨lref, gref⟩ := (Iterables.mapM_ok_iff _ _ _).1 href
  obtain ⟨larr, garr⟩ := (Iterables.mapM_ok_iff _ _ _).1 harr'
  have hrow : ∀ k (hk : k < reference.length) (h1 : k < ref.length) (h2 : k < arr.length)
      (h3 : pos k + 1 < reference[k].length) (h0 : k < array.length) (h4 : pos k + 1 < array[k].length),
      2 ≤ ref[k].length ∧ interp1d ref[k] arr[k] t
        = .ok (line reference[k][pos k] array[k][pos k] reference[k][pos k + 1] array[k][pos k + 1] t) := by
    intro k hk h1 h2 h3 h0 h4
    obtain ⟨_, q0, q1⟩ := hpos k hk
    exact interp_window reference[k] array[k] ref[k] arr[k] (pos k1) (pos k2 + 1)
      (by rw [harr _ (List.getElem_mem h0), hlen k hk]) (hrows _ (List.getElem_mem hk)).2 hlu
      (by rw [hlen k hk]; exact hu) (gref k hk h1) (garr k h0 h2) t (pos k) h3 q0 q1 (hb' k hk).1 (hb' k hk).2
  have hflat : ref.flatten.length ≠ 1 := by
    have h0 : 0 < reference.length := List.length_pos_of_ne_nil hne
    have h3 := (hpos 0 h0).1
    obtain ⟨w, hw, lw, -⟩ := select_window reference[0] (pos k1) (pos k2 + 1) hlu (by rw [hlen 0 h0]; exact hu)
    have hw' := gref 0 h0 (by omega)
    rw [hw] at hw'
    have hw2 : w = ref[0] := Except.ok.inj hw'
    rw [hw2] at lw
    have hlu' := hb' k2 hk2
    have hle : ref[0].length ≤ ref.flatten.length :=
      (List.sublist_flatten_of_mem (List.getElem_mem _)).length_le
    omega
  have hint : ∀ (rs as : List (List K)) (f : Nat → K), as.length ≤ rs.length →
      (∀ k (h1 : k < rs.length) (h2 : k < as.length), interp1d rs[k] as[k] t = .ok (f k)) →
      interpRows t rs as = .ok ((List.range as.length).map f) := by
    intro rs
    induction rs with
    | nil =>
      intro as f hlen' _
      have : as = [] := by simpa using hlen'
      subst this
      simp [interpRows]
    | cons r rs ih =>
      intro as f hlen' h
      match as, hlen' with
      | [], _ => simp [interpRows]
      | a :: as, hlen' =>
        have h0 := h 0 (by simp) (by simp)
        simp only [List.getElem_cons_zero] at h0
        have := ih as (fun k => f (k + 1)) (by simpa using hlen') (fun k g1 g2 => by
          have := h (k + 1) (by simpa using g1) (by simpa using g2)
          rwa [List.getElem_cons_succ, List.getElem_cons_succ] at this)
        simp only [interpRows, h0, this, bind, Except.bind, pure, Except.pure, List.length_cons,
          List.range_succ_eq_map, List.map_cons, List.map_map]
        rfl
  let f : Nat → K := fun k =>
    line ((reference.getD k []).getD (pos k) 0) ((array.getD k []).getD (pos k) 0)
      ((reference.getD k []).getD (pos k + 1) 0) ((array.getD k []).getD (pos k + 1) 0) t
  have hf : ∀ k (hk : k < reference.length) (h1 : k < array.length)
      (h3 : pos k + 1 < reference[k].length) (h4 : pos k + 1 < array[k].length),
      f k = line reference[k][pos k] array[k][pos k] reference[k][pos k + 1] array[k][pos k + 1] t := by
    intro k hk h1 h3 h4
    have h3' : pos k < reference[k].length := by omega
    have h4' : pos k < array[k].length := by omega
    simp only [f, List.getD_eq_getElem?_getD, List.getElem?_eq_getElem hk, List.getElem?_eq_getElem h1,
      Option.getD_some, List.getElem?_eq_getElem h3, List.getElem?_eq_getElem h4,
      List.getElem?_eq_getElem h3', List.getElem?_eq_getElem h4']
  refine ⟨(List.range arr.length).map f, ?_, by simp; omega, ?_⟩
  · unfold applyTwo
    rw [if_neg hnot, e]
    simp only [bind, Except.bind, href, harr']
    rw [if_neg hflat, hint ref arr f (by omega) ?_]
    · rfl
    · intro k h1 h2
      have hk : k < reference.length := by omega
      have h3 := (hpos k hk).1
      have h4 : pos k + 1 < (array[k]'(by omega)).length := by
        rw [harr _ (List.getElem_mem _)]; rw [hlen k hk] at h3; exact h3
      rw [hf k hk (by omega) h3 h4]
      exact (hrow k hk h1 h2 h3 (by omega) h4).2
  · intro k hk h1 h2 h3 h4
    rw [List.getElem_map, List.getElem_range, hf k hk h1 h3 h4]

/-- **C92, violated.** If the target occurs in a two-dimensional reference, one value is returned instead of
one for each row; the second row, whose interpolated value would be 25, is lost. -/
theorem c92_counterexample :
    applyTwo [[(10 : Rat), 20, 30], [10, 20, 30]] [[1, 2, 3], [1 / 2, 3 / 2, 5 / 2]] 2 = .ok (.single 20) ∧
    interp1d [(1 / 2 : Rat), 3 / 2, 5 / 2] [10, 20, 30] 2 = .ok 25 := by decide +kernel

/-- **C92.** For strictly ascending references: a target that is a reference value gives the
corresponding array value; a target between two neighbouring reference values gives the value at the
target of the straight line through the neighbouring points; with an axis, targets outside of the
range give the value at the nearest end, without one they are rejected. For references of two dimensions,
a target strictly between neighbours in every row gives the value on the line for every row. -/
theorem c92_partial :
    (∀ (array reference : List K) (t : K) (axis : Bool), array.length = reference.length →
      reference.Pairwise (· < ·) →
      (∀ i (h : i < reference.length) (h' : i < array.length), reference[i] = t →
        applyOne array reference t axis = .ok array[i]) ∧
      (∀ i (h : i + 1 < reference.length) (h' : i + 1 < array.length), reference[i] < t →
        t < reference[i + 1] →
        applyOne array reference t axis
          = .ok (line reference[i] array[i] reference[i + 1] array[i + 1] t)) ∧
      (∀ (hne : array ≠ []) (hr : reference ≠ []), t < reference.head hr →
        applyOne array reference t true = .ok (array.head hne)) ∧
      (∀ (hne : array ≠ []) (hr : reference ≠ []), reference.getLast hr < t →
        applyOne array reference t true = .ok (array.getLast hne)) ∧
      (∀ (hr : reference ≠ []), 2 ≤ reference.length →
        (t < reference.head hr ∨ reference.getLast hr < t) →
        applyOne array reference t false = .error .valueError)) ∧
    (∀ (array reference : List (List K)) (t : K) (n : Nat) (pos : Nat → Nat),
      reference ≠ [] → array.length = reference.length →
      (∀ r ∈ reference, r.length = n ∧ r.Pairwise (· < ·)) → (∀ r ∈ array, r.length = n) →
      (∀ k (hk : k < reference.length), ∃ h : pos k + 1 < reference[k].length,
        reference[k][pos k] < t ∧ t < reference[k][pos k + 1]) →
      ∃ vs, applyTwo array reference t = .ok (.rows vs) ∧ vs.length = reference.length ∧
        ∀ k (hk : k < reference.length) (h1 : k < array.length) (h2 : k < vs.length)
          (h3 : pos k + 1 < reference[k].length) (h4 : pos k + 1 < array[k].length),
          vs[k] = line reference[k][pos k] array[k][pos k] reference[k][pos k + 1] array[k][pos k + 1] t) := by
  constructor
  · intro array reference t axis hl hs
    have hp := List.pairwise_iff_getElem.1 hs
    refine ⟨?_, ?_, ?_, ?_, ?_⟩
    · intro i h h' hit
      have hmem : t ∈ reference := hit ▸ List.getElem_mem h
      have hne : reference ≠ [] := List.ne_nil_of_mem hmem
      obtain ⟨i0, hi0, k1, k2, -⟩ := nearest_spec reference hne t
      have : reference[i0] = t := by
        have := k2 i h
        rw [hit, sub_self, abs_zero] at this
        exact sub_eq_zero.1 (abs_eq_zero.1 (le_antisymm this (abs_nonneg _)))
      have hii : i0 = i := by
        rcases lt_trichotomy i0 i with h'' | h'' | h''
        · exact absurd (hp i0 i hi0 h h'') (by rw [this, hit]; exact lt_irrefl _)
        · exact h''
        · exact absurd (hp i i0 h hi0 h'') (by rw [this, hit]; exact lt_irrefl _)
      subst hii
      simp [applyOne, hmem, nearestIndex, k1, bind, Except.bind, pure, Except.pure, getItem_nat _ _ h']
    · intro i h h' h0 h1
      have hnot := not_mem_between reference hs t i h h0 h1
      cases axis with
      | true =>
        obtain ⟨r, hr, -, -⟩ := select_window reference i (i + 1) (by omega) h
        obtain ⟨a, ha, -, -⟩ := select_window array i (i + 1) (by omega) h'
        obtain ⟨w1, w2⟩ := interp_window reference array r a i (i + 1) hl hs (by omega) h hr ha t i h h0 h1
          le_rfl le_rfl
        unfold applyOne
        rw [if_neg hnot]
        simp only [if_true, restrict1d, find1d_strict reference hs t i h h0 h1, hr, ha, bind, Except.bind]
        rw [if_neg (by omega), w2]
      | false =>
        have e := all_closedRange reference.length (by omega)
        have hr := select_all reference
        have ha := select_all array
        rw [hl] at ha
        have hr' := hr
        have ha' := ha
        rw [e] at hr' ha'
        obtain ⟨w1, w2⟩ := interp_window reference array _ _ 0 (reference.length - 1) hl hs (by omega)
          (by omega) hr' ha' t i h h0 h1 (by omega) (by omega)
        unfold applyOne
        rw [if_neg hnot]
        simp only [Bool.false_eq_true, if_false, hr, ha, bind, Except.bind]
        rw [if_neg (by omega), w2]
    · intro hne hr ht
      have hnot : t ∉ reference := by
        intro hm
        obtain ⟨j, hj, rfl⟩ := List.getElem_of_mem hm
        rw [List.head_eq_getElem] at ht
        rcases Nat.eq_zero_or_pos j with h | h
        · subst h; exact lt_irrefl _ ht
        · exact absurd (hp 0 j (by omega) hj h) (not_lt.2 ht.le)
      have e := (c37_partial reference hr (hs.imp le_of_lt) t).2.1 ht
      have hlen := List.length_pos_of_ne_nil hr
      obtain ⟨r, hr', lr, -⟩ := select_window reference 0 0 le_rfl hlen
      obtain ⟨a, ha', la, ga⟩ := select_window array 0 0 le_rfl (by omega)
      simp only [Nat.cast_zero] at hr' ha'
      unfold applyOne
      rw [if_neg hnot]
      simp only [if_true, restrict1d, e, hr', ha', bind, Except.bind]
      rw [if_pos (by omega), List.head_eq_getElem]
      have := getItem_nat a 0 (by omega)
      simp only [Nat.cast_zero] at this
      rw [this, ga 0 (by omega) (by omega)]
    · intro hne hr ht
      have hnot : t ∉ reference := by
        intro hm
        obtain ⟨j, hj, rfl⟩ := List.getElem_of_mem hm
        rw [List.getLast_eq_getElem] at ht
        rcases Nat.lt_or_eq_of_le (Nat.le_sub_one_of_lt hj) with h | h
        · exact absurd (hp j (reference.length - 1) hj (by omega) h) (not_lt.2 ht.le)
        · subst h; exact lt_irrefl _ ht
      have e := (c37_partial reference hr (hs.imp le_of_lt) t).2.2 ht
      have hlen := List.length_pos_of_ne_nil hr
      rw [show (reference.length : Int) - 1 = ((reference.length - 1 : Nat) : Int) by omega] at e
      obtain ⟨r, hr', lr, -⟩ := select_window reference (reference.length - 1) (reference.length - 1) le_rfl
        (by omega)
      obtain ⟨a, ha', la, ga⟩ := select_window array (reference.length - 1) (reference.length - 1) le_rfl
        (by omega)
      unfold applyOne
      rw [if_neg hnot]
      simp only [if_true, restrict1d, e, hr', ha', bind, Except.bind]
      rw [if_pos (by omega), List.getLast_eq_getElem]
      have := getItem_nat a 0 (by omega)
      simp only [Nat.cast_zero] at this
      rw [this, ga 0 (by omega) (by omega)]
      congr 2
      omega
    · intro hr h2 ht
      have hmono : ∀ j k (hj : j < reference.length) (hk : k < reference.length), j ≤ k →
          reference[j] ≤ reference[k] := by
        intro j k hj hk hjk
        rcases Nat.lt_or_eq_of_le hjk with h | h
        · exact (hp j k hj hk h).le
        · subst h; exact le_rfl
      have hnot : t ∉ reference := by
        intro hm
        obtain ⟨j, hj, rfl⟩ := List.getElem_of_mem hm
        rw [List.getLast_eq_getElem, List.head_eq_getElem] at ht
        rcases ht with ht | ht
        · exact absurd ht (not_lt.2 (hmono 0 j _ hj (by omega)))
        · exact absurd ht (not_lt.2 (hmono j _ hj _ (by omega)))
      have hsr := select_all reference
      have hsa := select_all array
      rw [hl] at hsa
      have hfirst : getItem reference 0 = .ok (reference.head hr) := by
        have := getItem_nat reference 0 (by omega)
        rw [List.head_eq_getElem]
        simpa using this
      unfold applyOne
      rw [if_neg hnot]
      simp only [Bool.false_eq_true, if_false, hsr, hsa, bind, Except.bind]
      rw [if_neg (by omega)]
      unfold interp1d
      rw [if_neg (by omega), hfirst, getItem_last _ hr]
      simp only [bind, Except.bind]
      rw [if_pos ht]
  · intro array reference t n pos hne hl hrows harr hpos
    obtain ⟨vs, h1, h2, h3⟩ := applyTwo_between array reference t n pos hne hl.le hrows harr hpos
    exact ⟨vs, h1, h2.trans hl, h3⟩

example : applyOne [(10 : Rat), 20, 40] [1, 2, 4] 3 true = .ok 30 ∧
    applyOne [(10 : Rat), 20, 40] [1, 2, 4] 5 true = .ok 40 ∧
    applyTwo [[(10 : Rat), 20, 30], [10, 20, 30]] [[1, 2, 3], [1 / 2, 3 / 2, 5 / 2]] (9 / 4)
      = .ok (.rows [45 / 2, 55 / 2]) := by decide +kernel


end Verif.Numerical
