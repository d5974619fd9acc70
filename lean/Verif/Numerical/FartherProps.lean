import Verif.Numerical.Props

/-!
# Property C288: values that are farther away do not change the nearest value
-/

set_option linter.unusedSimpArgs false
set_option linter.unusedSectionVars false

namespace Verif.Numerical

open Verif.Py

variable {K : Type} [Field K] [LinearOrder K] [IsStrictOrderedRing K]

/-- The nearest value is the first of those at the least distance. -/
theorem findNearest_iff (a : List K) (t : K) (i : Nat) (hi : i < a.length) (h1 : ∀ j (hj : j < a.length), |a[i] - t| ≤ |a[j] - t|)
    (h2 : ∀ j (hj : j < i), |a[i] - t| < |a[j] - t|) : findNearest a t .free = .ok ((i : Int), a[i]) := by
  obtain ⟨k, hk, e, m1, m2⟩ := c35_nearest a (List.ne_nil_of_length_pos (by omega)) t
  have : k = i := by
    rcases lt_trichotomy k i with h | h | h
    · exact absurd (h2 k h) (not_lt.2 (m1 i hi))
    · exact h
    · exact absurd (m2 i h) (not_lt.2 (h1 k hk))
  subst this
  exact e

/-- **C288, farther values.** If a value is inserted that is farther from the target than the nearest one, the same value is found, at its
new position. -/
theorem c288_farther (l r : List K) (y t x : K) (i : Nat) (h : findNearest (l ++ r) t .free = .ok ((i : Int), x)) (hy : |x - t| < |y - t|) :
    findNearest (l ++ y :: r) t .free = .ok (((if i < l.length then i else i + 1 : Nat) : Int), x) := by
  have hne : l ++ r ≠ [] := by
    intro e
    rw [e] at h
    exact absurd h (by rw [show findNearest ([] : List K) t .free = .error .valueError from rfl]; simp)
  obtain ⟨k, hk, e, m1, m2⟩ := c35_nearest (l ++ r) hne t
  rw [e] at h
  obtain ⟨hki, hx⟩ := Prod.mk.inj (Except.ok.inj h)
  have hki : k = i := by exact_mod_cast hki
  subst hki
  have hlen : (l ++ y :: r).length = (l ++ r).length + 1 := by simp; omega
  -- entries before and after the insertion
  have get : ∀ j (hj : j < (l ++ y :: r).length), (j < l.length ∧ ∃ hj' : j < (l ++ r).length, (l ++ y :: r)[j] = (l ++ r)[j]) ∨
      (j = l.length ∧ (l ++ y :: r)[j] = y) ∨
      (l.length < j ∧ ∃ hj' : j - 1 < (l ++ r).length, (l ++ y :: r)[j] = (l ++ r)[j - 1]) := by
    intro j hj
    rcases lt_trichotomy j l.length with h | h | h
    · left
      refine ⟨h, by simp; omega, ?_⟩
      rw [List.getElem_append_left h, List.getElem_append_left h]
    · right; left
      subst h
      exact ⟨rfl, by simp⟩
    · right; right
      refine ⟨h, by simp at hj ⊢; omega, ?_⟩
      obtain ⟨n, rfl⟩ : ∃ n, j = l.length + 1 + n := ⟨j - l.length - 1, by omega⟩
      rw [List.getElem_append_right (by omega), List.getElem_append_right (by omega), List.getElem_cons]
      rw [dif_neg (by omega)]
      congr 1
      omega
  have key : ∀ q (hq : q < (l ++ y :: r).length), (l ++ y :: r)[q] = x →
      (∀ j, j < q → j = l.length ∨ (j < l.length ∧ j < k) ∨ (l.length < j ∧ j - 1 < k)) →
      findNearest (l ++ y :: r) t .free = .ok ((q : Int), x) := by
    intro q hq hqx hbefore
    have := findNearest_iff (l ++ y :: r) t q hq ?_ ?_
    · rw [this, hqx]
    · intro j hj
      rw [hqx]
      rcases get j hj with ⟨-, hj', e'⟩ | ⟨-, e'⟩ | ⟨-, hj', e'⟩
      · rw [e', ← hx]; exact m1 j hj'
      · rw [e']; exact hy.le
      · rw [e', ← hx]; exact m1 _ hj'
    · intro j hj
      rw [hqx]
      rcases get j (by omega) with ⟨hl, hj', e'⟩ | ⟨-, e'⟩ | ⟨hl, hj', e'⟩
      · rw [e', ← hx]
        rcases hbefore j hj with h | h | h
        · omega
        · exact m2 j h.2
        · omega
      · rw [e']; exact hy
      · rw [e', ← hx]
        rcases hbefore j hj with h | h | h
        · omega
        · omega
        · exact m2 _ h.2
  split
  · next hlt =>
    refine key k (by omega) ?_ fun j hj => Or.inr (Or.inl ⟨by omega, hj⟩)
    rcases get k (by omega) with ⟨-, hj', e'⟩ | ⟨h, -⟩ | ⟨h, -⟩
    · rw [e', hx]
    · omega
    · omega
  · next hlt =>
    refine key (k + 1) (by omega) ?_ fun j hj => ?_
    · rcases get (k + 1) (by omega) with ⟨h, -⟩ | ⟨h, -⟩ | ⟨-, hj', e'⟩
      · omega
      · omega
      · rw [e']
        simpa using hx
    · omega

/-- **C288, order.** The order of the values does not change the distance to the nearest one. -/
theorem c288_distance (a b : List K) (h : a.Perm b) (t : K) (i j : Int) (x y : K) (hx : findNearest a t .free = .ok (i, x))
    (hy : findNearest b t .free = .ok (j, y)) : |x - t| = |y - t| := by
  have half : ∀ (a b : List K), a.Perm b → ∀ (i j : Int) (x y : K), findNearest a t .free = .ok (i, x) →
      findNearest b t .free = .ok (j, y) → |x - t| ≤ |y - t| := by
    intro a b h i j x y hx hy
    have hna : a ≠ [] := by
      rintro rfl
      exact absurd hx (by rw [show findNearest ([] : List K) t .free = .error .valueError from rfl]; simp)
    have hnb : b ≠ [] := fun e => hna (by subst e; exact List.perm_nil.1 h)
    obtain ⟨k, hk, e, m1, -⟩ := c35_nearest a hna t
    obtain ⟨k', hk', e', -, -⟩ := c35_nearest b hnb t
    rw [e] at hx
    rw [e'] at hy
    obtain ⟨-, rfl⟩ := Prod.mk.inj (Except.ok.inj hx)
    obtain ⟨-, rfl⟩ := Prod.mk.inj (Except.ok.inj hy)
    obtain ⟨q, hq, eq⟩ := List.mem_iff_getElem.1 (h.mem_iff.2 (List.getElem_mem hk'))
    rw [← eq]
    exact m1 q hq
  exact le_antisymm (half a b h i j x y hx hy) (half b a h.symm j i y x hy hx)

example : findNearest [(5 : Rat), 1, 3] 2 .free = .ok (1, 1) ∧ findNearest [(5 : Rat), 7, 1, 3] 2 .free = .ok (2, 1) ∧
    findNearest [(3 : Rat), 1, 5] 2 .free = .ok (0, 3) := by decide +kernel

end Verif.Numerical
