import Verif.Physics.SumProps

/-!
# C252: fluence does not depend on how times are counted, and adds up over consecutive periods
-/

set_option linter.unusedSimpArgs false
set_option linter.unusedSectionVars false

namespace Verif.Physics

open Verif.Py

section
variable {K : Type _} [Field K] [LinearOrder K] [IsStrictOrderedRing K]

/-! ## Origin and unit of time -/

theorem panel_affine (x y : Nat → K) (a b : K) (ha : a ≠ 0) (j : Nat) :
    panel (fun i => a * x i + b) y j = a * panel x y j := by
  unfold panel
  simp only
  have e0 : a * x (j + 1) + b - (a * x j + b) = a * (x (j + 1) - x j) := by ring
  have e1 : a * x (j + 2) + b - (a * x (j + 1) + b) = a * (x (j + 2) - x (j + 1)) := by ring
  rw [e0, e1]
  generalize x (j + 1) - x j = u
  generalize x (j + 2) - x (j + 1) = w
  rw [mul_div_mul_left _ _ ha, mul_div_mul_left _ _ ha,
    show (a * u + a * w) * (a * u + a * w) / (a * u * (a * w)) = (u + w) * (u + w) / (u * w) by
      rw [show (a * u + a * w) * (a * u + a * w) = a * a * ((u + w) * (u + w)) by ring,
        show a * u * (a * w) = a * a * (u * w) by ring, mul_div_mul_left _ _ (mul_ne_zero ha ha)]]
  ring

theorem panels_affine (s m : Nat) (x y : Nat → K) (a b : K) (ha : a ≠ 0) :
    panels s m (fun i => a * x i + b) y = a * panels s m x y := by
  unfold panels
  rw [Finset.mul_sum]
  exact Finset.sum_congr rfl fun k _ => panel_affine x y a b ha _

/-- **C252, origin and unit of time.** Counting times from another origin changes nothing; in another unit of time, the fluence
is multiplied by the factor of the times. -/
theorem c252_units (n : Nat) (time flux : Nat → K) (a b : K) (ha : a ≠ 0) :
    fluence n flux (fun i => a * time i + b) = a * fluence n flux time := by
  unfold fluence simpson
  rw [panels_affine _ _ _ _ _ _ ha, panels_affine _ _ _ _ _ _ ha, panels_affine _ _ _ _ _ _ ha]
  split_ifs
  · rfl
  · ring

/-! ## Direction of time -/

theorem panel_reverse (x y x' y' : Nat → K) (b : K) (i j : Nat) (h0 : x' j = b - x (i + 2)) (h1 : x' (j + 1) = b - x (i + 1))
    (h2 : x' (j + 2) = b - x i) (g0 : y' j = y (i + 2)) (g1 : y' (j + 1) = y (i + 1)) (g2 : y' (j + 2) = y i) :
    panel x' y' j = panel x y i := by
  unfold panel
  simp only [h0, h1, h2, g0, g1, g2]
  have e0 : b - x (i + 1) - (b - x (i + 2)) = x (i + 2) - x (i + 1) := by ring
  have e1 : b - x i - (b - x (i + 1)) = x (i + 1) - x i := by ring
  rw [e0, e1]
  generalize x (i + 1) - x i = u
  generalize x (i + 2) - x (i + 1) = w
  rw [add_comm w u, mul_comm w u]
  ring

/-- Panels from point `s` on, of `n` points in the reverse order, are those that end `s` points before the last. -/
theorem panels_reverse (n s t m : Nat) (x y : Nat → K) (b : K) (hn : n = s + 2 * m + t + 1) :
    panels s m (fun i => b - x (n - 1 - i)) (fun i => y (n - 1 - i)) = panels t m x y := by
  unfold panels
  rw [← Finset.sum_range_reflect]
  refine Finset.sum_congr rfl fun k hk => ?_
  have hk := Finset.mem_range.1 hk
  refine panel_reverse x y _ _ b (t + 2 * k) _ ?_ ?_ ?_ ?_ ?_ ?_
  all_goals (congr 2; omega)

/-- **C252, direction of time.** Reversing the order of the times gives the same fluence. -/
theorem c252_reverse (n : Nat) (time flux : Nat → K) (b : K) (hn : 0 < n) :
    fluence n (fun i => flux (n - 1 - i)) (fun i => b - time (n - 1 - i)) = fluence n flux time := by
  unfold fluence simpson
  split_ifs with h
  · exact panels_reverse n 0 0 (n / 2) time flux b (by omega)
  · rw [panels_reverse n 0 1 (n / 2 - 1) time flux b (by omega), panels_reverse n 1 0 (n / 2 - 1) time flux b (by omega)]
    simp only [show n - 1 - (n - 1) = 0 by omega, show n - 1 - (n - 2) = 1 by omega, show n - 1 - 1 = n - 2 by omega,
      Nat.sub_zero]
    ring

/-! ## Consecutive periods -/

theorem panels_shift (s d m : Nat) (x y : Nat → K) :
    panels s m (fun i => x (d + i)) (fun i => y (d + i)) = panels (d + s) m x y := by
  unfold panels panel
  refine Finset.sum_congr rfl fun k _ => ?_
  simp only [← Nat.add_assoc]

/-- **C252, consecutive periods.** Fluences over two periods, each with an odd number of times, add up to that over the whole
period; `2 a` is the position of the time they share. -/
theorem c252_periods_partial (a m : Nat) (time flux : Nat → K) :
    fluence (2 * a + 2 * m + 1) flux time = fluence (2 * a + 1) flux time
      + fluence (2 * m + 1) (fun i => flux (2 * a + i)) (fun i => time (2 * a + i)) := by
  unfold fluence simpson
  rw [if_pos (by omega), if_pos (by omega), if_pos (by omega), panels_shift,
    show (2 * a + 2 * m + 1) / 2 = a + m by omega, show (2 * a + 1) / 2 = a by omega, show (2 * m + 1) / 2 = m by omega]
  unfold panels
  rw [Finset.sum_range_add]
  congr 1
  refine Finset.sum_congr rfl fun k _ => ?_
  congr 1
  omega

/-- **C252, consecutive periods.** For a flux that changes at a constant rate, the fluences add up wherever the period is divided. -/
theorem c252_periods_affine_partial (d n : Nat) (time : Nat → K) (a b : K) (hd : d < n)
    (ht : ∀ j, j + 1 < n → time j < time (j + 1)) :
    fluence n (fun i => a + b * time i) time = fluence (d + 1) (fun i => a + b * time i) time
      + fluence (n - d) (fun i => a + b * time (d + i)) (fun i => time (d + i)) := by
  rw [c122_affine n time a b (by omega) ht, c122_affine (d + 1) time a b (by omega) (fun j hj => ht j (by omega)),
    c122_affine (n - d) (fun i => time (d + i)) a b (by omega)
      (fun j hj => by simpa only [← Nat.add_assoc] using ht (d + j) (by omega))]
  simp only [Nat.add_zero, Nat.add_sub_cancel, show d + (n - d - 1) = n - 1 by omega]
  ring

/-- **C252, greater fluxes.** If neighbouring intervals differ by a factor of two at most, a greater flux has no smaller fluence. -/
theorem c252_monotone_partial (n : Nat) (time f g : Nat → K) (hn : 0 < n) (ht : ∀ j, j + 1 < n → time j < time (j + 1))
    (hr : ∀ j, j + 2 < n → time (j + 1) - time j ≤ 2 * (time (j + 2) - time (j + 1)) ∧
      time (j + 2) - time (j + 1) ≤ 2 * (time (j + 1) - time j))
    (hfg : ∀ j, j < n → f j ≤ g j) : fluence n f time ≤ fluence n g time := by
  have h := simpson_nonneg n time (fun i => 1 * g i + (-1) * f i) hn ht hr (fun j hj => by
    have := hfg j hj
    linarith)
  have e := c122_linear n time g f 1 (-1)
  unfold fluence at e ⊢
  rw [e] at h
  linarith

example : fluence 5 (fun i => (i : ℚ) ^ 3) (fun j => 2 * (j : ℚ) + 7) = 2 * fluence 5 (fun i => (i : ℚ) ^ 3) (fun j => (j : ℚ)) ∧
    fluence 5 (fun i => (i : ℚ) ^ 3) (fun j => (j : ℚ)) = 64 ∧
    fluence 4 (fun i => ((3 - i : Nat) : ℚ) ^ 3) (fun j => 3 - ((3 - j : Nat) : ℚ)) = fluence 4 (fun i => (i : ℚ) ^ 3) (fun j => (j : ℚ)) ∧
    fluence 4 (fun i => (i : ℚ) ^ 3) (fun j => (j : ℚ)) = 21 := by decide +kernel

end

/-- **C252, violated.** With an even number of times the fluences over two parts do not add up, nor are they additive at odd
positions; and a positive flux may have a negative fluence if the intervals are not alike. -/
theorem c252_counterexample :
    fluence 4 (fun i => (i : ℚ) ^ 3) (fun j => (j : ℚ)) ≠ fluence 3 (fun i => (i : ℚ) ^ 3) (fun j => (j : ℚ))
        + fluence 2 (fun i => ((2 + i : Nat) : ℚ) ^ 3) (fun j => ((2 + j : Nat) : ℚ)) ∧
      fluence 5 (fun i => (i : ℚ) ^ 2) (fun j => (j : ℚ)) ≠ fluence 2 (fun i => (i : ℚ) ^ 2) (fun j => (j : ℚ))
        + fluence 4 (fun i => ((1 + i : Nat) : ℚ) ^ 2) (fun j => ((1 + j : Nat) : ℚ)) ∧
      ∃ time flux : Nat → ℚ, (∀ j, j + 1 < 3 → time j < time (j + 1)) ∧ (∀ j, j < 3 → 0 < flux j) ∧
        fluence 3 flux time < 0 := by
  refine ⟨by decide +kernel, by decide +kernel, fun j => [1, 2, 5].getD j 0, fun j => [1, 1 / 100, 1 / 100].getD j 0, ?_, ?_, ?_⟩
  · intro j hj
    match j, hj with
    | 0, _ => decide +kernel
    | 1, _ => decide +kernel
  · decide +kernel
  · decide +kernel

end Verif.Physics
