import Verif.Physics.SumProps

/-!
# Averages over pitch angles and speeds: property C292
-/

set_option linter.unusedSimpArgs false
set_option linter.unusedSectionVars false

namespace Verif.Physics

open Verif.Py

section
variable {K : Type _} [Field K] [LinearOrder K] [IsStrictOrderedRing K]

/-- **C292, pitch angles.** The isotropic distribution does not depend on the order of the pitch angles. -/
theorem c292_order (n : Nat) (dist : Nat → K) (p q : Nat → Nat) (hp : ∀ i, i < n → p i < n) (hq : ∀ i, i < n → q i < n)
    (hqp : ∀ i, i < n → q (p i) = i) (hpq : ∀ i, i < n → p (q i) = i) : isotropic n (fun i => dist (p i)) = isotropic n dist := by
  unfold isotropic
  congr 1
  refine Finset.sum_nbij' p q ?_ ?_ ?_ ?_ ?_
  · intro i hi; exact Finset.mem_range.2 (hp i (Finset.mem_range.1 hi))
  · intro i hi; exact Finset.mem_range.2 (hq i (Finset.mem_range.1 hi))
  · intro i hi; exact hqp i (Finset.mem_range.1 hi)
  · intro i hi; exact hpq i (Finset.mem_range.1 hi)
  · intro i _; rfl

example : isotropic 3 (fun i => ([1, 5, 6] : List ℚ).getD (2 - i) 0) = isotropic 3 (fun i => ([1, 5, 6] : List ℚ).getD i 0)
    ∧ isotropic 3 (fun i => ([1, 5, 6] : List ℚ).getD i 0) = 4 :=
  ⟨c292_order 3 (fun i => ([1, 5, 6] : List ℚ).getD i 0) (fun i => 2 - i) (fun i => 2 - i) (by omega) (by omega) (by omega) (by omega),
    by decide +kernel⟩

/-- The number of particles, up to a factor. -/
theorem number_pos {n : Nat} {v f : Nat → K} (hn : 2 ≤ n) (hv : ∀ j, j + 1 < n → v j < v (j + 1)) (hf : ∀ j, j < n → 0 ≤ f j)
    (hsome : ∃ j, j < n ∧ v j ≠ 0 ∧ f j ≠ 0) : 0 < ∑ i ∈ Finset.range n, v i ^ 2 * f i * steps n v i := by
  obtain ⟨j, hj, hvj, hfj⟩ := hsome
  refine Finset.sum_pos' (fun i hi => ?_) ⟨j, Finset.mem_range.2 hj, ?_⟩
  · have := hf i (Finset.mem_range.1 hi)
    have := (steps_pos hn hv i (Finset.mem_range.1 hi)).le
    positivity
  · have h1 : 0 < f j := lt_of_le_of_ne (hf j hj) (Ne.symm hfj)
    have h2 := steps_pos hn hv j hj
    have h3 : 0 < v j ^ 2 := by positivity
    positivity

/-- **C292, mixtures.** For two or more increasing speeds: the average energy of two populations together lies between the average
energies of each of them. Neither may be negative, and each must have particles that move. -/
theorem c292_mixture (mass : K) (n : Nat) (v f g : Nat → K) (hn : 2 ≤ n) (hv : ∀ j, j + 1 < n → v j < v (j + 1))
    (hf : ∀ j, j < n → 0 ≤ f j) (hg : ∀ j, j < n → 0 ≤ g j) (hf' : ∃ j, j < n ∧ v j ≠ 0 ∧ f j ≠ 0)
    (hg' : ∃ j, j < n ∧ v j ≠ 0 ∧ g j ≠ 0) :
    ∃ e₁ e₂ e, averageEnergy mass n v f = .ok e₁ ∧ averageEnergy mass n v g = .ok e₂ ∧
      averageEnergy mass n v (fun j => f j + g j) = .ok e ∧ min e₁ e₂ ≤ e ∧ e ≤ max e₁ e₂ := by
  have p1 := number_pos hn hv hf hf'
  have p2 := number_pos hn hv hg hg'
  unfold averageEnergy energyDensity
  rw [if_neg (by omega), if_neg (by omega), if_neg (by omega)]
  refine ⟨_, _, _, rfl, rfl, rfl, ?_⟩
  have h4 : ∑ i ∈ Finset.range n, v i ^ 4 * (f i + g i) * steps n v i =
      ∑ i ∈ Finset.range n, v i ^ 4 * f i * steps n v i + ∑ i ∈ Finset.range n, v i ^ 4 * g i * steps n v i := by
    rw [← Finset.sum_add_distrib]; exact Finset.sum_congr rfl fun i _ => by ring
  have h2 : ∑ i ∈ Finset.range n, v i ^ 2 * (f i + g i) * steps n v i =
      ∑ i ∈ Finset.range n, v i ^ 2 * f i * steps n v i + ∑ i ∈ Finset.range n, v i ^ 2 * g i * steps n v i := by
    rw [← Finset.sum_add_distrib]; exact Finset.sum_congr rfl fun i _ => by ring
  rw [h4, h2]
  revert p1 p2
  generalize ∑ i ∈ Finset.range n, v i ^ 2 * f i * steps n v i = d1
  generalize ∑ i ∈ Finset.range n, v i ^ 2 * g i * steps n v i = d2
  generalize ∑ i ∈ Finset.range n, v i ^ 4 * f i * steps n v i = n1
  generalize ∑ i ∈ Finset.range n, v i ^ 4 * g i * steps n v i = n2
  intro p1 p2
  dsimp only
  have p : 0 < d1 + d2 := add_pos p1 p2
  have key : 1 / 2 * (mass * (n1 + n2)) = (1 / 2 * (mass * n1) / d1) * d1 + (1 / 2 * (mass * n2) / d2) * d2 := by
    rw [div_mul_cancel₀ _ p1.ne', div_mul_cancel₀ _ p2.ne']; ring
  rw [key]
  generalize 1 / 2 * (mass * n1) / d1 = x
  generalize 1 / 2 * (mass * n2) / d2 = y
  constructor
  · rw [le_div_iff₀ p, mul_add]
    exact add_le_add (mul_le_mul_of_nonneg_right (min_le_left _ _) p1.le) (mul_le_mul_of_nonneg_right (min_le_right _ _) p2.le)
  · rw [div_le_iff₀ p, mul_add]
    exact add_le_add (mul_le_mul_of_nonneg_right (le_max_left _ _) p1.le) (mul_le_mul_of_nonneg_right (le_max_right _ _) p2.le)

/-- Slow particles, fast particles, and both. -/
example : averageEnergy (2 : ℚ) 3 (fun j => (j : ℚ) + 1) (fun j => if j = 0 then 1 else 0) = .ok 1
    ∧ averageEnergy (2 : ℚ) 3 (fun j => (j : ℚ) + 1) (fun j => if j = 2 then 1 else 0) = .ok 9
    ∧ averageEnergy (2 : ℚ) 3 (fun j => (j : ℚ) + 1) (fun j => (if j = 0 then 1 else 0) + (if j = 2 then 1 else 0)) = .ok (41 / 5) := by
  decide +kernel

example : ∃ e₁ e₂ e, averageEnergy (2 : ℚ) 3 (fun j => (j : ℚ) + 1) (fun _ => 1) = .ok e₁ ∧
    averageEnergy (2 : ℚ) 3 (fun j => (j : ℚ) + 1) (fun j => if j = 2 then 1 else 0) = .ok e₂ ∧
    averageEnergy (2 : ℚ) 3 (fun j => (j : ℚ) + 1) (fun j => 1 + (if j = 2 then 1 else 0)) = .ok e ∧ min e₁ e₂ ≤ e ∧ e ≤ max e₁ e₂ :=
  c292_mixture 2 3 _ _ _ (by omega) (fun j _ => by push_cast; linarith) (fun _ _ => zero_le_one)
    (fun j _ => by split_ifs <;> norm_num) ⟨0, by omega, by norm_num, by norm_num⟩ ⟨2, by omega, by norm_num, by norm_num⟩

theorem steps_mul (n : Nat) (k : K) (v : Nat → K) (i : Nat) : steps n (fun j => k * v j) i = k * steps n v i := by
  unfold steps
  split_ifs <;> ring

/-- **C292, units.** The average energy is proportional to the mass and to the square of the speeds, and the energy density to the
mass and to the fifth power of the speeds, also where there are too few speeds. -/
theorem c292_units (mass m k : K) (n : Nat) (v f : Nat → K) (hk : k ≠ 0) :
    averageEnergy (m * mass) n (fun j => k * v j) f = (averageEnergy mass n v f).map (fun e => m * k ^ 2 * e)
    ∧ energyDensity (m * mass) n (fun j => k * v j) f = (energyDensity mass n v f).map (fun e => m * k ^ 5 * e) := by
  have h4 : ∑ i ∈ Finset.range n, (k * v i) ^ 4 * f i * steps n (fun j => k * v j) i =
      k ^ 5 * ∑ i ∈ Finset.range n, v i ^ 4 * f i * steps n v i := by
    rw [Finset.mul_sum]; exact Finset.sum_congr rfl fun i _ => by rw [steps_mul]; ring
  have h2 : ∑ i ∈ Finset.range n, (k * v i) ^ 2 * f i * steps n (fun j => k * v j) i =
      k ^ 3 * ∑ i ∈ Finset.range n, v i ^ 2 * f i * steps n v i := by
    rw [Finset.mul_sum]; exact Finset.sum_congr rfl fun i _ => by rw [steps_mul]; ring
  unfold averageEnergy energyDensity
  by_cases hn : n < 2
  · simp only [if_pos hn]; exact ⟨rfl, rfl⟩
  · simp only [if_neg hn, Except.map, h4, h2]
    constructor
    · congr 1
      generalize ∑ i ∈ Finset.range n, v i ^ 2 * f i * steps n v i = d
      generalize ∑ i ∈ Finset.range n, v i ^ 4 * f i * steps n v i = e
      by_cases hd : d = 0
      · subst hd; simp
      · field_simp
    · congr 1; ring

example : averageEnergy (3 * 2 : ℚ) 3 (fun j => 10 * ((j : ℚ) + 1)) (fun _ => 1) = .ok (300 * (98 / 14)) := by decide +kernel

theorem steps_reverse (n : Nat) (v : Nat → K) (hn : 2 ≤ n) (i : Nat) (hi : i < n) :
    steps n (fun j => v (n - 1 - j)) (n - 1 - i) = -steps n v i := by
  unfold steps
  by_cases h0 : i = 0
  · subst h0
    rw [if_neg (by omega), if_pos (by omega), if_pos rfl]
    dsimp only
    rw [show n - 1 - (n - 1 - 0) = 0 by omega, show n - 1 - (n - 1 - 0 - 1) = 1 by omega]
    ring
  · by_cases h1 : i + 1 = n
    · rw [if_pos (by omega), if_neg h0, if_pos h1]
      dsimp only
      rw [show n - 1 - 1 = i - 1 by omega, show n - 1 - 0 = i by omega]
      ring
    · rw [if_neg (by omega), if_neg (by omega), if_neg h0, if_neg h1]
      dsimp only
      rw [show n - 1 - (n - 1 - i + 1) = i - 1 by omega, show n - 1 - (n - 1 - i - 1) = i + 1 by omega]
      ring

/-- **C292, order of speeds.** The average energy is the same for speeds in the reverse order, as in a table of descending energies. -/
theorem c292_reverse (mass : K) (n : Nat) (v f : Nat → K) :
    averageEnergy mass n (fun j => v (n - 1 - j)) (fun j => f (n - 1 - j)) = averageEnergy mass n v f := by
  unfold averageEnergy energyDensity
  by_cases hn : n < 2
  · simp only [if_pos hn]; rfl
  · have h : ∀ p, ∑ i ∈ Finset.range n, v (n - 1 - i) ^ p * f (n - 1 - i) * steps n (fun j => v (n - 1 - j)) i =
        -∑ i ∈ Finset.range n, v i ^ p * f i * steps n v i := by
      intro p
      rw [← Finset.sum_range_reflect, ← Finset.sum_neg_distrib]
      refine Finset.sum_congr rfl fun i hi => ?_
      have hi := Finset.mem_range.1 hi
      rw [steps_reverse n v (by omega) i hi, show n - 1 - (n - 1 - i) = i by omega]
      ring
    simp only [if_neg hn, Except.map, h]
    congr 1
    rw [mul_neg, mul_neg, neg_div_neg_eq]

/-- **C292, order of speeds.** The energy density is positive only for ascending speeds: speeds in the reverse order give its
negative. -/
theorem c292_descending (mass : K) (n : Nat) (v f : Nat → K) :
    energyDensity mass n (fun j => v (n - 1 - j)) (fun j => f (n - 1 - j)) = (energyDensity mass n v f).map (fun e => -e) := by
  unfold energyDensity
  by_cases hn : n < 2
  · simp only [if_pos hn]; rfl
  · simp only [if_neg hn, Except.map]
    congr 1
    rw [← mul_neg, ← Finset.sum_range_reflect, ← Finset.sum_neg_distrib]
    congr 1
    refine Finset.sum_congr rfl fun i hi => ?_
    have hi := Finset.mem_range.1 hi
    rw [steps_reverse n v (by omega) i hi, show n - 1 - (n - 1 - i) = i by omega]
    ring

example : averageEnergy (2 : ℚ) 3 (fun j => 3 - (j : ℚ)) (fun _ => 1) = .ok (98 / 14)
    ∧ energyDensity (2 : ℚ) 3 (fun j => 3 - (j : ℚ)) (fun _ => 1) = .ok (-196)
    ∧ energyDensity (2 : ℚ) 3 (fun j => (j : ℚ) + 1) (fun _ => 1) = .ok 196 := by decide +kernel

end

end Verif.Physics
