import Mathlib.Algebra.BigOperators.Ring.Finset
import Mathlib.Algebra.Order.BigOperators.Group.Finset
import Mathlib.Algebra.Order.BigOperators.Ring.Finset
import Mathlib.Tactic.Linarith
import Mathlib.Tactic.Positivity
import Mathlib.Tactic.FieldSimp
import Mathlib.Tactic.Ring
import Verif.Numerical.Props
import Verif.Physics.Model

/-!
# Sums and integrals of distributions: properties C119-C124
-/

set_option linter.unusedSimpArgs false
set_option linter.unusedSectionVars false

namespace Verif.Physics

open Verif.Py

section
variable {K : Type _} [Field K] [LinearOrder K] [IsStrictOrderedRing K]

/-! ## C119: average energy -/

theorem strict_of_steps {n : Nat} {v : Nat → K} (hv : ∀ j, j + 1 < n → v j < v (j + 1)) :
    ∀ i j, i < j → j < n → v i < v j := by
  intro i j hij hj
  induction j with
  | zero => omega
  | succ j ih =>
    rcases Nat.lt_or_eq_of_le (Nat.lt_succ_iff.1 hij) with h | h
    · exact lt_trans (ih h (by omega)) (hv j hj)
    · subst h; exact hv i hj

theorem steps_pos {n : Nat} {v : Nat → K} (hn : 2 ≤ n) (hv : ∀ j, j + 1 < n → v j < v (j + 1)) (i : Nat)
    (hi : i < n) : 0 < steps n v i := by
  have hs := strict_of_steps hv
  unfold steps
  split_ifs with h0 h1
  · exact sub_pos.2 (hv 0 (by omega))
  · exact sub_pos.2 (hs (i - 1) i (by omega) hi)
  · have := hs (i - 1) (i + 1) (by omega) (by omega)
    have : 0 < v (i + 1) - v (i - 1) := sub_pos.2 this
    positivity

/-- **C119.** For two or more increasing speeds that are not negative and a distribution that is not negative and
not zero at some speed other than zero, the average energy lies between the kinetic energies `m v² / 2` at the
least and at the greatest speed. -/
theorem c119_average_energy (mass : K) (n : Nat) (v f : Nat → K) (hm : 0 ≤ mass) (hn : 2 ≤ n) (h0 : 0 ≤ v 0)
    (hv : ∀ j, j + 1 < n → v j < v (j + 1)) (hf : ∀ j, j < n → 0 ≤ f j)
    (hsome : ∃ j, j < n ∧ v j ≠ 0 ∧ f j ≠ 0) :
    ∃ e, averageEnergy mass n v f = .ok e ∧ mass * v 0 ^ 2 / 2 ≤ e ∧ e ≤ mass * v (n - 1) ^ 2 / 2 := by
  have hs := strict_of_steps hv
  have hge : ∀ j, j < n → v 0 ≤ v j := by
    intro j hj
    rcases Nat.eq_zero_or_pos j with h | h
    · rw [h]
    · exact (hs 0 j h hj).le
  have hle : ∀ j, j < n → v j ≤ v (n - 1) := by
    intro j hj
    rcases Nat.lt_or_eq_of_le (by omega : j ≤ n - 1) with h | h
    · exact (hs j (n - 1) h (by omega)).le
    · rw [h]
  have hw : ∀ j, j < n → 0 ≤ v j ^ 2 * f j * steps n v j := by
    intro j hj
    have := hf j hj
    have := (steps_pos hn hv j hj).le
    positivity
  have hN : 0 < ∑ i ∈ Finset.range n, v i ^ 2 * f i * steps n v i := by
    obtain ⟨j, hj, hvj, hfj⟩ := hsome
    refine Finset.sum_pos' (fun i hi => hw i (Finset.mem_range.1 hi)) ⟨j, Finset.mem_range.2 hj, ?_⟩
    have h1 : 0 < f j := lt_of_le_of_ne (hf j hj) (Ne.symm hfj)
    have h2 := steps_pos hn hv j hj
    have h3 : 0 < v j ^ 2 := by positivity
    positivity
  have hE1 : v 0 ^ 2 * ∑ i ∈ Finset.range n, v i ^ 2 * f i * steps n v i
      ≤ ∑ i ∈ Finset.range n, v i ^ 4 * f i * steps n v i := by
    rw [Finset.mul_sum]
    refine Finset.sum_le_sum fun i hi => ?_
    have hi := Finset.mem_range.1 hi
    have := mul_le_mul_of_nonneg_right (pow_le_pow_left₀ h0 (hge i hi) 2) (hw i hi)
    calc _ ≤ _ := this
      _ = _ := by ring
  have hE2 : ∑ i ∈ Finset.range n, v i ^ 4 * f i * steps n v i
      ≤ v (n - 1) ^ 2 * ∑ i ∈ Finset.range n, v i ^ 2 * f i * steps n v i := by
    rw [Finset.mul_sum]
    refine Finset.sum_le_sum fun i hi => ?_
    have hi := Finset.mem_range.1 hi
    have := mul_le_mul_of_nonneg_right (pow_le_pow_left₀ (le_trans h0 (hge i hi)) (hle i hi) 2) (hw i hi)
    calc _ = _ := by ring
      _ ≤ _ := this
  unfold averageEnergy energyDensity
  rw [if_neg (by omega)]
  refine ⟨_, rfl, ?_, ?_⟩
  · rw [le_div_iff₀ hN]
    have := mul_le_mul_of_nonneg_left hE1 hm
    linarith
  · rw [div_le_iff₀ hN]
    have := mul_le_mul_of_nonneg_left hE2 hm
    linarith

/-- Three speeds. -/
example : averageEnergy (2 : ℚ) 3 (fun j => (j : ℚ) + 1) (fun _ => 1) = .ok (98 / 14) := by decide +kernel

/-! ## C120: isotropic distribution -/

/-- **C120.** For one or more pitch angles the isotropic distribution lies between any bounds of the distribution
at the pitch angles; so it is unchanged where the distribution does not depend on the pitch angle. -/
theorem c120_isotropic (n : Nat) (dist : Nat → K) (lo hi : K) (hn : 0 < n) (hlo : ∀ j, j < n → lo ≤ dist j)
    (hhi : ∀ j, j < n → dist j ≤ hi) : lo ≤ isotropic n dist ∧ isotropic n dist ≤ hi := by
  have hn' : (0 : K) < n := Nat.cast_pos.2 hn
  unfold isotropic
  constructor
  · rw [le_div_iff₀ hn', mul_comm]
    have := Finset.card_nsmul_le_sum (Finset.range n) dist lo (fun j hj => hlo j (Finset.mem_range.1 hj))
    rwa [Finset.card_range, nsmul_eq_mul] at this
  · rw [div_le_iff₀ hn', mul_comm]
    have := Finset.sum_le_card_nsmul (Finset.range n) dist hi (fun j hj => hhi j (Finset.mem_range.1 hj))
    rwa [Finset.card_range, nsmul_eq_mul] at this

/-- **C120, mixtures.** The isotropic distribution of a combination of two distributions is that combination of
their isotropic distributions. -/
theorem c120_linear (n : Nat) (a b : K) (d1 d2 : Nat → K) :
    isotropic n (fun j => a * d1 j + b * d2 j) = a * isotropic n d1 + b * isotropic n d2 := by
  unfold isotropic
  rw [Finset.sum_add_distrib, ← Finset.mul_sum, ← Finset.mul_sum]
  ring

example : isotropic 4 (fun j => (j : ℚ)) = 3 / 2 := by decide +kernel

/-! ## C122: fluence -/

theorem panel_quadratic (x : Nat → K) (a b c : K) (j : Nat) (h0 : x j < x (j + 1)) (h1 : x (j + 1) < x (j + 2)) :
    panel x (fun i => a + b * x i + c * x i ^ 2) j
      = (a * x (j + 2) + b * x (j + 2) ^ 2 / 2 + c * x (j + 2) ^ 3 / 3)
        - (a * x j + b * x j ^ 2 / 2 + c * x j ^ 3 / 3) := by
  unfold panel
  simp only
  have p0 : x (j + 1) - x j ≠ 0 := (sub_pos.2 h0).ne'
  have p1 : x (j + 2) - x (j + 1) ≠ 0 := (sub_pos.2 h1).ne'
  obtain ⟨u, hu⟩ : ∃ u, u = x (j + 1) - x j := ⟨_, rfl⟩
  obtain ⟨w, hw⟩ : ∃ w, w = x (j + 2) - x (j + 1) := ⟨_, rfl⟩
  rw [← hu] at p0 ⊢
  rw [← hw] at p1 ⊢
  have e1 : x (j + 1) = x j + u := by rw [hu]; ring
  have e2 : x (j + 2) = x j + u + w := by rw [hw, hu]; ring
  rw [e1, e2]
  field_simp
  ring

theorem panels_quadratic (s m : Nat) (x : Nat → K) (a b c : K) (hx : ∀ j, j < s + 2 * m → x j < x (j + 1)) :
    panels s m x (fun i => a + b * x i + c * x i ^ 2)
      = (a * x (s + 2 * m) + b * x (s + 2 * m) ^ 2 / 2 + c * x (s + 2 * m) ^ 3 / 3)
        - (a * x s + b * x s ^ 2 / 2 + c * x s ^ 3 / 3) := by
  induction m with
  | zero => simp [panels]
  | succ m ih =>
    have := ih (fun j hj => hx j (by omega))
    unfold panels at this ⊢
    rw [Finset.sum_range_succ, this, panel_quadratic _ _ _ _ _ (hx _ (by omega)) (hx _ (by omega))]
    have e : s + 2 * (m + 1) = s + 2 * m + 2 := by ring
    rw [e]; ring

/-- **C122.** At any number of increasing times, however spaced, the fluence of a flux `a + b t + c t²` is its integral
over time, except that an even number of times adds `c (h³ + k³) / 12`, where `h` and `k` are the first and the last
interval. -/
theorem c122_exact (n : Nat) (time : Nat → K) (a b c : K) (hn : 0 < n)
    (ht : ∀ j, j + 1 < n → time j < time (j + 1)) :
    fluence n (fun i => a + b * time i + c * time i ^ 2) time
      = a * (time (n - 1) - time 0) + b * (time (n - 1) ^ 2 - time 0 ^ 2) / 2
        + c * (time (n - 1) ^ 3 - time 0 ^ 3) / 3
        + if n % 2 = 1 then 0 else c * ((time 1 - time 0) ^ 3 + (time (n - 1) - time (n - 2)) ^ 3) / 12 := by
  unfold fluence simpson
  by_cases h : n % 2 = 1
  · obtain ⟨m, rfl⟩ : ∃ m, n = 2 * m + 1 := ⟨n / 2, by omega⟩
    have e : (2 * m + 1) / 2 = m := by omega
    rw [if_pos h, if_pos h, e, panels_quadratic 0 m time a b c (fun j hj => ht j (by omega))]
    simp only [Nat.zero_add, Nat.add_sub_cancel]
    ring
  · obtain ⟨m, rfl⟩ : ∃ m, n = 2 * m + 2 := ⟨n / 2 - 1, by omega⟩
    have e : (2 * m + 2) / 2 - 1 = m := by omega
    have e1 : 2 * m + 2 - 1 = 2 * m + 1 := by omega
    have e2 : 2 * m + 2 - 2 = 2 * m := by omega
    have e3 : 1 + 2 * m = 2 * m + 1 := by omega
    rw [if_neg h, if_neg h, e, e1, e2, panels_quadratic 0 m time a b c (fun j hj => ht j (by omega)),
      panels_quadratic 1 m time a b c (fun j hj => ht j (by omega))]
    simp only [Nat.zero_add, e3]
    ring

/-- **C122, affine.** A flux that changes at a constant rate. -/
theorem c122_affine (n : Nat) (time : Nat → K) (a b : K) (hn : 0 < n)
    (ht : ∀ j, j + 1 < n → time j < time (j + 1)) :
    fluence n (fun i => a + b * time i) time
      = a * (time (n - 1) - time 0) + b * (time (n - 1) ^ 2 - time 0 ^ 2) / 2 := by
  have := c122_exact n time a b 0 hn ht
  simpa using this

/-- **C122, steady.** -/
theorem c122_steady (n : Nat) (time : Nat → K) (a : K) (hn : 0 < n)
    (ht : ∀ j, j + 1 < n → time j < time (j + 1)) :
    fluence n (fun _ => a) time = a * (time (n - 1) - time 0) := by
  have := c122_exact n time a 0 0 hn ht
  simpa using this

theorem panels_linear (s m : Nat) (x f g : Nat → K) (a b : K) :
    panels s m x (fun i => a * f i + b * g i) = a * panels s m x f + b * panels s m x g := by
  unfold panels
  rw [Finset.mul_sum, Finset.mul_sum, ← Finset.sum_add_distrib]
  refine Finset.sum_congr rfl fun k _ => ?_
  unfold panel
  ring

/-- **C122, mixtures.** -/
theorem c122_linear (n : Nat) (time f g : Nat → K) (a b : K) :
    fluence n (fun i => a * f i + b * g i) time = a * fluence n f time + b * fluence n g time := by
  unfold fluence simpson
  rw [panels_linear, panels_linear, panels_linear]
  split_ifs
  · rfl
  · ring

/-- Five and four times. -/
example : fluence 5 (fun _ => 3) (fun j => (j : ℚ) ^ 2) = 48 ∧ fluence 4 (fun _ => 3) (fun j => (j : ℚ) ^ 2) = 27 ∧
    fluence 4 (fun j => (j : ℚ) ^ 2) (fun j => (j : ℚ)) = 9 + 1 / 6 := by decide +kernel

/-! ## C121: sign of integrals -/

theorem panel_nonneg (x y : Nat → K) (j : Nat) (h0 : x j < x (j + 1)) (h1 : x (j + 1) < x (j + 2))
    (r0 : x (j + 1) - x j ≤ 2 * (x (j + 2) - x (j + 1))) (r1 : x (j + 2) - x (j + 1) ≤ 2 * (x (j + 1) - x j))
    (hy : 0 ≤ y j ∧ 0 ≤ y (j + 1) ∧ 0 ≤ y (j + 2)) : 0 ≤ panel x y j := by
  unfold panel
  simp only
  have p0 : 0 < x (j + 1) - x j := sub_pos.2 h0
  have p1 : 0 < x (j + 2) - x (j + 1) := sub_pos.2 h1
  generalize x (j + 1) - x j = u at *
  generalize x (j + 2) - x (j + 1) = w at *
  have q0 : 0 ≤ 2 - w / u := by
    have : w / u ≤ 2 := (div_le_iff₀ p0).2 r1
    linarith
  have q1 : 0 ≤ 2 - u / w := by
    have : u / w ≤ 2 := (div_le_iff₀ p1).2 r0
    linarith
  obtain ⟨y0, y1, y2⟩ := hy
  positivity

theorem panels_nonneg (s m : Nat) (x y : Nat → K) (hx : ∀ j, j < s + 2 * m → x j < x (j + 1))
    (hr : ∀ j, j + 1 < s + 2 * m → x (j + 1) - x j ≤ 2 * (x (j + 2) - x (j + 1)) ∧
      x (j + 2) - x (j + 1) ≤ 2 * (x (j + 1) - x j))
    (hy : ∀ j, j ≤ s + 2 * m → 0 ≤ y j) : 0 ≤ panels s m x y := by
  unfold panels
  refine Finset.sum_nonneg fun k hk => ?_
  have hk := Finset.mem_range.1 hk
  exact panel_nonneg x y _ (hx _ (by omega)) (hx _ (by omega)) (hr _ (by omega)).1 (hr _ (by omega)).2
    ⟨hy _ (by omega), hy _ (by omega), hy _ (by omega)⟩

theorem simpson_nonneg (n : Nat) (x y : Nat → K) (hn : 0 < n) (hx : ∀ j, j + 1 < n → x j < x (j + 1))
    (hr : ∀ j, j + 2 < n → x (j + 1) - x j ≤ 2 * (x (j + 2) - x (j + 1)) ∧
      x (j + 2) - x (j + 1) ≤ 2 * (x (j + 1) - x j))
    (hy : ∀ j, j < n → 0 ≤ y j) : 0 ≤ simpson n x y := by
  unfold simpson
  split_ifs with h
  · exact panels_nonneg 0 _ x y (fun j hj => hx j (by omega)) (fun j hj => hr j (by omega)) (fun j hj => hy j (by omega))
  · have p0 := panels_nonneg 0 (n / 2 - 1) x y (fun j hj => hx j (by omega)) (fun j hj => hr j (by omega))
      (fun j hj => hy j (by omega))
    have p1 := panels_nonneg 1 (n / 2 - 1) x y (fun j hj => hx j (by omega)) (fun j hj => hr j (by omega))
      (fun j hj => hy j (by omega))
    have a0 : 0 ≤ x 1 - x 0 := sub_nonneg.2 (hx 0 (by omega)).le
    have a1 : 0 ≤ x (n - 1) - x (n - 2) := by
      have := hx (n - 2) (by omega)
      rw [show n - 2 + 1 = n - 1 by omega] at this
      exact sub_nonneg.2 this.le
    have y0 := hy 0 (by omega)
    have y1 := hy 1 (by omega)
    have y2 := hy (n - 1) (by omega)
    have y3 := hy (n - 2) (by omega)
    positivity

end

theorem floatMin_le_half : floatMin ≤ 1 / 2 := by
  unfold floatMin
  exact one_div_le_one_div_of_le (by norm_num) (le_self_pow₀ (by norm_num) (by norm_num))

/-- **C121, violated.** The integral flux of a positive flux at three energies is negative. -/
theorem c121_counterexample : ∃ (e f : List ℝ) (lowest bound r : ℝ), e.Pairwise (· < ·) ∧ (∀ u ∈ f, 0 < u) ∧
    (∀ u ∈ e, lowest ≤ u) ∧ 0 < bound ∧ integralFlux e f lowest bound = .ok r ∧ r < 0 := by
  refine ⟨[1, 2, 5], [1, 1 / 100, 1 / 100], 1, 1 / 2, -31 / 50, ?_, ?_, ?_, by norm_num, ?_, by norm_num⟩
  · simp; norm_num
  · simp
  · norm_num
  · unfold integralFlux
    simp only [max_eq_left floatMin_le_half]
    rw [if_pos (by norm_num)]
    simp [simpsonList, simpson, panels, panel]
    norm_num

/-! ## C123: minimum energies -/

theorem getElem_drop_cons {α : Type} (l : List α) (i : Nat) (h : i < l.length) (a : α) :
    (l.set i a).drop i = a :: l.drop (i + 1) := by
  induction l generalizing i with
  | nil => simp at h
  | cons b l ih =>
    cases i with
    | zero => rfl
    | succ i => simpa using ih i (by simpa using h)

theorem drop_eq_filter (x : List ℝ) (hx : x.Pairwise (· < ·)) (m : ℝ) (i : Nat) (hi : i < x.length)
    (hle : x[i] ≤ m) (hmax : ∀ u ∈ x, u ≤ m → u ≤ x[i]) : x.drop (i + 1) = x.filter (fun u => m < u) := by
  induction x generalizing i with
  | nil => simp at hi
  | cons a x ih =>
    rw [List.pairwise_cons] at hx
    cases i with
    | zero =>
      simp only [List.getElem_cons_zero, Nat.zero_add, List.drop_succ_cons, List.drop_zero] at hle hmax ⊢
      rw [List.filter_cons_of_neg (by simpa using hle)]
      symm
      rw [List.filter_eq_self]
      intro u hu
      have h1 := hx.1 u hu
      simp only [decide_eq_true_eq]
      by_contra hn
      have := hmax u (List.mem_cons_of_mem _ hu) (not_lt.1 hn)
      linarith
    | succ i =>
      have hi' : i < x.length := by simpa using hi
      simp only [List.getElem_cons_succ] at hle hmax
      have h1 := hx.1 x[i] (List.getElem_mem _)
      rw [List.filter_cons_of_neg (by simp; linarith), List.drop_succ_cons]
      exact ih hx.2 i hi' hle (fun u hu => hmax u (List.mem_cons_of_mem _ hu))

theorem interpolate_at (f x : List ℝ) (m : ℝ) (hx : x.Pairwise (· < ·)) (hl : f.length = x.length)
    (h0 : ∃ u ∈ x, u ≤ m) :
    ∃ i, ∃ hi : i < x.length, x[i] ≤ m ∧ (∀ u ∈ x, u ≤ m → u ≤ x[i]) ∧
      ((∀ u ∈ x, u ≤ m) → interpolate f x m = .error .indexError) ∧
      ((∃ u ∈ x, m < u) → ∃ hi1 : i + 1 < x.length, m < x[i + 1] ∧
        interpolate f x m = .ok
          ((f[i] * (m / x[i]) ^ (Real.log (f[i + 1] / f[i]) / Real.log (x[i + 1] / x[i]))) :: f.drop (i + 1),
            m :: x.drop (i + 1))) := by
  have hne : x ≠ [] := by rintro rfl; simp at h0
  obtain ⟨i, hi, hfind, hle, hmax⟩ :=
    (Numerical.c36_bounded x hne (hx.imp le_of_lt) m).2.2.1 h0
  refine ⟨i, hi, hle, hmax, ?_, ?_⟩
  · intro hall
    have hlast : i + 1 = x.length := by
      by_contra hn
      have h1 : i + 1 < x.length := by omega
      have h2 := List.pairwise_iff_getElem.1 hx i (i + 1) hi h1 (by omega)
      have h3 := hmax _ (List.getElem_mem h1) (hall _ (List.getElem_mem h1))
      linarith
    unfold interpolate
    rw [hfind]
    simp only [Int.toNat_natCast]
    rw [List.getElem?_eq_none (by omega : f.length ≤ i + 1)]
    cases f[i]? <;> rfl
  · rintro ⟨u, hu, hmu⟩
    obtain ⟨j, hj, rfl⟩ := List.getElem_of_mem hu
    have hij : i < j := by
      by_contra hn
      rcases Nat.lt_or_eq_of_le (not_lt.1 hn) with h | h
      · have := List.pairwise_iff_getElem.1 hx j i hj hi h
        linarith
      · subst h; linarith
    have hi1 : i + 1 < x.length := by omega
    refine ⟨hi1, ?_, ?_⟩
    · by_contra hn
      have h2 := List.pairwise_iff_getElem.1 hx i (i + 1) hi hi1 (by omega)
      have h3 := hmax _ (List.getElem_mem hi1) (not_lt.1 hn)
      linarith
    · unfold interpolate
      rw [hfind]
      simp only [Int.toNat_natCast]
      rw [List.getElem?_eq_getElem (by omega : i < f.length), List.getElem?_eq_getElem (by omega : i + 1 < f.length),
        List.getElem?_eq_getElem hi1]
      simp only
      rw [getElem_drop_cons _ _ (by omega), getElem_drop_cons _ _ hi]

/-- **C123, violated.** A minimum energy that is the greatest energy or more raises `IndexError`, for every series
of energies, instead of giving 0. -/
theorem c123_counterexample (e f : List ℝ) (lowest bound : ℝ) (he : e.Pairwise (· < ·)) (hl : f.length = e.length)
    (hne : e ≠ []) (hpos : ∀ u ∈ e, floatMin ≤ u) (hlow : ∀ u ∈ e, lowest ≤ u) (hb : ∀ u ∈ e, u ≤ bound) :
    integralFlux e f lowest bound = .error .indexError := by
  obtain ⟨u, hu⟩ := List.exists_mem_of_ne_nil e hne
  have hm : max bound floatMin = bound := max_eq_left (le_trans (hpos u hu) (hb u hu))
  obtain ⟨i, hi, -, -, h1, -⟩ := interpolate_at f e bound he hl ⟨u, hu, hb u hu⟩
  unfold integralFlux
  simp only [hm]
  rw [if_neg (not_lt.2 (le_trans (hlow u hu) (hb u hu))), h1 hb]

/-- Satisfied by a minimum energy equal to the greatest of three. -/
example : integralFlux [1, 2, 3] [7, 8, 9] 1 3 = .error .indexError :=
  c123_counterexample _ _ _ _ (by simp; norm_num) rfl (by simp)
    (by have := floatMin_le_half; simp; refine ⟨?_, ?_, ?_⟩ <;> linarith) (by norm_num) (by norm_num)

/-- **C123, what holds.** For every ascending series of energies and every minimum energy `m` from the least energy
to below the greatest, there is an integral over the energies greater than `m` preceded by `m` itself, with the flux
at the energies greater than `m` unchanged. -/
theorem c123_partial (f x : List ℝ) (m : ℝ) (hx : x.Pairwise (· < ·)) (hl : f.length = x.length)
    (h0 : ∃ u ∈ x, u ≤ m) (h1 : ∃ u ∈ x, m < u) :
    ∃ f0, interpolate f x m
      = .ok (f0 :: f.drop (f.length - (x.filter (fun u => m < u)).length), m :: x.filter (fun u => m < u)) ∧
      ((∀ u ∈ f, 0 < u) → (∀ u ∈ x, 0 < u) → 0 < f0) := by
  obtain ⟨i, hi, hle, hmax, -, h⟩ := interpolate_at f x m hx hl h0
  obtain ⟨hi1, hlt, h⟩ := h h1
  have hd := drop_eq_filter x hx m i hi hle hmax
  refine ⟨f[i] * (m / x[i]) ^ (Real.log (f[i + 1] / f[i]) / Real.log (x[i + 1] / x[i])), ?_, ?_⟩
  · rw [← hd, h]
    congr 3
    rw [List.length_drop]
    congr 1
    omega
  · intro hf hp
    have a1 := hf f[i] (List.getElem_mem _)
    have a2 := hp x[i] (List.getElem_mem _)
    have a3 : 0 < m := lt_of_lt_of_le a2 hle
    positivity

/-- **C123, integral.** In that case the integral flux is a number. -/
theorem c123_partial_integral (e f : List ℝ) (lowest m : ℝ) (he : e.Pairwise (· < ·)) (hl : f.length = e.length)
    (hm : floatMin ≤ m) (hlow : lowest ≤ m) (h0 : ∃ u ∈ e, u ≤ m) (h1 : ∃ u ∈ e, m < u) :
    ∃ r, integralFlux e f lowest m = .ok r := by
  obtain ⟨f0, h, -⟩ := c123_partial f e m he hl h0 h1
  unfold integralFlux
  simp only [max_eq_left hm]
  rw [if_neg (not_lt.2 hlow), h]
  simp only [simpsonList, List.length_cons]
  rw [if_neg (by omega)]
  exact ⟨_, rfl⟩

example : ∃ r, integralFlux [1, 2, 3, 4] [7, 8, 9, 10] 1 2 = .ok r :=
  c123_partial_integral _ _ _ _ (by simp; norm_num) rfl (by have := floatMin_le_half; linarith) (by norm_num) ⟨1, by simp, by norm_num⟩
    ⟨3, by simp, by norm_num⟩

/-- **C123, no minimum energy.** Zero and every other number up to the least positive one mean the same minimum
energy; where all energies are greater than that, the flux is integrated over all of them. -/
theorem c123_partial_none (e f : List ℝ) (lowest b b' : ℝ) (hb : b ≤ floatMin) (hb' : b' ≤ floatMin) :
    integralFlux e f lowest b = integralFlux e f lowest b' ∧
    (floatMin < lowest → integralFlux e f lowest b = simpsonList f e) := by
  unfold integralFlux
  simp only [max_eq_right hb, max_eq_right hb']
  refine ⟨trivial, fun h => ?_⟩
  rw [if_pos h]

/-- Satisfied by energies of which the first is zero, and by positive energies. -/
example (f : List ℝ) : integralFlux [0, 1, 2] f 0 0 = integralFlux [0, 1, 2] f 0 (-5) ∧
    integralFlux [1, 2, 4] f 1 0 = simpsonList f [1, 2, 4] := by
  have h : (0 : ℝ) < floatMin := by unfold floatMin; positivity
  have h' := floatMin_le_half
  exact ⟨(c123_partial_none _ _ _ _ _ h.le (by linarith)).1,
    (c123_partial_none _ _ _ _ 0 h.le h.le).2 (by linarith)⟩

/-! ## C124: interpolation -/

/-- **C124, power laws.** For every ascending series of positive energies, a flux `A u^g` with `A > 0` is
interpolated to `A m^g` at the minimum energy. -/
theorem c124_power_law (x : List ℝ) (m A g : ℝ) (hx : x.Pairwise (· < ·)) (hpos : ∀ u ∈ x, 0 < u) (hA : 0 < A)
    (h0 : ∃ u ∈ x, u ≤ m) (h1 : ∃ u ∈ x, m < u) :
    interpolate (x.map (fun u => A * u ^ g)) x m
      = .ok ((m :: x.filter (fun u => m < u)).map (fun u => A * u ^ g), m :: x.filter (fun u => m < u)) := by
  obtain ⟨i, hi, hle, hmax, -, h⟩ := interpolate_at (x.map (fun u => A * u ^ g)) x m hx (List.length_map _) h0
  obtain ⟨hi1, hlt, h⟩ := h h1
  have hd := drop_eq_filter x hx m i hi hle hmax
  rw [h, ← hd, ← List.map_drop, List.map_cons]
  congr 3
  simp only [List.getElem_map]
  have a2 := hpos x[i] (List.getElem_mem _)
  have a3 : 0 < m := lt_of_lt_of_le a2 hle
  have a4 := hpos x[i + 1] (List.getElem_mem _)
  have hs := List.pairwise_iff_getElem.1 hx i (i + 1) hi hi1 (by omega)
  have e1 : A * x[i + 1] ^ g / (A * x[i] ^ g) = (x[i + 1] / x[i]) ^ g := by
    rw [Real.div_rpow a4.le a2.le, mul_div_mul_left _ _ hA.ne']
  have hlog : Real.log (x[i + 1] / x[i]) ≠ 0 := by
    have : 1 < x[i + 1] / x[i] := (one_lt_div a2).2 hs
    exact (Real.log_pos this).ne'
  rw [e1, Real.log_rpow (by positivity), mul_div_assoc, div_self hlog, mul_one, Real.div_rpow a3.le a2.le]
  have : x[i] ^ g ≠ 0 := (Real.rpow_pos_of_pos a2 g).ne'
  field_simp

/-- **C124, energies of the series.** At an energy of the series (but the last) the interpolation changes neither
energies nor fluxes: it only drops what comes before. -/
theorem c124_on_grid (f x : List ℝ) (hx : x.Pairwise (· < ·)) (hl : f.length = x.length) (k : Nat)
    (hk : k + 1 < x.length) (hne : x[k] ≠ 0) :
    interpolate f x x[k] = .ok (f.drop k, x.drop k) := by
  obtain ⟨i, hi, hle, hmax, -, h⟩ := interpolate_at f x x[k] hx hl ⟨_, List.getElem_mem (by omega), le_rfl⟩
  have hs := List.pairwise_iff_getElem.1 hx k (k + 1) (by omega) hk (by omega)
  obtain ⟨hi1, hlt, h⟩ := h ⟨x[k + 1], List.getElem_mem _, hs⟩
  have hik : i = k := by
    rcases Nat.lt_trichotomy i k with h' | h' | h'
    · have := List.pairwise_iff_getElem.1 hx i k hi (by omega) h'
      have := hmax _ (List.getElem_mem (by omega : k < x.length)) le_rfl
      linarith
    · exact h'
    · have := List.pairwise_iff_getElem.1 hx k i (by omega) hi h'
      linarith
  subst hik
  rw [h, div_self hne, Real.one_rpow, mul_one, List.drop_eq_getElem_cons (by omega : i < f.length),
    List.drop_eq_getElem_cons hi]

example : interpolate [7, 8, 9, 10] [1, 2, 3, 4] 2 = .ok ([8, 9, 10], [2, 3, 4]) :=
  c124_on_grid [7, 8, 9, 10] [1, 2, 3, 4] (by simp; norm_num) rfl 1 (by simp) (by simp)

/-! ## C121, what holds -/

/-- Neighbouring intervals differ by a factor of two at most. -/
def Balanced (l : List ℝ) : Prop := ∀ j (h : j + 2 < l.length),
  l[j + 1] - l[j] ≤ 2 * (l[j + 2] - l[j + 1]) ∧ l[j + 2] - l[j + 1] ≤ 2 * (l[j + 1] - l[j])

theorem simpsonList_nonneg (y x : List ℝ) (r : ℝ) (hx : x.Pairwise (· < ·)) (hl : y.length = x.length)
    (hb : Balanced x) (hy : ∀ u ∈ y, 0 ≤ u) (h : simpsonList y x = .ok r) : 0 ≤ r := by
  unfold simpsonList at h
  split_ifs at h with h0
  simp only [Except.ok.injEq] at h
  subst h
  have hg : ∀ (l : List ℝ) j (h : j < l.length), l.getD j 0 = l[j] := by
    intro l j h
    rw [List.getD_eq_getElem?_getD, List.getElem?_eq_getElem h, Option.getD_some]
  refine simpson_nonneg _ _ _ (by omega) (fun j hj => ?_) (fun j hj => ?_) (fun j hj => ?_)
  · rw [hg x j (by omega), hg x (j + 1) (by omega)]
    exact List.pairwise_iff_getElem.1 hx j (j + 1) (by omega) (by omega) (by omega)
  · rw [hg x j (by omega), hg x (j + 1) (by omega), hg x (j + 2) (by omega)]
    exact hb j (by omega)
  · rw [hg y j (by omega)]
    exact hy _ (List.getElem_mem _)

/-- **C121, what holds.** If neighbouring intervals between the energies above the minimum, with the minimum itself,
differ by a factor of two at most, the integral flux of a positive flux is not negative. -/
theorem c121_partial (e f : List ℝ) (lowest m r : ℝ) (he : e.Pairwise (· < ·)) (hl : f.length = e.length)
    (hm : floatMin ≤ m) (hpos : ∀ u ∈ e, 0 < u) (hf : ∀ u ∈ f, 0 < u)
    (hb : if m < lowest then Balanced e else Balanced (m :: e.filter (fun u => m < u)))
    (hcross : lowest ≤ m → ∃ u ∈ e, u ≤ m)
    (h : integralFlux e f lowest m = .ok r) : 0 ≤ r := by
  unfold integralFlux at h
  simp only [max_eq_left hm] at h
  by_cases hlt : m < lowest
  · rw [if_pos hlt] at h hb
    exact simpsonList_nonneg f e r he hl hb (fun u hu => (hf u hu).le) h
  · rw [if_neg hlt] at h hb
    have h0 := hcross (not_lt.1 hlt)
    by_cases h1 : ∃ u ∈ e, m < u
    · obtain ⟨f0, hi, hf0⟩ := c123_partial f e m he hl h0 h1
      rw [hi] at h
      refine simpsonList_nonneg _ _ r ?_ ?_ hb ?_ h
      · rw [List.pairwise_cons]
        exact ⟨fun u hu => by simpa using (List.mem_filter.1 hu).2, he.filter _⟩
      · have := List.length_filter_le (fun u => decide (m < u)) e
        simp only [List.length_cons, List.length_drop]
        omega
      · intro u hu
        rcases List.mem_cons.1 hu with rfl | hu
        · exact (hf0 hf hpos).le
        · exact (hf u (List.mem_of_mem_drop hu)).le
    · obtain ⟨i, hi, -, -, h2, -⟩ := interpolate_at f e m he hl h0
      rw [h2 (fun u hu => by by_contra hn; exact h1 ⟨u, hu, not_le.1 hn⟩)] at h
      cases h

theorem balanced_124 : Balanced [1, 2, 4] := by
  intro j hj
  have : j = 0 := by simp at hj; omega
  subst this
  norm_num

/-- Energies 1, 2, 4 with any minimum below 1 and any positive flux. -/
example (a b c r : ℝ) (ha : 0 < a) (hb : 0 < b) (hc : 0 < c) (h : integralFlux [1, 2, 4] [a, b, c] 1 (1 / 2) = .ok r) :
    0 ≤ r := by
  refine c121_partial [1, 2, 4] [a, b, c] 1 (1 / 2) r (by simp; norm_num) rfl floatMin_le_half (by simp)
    (by simp [ha, hb, hc]) ?_ (by norm_num) h
  rw [if_pos (by norm_num)]
  exact balanced_124

end Verif.Physics
