import Verif.Shapes.Lemmas
import Verif.Physics.SumProps

/-!
# Properties C260 and C261: populations of particles add up

`a * d + b * e` of two distributions stands for populations that are seen together. Results are compared as whole arrays of any
shape, with the exceptions that are raised.
-/

set_option linter.unusedSimpArgs false

namespace Verif.Shapes

open Verif.Py Real
open Verif.Physics (mks)

noncomputable section

namespace Spec

/-- `a * x + b * y`, entry by entry, for arrays of one shape. -/
def mix (a b : ℝ) (x y : Arr ℝ) : Arr ℝ := ⟨x.shape, fun i => a * x.entry i + b * y.entry i⟩

/-- The mixture of two results: an exception if one of them is an exception. -/
def mixed (a b : ℝ) : Res (Arr ℝ) → Res (Arr ℝ) → Res (Arr ℝ)
  | .ok x, .ok y => .ok (mix a b x y)
  | .error e, _ => .error e
  | _, .error e => .error e

/-- The function gives the mixture of its results for the mixture of two arrays of one shape. -/
def Additive (f : Arr ℝ → Res (Arr ℝ)) : Prop :=
  ∀ (a b : ℝ) (x y : Arr ℝ), x.shape = y.shape → f (mix a b x y) = mixed a b (f x) (f y)

/-- The function gives `a` times the result for `a` times the array. -/
def Proportional (f : Arr ℝ → Res (Arr ℝ)) : Prop :=
  ∀ (a : ℝ), 0 < a → ∀ x : Arr ℝ, f (x.map (a * ·)) = (f x).map (fun r => r.map (a * ·))

end Spec

open Spec

theorem additive_mul_left (c : Arr ℝ) : Additive (fun x => mul c x) := by
  intro a b x y h
  simp only [mul, Arr.map2, mix, ← h]
  cases broadcastShape c.shape x.shape with
  | none => rfl
  | some s =>
    simp only [mixed, mix, Except.ok.injEq, Arr.mk.injEq, true_and]
    funext i
    ring

theorem additive_mul_right (c : Arr ℝ) : Additive (fun x => mul x c) := by
  intro a b x y h
  simp only [mul, Arr.map2, mix, ← h]
  cases broadcastShape x.shape c.shape with
  | none => rfl
  | some s =>
    simp only [mixed, mix, Except.ok.injEq, Arr.mk.injEq, true_and]
    funext i
    ring

theorem additive_reduce (f : Nat → (Nat → ℝ) → ℝ)
    (hf : ∀ n a b u v, f n (fun e => a * u e + b * v e) = a * f n u + b * f n v) : Additive (reduceLast f) := by
  intro a b x y h
  simp only [reduceLast, mix, ← h]
  cases x.shape.getLast? with
  | none => rfl
  | some n =>
    simp only [mixed, mix, Except.ok.injEq, Arr.mk.injEq, true_and]
    funext i
    exact hf _ _ _ _ _

/-- **C260, isotropic distribution.** Of mixtures it is the mixture, for arrays of any shape. -/
theorem c260_isotropic : Additive isotropicArr := by
  apply additive_reduce
  intro n a b u v
  exact Physics.c120_linear n a b u v

/-- **C260, flux.** Of mixtures it is the mixture, for energies and distributions of any shape. -/
theorem c260_flux (energy : Arr ℝ) : Additive (fluxArr energy) := additive_mul_left _

/-- **C260, fluence.** Of mixtures it is the mixture, for any times and fluxes of any shape. -/
theorem c260_fluence (time : Arr ℝ) : Additive (fun flux => fluenceArr flux time) := by
  intro a b x y h
  obtain ⟨s, f⟩ := x
  obtain ⟨s', g⟩ := y
  simp only at h
  subst h
  simp only [fluenceArr, mix]
  cases s with
  | nil => rfl
  | cons n s =>
    simp only
    split_ifs
    · rfl
    · rfl
    · simp only [mixed, mix, Except.ok.injEq, Arr.mk.injEq, true_and]
      funext i
      exact Physics.c122_linear n (fun t => time.entry [t]) (fun t => f (t :: i)) (fun t => g (t :: i)) a b

theorem additive_bind {f g : Arr ℝ → Res (Arr ℝ)} (hf : Additive f) (hg : Additive g)
    (hs : ∀ x y u v, x.shape = y.shape → f x = .ok u → f y = .ok v → u.shape = v.shape)
    (he : ∀ x y e, x.shape = y.shape → f x = .error e → f y = .error e) :
    Additive (fun x => (f x).bind g) := by
  intro a b x y h
  simp only [hf a b x y h]
  cases hx : f x with
  | error e => rw [he x y e h hx]; rfl
  | ok u =>
    cases hy : f y with
    | error e => rw [he y x e h.symm hy] at hx; cases hx
    | ok v => exact hg a b u v (hs x y u v h hx hy)

theorem mul_left_shape (c : Arr ℝ) (x y u v : Arr ℝ) (h : x.shape = y.shape) (h1 : mul c x = .ok u) (h2 : mul c y = .ok v) :
    u.shape = v.shape := by
  simp only [mul, Arr.map2, ← h] at h1 h2
  cases hb : broadcastShape c.shape x.shape with
  | none => rw [hb] at h1; cases h1
  | some s => rw [hb] at h1 h2; cases h1; cases h2; rfl

theorem mul_right_shape (c : Arr ℝ) (x y u v : Arr ℝ) (h : x.shape = y.shape) (h1 : mul x c = .ok u) (h2 : mul y c = .ok v) :
    u.shape = v.shape := by
  simp only [mul, Arr.map2, ← h] at h1 h2
  cases hb : broadcastShape x.shape c.shape with
  | none => rw [hb] at h1; cases h1
  | some s => rw [hb] at h1 h2; cases h1; cases h2; rfl

theorem mul_left_error (c : Arr ℝ) (x y : Arr ℝ) (e : Err) (h : x.shape = y.shape) (h1 : mul c x = .error e) :
    mul c y = .error e := by
  simp only [mul, Arr.map2, ← h] at h1 ⊢
  cases hb : broadcastShape c.shape x.shape with
  | none => rw [hb] at h1; exact h1
  | some s => rw [hb] at h1; cases h1

theorem mul_right_error (c : Arr ℝ) (x y : Arr ℝ) (e : Err) (h : x.shape = y.shape) (h1 : mul x c = .error e) :
    mul y c = .error e := by
  simp only [mul, Arr.map2, ← h] at h1 ⊢
  cases hb : broadcastShape x.shape c.shape with
  | none => rw [hb] at h1; exact h1
  | some s => rw [hb] at h1; cases h1

/-- The sum over energies of the powers of speeds, as in `energy_density` and `average_energy`. -/
def moment (p : Nat) (v dv x : Arr ℝ) : Res (Arr ℝ) :=
  ((mul (v.map (· ^ p)) x).bind (fun z => mul z dv)).bind (reduceLast (fun n f => ∑ e ∈ Finset.range n, f e))

theorem additive_moment (p : Nat) (v dv : Arr ℝ) : Additive (moment p v dv) := by
  have h1 : Additive (fun x => (mul (v.map (· ^ p)) x).bind (fun z => mul z dv)) :=
    additive_bind (additive_mul_left _) (additive_mul_right dv) (mul_left_shape _) (mul_left_error _)
  refine additive_bind h1 (additive_reduce _ ?_) ?_ ?_
  · intro n a b u w
    rw [Finset.sum_add_distrib, Finset.mul_sum, Finset.mul_sum]
  · intro x y u w h hu hw
    cases hx : mul (v.map (· ^ p)) x with
    | error e => rw [hx] at hu; cases hu
    | ok x' =>
      cases hy : mul (v.map (· ^ p)) y with
      | error e => rw [hy] at hw; cases hw
      | ok y' =>
        rw [hx] at hu; rw [hy] at hw
        exact mul_right_shape dv x' y' u w (mul_left_shape _ x y _ _ h hx hy) hu hw
  · intro x y e h hx
    cases hx' : mul (v.map (· ^ p)) x with
    | error e' =>
      rw [hx'] at hx
      rw [mul_left_error _ x y e' h hx']
      exact hx
    | ok x' =>
      cases hy : mul (v.map (· ^ p)) y with
      | error e' => rw [mul_left_error _ y x e' h.symm hy] at hx'; cases hx'
      | ok y' =>
        rw [hx'] at hx
        exact mul_right_error dv x' y' e (mul_left_shape _ x y _ _ h hx' hy) hx

theorem energyDensity_moment (speed x : Arr ℝ) :
    energyDensityArr speed x = (gradientLast (atleast1 speed)).bind (fun dv =>
      (moment 4 (atleast1 speed) dv x).map (fun s => s.map (fun r => ((mks c!"mp" : ℚ) : ℝ) * r))) := by
  unfold energyDensityArr moment
  simp only [bind, Except.bind, pure, Except.pure]
  cases gradientLast (atleast1 speed) with
  | error e => rfl
  | ok dv =>
    simp only
    cases mul ((atleast1 speed).map (· ^ 4)) x with
    | error e => rfl
    | ok y =>
      simp only
      cases mul y dv with
      | error e => rfl
      | ok w =>
        simp only
        cases reduceLast (fun n f => ∑ e ∈ Finset.range n, f e) w <;> rfl

/-- **C260, energy density.** Of mixtures it is the mixture, for speeds and distributions of any shape. -/
theorem c260_energy_density (speed : Arr ℝ) : Additive (energyDensityArr speed) := by
  intro a b x y h
  simp only [energyDensity_moment]
  cases gradientLast (atleast1 speed) with
  | error e => rfl
  | ok dv =>
    simp only [Except.bind]
    rw [additive_moment 4 (atleast1 speed) dv a b x y h]
    cases moment 4 (atleast1 speed) dv x with
    | error e => rfl
    | ok u =>
      cases moment 4 (atleast1 speed) dv y with
      | error e => rfl
      | ok w =>
        simp only [mixed, mix, Except.map, Arr.map, Except.ok.injEq, Arr.mk.injEq, true_and]
        funext i
        ring

theorem Spec.Additive.proportional {f : Arr ℝ → Res (Arr ℝ)} (hf : Additive f) : Proportional f := by
  intro a _ x
  have h := hf a 0 x x rfl
  have e : mix a 0 x x = x.map (a * ·) := by simp [mix, Arr.map]
  rw [e] at h
  rw [h]
  cases f x with
  | error e => rfl
  | ok r => simp [mixed, mix, Except.map, Arr.map]

theorem averageEnergy_moment (speed x : Arr ℝ) :
    averageEnergyArr speed x = (gradientLast (atleast1 speed)).bind (fun dv =>
      (moment 2 (atleast1 speed) dv x).bind (fun norm =>
        (energyDensityArr (atleast1 speed) x).bind (fun eps => div (eps.map (1 / 2 * ·)) norm))) := by
  unfold averageEnergyArr moment
  simp only [bind, Except.bind]
  cases gradientLast (atleast1 speed) with
  | error e => rfl
  | ok dv =>
    simp only
    cases mul ((atleast1 speed).map (· ^ 2)) x with
    | error e => rfl
    | ok y =>
      simp only
      cases mul y dv <;> rfl

/-- **C260, average energy.** It does not depend on the number of particles, for speeds and distributions of any shape. -/
theorem c260_average_energy (speed x : Arr ℝ) (a : ℝ) (ha : 0 < a) :
    averageEnergyArr speed (x.map (a * ·)) = averageEnergyArr speed x := by
  simp only [averageEnergy_moment]
  cases gradientLast (atleast1 speed) with
  | error e => rfl
  | ok dv =>
    simp only [Except.bind]
    rw [(additive_moment 2 (atleast1 speed) dv).proportional a ha x, (c260_energy_density (atleast1 speed)).proportional a ha x]
    cases moment 2 (atleast1 speed) dv x with
    | error e => rfl
    | ok norm =>
      simp only [Except.map]
      cases energyDensityArr (atleast1 speed) x with
      | error e => rfl
      | ok eps =>
        simp only [div, Arr.map2, Arr.map]
        cases broadcastShape eps.shape norm.shape with
        | none => rfl
        | some s =>
          simp only [Except.ok.injEq, Arr.mk.injEq, true_and]
          funext i
          rw [mul_left_comm, mul_div_mul_left _ _ ha.ne']

/-! ## Integral flux -/

theorem simpson_linear (n : Nat) (x f g : Nat → ℝ) (a b : ℝ) :
    Physics.simpson n x (fun i => a * f i + b * g i) = a * Physics.simpson n x f + b * Physics.simpson n x g :=
  Physics.c122_linear n x f g a b

theorem getD_scale (a : ℝ) (l : List ℝ) : (fun i => (l.map (a * ·)).getD i 0) = fun i => a * l.getD i 0 := by
  funext i
  simp only [List.getD_eq_getElem?_getD, List.getElem?_map]
  cases l[i]? <;> simp

theorem simpsonList_scale (a : ℝ) (y x : List ℝ) :
    Physics.simpsonList (y.map (a * ·)) x = (Physics.simpsonList y x).map (a * ·) := by
  unfold Physics.simpsonList
  split_ifs
  · rfl
  · simp only [Except.map, Except.ok.injEq, getD_scale]
    simpa using simpson_linear x.length (x.getD · 0) (y.getD · 0) (y.getD · 0) a 0

theorem interpolate_scale {a : ℝ} (ha : 0 < a) (f x : List ℝ) (m : ℝ) :
    Physics.interpolate (f.map (a * ·)) x m = (Physics.interpolate f x m).map (fun p => (p.1.map (a * ·), p.2)) := by
  unfold Physics.interpolate
  cases Numerical.findNearest x m .upper with
  | error e => rfl
  | ok p =>
    obtain ⟨i, x0⟩ := p
    simp only [List.getElem?_map]
    cases f[i.toNat]? with
    | none => rfl
    | some f0 =>
      cases f[i.toNat + 1]? with
      | none => rfl
      | some f1 =>
        cases x[i.toNat + 1]? with
        | none => rfl
        | some x1 =>
          simp only [Option.map_some, Except.map, Except.ok.injEq, Prod.mk.injEq, and_true]
          rw [mul_div_mul_left _ _ ha.ne', mul_assoc, List.map_drop, List.map_set]

theorem integral_scale {a : ℝ} (ha : 0 < a) (e f : List ℝ) (lowest bound : ℝ) :
    Physics.integralFlux e (f.map (a * ·)) lowest bound = (Physics.integralFlux e f lowest bound).map (a * ·) := by
  unfold Physics.integralFlux
  simp only
  split_ifs
  · exact simpsonList_scale a f e
  · rw [interpolate_scale ha]
    cases Physics.interpolate f e (max bound Physics.floatMin) with
    | error e => rfl
    | ok p => exact simpsonList_scale a p.1 p.2

theorem mapM_map {α β γ : Type} (g : α → Res β) (h : β → γ) (l : List α) :
    l.mapM (fun i => (g i).map h) = (l.mapM g).map (List.map h) := by
  induction l with
  | nil => rfl
  | cons x l ih =>
    simp only [List.mapM_cons, ih]
    cases g x with
    | error e => rfl
    | ok y =>
      cases l.mapM g with
      | error e => rfl
      | ok ys => rfl

theorem integralEntry_scale {a : ℝ} (ha : 0 < a) (energies x : Arr ℝ) (species n : Nat) (bounds : List ℝ) (t k s i : Nat) :
    integralEntry energies (x.map (a * ·)) species n bounds t k s i
      = (integralEntry energies x species n bounds t k s i).map (a * ·) := by
  unfold integralEntry
  rw [← integral_scale ha]
  congr 1
  simp [series, Arr.map, List.map_map, Function.comp_def]

/-- **C260, integral flux.** It is proportional to the flux, for energies and fluxes of any shape and any minimum energies. -/
theorem c260_integral (energies : Arr ℝ) (bounds : List ℝ) :
    Proportional (fun flux => integralFluxArr energies flux bounds) := by
  intro a ha x
  simp only [integralFluxArr, integralEntry_scale ha, mapM_map]
  have hs : (x.map (a * ·)).shape = x.shape := rfl
  rw [hs]
  split
  · split_ifs
    · rfl
    · rfl
    · rename_i species n t k s n' _ _ _ _
      simp only [bind, Except.bind, pure, Except.pure]
      cases (List.range bounds.length).mapM (fun i => (List.range species).mapM (fun j =>
        (List.range t).mapM (fun a => (List.range k).mapM (fun b => integralEntry energies x species n bounds a b j i)))) with
      | error e => rfl
      | ok r =>
        simp only [Except.map, Arr.map, Except.ok.injEq, Arr.mk.injEq, true_and]
        funext idx
        split
        · split_ifs
          · rename_i a' b' j' i' _
            cases integralEntry energies x species n bounds a' b' j' i' <;> simp
          · simp
        · simp
  · rfl

/-- **C260.** Twice the particles: twice the flux, fluence, energy density and integral flux, and the same average energy. -/
theorem c260_proportional (energy speed time : Arr ℝ) (bounds : List ℝ) :
    Proportional isotropicArr ∧ Proportional (fluxArr energy) ∧ Proportional (fun f => fluenceArr f time) ∧
    Proportional (energyDensityArr speed) ∧ Proportional (fun f => integralFluxArr energy f bounds) ∧
    ∀ (a : ℝ), 0 < a → ∀ x : Arr ℝ, averageEnergyArr speed (x.map (a * ·)) = averageEnergyArr speed x :=
  ⟨c260_isotropic.proportional, (c260_flux energy).proportional, (c260_fluence time).proportional,
    (c260_energy_density speed).proportional, c260_integral energy bounds, fun a ha x => c260_average_energy speed x a ha⟩

/-- Distributions of 1 and of 3, at two pitch angles. -/
example : isotropicArr (mix 1 2 ⟨[2], fun _ => 1⟩ ⟨[2], fun _ => 3⟩) = .ok (mix 1 2 ⟨[], fun _ => 1⟩ ⟨[], fun _ => 3⟩) := by
  rw [c260_isotropic 1 2 ⟨[2], fun _ => 1⟩ ⟨[2], fun _ => 3⟩ rfl]
  simp [isotropicArr, reduceLast, Physics.isotropic, mixed, mix, Finset.sum_const]

/-! ## C261: integral fluxes of populations -/

/-- The integral fluxes of two series add up. -/
theorem simpsonList_add (y z x : List ℝ) (hl : y.length = z.length) :
    Physics.simpsonList (List.zipWith (· + ·) y z) x
      = (Physics.simpsonList y x).bind (fun r => (Physics.simpsonList z x).map (fun s => r + s)) := by
  unfold Physics.simpsonList
  split_ifs
  · rfl
  · simp only [Except.map, Except.bind, Except.ok.injEq]
    have e : (fun i => (List.zipWith (· + ·) y z).getD i 0) = fun i => 1 * y.getD i 0 + 1 * z.getD i 0 := by
      funext i
      simp only [List.getD_eq_getElem?_getD, List.getElem?_zipWith, one_mul]
      by_cases h : i < y.length
      · rw [List.getElem?_eq_getElem h, List.getElem?_eq_getElem (by omega)]; simp
      · rw [List.getElem?_eq_none (by omega), List.getElem?_eq_none (by omega)]; simp
    rw [e, simpson_linear]
    ring

/-- **C261, what holds.** The integral fluxes of two populations add up to that of both, if the minimum energy is below the energies of
all species or is one of the energies, but not the last. -/
theorem c261_partial (e f g : List ℝ) (lowest bound : ℝ) (he : e.Pairwise (· < ·)) (hf : f.length = e.length)
    (hg : g.length = e.length) (hb : Physics.floatMin ≤ bound)
    (h : bound < lowest ∨ ∃ k, ∃ hk : k + 1 < e.length, e[k] = bound) :
    Physics.integralFlux e (List.zipWith (· + ·) f g) lowest bound
      = (Physics.integralFlux e f lowest bound).bind
          (fun r => (Physics.integralFlux e g lowest bound).map (fun s => r + s)) := by
  unfold Physics.integralFlux
  simp only [max_eq_left hb]
  split_ifs with hlt
  · exact simpsonList_add f g e (hf.trans hg.symm)
  · obtain ⟨k, hk, rfl⟩ := h.resolve_left hlt
    have hne : e[k] ≠ 0 := by
      have : (0 : ℝ) < Physics.floatMin := by unfold Physics.floatMin; positivity
      linarith
    have hz : (List.zipWith (· + ·) f g).length = e.length := by simp [hf, hg]
    simp only [Physics.c124_on_grid _ e he hz k hk hne, Physics.c124_on_grid _ e he hf k hk hne,
      Physics.c124_on_grid _ e he hg k hk hne]
    rw [List.drop_zipWith]
    exact simpsonList_add _ _ _ (by simp [hf, hg])

/-- Energies 1, 2 and 3, minimum 2. -/
example : Physics.integralFlux [1, 2, 3] [1 + 4, 2 + 5, 3 + 6] 1 2
    = (Physics.integralFlux [1, 2, 3] [1, 2, 3] 1 2).bind
        (fun r => (Physics.integralFlux [1, 2, 3] [4, 5, 6] 1 2).map (fun s => r + s)) := by
  have hm : Physics.floatMin ≤ 2 := le_trans Physics.floatMin_le_half (by norm_num)
  exact c261_partial [1, 2, 3] [1, 2, 3] [4, 5, 6] 1 2 (by simp; norm_num) rfl rfl hm (.inr ⟨1, by simp, by simp⟩)

/-- **C261 fails in the code** for a minimum energy between two energies: a power law is fitted to the sum, and sums of power laws are
none. Fluxes of 1, 1 and of 1, 7 at the energies 1 and 4 give 2 and `7 + √7` above 2, and 12 together. -/
theorem c261_counterexample : ∃ (e f g : List ℝ) (bound r s t : ℝ), e.Pairwise (· < ·) ∧ (∀ u ∈ f ++ g, 0 < u) ∧ 0 < bound ∧
    Physics.integralFlux e f 1 bound = .ok r ∧ Physics.integralFlux e g 1 bound = .ok s ∧
    Physics.integralFlux e (List.zipWith (· + ·) f g) 1 bound = .ok t ∧ r + s < t := by
  have hm : Physics.floatMin ≤ 2 := le_trans Physics.floatMin_le_half (by norm_num)
  have key : ∀ f0 f1 : ℝ, Physics.integralFlux [1, 4] [f0, f1] 1 2
      = .ok (f0 * 2 ^ (Real.log (f1 / f0) / Real.log 4) + f1) := by
    intro f0 f1
    obtain ⟨i, hi, hle, hmax, -, h⟩ := Physics.interpolate_at [f0, f1] [1, 4] 2 (by simp) rfl ⟨1, by simp, by norm_num⟩
    obtain ⟨hi1, hlt, h⟩ := h ⟨4, by simp, by norm_num⟩
    have : i = 0 := by simp at hi1; omega
    subst this
    unfold Physics.integralFlux
    simp only [max_eq_left hm]
    rw [if_neg (by norm_num), h]
    simp [Physics.simpsonList, Physics.simpson, Physics.panels]
    ring
  have hlog : Real.log 4 = 2 * Real.log 2 := by
    rw [show (4 : ℝ) = 2 ^ 2 by norm_num, Real.log_pow]; norm_num
  have hl2 : Real.log 2 ≠ 0 := (Real.log_pos (by norm_num)).ne'
  refine ⟨[1, 4], [1, 1], [1, 7], 2, _, _, _, by simp, by simp, by norm_num, key _ _, key _ _,
    by simpa using key (1 + 1) (1 + 7), ?_⟩
  have h1 : Real.log ((1 : ℝ) / 1) / Real.log 4 = 0 := by simp
  have h2 : Real.log ((1 + 7 : ℝ) / (1 + 1)) / Real.log 4 = 1 := by
    rw [show (1 + 7 : ℝ) / (1 + 1) = 4 by norm_num, div_self]
    rw [hlog]; positivity
  have h3 : (2 : ℝ) ^ (Real.log ((7 : ℝ) / 1) / Real.log 4) < 3 := by
    have : (2 : ℝ) ^ (Real.log ((7 : ℝ) / 1) / Real.log 4) = √7 := by
      rw [Real.rpow_def_of_pos (by norm_num), hlog, Real.sqrt_eq_rpow, Real.rpow_def_of_pos (by norm_num), div_one]
      congr 1
      field_simp
    rw [this]
    rw [Real.sqrt_lt' (by norm_num)]
    norm_num
  rw [h1, h2]
  norm_num at h3 ⊢
  linarith

end

end Verif.Shapes
