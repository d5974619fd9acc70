import Verif.Shapes.Lemmas

/-!
# Computed arrays
-/

set_option linter.unusedSimpArgs false

namespace Verif.Shapes

open Verif.Py Real
open Verif.Physics (mks)

/-- **C149, flux.** For all sizes and data: the flux at a time, shell, species and energy is computed from the energy of that
species and the distribution at that place. -/
theorem c149_flux {T N S E : Nat} (energy iso : Arr ℝ) (h1 : energy.shape = [S, E]) (h2 : iso.shape = [T, N, S, E]) :
    ∃ a, fluxArr energy iso = .ok a ∧ a.shape = [T, N, S, E] ∧ ∀ t < T, ∀ n < N, ∀ s < S, ∀ e < E,
      a.entry [t, n, s, e] = Physics.flux (energy.entry [s, e]) (iso.entry [t, n, s, e]) := by
  have h : atleast1 energy = energy := by simp [atleast1, h1]
  refine ⟨_, map2_ok _ _ _ (s := [T, N, S, E]) ?_, rfl, ?_⟩
  · simp only [Arr.map, h, h1, h2, broadcast_24]
  · intro t ht n hn s hs e he
    simp only [Arr.map, h, h1, h2, locate_24 _ _ hs he, locate_four ht hn hs he, Physics.flux]

/-- What element-wise functions of equal shapes are reduced with. -/
theorem elementwise_two {T N : Nat} (f : ℝ → ℝ → ℝ) (f1 f2 : List Nat → ℝ) :
    Arr.map2 f ⟨[T, N], f1⟩ ⟨[T, N], f2⟩
      = .ok ⟨[T, N], fun i => f (f1 (locate [T, N] i)) (f2 (locate [T, N] i))⟩ :=
  map2_ok _ _ _ (broadcast_self _)

/-- **C149, positions.** For all sizes and data: `x`, `y`, `z` at a time and shell are the coordinates of the point there. -/
theorem c149_positions {T N : Nat} (r theta phi : Arr ℝ) (h1 : r.shape = [T, N]) (h2 : theta.shape = [T, N])
    (h3 : phi.shape = [T, N]) :
    ∃ x y z, planeArr cos r theta phi = .ok x ∧ planeArr sin r theta phi = .ok y ∧ zArr r theta = .ok z ∧
      x.shape = [T, N] ∧ y.shape = [T, N] ∧ z.shape = [T, N] ∧ ∀ t < T, ∀ n < N,
        x.entry [t, n] = Physics.x (r.entry [t, n]) (theta.entry [t, n]) (phi.entry [t, n]) ∧
        y.entry [t, n] = Physics.y (r.entry [t, n]) (theta.entry [t, n]) (phi.entry [t, n]) ∧
        z.entry [t, n] = Physics.z (r.entry [t, n]) (theta.entry [t, n]) := by
  obtain ⟨s1, f1⟩ := r
  obtain ⟨s2, f2⟩ := theta
  obtain ⟨s3, f3⟩ := phi
  simp only at h1 h2 h3
  subst h1 h2 h3
  simp only [planeArr, zArr, mul, Arr.map, elementwise_two, bind, Except.bind, pure, Except.pure]
  refine ⟨_, _, _, rfl, rfl, rfl, rfl, rfl, rfl, ?_⟩
  intro t ht n hn
  simp only [locate_two ht hn, Physics.x, Physics.y, Physics.z, and_self]

/-- **C149, fields.** For all sizes and data: magnitudes, components and flow angle at a time and shell are computed from the
fields there. -/
theorem c149_fields {T N : Nat} (br bt bp vr vt vp : Arr ℝ) (h1 : br.shape = [T, N]) (h2 : bt.shape = [T, N])
    (h3 : bp.shape = [T, N]) (h4 : vr.shape = [T, N]) (h5 : vt.shape = [T, N]) (h6 : vp.shape = [T, N]) :
    ∃ b v bv para perp angle, magArr br bt bp = .ok b ∧ magArr vr vt vp = .ok v ∧ bvMagArr br bt bp vr vt vp = .ok bv ∧
      vParaArr vr vt vp br bt bp = .ok para ∧ vPerpArr vr vt vp br bt bp = .ok perp ∧
      flowAngleArr br bt bp vr vt vp = .ok angle ∧ (∀ a ∈ [b, v, bv, para, perp, angle], a.shape = [T, N]) ∧
      ∀ t < T, ∀ n < N,
        b.entry [t, n] = Physics.mag (br.entry [t, n]) (bt.entry [t, n]) (bp.entry [t, n]) ∧
        v.entry [t, n] = Physics.mag (vr.entry [t, n]) (vt.entry [t, n]) (vp.entry [t, n]) ∧
        bv.entry [t, n] = Physics.bvMag (br.entry [t, n]) (bt.entry [t, n]) (bp.entry [t, n]) (vr.entry [t, n])
          (vt.entry [t, n]) (vp.entry [t, n]) ∧
        para.entry [t, n] = Physics.vPara (vr.entry [t, n]) (vt.entry [t, n]) (vp.entry [t, n]) (br.entry [t, n])
          (bt.entry [t, n]) (bp.entry [t, n]) ∧
        perp.entry [t, n] = Physics.vPerp (vr.entry [t, n]) (vt.entry [t, n]) (vp.entry [t, n]) (br.entry [t, n])
          (bt.entry [t, n]) (bp.entry [t, n]) ∧
        angle.entry [t, n] = Physics.flowAngle (br.entry [t, n]) (bt.entry [t, n]) (bp.entry [t, n]) (vr.entry [t, n])
          (vt.entry [t, n]) (vp.entry [t, n]) := by
  obtain ⟨s1, f1⟩ := br
  obtain ⟨s2, f2⟩ := bt
  obtain ⟨s3, f3⟩ := bp
  obtain ⟨s4, f4⟩ := vr
  obtain ⟨s5, f5⟩ := vt
  obtain ⟨s6, f6⟩ := vp
  simp only at h1 h2 h3 h4 h5 h6
  subst h1 h2 h3 h4 h5 h6
  simp only [magArr, bvMagArr, vParaArr, vPerpArr, flowAngleArr, add, sub, mul, div, Arr.map, elementwise_two, bind,
    Except.bind, pure, Except.pure]
  refine ⟨_, _, _, _, _, _, rfl, rfl, rfl, rfl, rfl, rfl, ?_, ?_⟩
  · intro a ha
    simp only [List.mem_cons, List.not_mem_nil, or_false] at ha
    rcases ha with rfl | rfl | rfl | rfl | rfl | rfl <;> rfl
  · intro t ht n hn
    simp only [locate_two ht hn, Physics.mag, Physics.bvMag, Physics.vPara, Physics.vPerp, Physics.flowAngle, and_self]

/-- **C149, density ratio.** For all sizes and data: the ratio at a time and shell is to the density of that shell at the first
time. -/
theorem c149_density_ratio {T N : Nat} (rho : Arr ℝ) (hT : 0 < T) (h : rho.shape = [T, N]) :
    ∃ a, densityRatioArr rho = .ok a ∧ a.shape = [T, N] ∧ ∀ t < T, ∀ n < N,
      a.entry [t, n] = Physics.densityRatio (fun k => rho.entry [k, n]) t := by
  obtain ⟨s, f⟩ := rho
  simp only at h
  subst h
  have h0 : first (⟨[T, N], f⟩ : Arr ℝ) = .ok ⟨[N], fun i => f (0 :: i)⟩ := by
    cases T with
    | zero => omega
    | succ T => rfl
  simp only [densityRatioArr, h0, bind, Except.bind, div, Arr.map2, broadcast_21]
  refine ⟨_, rfl, rfl, ?_⟩
  intro t ht n hn
  simp only [locate_two ht hn, locate_12 _ hn, Physics.densityRatio]

/-- **C149, divergence.** For all sizes (two times or more) and data: the divergence at a time and shell is computed from the
densities of that shell. -/
theorem c149_divergence {T N : Nat} (rho time : Arr ℝ) (hT : 2 ≤ T) (h1 : rho.shape = [T, N]) (h2 : time.shape = [T]) :
    ∃ a, divVArr rho time = .ok a ∧ a.shape = [T, N] ∧ ∀ t < T, ∀ n < N,
      Physics.divV T (fun k => rho.entry [k, n]) (fun k => time.entry [k]) t = .ok (a.entry [t, n]) := by
  simp only [divVArr, h1, h2, ne_eq, not_true_eq_false, if_false, show ¬ T < 2 by omega]
  refine ⟨_, rfl, rfl, ?_⟩
  intro t ht n hn
  simp only [List.tail_cons, List.getD_cons_zero]
  have : ∃ x, Physics.divV T (fun k => rho.entry [k, n]) (fun k => time.entry [k]) t = .ok x := by
    unfold Physics.divV Physics.gradientAt
    rw [if_neg (by omega)]
    split
    · exact ⟨_, rfl⟩
    · split <;> exact ⟨_, rfl⟩
  obtain ⟨x, hx⟩ := this
  rw [hx]

/-- **C149, fluence.** For all sizes (at least one time) and data: the fluence at a shell, species and energy is computed
from the fluxes there. -/
theorem c149_fluence {T N S E : Nat} (flux time : Arr ℝ) (hT : 0 < T) (h1 : flux.shape = [T, N, S, E])
    (h2 : time.shape = [T]) :
    ∃ a, fluenceArr flux time = .ok a ∧ a.shape = [N, S, E] ∧ ∀ n < N, ∀ s < S, ∀ e < E,
      a.entry [n, s, e] = Physics.fluence T (fun t => flux.entry [t, n, s, e]) (fun t => time.entry [t]) := by
  simp only [fluenceArr, h1, h2, ne_eq, not_true_eq_false, if_false, show ¬ T = 0 by omega]
  refine ⟨_, rfl, rfl, ?_⟩
  intro n hn s hs e he
  rfl

/-- **C149, isotropic distribution.** For all sizes and data: the average is over the pitch angles at a place. -/
theorem c149_isotropic {T N S E M : Nat} (dist : Arr ℝ) (h : dist.shape = [T, N, S, E, M]) :
    ∃ a, isotropicArr dist = .ok a ∧ a.shape = [T, N, S, E] ∧ ∀ t < T, ∀ n < N, ∀ s < S, ∀ e < E,
      a.entry [t, n, s, e] = Physics.isotropic M (fun k => dist.entry [t, n, s, e, k]) := by
  refine ⟨⟨[T, N, S, E], fun i => Physics.isotropic M (fun k => dist.entry (i ++ [k]))⟩, ?_, rfl, ?_⟩
  · simp only [isotropicArr, reduceLast, h, List.getLast?_cons_cons, List.getLast?_singleton, List.dropLast_cons_cons,
      List.dropLast_singleton]
  · intro t _ n _ s _ e _
    simp

/-- **C149, energies.** For all sizes (two energies or more) and data: energy density and average energy at a time, shell and
species are computed from the speeds of that species and the distribution at that place. -/
theorem c149_energy {T N S E : Nat} (speed iso : Arr ℝ) (hE : 2 ≤ E) (h1 : speed.shape = [S, E])
    (h2 : iso.shape = [T, N, S, E]) :
    ∃ a b, energyDensityArr speed iso = .ok a ∧ averageEnergyArr speed iso = .ok b ∧
      a.shape = [T, N, S] ∧ b.shape = [T, N, S] ∧ ∀ t < T, ∀ n < N, ∀ s < S,
      Physics.energyDensity ((mks c!"mp" : ℚ) : ℝ) E (fun e => speed.entry [s, e]) (fun e => iso.entry [t, n, s, e])
        = .ok (a.entry [t, n, s]) ∧
      Physics.averageEnergy ((mks c!"mp" : ℚ) : ℝ) E (fun e => speed.entry [s, e]) (fun e => iso.entry [t, n, s, e])
        = .ok (b.entry [t, n, s]) := by
  obtain ⟨s1, f1⟩ := speed
  obtain ⟨s2, f2⟩ := iso
  simp only at h1 h2
  subst h1 h2
  have h : atleast1 (⟨[S, E], f1⟩ : Arr ℝ) = ⟨[S, E], f1⟩ := by simp [atleast1]
  have l4 : ([T, N, S, E] : List Nat).getLast? = some E := rfl
  have l2 : ([S, E] : List Nat).getLast? = some E := rfl
  have d4 : ([T, N, S, E] : List Nat).dropLast = [T, N, S] := rfl
  simp only [averageEnergyArr, energyDensityArr, h, gradientLast, alongLast, reduceLast, mul, div, Arr.map2, Arr.map,
    broadcast_24, broadcast_42, broadcast_self, l2, l4, d4, show ¬ E < 2 by omega, if_false, bind, Except.bind, pure,
    Except.pure]
  refine ⟨_, _, rfl, rfl, rfl, rfl, ?_⟩
  intro t ht n hn s hs
  have e1 : ∀ (a b : Nat), ([a, b] : List Nat).dropLast = [a] := fun _ _ => rfl
  have e2 : ∀ (a b : Nat), ([a, b] : List Nat).getLast?.getD 0 = b := fun _ _ => rfl
  have key : ∀ (p : Nat), ∑ e ∈ Finset.range E, (f1 (locate [S, E] (locate [T, N, S, E] ([t, n, s] ++ [e]))) ^ p
      * f2 (locate [T, N, S, E] (locate [T, N, S, E] ([t, n, s] ++ [e]))))
      * Physics.steps E (fun k => f1 ((locate [S, E] ([t, n, s] ++ [e])).dropLast ++ [k]))
          ((locate [S, E] ([t, n, s] ++ [e])).getLast?.getD 0)
      = ∑ e ∈ Finset.range E, f1 [s, e] ^ p * f2 [t, n, s, e] * Physics.steps E (fun k => f1 [s, k]) e := by
    intro p
    refine Finset.sum_congr rfl fun e he => ?_
    have he := Finset.mem_range.1 he
    simp only [List.cons_append, List.nil_append, locate_four ht hn hs he, locate_24 _ _ hs he, e1, e2]
  have hE' : ¬ E < 2 := by omega
  constructor
  · simp only [Physics.energyDensity, hE', if_false, key]
  · simp only [Physics.averageEnergy, Physics.energyDensity, hE', if_false, key, Except.map, locate_three ht hn hs]

/-- **C149, energies, of one energy.** For all data: with fewer than two energies both raise `ValueError`, as computing from the values
of any place does. -/
theorem c149_single_energy {S E : Nat} (speed iso : Arr ℝ) (hE : E < 2) (h1 : speed.shape = [S, E]) (v f : Nat → ℝ) :
    energyDensityArr speed iso = .error .valueError ∧ averageEnergyArr speed iso = .error .valueError ∧
    Physics.energyDensity ((mks c!"mp" : ℚ) : ℝ) E v f = .error .valueError ∧
    Physics.averageEnergy ((mks c!"mp" : ℚ) : ℝ) E v f = .error .valueError := by
  have h : atleast1 speed = speed := by simp [atleast1, h1]
  have l2 : ([S, E] : List Nat).getLast? = some E := rfl
  refine ⟨?_, ?_, ?_, ?_⟩
  · simp only [energyDensityArr, gradientLast, h, h1, l2, hE, if_true, bind, Except.bind]
  · simp only [averageEnergyArr, gradientLast, h, h1, l2, hE, if_true, bind, Except.bind]
  · simp only [Physics.energyDensity, hE, if_true]
  · simp only [Physics.averageEnergy, Physics.energyDensity, hE, if_true, Except.map]

/-- Ten species with one energy each. -/
example : energyDensityArr ⟨[10, 1], fun _ => 1⟩ ⟨[5, 3, 10, 1], fun _ => 1⟩ = .error .valueError :=
  (c149_single_energy _ _ (by decide) rfl (fun _ => 1) (fun _ => 1)).1

/-- **C149, acceleration rate.** For all sizes and data: the rate at a time, shell, species and energy is computed from the flow
along the shells at that time, the mean free paths of that species and energy, and the speed of that species and energy. -/
theorem c149_acceleration {T N S E : Nat} (vr vt vp vparticle angle mfp : Arr ℝ) (kper : ℝ) (hN : 0 < N)
    (h1 : vr.shape = [T, N]) (h2 : vt.shape = [T, N]) (h3 : vp.shape = [T, N]) (h4 : vparticle.shape = [S, E])
    (h5 : angle.shape = [T, N]) (h6 : mfp.shape = [T, N, S, E]) :
    ∃ a, accelerationArr vr vt vp vparticle angle mfp kper = .ok a ∧ a.shape = [T, N, S, E] ∧
      ∀ t < T, ∀ n < N, ∀ s < S, ∀ e < E, a.entry [t, n, s, e] =
        Physics.accelerationRate N (fun k => vr.entry [t, k]) (fun k => vt.entry [t, k]) (fun k => vp.entry [t, k])
          (fun k => angle.entry [t, k]) (fun k => mfp.entry [t, k, s, e]) (vparticle.entry [s, e]) kper n := by
  obtain ⟨s1, f1⟩ := vr
  obtain ⟨s2, f2⟩ := vt
  obtain ⟨s3, f3⟩ := vp
  obtain ⟨s4, f4⟩ := vparticle
  obtain ⟨s5, f5⟩ := angle
  obtain ⟨s6, f6⟩ := mfp
  simp only at h1 h2 h3 h4 h5 h6
  subst h1 h2 h3 h4 h5 h6
  have pk : ∀ (idx : Nat → Nat → Nat) (s : List Nat) (f : List Nat → ℝ), pick idx ⟨T :: N :: s, f⟩
      = .ok ⟨T :: N :: s, fun i => f (i.set 1 (idx N (i.getD 1 0)))⟩ := fun idx s f => pick_ok idx _ rfl hN
  have tr : ∀ (k l m n : Nat) (f : List Nat → ℝ), transpose forward ⟨[k, l, m, n], f⟩
      = .ok ⟨[m, n, k, l], fun i => f [i.getD 2 0, i.getD 3 0, i.getD 0 0, i.getD 1 0]⟩ :=
    fun k l m n f => transpose_ok _ rfl
  simp only [accelerationArr, add, mul, div, magArr, aheadArr, behindArr, Arr.map2, Arr.map, outer, pk, tr,
      broadcast_self, broadcast_42, broadcast_24, bind, Except.bind, pure, Except.pure, List.cons_append, List.nil_append]
  refine ⟨_, rfl, rfl, ?_⟩
  intro t ht n hn s hs e he
  have ha := ahead_lt hn
  have hb := behind_lt hn
  have e0 : ∀ (a b : Nat) (l : List Nat) (d : Nat), (a :: b :: l).getD 1 d = b := fun _ _ _ _ => rfl
  have e1 : ∀ (a b c : Nat) (l : List Nat), (a :: b :: l).set 1 c = a :: c :: l := fun _ _ _ _ => rfl
  have e2 : ∀ (a b : Nat) (l : List Nat) (d : Nat), (a :: b :: l).getD 0 d = a := fun _ _ _ _ => rfl
  have e3 : ∀ (a b c : Nat) (l : List Nat) (d : Nat), (a :: b :: c :: l).getD 2 d = c := fun _ _ _ _ _ => rfl
  have e4 : ∀ (a b c e : Nat) (l : List Nat) (d : Nat), (a :: b :: c :: e :: l).getD 3 d = e := fun _ _ _ _ _ _ => rfl
  have e5 : ∀ (a b c d : Nat), [a, b, c, d].take [T, N].length = [a, b] := fun _ _ _ _ => rfl
  have e6 : ∀ (a b c d : Nat), [a, b, c, d].drop [T, N].length = [c, d] := fun _ _ _ _ => rfl
  simp only [e0, e1, e2, e3, e4, locate_two ht hn, locate_two ht ha, locate_two ht hb, locate_four ht hn hs he,
    locate_four ht ha hs he, locate_four ht hb hs he, locate_four hs he ht hn, locate_four hs he ht ha,
    locate_four hs he ht hb, locate_24 _ _ ht hn, locate_24 _ _ ht ha, locate_24 _ _ ht hb, e5, e6,
    Physics.accelerationRate, Physics.ahead, Physics.behind, Physics.mag]
  by_cases c1 : n + 1 < N <;> simp only [c1, if_true, if_false] <;> by_cases c2 : n = 0 <;>
    simp only [c2, if_true, if_false]

/-- Arrays of two times, three shells, two species and four energies, with different entries. -/
example : ∃ energy iso a : Arr ℝ, energy.shape = [2, 4] ∧ iso.shape = [2, 3, 2, 4] ∧ fluxArr energy iso = .ok a ∧
    a.entry [1, 2, 1, 3] = Physics.flux 5 7 := by
  let energy : Arr ℝ := ⟨[2, 4], fun i => if i = [1, 3] then 5 else 1⟩
  let iso : Arr ℝ := ⟨[2, 3, 2, 4], fun i => if i = [1, 2, 1, 3] then 7 else 1⟩
  obtain ⟨a, h1, _, h3⟩ := c149_flux (T := 2) (N := 3) (S := 2) (E := 4) energy iso rfl rfl
  refine ⟨energy, iso, a, rfl, rfl, h1, ?_⟩
  rw [h3 1 (by omega) 2 (by omega) 1 (by omega) 3 (by omega)]
  simp [energy, iso]

end Verif.Shapes
