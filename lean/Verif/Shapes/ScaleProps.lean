import Verif.Physics.FieldProps
import Verif.Physics.SumProps

/-!
# Computed quantities in other metric systems

An observer with another metric system hands the functions of `computed.py` numbers in the units of that system, and labels
the result with the unit of that system. For units of length, mass, time and magnetic field that are smaller by the factors
`L`, `M`, `T` and `B`, the numbers of every quantity are greater by the product of powers of these factors that belongs to
its dimension.
-/

set_option linter.unusedSimpArgs false

namespace Verif.Shapes

open Verif.Py Verif.Physics Real

theorem sqrt_scale {k : ℝ} (hk : 0 < k) (x : ℝ) : √(k ^ 2 * x) = k * √x := by
  rw [Real.sqrt_mul (by positivity), Real.sqrt_sq hk.le]

theorem mag_scale {k : ℝ} (hk : 0 < k) (a b c : ℝ) : mag (k * a) (k * b) (k * c) = k * mag a b c := by
  unfold mag
  rw [← sqrt_scale hk]
  congr 1; ring

theorem vPara_scale {B V : ℝ} (hB : 0 < B) (_hV : 0 < V) (vr vt vp br bt bp : ℝ) :
    vPara (V * vr) (V * vt) (V * vp) (B * br) (B * bt) (B * bp) = V * vPara vr vt vp br bt bp := by
  unfold vPara
  rw [mag_scale hB, show B * br * (V * vr) + B * bt * (V * vt) + B * bp * (V * vp)
    = B * (V * (br * vr + bt * vt + bp * vp)) by ring, mul_div_mul_left _ _ hB.ne', mul_div_assoc]

theorem vPerp_scale {B V : ℝ} (hB : 0 < B) (hV : 0 < V) (vr vt vp br bt bp : ℝ) :
    vPerp (V * vr) (V * vt) (V * vp) (B * br) (B * bt) (B * bp) = V * vPerp vr vt vp br bt bp := by
  unfold vPerp
  simp only [mag_scale hV, vPara_scale hB hV]
  rw [← sqrt_scale hV]
  congr 1; ring

theorem gradient_scale {T : ℝ} (hT : 0 < T) (d : ℝ) (n : Nat) (f t : Nat → ℝ) (i : Nat) :
    gradientAt n (fun j => d + f j) (fun j => T * t j) i = (gradientAt n f t i).map (fun g => g / T) := by
  unfold gradientAt
  split
  · rfl
  split
  · simp only [Except.map]
    congr 1
    rw [show d + f 1 - (d + f 0) = f 1 - f 0 by ring, show T * t 1 - T * t 0 = (t 1 - t 0) * T by ring, div_mul_eq_div_div]
  split
  · simp only [Except.map]
    congr 1
    rw [show d + f i - (d + f (i - 1)) = f i - f (i - 1) by ring,
      show T * t i - T * t (i - 1) = (t i - t (i - 1)) * T by ring, div_mul_eq_div_div]
  · simp only [Except.map]
    congr 1
    rw [show T * t i - T * t (i - 1) = T * (t i - t (i - 1)) by ring,
      show T * t (i + 1) - T * t i = T * (t (i + 1) - t i) by ring]
    set h := t i - t (i - 1)
    set k := t (i + 1) - t i
    rw [show (T * h) ^ 2 * (d + f (i + 1)) + ((T * k) ^ 2 - (T * h) ^ 2) * (d + f i) - (T * k) ^ 2 * (d + f (i - 1))
      = T ^ 2 * (h ^ 2 * f (i + 1) + (k ^ 2 - h ^ 2) * f i - k ^ 2 * f (i - 1)) by ring,
      show T * h * (T * k) * (T * h + T * k) = T ^ 2 * (h * k * (h + k) * T) by ring,
      mul_div_mul_left _ _ (by positivity), div_mul_eq_div_div]

theorem divV_scale {T D : ℝ} (hT : 0 < T) (hD : 0 < D) (n : Nat) (rho time : Nat → ℝ) (hr : ∀ j, 0 < rho j) (i : Nat) :
    divV n (fun j => D * rho j) (fun j => T * time j) i = (divV n rho time i).map (fun g => g / T) := by
  unfold divV
  have : (fun j => log (D * rho j)) = fun j => log D + log (rho j) := by
    funext j; rw [Real.log_mul hD.ne' (hr j).ne']
  rw [this, gradient_scale hT]
  cases gradientAt n (fun j => log (rho j)) time i with
  | error e => rfl
  | ok g => simp only [Except.map]; congr 1; ring

theorem acceleration_scale {V : ℝ} (hV : 0 < V) (L : ℝ) (n : Nat) (vr vt vp angle mfp : Nat → ℝ) (u kper : ℝ) (i : Nat) :
    accelerationRate n (fun j => V * vr j) (fun j => V * vt j) (fun j => V * vp j) angle (fun j => L * mfp j) (V * u) kper i
      = V / L * accelerationRate n vr vt vp angle mfp u kper i := by
  have ha : ∀ (k : ℝ) (f : Nat → ℝ), ahead n (fun j => k * f j) i = k * ahead n f i := by
    intro k f; unfold ahead; split <;> rfl
  have hb : ∀ (k : ℝ) (f : Nat → ℝ), behind (fun j => k * f j) i = k * behind f i := by
    intro k f; unfold behind; split <;> rfl
  have e1 : (fun j => L * mfp j * ((cos (angle j) ^ 2 + kper * sin (angle j) ^ 2) * (V * u) / 3)
      / mag (V * vr j) (V * vt j) (V * vp j))
      = fun j => L * (mfp j * ((cos (angle j) ^ 2 + kper * sin (angle j) ^ 2) * u / 3) / mag (vr j) (vt j) (vp j)) := by
    funext j
    rw [mag_scale hV, show L * mfp j * ((cos (angle j) ^ 2 + kper * sin (angle j) ^ 2) * (V * u) / 3)
      = V * (L * (mfp j * ((cos (angle j) ^ 2 + kper * sin (angle j) ^ 2) * u / 3))) by ring,
      mul_div_mul_left _ _ hV.ne', mul_div_assoc]
  have e2 : (fun j => mag (V * vr j) (V * vt j) (V * vp j)) = fun j => V * mag (vr j) (vt j) (vp j) := by
    funext j; exact mag_scale hV _ _ _
  unfold accelerationRate
  simp only [e1]
  simp only [e2, ha, hb]
  generalize hd : ahead n vr i * behind vr i + ahead n vt i * behind vt i + ahead n vp i * behind vp i = dot
  generalize hv : ahead n (fun j => mag (vr j) (vt j) (vp j)) i = v1
  generalize hx : ahead n (fun j => mfp j * ((cos (angle j) ^ 2 + kper * sin (angle j) ^ 2) * u / 3)
    / mag (vr j) (vt j) (vp j)) i = x1
  generalize hy : behind (fun j => mfp j * ((cos (angle j) ^ 2 + kper * sin (angle j) ^ 2) * u / 3)
    / mag (vr j) (vt j) (vp j)) i = x0
  rw [show V * ahead n vr i * (V * behind vr i) + V * ahead n vt i * (V * behind vt i) + V * ahead n vp i * (V * behind vp i)
    = V ^ 2 * dot by rw [← hd]; ring, show V * v1 * (V * v1) = V ^ 2 * (v1 * v1) by ring,
    mul_div_mul_left _ _ (by positivity), show 3 * (L * x1 + L * x0) = L * (3 * (x1 + x0)) by ring,
    mul_assoc V, mul_div_mul_comm]

theorem isotropic_scale (F : ℝ) (n : Nat) (f : Nat → ℝ) : isotropic n (fun i => F * f i) = F * isotropic n f := by
  unfold isotropic
  rw [← Finset.mul_sum, mul_div_assoc]

theorem panel_scale {T : ℝ} (hT : 0 < T) (J : ℝ) (x y : Nat → ℝ) (j : Nat) :
    panel (fun i => T * x i) (fun i => J * y i) j = J * T * panel x y j := by
  unfold panel
  simp only [← mul_sub, ← mul_add]
  rw [mul_div_mul_left _ _ hT.ne', mul_div_mul_left _ _ hT.ne',
    show T * (x (j + 1) - x j + (x (j + 2) - x (j + 1))) * (T * (x (j + 1) - x j + (x (j + 2) - x (j + 1))))
      = T ^ 2 * ((x (j + 1) - x j + (x (j + 2) - x (j + 1))) * (x (j + 1) - x j + (x (j + 2) - x (j + 1)))) by ring,
    show T * (x (j + 1) - x j) * (T * (x (j + 2) - x (j + 1))) = T ^ 2 * ((x (j + 1) - x j) * (x (j + 2) - x (j + 1))) by ring,
    mul_div_mul_left _ _ (by positivity)]
  ring

theorem panels_scale {T : ℝ} (hT : 0 < T) (J : ℝ) (s m : Nat) (f t : Nat → ℝ) :
    panels s m (fun i => T * t i) (fun i => J * f i) = J * T * panels s m t f := by
  unfold panels
  rw [Finset.mul_sum]
  exact Finset.sum_congr rfl fun k _ => panel_scale hT J t f _

theorem fluence_scale {T : ℝ} (hT : 0 < T) (J : ℝ) (n : Nat) (f t : Nat → ℝ) :
    fluence n (fun i => J * f i) (fun i => T * t i) = J * T * fluence n f t := by
  unfold fluence simpson
  rw [panels_scale hT, panels_scale hT, panels_scale hT]
  split
  · rfl
  · ring

theorem steps_scale (V : ℝ) (n : Nat) (v : Nat → ℝ) (i : Nat) : steps n (fun j => V * v j) i = V * steps n v i := by
  unfold steps
  split
  · ring
  split <;> ring

theorem energyDensity_scale (V F mass : ℝ) (n : Nat) (v f : Nat → ℝ) :
    energyDensity mass n (fun i => V * v i) (fun i => F * f i) = (energyDensity mass n v f).map (fun e => V ^ 5 * F * e) := by
  unfold energyDensity
  split
  · rfl
  · simp only [Except.map, steps_scale]
    congr 1
    have : ∑ i ∈ Finset.range n, (V * v i) ^ 4 * (F * f i) * (V * steps n v i)
        = V ^ 5 * F * ∑ i ∈ Finset.range n, v i ^ 4 * f i * steps n v i := by
      rw [Finset.mul_sum]
      exact Finset.sum_congr rfl fun i _ => by ring
    rw [this]
    ring

theorem averageEnergy_scale {V F : ℝ} (hV : 0 < V) (hF : 0 < F) (mass : ℝ) (n : Nat) (v f : Nat → ℝ) :
    averageEnergy mass n (fun i => V * v i) (fun i => F * f i) = (averageEnergy mass n v f).map (fun e => V ^ 2 * e) := by
  unfold averageEnergy
  rw [energyDensity_scale]
  cases energyDensity mass n v f with
  | error e => rfl
  | ok e =>
    simp only [Except.map, steps_scale]
    congr 1
    rw [show ∑ i ∈ Finset.range n, (V * v i) ^ 2 * (F * f i) * (V * steps n v i)
      = V ^ 3 * F * ∑ i ∈ Finset.range n, v i ^ 2 * f i * steps n v i by
        rw [Finset.mul_sum]; exact Finset.sum_congr rfl fun i _ => by ring,
      show 1 / 2 * (V ^ 5 * F * e) = V ^ 3 * F * (V ^ 2 * (1 / 2 * e)) by ring,
      mul_div_mul_left _ _ (by positivity), mul_div_assoc]

/-- **C152 (partial).** For all positive factors between the units of length, mass, time and magnetic field of two metric
systems, and all data: positions, magnitudes, velocity components, divergence, density ratio, acceleration rate, isotropic
distribution and fluence are the same physical quantities in both systems. Missing: the quantities of `c152_wrong` and
`c152_counterexample`, which are not. -/
theorem c152_partial {L M T B : ℝ} (hL : 0 < L) (_hM : 0 < M) (hT : 0 < T) (hB : 0 < B) :
    (∀ r a b, x (L * r) a b = L * x r a b ∧ y (L * r) a b = L * y r a b ∧ z (L * r) a = L * z r a) ∧
    (∀ a b c, mag (B * a) (B * b) (B * c) = B * mag a b c) ∧
    (∀ a b c, mag (L / T * a) (L / T * b) (L / T * c) = L / T * mag a b c) ∧
    (∀ br bt bp vr vt vp,
      bvMag (B * br) (B * bt) (B * bp) (L / T * vr) (L / T * vt) (L / T * vp) = B * (L / T) * bvMag br bt bp vr vt vp ∧
      vPara (L / T * vr) (L / T * vt) (L / T * vp) (B * br) (B * bt) (B * bp) = L / T * vPara vr vt vp br bt bp ∧
      vPerp (L / T * vr) (L / T * vt) (L / T * vp) (B * br) (B * bt) (B * bp) = L / T * vPerp vr vt vp br bt bp) ∧
    (∀ n (rho time : Nat → ℝ) i, (∀ j, 0 < rho j) →
      divV n (fun j => 1 / L ^ 3 * rho j) (fun j => T * time j) i = (divV n rho time i).map (fun g => 1 / T * g)) ∧
    (∀ (rho : Nat → ℝ) i, densityRatio (fun j => 1 / L ^ 3 * rho j) i = densityRatio rho i) ∧
    (∀ n (vr vt vp angle mfp : Nat → ℝ) (u k : ℝ) i,
      accelerationRate n (fun j => L / T * vr j) (fun j => L / T * vt j) (fun j => L / T * vp j) angle
        (fun j => L * mfp j) (L / T * u) k i = 1 / T * accelerationRate n vr vt vp angle mfp u k i) ∧
    (∀ n (f : Nat → ℝ), isotropic n (fun i => T ^ 3 / L ^ 6 * f i) = T ^ 3 / L ^ 6 * isotropic n f) ∧
    (∀ n (j time : Nat → ℝ), fluence n (fun i => T / (M * L ^ 4) * j i) (fun i => T * time i)
      = T ^ 2 / (M * L ^ 4) * fluence n j time) := by
  have hV : 0 < L / T := by positivity
  refine ⟨?_, fun a b c => mag_scale hB a b c, fun a b c => mag_scale hV a b c, ?_, ?_, ?_, ?_, ?_, ?_⟩
  · intro r a b
    refine ⟨?_, ?_, ?_⟩
    · unfold x; ring
    · unfold y; ring
    · unfold z; ring
  · intro br bt bp vr vt vp
    refine ⟨?_, vPara_scale hB hV _ _ _ _ _ _, vPerp_scale hB hV _ _ _ _ _ _⟩
    unfold bvMag
    rw [mag_scale hB, mag_scale hV]; ring
  · intro n rho time i hr
    rw [divV_scale hT (by positivity) n rho time hr i]
    congr 1
    funext g; ring
  · intro rho i
    unfold densityRatio
    rw [mul_div_mul_left _ _ (by positivity)]
  · intro n vr vt vp angle mfp u k i
    rw [acceleration_scale hV L]
    congr 1
    field_simp
  · intro n f
    exact isotropic_scale _ n f
  · intro m j time
    rw [fluence_scale hT]
    congr 1
    ring

/-- Numbers for a particular case: the factors of the CGS system. -/
example (r : ℝ) : x (100 * r) 0 0 = 100 * x r 0 0 :=
  ((c152_partial (L := 100) (M := 1000) (T := 1) (B := 10 ^ 4) (by norm_num) (by norm_num) (by norm_num)
    (by norm_num)).1 r 0 0).1

/-- **C152 fails** for flux, energy density and average energy, which contain the proton mass in kilograms whatever the
system: the numbers are `M²`, `1 / M` and `1 / M` times the right ones. (The right factors are `T / (M L⁴)` for the flux,
`M / (L T²)` for the energy density, `M L² / T²` for the energy.) -/
theorem c152_wrong {L M T : ℝ} (hL : 0 < L) (hM : 0 < M) (hT : 0 < T) :
    (∀ e f, flux (M * L ^ 2 / T ^ 2 * e) (T ^ 3 / L ^ 6 * f) = M ^ 2 * (T / (M * L ^ 4) * flux e f)) ∧
    (∀ m n (v f : Nat → ℝ), energyDensity m n (fun i => L / T * v i) (fun i => T ^ 3 / L ^ 6 * f i)
      = (energyDensity m n v f).map (fun e => 1 / M * (M / (L * T ^ 2) * e))) ∧
    (∀ m n (v f : Nat → ℝ), averageEnergy m n (fun i => L / T * v i) (fun i => T ^ 3 / L ^ 6 * f i)
      = (averageEnergy m n v f).map (fun e => 1 / M * (M * L ^ 2 / T ^ 2 * e))) := by
  refine ⟨?_, ?_, ?_⟩
  · intro e f
    unfold flux
    field_simp
  · intro m n v f
    rw [energyDensity_scale]
    congr 1
    funext e
    field_simp
  · intro m n v f
    rw [averageEnergy_scale (by positivity) (by positivity)]
    congr 1
    funext e
    field_simp

/-- **C152 fails in the CGS system**, with `L = 100`, `M = 1000`, `T = 1`: flux is too large by a factor of a million, for
every energy and distribution other than 0; rigidity (here of a massless particle) is too large by a factor of 100, since
the speed of light is in metres per second; so is the mean free path for a radial power of 1, since the astronomical unit is
in metres. The flow angle depends on the unit of speed although it contains no constants. -/
theorem c152_counterexample :
    (∀ e f : ℝ, e ≠ 0 → f ≠ 0 → flux (10 ^ 7 * e) (1 / 10 ^ 12 * f) ≠ 1 / 10 ^ 11 * flux e f) ∧
    (∀ e q : ℝ, 0 < e → 0 < q → ∀ Q : ℝ, 0 < Q → rigidity (10 ^ 7 * e) 0 (Q * q) = 100 * (10 ^ 5 / Q * rigidity e 0 q)) ∧
    (∀ r l : ℝ, 0 < r → meanFreePath (100 * r) 0 0 1 1 0 (100 * l) = 100 * (100 * meanFreePath r 0 0 1 1 0 l)) ∧
    flowAngle 1 0 0 (100 * 2) 0 0 ≠ flowAngle 1 0 0 2 0 0 := by
  refine ⟨?_, ?_, ?_, ?_⟩
  · intro e f he hf h
    have h1 := (c152_wrong (L := 100) (M := 1000) (T := 1) (by norm_num) (by norm_num) (by norm_num)).1 e f
    norm_num at h1 h
    rw [h] at h1
    have hm : ((mks c!"mp" : ℚ) : ℝ) ≠ 0 := by
      have h : (0 : ℚ) < mks c!"mp" := by decide +kernel
      exact_mod_cast h.ne'
    have : flux e f ≠ 0 := by
      unfold flux
      positivity
    apply this
    linarith
  · intro e q he hq Q hQ
    unfold rigidity rigidityAt
    simp only [zero_mul, add_zero, ne_eq, OfNat.ofNat_ne_zero, not_false_eq_true, zero_pow, sub_zero]
    rw [Real.sqrt_sq (by positivity), Real.sqrt_sq he.le]
    have := c_pos
    field_simp
    norm_num
  · intro r l hr
    unfold meanFreePath
    simp only [Real.rpow_one, Real.rpow_zero]
    ring
  · unfold flowAngle vPara bvMag mag clip
    simp only [mul_zero, add_zero, ne_eq, OfNat.ofNat_ne_zero, not_false_eq_true, zero_pow]
    norm_num
    have h1 : √(40000 : ℝ) = 200 := by rw [show (40000 : ℝ) = 200 ^ 2 by norm_num, Real.sqrt_sq (by norm_num)]
    have h2 : √(4 : ℝ) = 2 := by rw [show (4 : ℝ) = 2 ^ 2 by norm_num, Real.sqrt_sq (by norm_num)]
    rw [h1, h2]
    norm_num
    intro h
    have := Real.arccos_injOn ⟨by norm_num, by norm_num⟩ ⟨by norm_num, by norm_num⟩ h
    norm_num at this

end Verif.Shapes
