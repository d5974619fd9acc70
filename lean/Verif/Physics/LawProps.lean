import Verif.Physics.FieldProps

/-!
# Properties C277-C280: laws of the divergence, the field, the rigidity and the acceleration rate
-/

set_option linter.unusedSimpArgs false

namespace Verif.Physics

open Verif.Py Real

noncomputable section

/-! ## C277: the divergence and the way times are counted -/

/-- **C277.** If times are counted from another origin and in another unit, the divergence is divided by the factor of the change of the
unit, at every time. -/
theorem c277_units (n : Nat) (rho time : Nat → ℝ) (a b : ℝ) (ha : a ≠ 0) (i : Nat) :
    divV n rho (fun j => a * time j + b) i = (divV n rho time i).map (· / a) := by
  unfold divV gradientAt
  by_cases hn : n < 2
  · simp only [if_pos hn, Except.map]
  · simp only [if_neg hn]
    split_ifs with h0 h1
    · simp only [Except.map]
      rw [show a * time 1 + b - (a * time 0 + b) = a * (time 1 - time 0) by ring, mul_comm a, ← div_div, mul_div_assoc]
    · simp only [Except.map]
      rw [show a * time i + b - (a * time (i - 1) + b) = a * (time i - time (i - 1)) by ring, mul_comm a, ← div_div, mul_div_assoc]
    · simp only [Except.map]
      congr 1
      generalize log (rho i) = f1
      generalize log (rho (i + 1)) = f2
      generalize log (rho (i - 1)) = f0
      rw [show a * time i + b - (a * time (i - 1) + b) = a * (time i - time (i - 1)) by ring,
        show a * time (i + 1) + b - (a * time i + b) = a * (time (i + 1) - time i) by ring]
      generalize time i - time (i - 1) = h
      generalize time (i + 1) - time i = k
      rw [show ((a * h) ^ 2 * f2 + ((a * k) ^ 2 - (a * h) ^ 2) * f1 - (a * k) ^ 2 * f0)
          = a ^ 2 * (h ^ 2 * f2 + (k ^ 2 - h ^ 2) * f1 - k ^ 2 * f0) by ring,
        show a * h * (a * k) * (a * h + a * k) = a ^ 2 * (h * k * (h + k) * a) by ring,
        mul_div_mul_left _ _ (pow_ne_zero 2 ha), ← div_div, mul_div_assoc]

/-- **C277, direction.** If the series runs backwards in time, the divergence has the opposite sign at every time. -/
theorem c277_reverse (n : Nat) (rho time : Nat → ℝ) (b : ℝ) (i : Nat) (hi : i < n) :
    divV n (fun j => rho (n - 1 - j)) (fun j => b - time (n - 1 - j)) i = (divV n rho time (n - 1 - i)).map (fun d => -d) := by
  unfold divV gradientAt
  by_cases hn : n < 2
  · simp only [if_pos hn, Except.map]
  · simp only [if_neg hn]
    by_cases h0 : i = 0
    · subst h0
      rw [if_pos rfl, if_neg (by omega), if_pos (by omega)]
      simp only [Except.map, Nat.sub_zero]
      rw [show n - 1 - 1 = n - 2 by omega]
      congr 1
      rw [show log (rho (n - 2)) - log (rho (n - 1)) = -(log (rho (n - 1)) - log (rho (n - 2))) by ring,
        show b - time (n - 2) - (b - time (n - 1)) = time (n - 1) - time (n - 2) by ring]
      ring
    · by_cases h1 : i + 1 = n
      · rw [if_neg h0, if_pos h1, if_pos (by omega)]
        simp only [Except.map]
        rw [show n - 1 - i = 0 by omega, show n - 1 - (i - 1) = 1 by omega]
        congr 1
        rw [show log (rho 0) - log (rho 1) = -(log (rho 1) - log (rho 0)) by ring,
          show b - time 0 - (b - time 1) = time 1 - time 0 by ring]
        ring
      · rw [if_neg h0, if_neg h1, if_neg (by omega), if_neg (by omega)]
        simp only [Except.map]
        obtain ⟨m, hm⟩ : ∃ m, n - 1 - i = m + 1 := ⟨n - 2 - i, by omega⟩
        rw [hm, show n - 1 - (i + 1) = m by omega, show n - 1 - (i - 1) = m + 2 by omega, Nat.add_sub_cancel]
        congr 1
        rw [show m + 1 + 1 = m + 2 from rfl, show b - time (m + 1) - (b - time (m + 2)) = time (m + 2) - time (m + 1) by ring,
          show b - time m - (b - time (m + 1)) = time (m + 1) - time m by ring]
        generalize time (m + 2) - time (m + 1) = k
        generalize time (m + 1) - time m = h
        rw [show k * h * (k + h) = h * k * (h + k) by ring]
        generalize h * k * (h + k) = d
        rw [show (-1 : ℝ) * ((h ^ 2 * log (rho (m + 2)) + (k ^ 2 - h ^ 2) * log (rho (m + 1)) - k ^ 2 * log (rho m)) / d)
          = -(h ^ 2 * log (rho (m + 2)) + (k ^ 2 - h ^ 2) * log (rho (m + 1)) - k ^ 2 * log (rho m)) / d by ring]
        ring

/-- **C277, products.** The divergence of a density that is the product of two positive series is the sum of the two divergences. -/
theorem c277_product (n : Nat) (rho sigma time : Nat → ℝ) (hr : ∀ j, j < n → 0 < rho j) (hs : ∀ j, j < n → 0 < sigma j) (i : Nat)
    (hi : i < n) :
    (n < 2 ∧ divV n (fun j => rho j * sigma j) time i = .error .valueError)
      ∨ ∃ d e, divV n rho time i = .ok d ∧ divV n sigma time i = .ok e ∧ divV n (fun j => rho j * sigma j) time i = .ok (d + e) := by
  have hl : ∀ j, j < n → log (rho j * sigma j) = log (rho j) + log (sigma j) := fun j hj =>
    log_mul (hr j hj).ne' (hs j hj).ne'
  unfold divV gradientAt
  by_cases hn : n < 2
  · left; simp [hn, Except.map]
  · right
    simp only [if_neg hn]
    split_ifs with h0 h1
    · refine ⟨_, _, rfl, rfl, ?_⟩
      rw [hl 0 (by omega), hl 1 (by omega)]
      simp only [Except.map]
      congr 1; ring
    · refine ⟨_, _, rfl, rfl, ?_⟩
      rw [hl i hi, hl (i - 1) (by omega)]
      simp only [Except.map]
      congr 1; ring
    · refine ⟨_, _, rfl, rfl, ?_⟩
      rw [hl i hi, hl (i - 1) (by omega), hl (i + 1) (by omega)]
      simp only [Except.map]
      congr 1; ring

/-- A density that falls to half in each of two hours, in hours and in seconds. -/
example : divV 2 (fun j => if j = 0 then 2 else 1) (fun j => 3600 * j) 0 = .ok (log 2 / 3600) := by
  simp [divV, gradientAt, Except.map]
  ring

/-! ## C278: strength and polarity of the field -/

theorem mag_mul (k a b c : ℝ) : mag (k * a) (k * b) (k * c) = |k| * mag a b c := by
  unfold mag
  rw [show (k * a) ^ 2 + (k * b) ^ 2 + (k * c) ^ 2 = k ^ 2 * (a ^ 2 + b ^ 2 + c ^ 2) by ring, sqrt_mul (sq_nonneg k), sqrt_sq_eq_abs]

theorem clip_neg (a : ℝ) : clip (-a) = -clip a := by
  unfold clip
  simp only
  split_ifs <;> linarith

/-- **C278, strength.** The components of the velocity along and across the field and the flow angle do not depend on the strength of
the field. -/
theorem c278_strength (k : ℝ) (hk : 0 < k) (br bt bp vr vt vp : ℝ) :
    vPara vr vt vp (k * br) (k * bt) (k * bp) = vPara vr vt vp br bt bp ∧
    vPerp vr vt vp (k * br) (k * bt) (k * bp) = vPerp vr vt vp br bt bp ∧
    flowAngle (k * br) (k * bt) (k * bp) vr vt vp = flowAngle br bt bp vr vt vp := by
  have h1 : vPara vr vt vp (k * br) (k * bt) (k * bp) = vPara vr vt vp br bt bp := by
    unfold vPara
    rw [mag_mul, abs_of_pos hk, show k * br * vr + k * bt * vt + k * bp * vp = k * (br * vr + bt * vt + bp * vp) by ring,
      mul_div_mul_left _ _ hk.ne']
  refine ⟨h1, by unfold vPerp; rw [h1], ?_⟩
  unfold flowAngle bvMag vPara
  rw [mag_mul, abs_of_pos hk, show vr * (k * br) + vt * (k * bt) + vp * (k * bp) = k * (vr * br + vt * bt + vp * bp) by ring,
    mul_div_assoc, mul_assoc, mul_div_mul_left _ _ hk.ne']

/-- **C278, polarity.** If the field is reversed, the component along the field changes its sign, that across the field is the same, the
flow angle is the supplementary angle, and the acceleration rate for that angle is the same. -/
theorem c278_polarity (br bt bp vr vt vp : ℝ) :
    vPara vr vt vp (-br) (-bt) (-bp) = -vPara vr vt vp br bt bp ∧
    vPerp vr vt vp (-br) (-bt) (-bp) = vPerp vr vt vp br bt bp ∧
    flowAngle (-br) (-bt) (-bp) vr vt vp = π - flowAngle br bt bp vr vt vp ∧
    ∀ (n : Nat) (ur ut up angle mfp : Nat → ℝ) (vparticle kper : ℝ) (i : Nat),
      accelerationRate n ur ut up (fun j => π - angle j) mfp vparticle kper i = accelerationRate n ur ut up angle mfp vparticle kper i := by
  have hm : ∀ a b c : ℝ, mag (-a) (-b) (-c) = mag a b c := fun a b c => by unfold mag; simp only [neg_sq]
  have h1 : vPara vr vt vp (-br) (-bt) (-bp) = -vPara vr vt vp br bt bp := by
    unfold vPara; rw [hm]; ring
  refine ⟨h1, by unfold vPerp; rw [h1, neg_sq], ?_, ?_⟩
  · unfold flowAngle bvMag vPara
    rw [hm, show vr * -br + vt * -bt + vp * -bp = -(vr * br + vt * bt + vp * bp) by ring, neg_div, neg_div, clip_neg, arccos_neg]
  · intro n ur ut up angle mfp vparticle kper i
    unfold accelerationRate
    simp only [cos_pi_sub, sin_pi_sub, neg_sq]

/-- A field of strength three along the first axis, and the opposite field. -/
example : vPara 5 1 0 3 0 0 = 5 ∧ vPara 5 1 0 (-3) 0 0 = -5 := by
  have h3 : √((3 : ℝ) ^ 2) = 3 := sqrt_sq (by norm_num)
  constructor <;> norm_num [vPara, mag] <;> rw [show (9 : ℝ) = 3 ^ 2 by norm_num, h3] <;> norm_num

/-! ## C279: rigidity and mean free path of species -/

/-- **C279, rigidity.** A particle with `k` times the mass and `k` times the energy has `k` times the rigidity, a particle with `q` times
the charge has the rigidity divided by `q`; and for the same energy a heavier particle does not have a smaller rigidity. -/
theorem c279_rigidity (energy mass charge k q : ℝ) (hk : 0 ≤ k) :
    rigidity (k * energy) (k * mass) charge = k * rigidity energy mass charge ∧
    rigidity energy mass (q * charge) = rigidity energy mass charge / q ∧
    (0 ≤ energy → 0 < charge → ∀ m', mass ≤ m' → rigidity energy mass charge ≤ rigidity energy m' charge) := by
  unfold rigidity rigidityAt
  simp only
  generalize hc : ((mks c!"c" : ℚ) : ℝ) = c
  have hcp : 0 < c := hc ▸ c_pos
  refine ⟨?_, ?_, ?_⟩
  · rw [show (k * energy + k * mass * c ^ 2) ^ 2 - (k * mass * c ^ 2) ^ 2 = k ^ 2 * ((energy + mass * c ^ 2) ^ 2 - (mass * c ^ 2) ^ 2) by ring,
      sqrt_mul (sq_nonneg k), sqrt_sq hk]
    ring
  · rw [mul_comm q, ← div_div]
  · intro he hq m' hm
    refine div_le_div_of_nonneg_right (div_le_div_of_nonneg_right (sqrt_le_sqrt ?_) hcp.le) hq.le
    have : 0 ≤ energy * (c ^ 2 * (m' - mass)) := mul_nonneg he (mul_nonneg (sq_nonneg c) (by linarith))
    nlinarith [this]

/-- **C279, mean free path.** The mean free path does not depend on the charge of the particle, is proportional to the reference length,
and the path for the sums of two pairs of powers is the product of the two paths. -/
theorem c279_path (r energy mass charge q a b a' b' lambda0 k : ℝ) (hq : q ≠ 0) (hr : 0 < r) (he : 0 < energy) (hm : 0 ≤ mass)
    (hc : 0 < charge) :
    meanFreePath r energy mass (q * charge) a b lambda0 = meanFreePath r energy mass charge a b lambda0 ∧
    meanFreePath r energy mass charge a b (k * lambda0) = k * meanFreePath r energy mass charge a b lambda0 ∧
    meanFreePath r energy mass charge (a + a') (b + b') lambda0 * lambda0
      = meanFreePath r energy mass charge a b lambda0 * meanFreePath r energy mass charge a' b' lambda0 := by
  refine ⟨?_, ?_, ?_⟩
  · unfold meanFreePath
    rw [(c279_rigidity energy mass charge 0 q le_rfl).2.1, (c279_rigidity _ mass charge 0 q le_rfl).2.1, div_div_div_cancel_right₀ hq]
  · unfold meanFreePath; ring
  · unfold meanFreePath
    have h1 : 0 < r / ((mks c!"au" : ℚ) : ℝ) := div_pos hr (by exact_mod_cast (show (0 : ℚ) < mks c!"au" by decide +kernel))
    have e0 : (0 : ℝ) < 10 ^ 6 * ((mks c!"eV" : ℚ) : ℝ) := by
      have : (0 : ℝ) < ((mks c!"eV" : ℚ) : ℝ) := by exact_mod_cast (show (0 : ℚ) < mks c!"eV" by decide +kernel)
      positivity
    have pos : ∀ e, 0 < e → 0 < rigidity e mass charge := fun e h => by
      have h0 : rigidity 0 mass charge = 0 := by unfold rigidity rigidityAt; simp
      rw [← h0]
      exact c117_monotone 0 e mass charge le_rfl h hm hc
    have h2 := div_pos (pos energy he) (pos _ e0)
    rw [rpow_add h1, rpow_add h2]
    ring

/-! ## C280: the acceleration rate and the speeds -/

/-- **C280.** If the flow is `s` times as fast the acceleration rate is `s²` times as great; it is divided by the factor of a change of
all mean free paths, and by that of the speed of the particles. -/
theorem c280_acceleration (n : Nat) (vr vt vp angle mfp : Nat → ℝ) (vparticle kper s k p : ℝ) (hs : 0 < s) (i : Nat) :
    accelerationRate n (fun j => s * vr j) (fun j => s * vt j) (fun j => s * vp j) angle (fun j => k * mfp j) (p * vparticle) kper i
      = s ^ 2 / (k * p) * accelerationRate n vr vt vp angle mfp vparticle kper i := by
  have e : ∃ a b : Nat, ∀ f : Nat → ℝ, ahead n f i = f a ∧ behind f i = f b :=
    ⟨if i + 1 < n then i + 1 else n - 1, if i = 0 then 0 else i - 1, fun f => by
      unfold ahead behind; constructor <;> split <;> rfl⟩
  obtain ⟨a, b, hab⟩ := e
  unfold accelerationRate
  simp only [hab, mag_mul, abs_of_pos hs]
  generalize mag (vr a) (vt a) (vp a) = va
  generalize mag (vr b) (vt b) (vp b) = vb
  generalize cos (angle a) ^ 2 + kper * sin (angle a) ^ 2 = ka
  generalize cos (angle b) ^ 2 + kper * sin (angle b) ^ 2 = kb
  rw [show s * vr a * (s * vr b) + s * vt a * (s * vt b) + s * vp a * (s * vp b)
      = s ^ 2 * (vr a * vr b + vt a * vt b + vp a * vp b) by ring,
    show s * va * (s * va) = s ^ 2 * (va * va) by ring, mul_div_mul_left _ _ (pow_ne_zero 2 hs.ne')]
  generalize |1 - (vr a * vr b + vt a * vt b + vp a * vp b) / (va * va)| = w
  have h : ∀ x m v : ℝ, k * m * (x * (p * vparticle) / 3) / (s * v) = (k * p / s) * (m * (x * vparticle / 3) / v) := fun x m v => by
    rw [div_mul_div_comm]; ring
  rw [h, h, ← mul_add, mul_left_comm 3, mul_assoc s va w]
  rw [mul_div_mul_comm]
  congr 1
  rw [div_div_eq_mul_div, sq]

/-- One shell behind another in a flow along one axis, and a flow twice as fast. -/
example : accelerationRate 2 (fun j => if j = 0 then 2 else 1) (fun _ => 0) (fun _ => 0) (fun _ => 0) (fun _ => 1) 1 0 0 = 2 / 3 := by
  have h2 : √((2 : ℝ) ^ 2) = 2 := sqrt_sq (by norm_num)
  norm_num [accelerationRate, ahead, behind, mag]
  rw [show (4 : ℝ) = 2 ^ 2 by norm_num, h2]
  norm_num

end

end Verif.Physics
