import Mathlib.Tactic.Linarith
import Mathlib.Tactic.Positivity
import Mathlib.Tactic.FieldSimp
import Mathlib.Tactic.Ring
import Verif.Physics.Model

/-!
# Physical quantities at one point: properties C112-C118, C125
-/

set_option linter.unusedSimpArgs false
set_option linter.unusedSectionVars false

namespace Verif.Physics

open Verif.Py Real

/-! ## C112: components of the velocity -/

theorem mag_sq (a b c : ℝ) : mag a b c ^ 2 = a ^ 2 + b ^ 2 + c ^ 2 := by
  rw [mag, sq_sqrt (by positivity)]

theorem mag_nonneg (a b c : ℝ) : 0 ≤ mag a b c := sqrt_nonneg _

theorem mag_pos {a b c : ℝ} (h : (a, b, c) ≠ (0, 0, 0)) : 0 < mag a b c := by
  rw [mag, sqrt_pos]
  by_contra hn
  have ha := sq_nonneg a
  have hb := sq_nonneg b
  have hc := sq_nonneg c
  have ea : a ^ 2 = 0 := by linarith
  have eb : b ^ 2 = 0 := by linarith
  have ec : c ^ 2 = 0 := by linarith
  rw [sq_eq_zero_iff] at ea eb ec
  exact h (by rw [ea, eb, ec])

/-- The length of a vector, and the product of two vectors. -/
def dot (a b : ℝ × ℝ × ℝ) : ℝ := a.1 * b.1 + a.2.1 * b.2.1 + a.2.2 * b.2.2

/-- **C112.** For every velocity and every magnetic field other than zero, the velocity is the sum of
`v_para` times the direction of the field and a vector orthogonal to the field whose length is `v_perp`;
the squares of the components add up to the square of the speed. -/
theorem c112_components (v b : ℝ × ℝ × ℝ) (hb : b ≠ (0, 0, 0)) :
    (∃ w : ℝ × ℝ × ℝ, dot w b = 0 ∧
      v = (vPara v.1 v.2.1 v.2.2 b.1 b.2.1 b.2.2 / √(dot b b)) • b + w ∧
      vPerp v.1 v.2.1 v.2.2 b.1 b.2.1 b.2.2 = √(dot w w)) ∧
    vPara v.1 v.2.1 v.2.2 b.1 b.2.1 b.2.2 ^ 2 + vPerp v.1 v.2.1 v.2.2 b.1 b.2.1 b.2.2 ^ 2 = dot v v ∧
    0 ≤ vPerp v.1 v.2.1 v.2.2 b.1 b.2.1 b.2.2 := by
  obtain ⟨v1, v2, v3⟩ := v
  obtain ⟨b1, b2, b3⟩ := b
  have hm := mag_pos hb
  have hs := mag_sq b1 b2 b3
  have hmag : √(dot (b1, b2, b3) (b1, b2, b3)) = mag b1 b2 b3 := by
    simp only [dot, mag]; congr 1; ring
  simp only [hmag]
  have hvs := mag_sq v1 v2 v3
  have hw : mag v1 v2 v3 ^ 2 - vPara v1 v2 v3 b1 b2 b3 ^ 2 =
      dot (v1 - vPara v1 v2 v3 b1 b2 b3 / mag b1 b2 b3 * b1, v2 - vPara v1 v2 v3 b1 b2 b3 / mag b1 b2 b3 * b2,
        v3 - vPara v1 v2 v3 b1 b2 b3 / mag b1 b2 b3 * b3)
        (v1 - vPara v1 v2 v3 b1 b2 b3 / mag b1 b2 b3 * b1, v2 - vPara v1 v2 v3 b1 b2 b3 / mag b1 b2 b3 * b2,
        v3 - vPara v1 v2 v3 b1 b2 b3 / mag b1 b2 b3 * b3) := by
    have e : vPara v1 v2 v3 b1 b2 b3 * mag b1 b2 b3 = b1 * v1 + b2 * v2 + b3 * v3 := by
      rw [vPara]; field_simp
    generalize vPara v1 v2 v3 b1 b2 b3 = p at e ⊢
    obtain ⟨q, rfl⟩ : ∃ q, p = q * mag b1 b2 b3 := ⟨p / mag b1 b2 b3, by field_simp⟩
    have hq : q * mag b1 b2 b3 / mag b1 b2 b3 = q := by field_simp
    rw [hq]
    simp only [dot]
    have e' : q * (mag b1 b2 b3 ^ 2) = b1 * v1 + b2 * v2 + b3 * v3 := by rw [← e]; ring
    rw [hs] at e'
    have : (q * mag b1 b2 b3) ^ 2 = q * (q * mag b1 b2 b3 ^ 2) := by ring
    rw [this, hs, hvs]
    linear_combination (-2 * q) * e'
  refine ⟨⟨(v1 - vPara v1 v2 v3 b1 b2 b3 / mag b1 b2 b3 * b1,
      v2 - vPara v1 v2 v3 b1 b2 b3 / mag b1 b2 b3 * b2,
      v3 - vPara v1 v2 v3 b1 b2 b3 / mag b1 b2 b3 * b3), ?_, ?_, ?_⟩, ?_, sqrt_nonneg _⟩
  · simp only [dot]
    have e : vPara v1 v2 v3 b1 b2 b3 / mag b1 b2 b3 * mag b1 b2 b3 ^ 2 = b1 * v1 + b2 * v2 + b3 * v3 := by
      rw [vPara]; field_simp
    rw [hs] at e
    linear_combination -e
  · simp [Prod.ext_iff]
  · rw [vPerp, hw]
  · rw [vPerp, sq_sqrt]
    · rw [hvs]; simp only [dot]; ring
    · rw [hw]; simp only [dot]
      nlinarith [sq_nonneg (v1 - vPara v1 v2 v3 b1 b2 b3 / mag b1 b2 b3 * b1),
        sq_nonneg (v2 - vPara v1 v2 v3 b1 b2 b3 / mag b1 b2 b3 * b2),
        sq_nonneg (v3 - vPara v1 v2 v3 b1 b2 b3 / mag b1 b2 b3 * b3)]

theorem sqrt_of_sq {a b : ℝ} (hb : 0 ≤ b) (h : a = b ^ 2) : √a = b := by rw [h, sqrt_sq hb]

theorem mag_345 : mag 3 0 4 = 5 := sqrt_of_sq (by norm_num) (by norm_num)

/-- A field of strength 5 at an angle to a flow of speed 10: components 6 and 8. -/
example : vPara 10 0 0 3 0 4 = 6 ∧ vPerp 10 0 0 3 0 4 = 8 := by
  have h10 : mag 10 0 0 = 10 := sqrt_of_sq (by norm_num) (by norm_num)
  have h6 : vPara 10 0 0 3 0 4 = 6 := by rw [vPara, mag_345]; norm_num
  refine ⟨h6, ?_⟩
  rw [vPerp, h6, h10]
  exact sqrt_of_sq (by norm_num) (by norm_num)

/-! ## C113: the angle between field and flow -/

/-- The angle between two vectors other than zero: the one in `[0, π]` whose cosine is their product over
their lengths. -/
def IsAngle (a b : ℝ × ℝ × ℝ) (t : ℝ) : Prop :=
  0 ≤ t ∧ t ≤ π ∧ dot a b = √(dot a a) * √(dot b b) * cos t

theorem sqrt_dot (a b c : ℝ) : √(dot (a, b, c) (a, b, c)) = mag a b c := by
  simp only [dot, mag]; congr 1; ring

/-- **C113, violated.** The angle between parallel vectors, one of length 2, is reported as `π/3`. -/
theorem c113_counterexample : ¬ ∀ b v : ℝ × ℝ × ℝ, b ≠ (0, 0, 0) → v ≠ (0, 0, 0) →
    IsAngle b v (flowAngle b.1 b.2.1 b.2.2 v.1 v.2.1 v.2.2) := by
  intro h
  obtain ⟨-, -, h⟩ := h (1, 0, 0) (2, 0, 0) (by simp) (by simp)
  have h1 : mag 1 0 0 = 1 := sqrt_of_sq (by norm_num) (by norm_num)
  have h2 : mag 2 0 0 = 2 := sqrt_of_sq (by norm_num) (by norm_num)
  rw [sqrt_dot, sqrt_dot, h1, h2] at h
  have e : vPara 1 0 0 2 0 0 / bvMag 1 0 0 2 0 0 = 1 / 2 := by
    rw [vPara, bvMag, h1, h2]; norm_num
  rw [flowAngle, e, clip, if_neg (by norm_num), if_neg (by norm_num),
    cos_arccos (by norm_num) (by norm_num)] at h
  norm_num [dot] at h

theorem clip_of_abs_le {a : ℝ} (h : |a| ≤ 1) : clip a = a := by
  rw [abs_le] at h
  unfold clip
  rw [if_neg (by linarith : ¬ a < -1)]
  exact if_neg (by linarith)

theorem clip_bounds (a : ℝ) : -1 ≤ clip a ∧ clip a ≤ 1 := by
  unfold clip
  by_cases h : a < -1
  · rw [if_pos h, if_neg (by norm_num)]; norm_num
  · rw [if_neg h]
    by_cases h1 : 1 < a
    · rw [if_pos h1]; norm_num
    · rw [if_neg h1]; exact ⟨by linarith, by linarith⟩

theorem abs_dot_le (a b : ℝ × ℝ × ℝ) : |dot a b| ≤ √(dot a a) * √(dot b b) := by
  have ha : 0 ≤ dot a a := by simp only [dot]; nlinarith [sq_nonneg a.1, sq_nonneg a.2.1, sq_nonneg a.2.2]
  rw [← sqrt_mul ha]
  refine abs_le_sqrt ?_
  simp only [dot]
  nlinarith [sq_nonneg (a.1 * b.2.1 - a.2.1 * b.1), sq_nonneg (a.1 * b.2.2 - a.2.2 * b.1),
    sq_nonneg (a.2.1 * b.2.2 - a.2.2 * b.2.1)]

theorem flow_argument (b v : ℝ × ℝ × ℝ) :
    vPara b.1 b.2.1 b.2.2 v.1 v.2.1 v.2.2 / bvMag b.1 b.2.1 b.2.2 v.1 v.2.1 v.2.2
      = dot b v / (√(dot b b) * √(dot v v)) / √(dot v v) := by
  obtain ⟨b1, b2, b3⟩ := b
  obtain ⟨v1, v2, v3⟩ := v
  rw [sqrt_dot, sqrt_dot, vPara, bvMag]
  simp only [dot]
  rw [div_div, div_div]
  congr 1 <;> ring

/-- **C113, what holds.** For vectors other than zero the result lies in `[0, π]` and is acute, right or
obtuse exactly as the angle is; it is the angle if the flow has speed 1; for speeds of at least 1 its
cosine is that of the angle divided by the speed. -/
theorem c113_partial (b v : ℝ × ℝ × ℝ) (hb : b ≠ (0, 0, 0)) (hv : v ≠ (0, 0, 0)) :
    0 ≤ flowAngle b.1 b.2.1 b.2.2 v.1 v.2.1 v.2.2 ∧ flowAngle b.1 b.2.1 b.2.2 v.1 v.2.1 v.2.2 ≤ π ∧
    (flowAngle b.1 b.2.1 b.2.2 v.1 v.2.1 v.2.2 < π / 2 ↔ 0 < dot b v) ∧
    (flowAngle b.1 b.2.1 b.2.2 v.1 v.2.1 v.2.2 = π / 2 ↔ dot b v = 0) ∧
    (dot v v = 1 → IsAngle b v (flowAngle b.1 b.2.1 b.2.2 v.1 v.2.1 v.2.2)) ∧
    (1 ≤ dot v v → dot b v =
      √(dot b b) * √(dot v v) * (√(dot v v) * cos (flowAngle b.1 b.2.1 b.2.2 v.1 v.2.1 v.2.2))) := by
  have pb : 0 < √(dot b b) := by
    obtain ⟨b1, b2, b3⟩ := b; rw [sqrt_dot]; exact mag_pos hb
  have pv : 0 < √(dot v v) := by
    obtain ⟨b1, b2, b3⟩ := v; rw [sqrt_dot]; exact mag_pos hv
  have hle := abs_dot_le b v
  have key : 1 ≤ dot v v → |dot b v / (√(dot b b) * √(dot v v)) / √(dot v v)| ≤ 1 := by
    intro h1
    have h1' : 1 ≤ √(dot v v) := one_le_sqrt.2 h1
    rw [abs_div, abs_div, abs_of_pos pv, abs_of_pos (by positivity : 0 < √(dot b b) * √(dot v v)),
      div_le_one pv]
    exact le_trans ((div_le_one (by positivity)).2 hle) h1'
  have main : 1 ≤ dot v v → dot b v =
      √(dot b b) * √(dot v v) * (√(dot v v) * cos (flowAngle b.1 b.2.1 b.2.2 v.1 v.2.1 v.2.2)) := by
    intro h1
    have hk := key h1
    rw [flowAngle, flow_argument, clip_of_abs_le hk, cos_arccos (abs_le.1 hk).1 (abs_le.1 hk).2]
    field_simp
  have hsign : ∀ a : ℝ, (0 < clip a ↔ 0 < a) ∧ (clip a = 0 ↔ a = 0) := by
    intro a
    unfold clip
    by_cases h : a < -1
    · rw [if_pos h, if_neg (by norm_num)]
      exact ⟨⟨fun h => by norm_num at h, fun h => by linarith⟩, ⟨fun h => by norm_num at h,
        fun h => by linarith⟩⟩
    · rw [if_neg h]
      by_cases h1 : 1 < a
      · rw [if_pos h1]
        exact ⟨⟨fun _ => by linarith, fun _ => by norm_num⟩, ⟨fun h => by norm_num at h,
          fun h => by linarith⟩⟩
      · rw [if_neg h1]; exact ⟨Iff.rfl, Iff.rfl⟩
  refine ⟨arccos_nonneg _, arccos_le_pi _, ?_, ?_, ?_, main⟩
  · rw [flowAngle, arccos_lt_pi_div_two, (hsign _).1, flow_argument, div_pos_iff_of_pos_right pv,
      div_pos_iff_of_pos_right (by positivity)]
  · rw [flowAngle, arccos_eq_pi_div_two, (hsign _).2, flow_argument, div_eq_zero_iff, div_eq_zero_iff]
    constructor
    · rintro ((h | h) | h)
      · exact h
      · exact absurd h (by positivity)
      · exact absurd h (ne_of_gt pv)
    · exact fun h => Or.inl (Or.inl h)
  · intro h1
    refine ⟨arccos_nonneg _, arccos_le_pi _, ?_⟩
    have := main h1.ge
    rw [h1, sqrt_one, one_mul] at this
    rw [h1, sqrt_one]; exact this

/-- A flow of speed 1 at a right angle to the field. -/
example : flowAngle 3 0 4 0 1 0 = π / 2 :=
  ((c113_partial (3, 0, 4) (0, 1, 0) (by simp) (by simp)).2.2.2.1).2 (by simp [dot])

/-! ## C114, C115: spherical and Cartesian coordinates -/

theorem epsilon_pos : 0 < epsilon := by unfold epsilon; positivity

/-- Numbers that `zero_floor` keeps. -/
def Kept (v : ℝ) : Prop := v = 0 ∨ epsilon ≤ |v|

theorem zeroFloor_kept {v : ℝ} (h : Kept v) : zeroFloor v = v := by
  unfold zeroFloor
  rcases h with rfl | h
  · simp
  · rw [if_neg (not_lt.2 h)]

theorem radius_kept {x y z : ℝ} (hx : Kept x) (hy : Kept y) (hz : Kept z) :
    radiusOf x y z = √(x * x + y * y + z * z) := by
  unfold radiusOf
  simp only
  split_ifs with h
  · rw [abs_of_nonneg (sqrt_nonneg _)] at h
    have hle : ∀ w : ℝ, w * w ≤ x * x + y * y + z * z → Kept w → w = 0 := by
      intro w hw hk
      rcases hk with rfl | hk
      · rfl
      · have : |w| ≤ √(x * x + y * y + z * z) := abs_le_sqrt (by rw [sq]; exact hw)
        linarith
    have ex := hle x (by nlinarith [mul_self_nonneg y, mul_self_nonneg z]) hx
    have ey := hle y (by nlinarith [mul_self_nonneg x, mul_self_nonneg z]) hy
    have ez := hle z (by nlinarith [mul_self_nonneg x, mul_self_nonneg y]) hz
    subst ex ey ez; simp
  · rfl

/-- Sine and cosine of the computed azimuth point from the origin to the point. -/
theorem azimuth_spec (x y : ℝ) : √(x * x + y * y) * cos (azimuthOf x y) = x ∧
    √(x * x + y * y) * sin (azimuthOf x y) = y := by
  have hnorm : ‖(⟨x, y⟩ : ℂ)‖ = √(x * x + y * y) := by
    rw [Complex.norm_def, Complex.normSq_mk]
  have hc : √(x * x + y * y) * cos (arctan2 y x) = x := by
    rw [arctan2, ← hnorm, Complex.norm_mul_cos_arg]
  have hs : √(x * x + y * y) * sin (arctan2 y x) = y := by
    rw [arctan2, ← hnorm, Complex.norm_mul_sin_arg]
  unfold azimuthOf
  simp only
  by_cases hx : x = 0
  · subst hx
    by_cases hy : 0 ≤ y
    · rw [if_neg (by simp [not_lt.2 hy]), if_pos ⟨rfl, hy⟩]
      have : (0.5 : ℝ) * π = π / 2 := by ring
      rw [this, cos_pi_div_two, sin_pi_div_two]
      refine ⟨by ring, ?_⟩
      rw [mul_one, mul_zero, zero_add, sqrt_mul_self hy]
    · rw [not_le] at hy
      rw [if_pos ⟨rfl, hy⟩]
      have : (-0.5 : ℝ) * π = -(π / 2) := by ring
      rw [this, cos_neg, sin_neg, cos_pi_div_two, sin_pi_div_two]
      refine ⟨by ring, ?_⟩
      have e : √(0 * 0 + y * y) = -y := sqrt_of_sq (by linarith) (by ring)
      rw [e]; ring
  · rw [if_neg (by simp [hx]), if_neg (by simp [hx])]
    split_ifs with hp
    · rw [cos_add_two_pi, sin_add_two_pi]; exact ⟨hc, hs⟩
    · exact ⟨hc, hs⟩

theorem polar_spec {x y z : ℝ} (hx : Kept x) (hy : Kept y) (hz : Kept z) :
    radiusOf x y z * cos (polarOf x y z) = z ∧
    radiusOf x y z * sin (polarOf x y z) = √(x * x + y * y) := by
  have hr := radius_kept hx hy hz
  have hxy : 0 ≤ x * x + y * y := by nlinarith [mul_self_nonneg x, mul_self_nonneg y]
  have hall : 0 ≤ x * x + y * y + z * z := by nlinarith [mul_self_nonneg z]
  unfold polarOf
  split_ifs with h0
  · rw [hr, sqrt_eq_zero hall] at h0
    have ez : z = 0 := mul_self_eq_zero.1 (by nlinarith [mul_self_nonneg z])
    have exy : x * x + y * y = 0 := by rw [ez] at h0; linarith
    rw [hr, h0, exy, ez]; simp
  · have hpos : 0 < radiusOf x y z := lt_of_le_of_ne (by rw [hr]; exact sqrt_nonneg _) (Ne.symm h0)
    have hsq : radiusOf x y z ^ 2 = x * x + y * y + z * z := by rw [hr, sq_sqrt hall]
    have hz1 : |z / radiusOf x y z| ≤ 1 := by
      rw [abs_div, abs_of_pos hpos, div_le_one hpos, hr]
      exact abs_le_sqrt (by rw [sq]; linarith)
    refine ⟨?_, ?_⟩
    · rw [cos_arccos (abs_le.1 hz1).1 (abs_le.1 hz1).2]; field_simp
    · rw [sin_arccos]
      have : radiusOf x y z * √(1 - (z / radiusOf x y z) ^ 2)
          = √(radiusOf x y z ^ 2 * (1 - (z / radiusOf x y z) ^ 2)) := by
        rw [sqrt_mul (by positivity), sqrt_sq hpos.le]
      rw [this]
      congr 1
      rw [div_pow]
      field_simp
      linarith [hsq]

/-- **C114, violated** for plain numbers, in spite of the documentation (numerical.py 197-205), and for points with a coordinate
that is not 0 but very small. -/
theorem c114_counterexample : (∀ x y z, xyz2rtp (.plain x y z) = .error .typeError) ∧
    ∃ p : ℝ × ℝ × ℝ, p.1 ≠ 0 ∧ ∃ q, xyz2rtp (.arrays [p]) = .ok [q] ∧ rtp2xyz q.1 q.2.1 q.2.2 ≠ p := by
  refine ⟨fun _ _ _ => rfl, (epsilon / 2, 0, 0), by have := epsilon_pos; simp; linarith, _, rfl, ?_⟩
  have he := epsilon_pos
  have hr : radiusOf (epsilon / 2) 0 0 = 0 := by
    unfold radiusOf
    simp only
    rw [if_pos]
    rw [mul_zero, add_zero, add_zero, sqrt_mul_self (by linarith), abs_of_pos (by linarith)]
    linarith
  intro h
  have h1 := congrArg (·.1) h
  simp only [rtp2xyz, hr, zero_mul] at h1
  rw [zeroFloor_kept (Or.inl rfl)] at h1
  linarith

/-- **C114, what holds.** For every array of points whose coordinates are 0 or not too small, converting
to spherical coordinates and back gives the same points. -/
theorem c114_partial (ps : List (ℝ × ℝ × ℝ)) (h : ∀ p ∈ ps, Kept p.1 ∧ Kept p.2.1 ∧ Kept p.2.2) :
    ∃ qs, xyz2rtp (.arrays ps) = .ok qs ∧ qs.map (fun q => rtp2xyz q.1 q.2.1 q.2.2) = ps := by
  refine ⟨_, rfl, ?_⟩
  rw [List.map_map]
  conv_rhs => rw [← List.map_id ps]
  refine List.map_congr_left fun p hp => ?_
  obtain ⟨hx, hy, hz⟩ := h p hp
  obtain ⟨hpc, hps⟩ := polar_spec hx hy hz
  obtain ⟨hac, has⟩ := azimuth_spec p.1 p.2.1
  simp only [Function.comp, rtp2xyz, id]
  rw [hps, hac, has, hpc, zeroFloor_kept hx, zeroFloor_kept hy, zeroFloor_kept hz]

/-- The largest possible numbers of coordinates: a point off every axis. -/
example : Kept 3 ∧ Kept (-4) ∧ Kept 0 := by
  have h : epsilon ≤ 1 := by unfold epsilon; norm_num
  refine ⟨Or.inr ?_, Or.inr ?_, Or.inl rfl⟩
  · rw [abs_of_pos (by norm_num)]; linarith
  · rw [abs_neg, abs_of_pos (by norm_num)]; linarith

/-- **C114, the coordinates themselves.** The radius of a point is its distance from the origin and the polar
angle lies in `[0, π]`; the functions `x`, `y`, `z` recover the coordinates. -/
theorem c114_partial_polar {p1 p2 p3 : ℝ} (hx : Kept p1) (hy : Kept p2) (hz : Kept p3) :
    radiusOf p1 p2 p3 = √(p1 ^ 2 + p2 ^ 2 + p3 ^ 2) ∧
    0 ≤ polarOf p1 p2 p3 ∧ polarOf p1 p2 p3 ≤ π ∧
    x (radiusOf p1 p2 p3) (polarOf p1 p2 p3) (azimuthOf p1 p2) = p1 ∧
    y (radiusOf p1 p2 p3) (polarOf p1 p2 p3) (azimuthOf p1 p2) = p2 ∧
    z (radiusOf p1 p2 p3) (polarOf p1 p2 p3) = p3 := by
  obtain ⟨hpc, hps⟩ := polar_spec hx hy hz
  obtain ⟨hac, has⟩ := azimuth_spec p1 p2
  have hrange : 0 ≤ polarOf p1 p2 p3 ∧ polarOf p1 p2 p3 ≤ π := by
    unfold polarOf
    split_ifs
    · exact ⟨le_rfl, pi_pos.le⟩
    · exact ⟨arccos_nonneg _, arccos_le_pi _⟩
  refine ⟨?_, hrange.1, hrange.2, ?_, ?_, ?_⟩
  · rw [radius_kept hx hy hz]; congr 1; ring
  · rw [x, hps, hac]
  · rw [y, hps, has]
  · rw [z, hpc]

/-- **C115, violated.** The azimuth of a point on the negative `y` axis is negative, and that of a point
on the `z` axis is a quarter turn although the documentation (numerical.py 200-204) says 0. -/
theorem c115_counterexample : azimuthOf 0 (-1) < 0 ∧ azimuthOf 0 0 = π / 2 := by
  constructor
  · unfold azimuthOf
    simp only
    rw [if_pos (by norm_num)]
    nlinarith [pi_pos]
  · unfold azimuthOf
    simp only
    rw [if_neg (by norm_num), if_pos (by norm_num)]
    ring

/-- **C115, what holds.** The azimuth lies in `[0, 2π)` unless the point has `x = 0` and `y < 0`, where it is
minus a quarter turn; for points off the `z` axis it is the only such angle whose cosine and sine are
proportional to `x` and `y`. -/
theorem c115_partial (x y : ℝ) :
    (¬ (x = 0 ∧ y < 0) → 0 ≤ azimuthOf x y ∧ azimuthOf x y < 2 * π) ∧
    (x = 0 ∧ y < 0 → azimuthOf x y = -(π / 2)) ∧
    (∀ phi, (x, y) ≠ (0, 0) → ¬ (x = 0 ∧ y < 0) → 0 ≤ phi → phi < 2 * π →
      √(x ^ 2 + y ^ 2) * cos phi = x → √(x ^ 2 + y ^ 2) * sin phi = y → azimuthOf x y = phi) := by
  have hr : ¬ (x = 0 ∧ y < 0) → 0 ≤ azimuthOf x y ∧ azimuthOf x y < 2 * π := by
    intro h
    unfold azimuthOf
    simp only
    rw [if_neg h]
    split_ifs with h1 h2
    · constructor <;> nlinarith [pi_pos]
    · have := Complex.neg_pi_lt_arg ⟨x, y⟩
      unfold arctan2 at h2 ⊢
      constructor <;> linarith [pi_pos]
    · have := Complex.arg_le_pi ⟨x, y⟩
      unfold arctan2 at h2 ⊢
      constructor <;> linarith [pi_pos]
  refine ⟨hr, ?_, ?_⟩
  · intro h
    unfold azimuthOf
    simp only
    rw [if_pos h]; ring
  · intro phi h0 h hp1 hp2 hc hs
    obtain ⟨hc', hs'⟩ := azimuth_spec x y
    have e : x * x + y * y = x ^ 2 + y ^ 2 := by ring
    rw [e] at hc' hs'
    have hpos : 0 < √(x ^ 2 + y ^ 2) := by
      rw [sqrt_pos]
      by_contra hn
      apply h0
      have ex : x ^ 2 = 0 := by nlinarith [sq_nonneg x, sq_nonneg y]
      have ey : y ^ 2 = 0 := by nlinarith [sq_nonneg x, sq_nonneg y]
      rw [sq_eq_zero_iff] at ex ey
      rw [ex, ey]
    have c1 : cos (azimuthOf x y) = cos phi := mul_left_cancel₀ hpos.ne' (hc'.trans hc.symm)
    have s1 : sin (azimuthOf x y) = sin phi := mul_left_cancel₀ hpos.ne' (hs'.trans hs.symm)
    obtain ⟨ha1, ha2⟩ := hr h
    have hd : cos (azimuthOf x y - phi) = 1 := by
      rw [cos_sub, c1, s1]
      have := sin_sq_add_cos_sq phi
      nlinarith
    have := (cos_eq_one_iff_of_lt_of_lt (by linarith) (by linarith)).1 hd
    linarith

/-- A point in the fourth quadrant. -/
example : azimuthOf 1 (-1) = 7 * π / 4 := by
  refine (c115_partial 1 (-1)).2.2 _ (by simp) (by norm_num) (by positivity) (by linarith [pi_pos]) ?_ ?_
  all_goals
    have e : 7 * π / 4 = -(π / 4) + 2 * π := by ring
    have h2 : √(1 ^ 2 + (-1) ^ 2 : ℝ) = √2 := by norm_num
    rw [e, h2]
  · rw [cos_add_two_pi, cos_neg, cos_pi_div_four]
    have := mul_self_sqrt (show (0:ℝ) ≤ 2 by norm_num)
    linarith
  · rw [sin_add_two_pi, sin_neg, sin_pi_div_four]
    have := mul_self_sqrt (show (0:ℝ) ≤ 2 by norm_num)
    linarith

/-! ## C116: divergence of the flow -/

theorem gradient_linear (n : Nat) (f t : Nat → ℝ) (a k : ℝ) (hn : 2 ≤ n)
    (ht : ∀ j, j + 1 < n → t j < t (j + 1)) (hf : ∀ j, j < n → f j = a + k * t j) (i : Nat) (hi : i < n) :
    gradientAt n f t i = .ok k := by
  unfold gradientAt
  rw [if_neg (by omega)]
  split_ifs with h0 h1
  · have := ht 0 (by omega)
    rw [hf 0 (by omega), hf 1 (by omega)]
    congr 1
    rw [div_eq_iff (by linarith [this])]; ring
  · obtain ⟨j, rfl⟩ : ∃ j, i = j + 1 := ⟨i - 1, by omega⟩
    have := ht j (by omega)
    rw [Nat.add_sub_cancel, hf j (by omega), hf (j + 1) (by omega)]
    congr 1
    rw [div_eq_iff (by linarith [this])]; ring
  · obtain ⟨j, rfl⟩ : ∃ j, i = j + 1 := ⟨i - 1, by omega⟩
    have a1 := ht j (by omega)
    have a2 := ht (j + 1) (by omega)
    simp only [Nat.add_sub_cancel]
    rw [hf j (by omega), hf (j + 1) (by omega), hf (j + 1 + 1) (by omega)]
    congr 1
    have p1 : 0 < t (j + 1) - t j := by linarith
    have p2 : 0 < t (j + 1 + 1) - t (j + 1) := by linarith
    rw [div_eq_iff (by positivity)]; ring

theorem gradient_add_const (n : Nat) (f g t : Nat → ℝ) (c : ℝ) 
    (hf : ∀ j, j < n → f j = c + g j) (i : Nat) (hi : i < n) :
    gradientAt n f t i = gradientAt n g t i := by
  unfold gradientAt
  split_ifs with hn h0 h1
  · rfl
  · rw [hf 0 (by omega), hf 1 (by omega)]; congr 2; ring
  · rw [hf i hi, hf (i - 1) (by omega)]; congr 2; ring
  · simp only
    rw [hf i hi, hf (i - 1) (by omega), hf (i + 1) (by omega)]; congr 2; ring

/-- **C116.** For every density that decays exponentially at a rate `k`, at any two or more increasing times,
the divergence is `k` at every time. -/
theorem c116_exponential (n : Nat) (A k : ℝ) (time : Nat → ℝ) (hA : 0 < A) (hn : 2 ≤ n)
    (ht : ∀ j, j + 1 < n → time j < time (j + 1)) (i : Nat) (hi : i < n) :
    divV n (fun j => A * exp (-(k * time j))) time i = .ok k := by
  unfold divV
  rw [gradient_linear n _ time (log A) (-k) hn ht (fun j _ => ?_) i hi]
  · simp [Except.map]
  · rw [log_mul hA.ne' (exp_pos _).ne', log_exp]; ring

/-- **C116, units.** Multiplying every density by the same positive number changes neither the divergence nor
the density ratio. -/
theorem c116_scale (n : Nat) (c : ℝ) (rho time : Nat → ℝ) (hc : 0 < c) (hr : ∀ j, j < n → 0 < rho j)
    (i : Nat) (hi : i < n) :
    divV n (fun j => c * rho j) time i = divV n rho time i ∧
    densityRatio (fun j => c * rho j) i = densityRatio rho i := by
  constructor
  · unfold divV
    rw [gradient_add_const n _ (fun j => log (rho j)) time (log c) (fun j hj => ?_) i hi]
    rw [log_mul hc.ne' (hr j hj).ne']
  · have := hr 0 (by omega)
    simp only [densityRatio]
    rw [mul_div_mul_left _ _ hc.ne']

/-- **C116, sign.** Where the density falls in time the divergence is positive: for every two or more increasing
times and strictly decreasing positive densities, the divergence at every time is positive. -/
theorem c116_sign (n : Nat) (rho time : Nat → ℝ) (hn : 2 ≤ n)
    (ht : ∀ j, j + 1 < n → time j < time (j + 1)) (hr : ∀ j, j < n → 0 < rho j)
    (hd : ∀ j, j + 1 < n → rho (j + 1) < rho j) (i : Nat) (hi : i < n) :
    ∃ d, divV n rho time i = .ok d ∧ 0 < d := by
  have hl : ∀ j, j + 1 < n → log (rho (j + 1)) < log (rho j) := fun j hj =>
    log_lt_log (hr _ hj) (hd j hj)
  unfold divV gradientAt
  rw [if_neg (by omega)]
  split_ifs with h0 h1
  · refine ⟨_, rfl, ?_⟩
    have a1 := ht 0 (by omega)
    have a2 := hl 0 (by omega)
    have : (log (rho 1) - log (rho 0)) / (time 1 - time 0) < 0 :=
      div_neg_of_neg_of_pos (by simpa using a2) (by simpa using a1)
    linarith
  · obtain ⟨j, rfl⟩ : ∃ j, i = j + 1 := ⟨i - 1, by omega⟩
    refine ⟨_, rfl, ?_⟩
    have a1 := ht j (by omega)
    have a2 := hl j (by omega)
    have : (log (rho (j + 1)) - log (rho (j + 1 - 1))) / (time (j + 1) - time (j + 1 - 1)) < 0 :=
      div_neg_of_neg_of_pos (by simpa using a2) (by simpa using a1)
    linarith
  · obtain ⟨j, rfl⟩ : ∃ j, i = j + 1 := ⟨i - 1, by omega⟩
    have a1 := ht j (by omega)
    have a2 := ht (j + 1) (by omega)
    have b1 := hl j (by omega)
    have b2 := hl (j + 1) (by omega)
    simp only [Nat.add_sub_cancel]
    refine ⟨_, rfl, ?_⟩
    have p1 : 0 < time (j + 1) - time j := by linarith
    have p2 : 0 < time (j + 1 + 1) - time (j + 1) := by linarith
    generalize time (j + 1) - time j = h at p1 ⊢
    generalize time (j + 1 + 1) - time (j + 1) = k at p2 ⊢
    have hh : 0 < h ^ 2 := by positivity
    have hk : 0 < k ^ 2 := by positivity
    have : (h ^ 2 * log (rho (j + 1 + 1)) + (k ^ 2 - h ^ 2) * log (rho (j + 1)) - k ^ 2 * log (rho j))
        / (h * k * (h + k)) < 0 := by
      refine div_neg_of_neg_of_pos ?_ (by positivity)
      nlinarith
    linarith

/-- Three unevenly spaced times. -/
example : divV 3 (fun j => 7 * exp (-(2 * ((j : ℝ) ^ 2)))) (fun j => (j : ℝ) ^ 2) 1 = .ok 2 := by
  refine c116_exponential 3 7 2 (fun j => (j : ℝ) ^ 2) (by norm_num) (by norm_num) (fun j _ => ?_) 1 (by norm_num)
  push_cast
  nlinarith [(Nat.cast_nonneg j : (0 : ℝ) ≤ j)]

/-! ## C117: rigidity -/

theorem c_pos : (0 : ℝ) < ((mks c!"c" : ℚ) : ℝ) := by
  have h : (0 : ℚ) < mks c!"c" := by decide +kernel
  exact_mod_cast h

/-- **C117.** For every kinetic energy and mass that are not negative and every charge other than zero, the
product of rigidity and charge is the relativistic momentum `p`: `(p c)² + (m c²)² = (E + m c²)²`, where `c` is
the tabulated speed of light; the rigidity has the sign of the charge. -/
theorem c117_relativistic (energy mass charge : ℝ) (he : 0 ≤ energy) (hm : 0 ≤ mass) (hq : charge ≠ 0) :
    (rigidity energy mass charge * charge * 299790000) ^ 2 + (mass * 299790000 ^ 2) ^ 2
      = (energy + mass * 299790000 ^ 2) ^ 2 ∧
    0 ≤ rigidity energy mass charge * charge := by
  have hc : ((mks c!"c" : ℚ) : ℝ) = 299790000 := by
    have h : mks c!"c" = 299790000 := by decide +kernel
    rw [h]; norm_num
  unfold rigidity rigidityAt
  rw [hc]
  simp only
  have hnn : 0 ≤ (energy + mass * 299790000 ^ 2) ^ 2 - (mass * 299790000 ^ 2) ^ 2 := by
    have : 0 ≤ mass * 299790000 ^ 2 := by positivity
    nlinarith
  have hs := sq_sqrt hnn
  have e : √((energy + mass * 299790000 ^ 2) ^ 2 - (mass * 299790000 ^ 2) ^ 2) / 299790000 / charge * charge
      = √((energy + mass * 299790000 ^ 2) ^ 2 - (mass * 299790000 ^ 2) ^ 2) / 299790000 := by
    field_simp
  rw [e]
  refine ⟨?_, by positivity⟩
  rw [div_mul_cancel₀ _ (by norm_num), hs]; ring

/-- **C117, growth.** Of two particles of the same mass and positive charge, the one with more kinetic energy has
the greater rigidity. -/
theorem c117_monotone (e1 e2 mass charge : ℝ) (he : 0 ≤ e1) (h : e1 < e2) (hm : 0 ≤ mass) (hq : 0 < charge) :
    rigidity e1 mass charge < rigidity e2 mass charge := by
  unfold rigidity rigidityAt
  have hc := c_pos
  generalize ((mks c!"c" : ℚ) : ℝ) = c at hc
  simp only
  have hmc : 0 ≤ mass * c ^ 2 := by positivity
  refine div_lt_div_of_pos_right (div_lt_div_of_pos_right (sqrt_lt_sqrt ?_ ?_) hc) hq
  · nlinarith
  · nlinarith

example : 0 < rigidity 5 2 3 := by
  have h := c117_monotone 0 5 2 3 le_rfl (by norm_num) (by norm_num) (by norm_num)
  refine lt_of_le_of_lt ?_ h
  have := (c117_relativistic 0 2 3 le_rfl (by norm_num) (by norm_num)).2
  linarith

/-! ## C118: mean free path -/

theorem rigidity_pos {energy mass charge : ℝ} (he : 0 < energy) (hm : 0 ≤ mass) (hq : 0 < charge) :
    0 < rigidity energy mass charge := by
  have h := c117_monotone 0 energy mass charge le_rfl he hm hq
  refine lt_of_le_of_lt ?_ h
  have := (c117_relativistic 0 mass charge le_rfl hm hq.ne').2
  exact nonneg_of_mul_nonneg_left this hq

theorem eV_pos : (0 : ℝ) < ((mks c!"eV" : ℚ) : ℝ) := by
  have h : (0 : ℚ) < mks c!"eV" := by decide +kernel
  exact_mod_cast h

/-- **C118, reference point.** At a distance of 149597870700 m and an energy of 1 MeV (1.6022e-13 J) the mean
free path is the given reference value, whatever the species and the powers. -/
theorem c118_reference (mass charge a b lambda0 : ℝ) (hm : 0 ≤ mass) (hq : 0 < charge) :
    meanFreePath 149597870700 (16022 / 10 ^ 17) mass charge a b lambda0 = lambda0 := by
  have h1 : mks c!"au" = 149597870700 := by decide +kernel
  have h2 : mks c!"eV" = 8011/50000000000000000000000 := by decide +kernel
  unfold meanFreePath
  rw [h1, h2]
  have e : (10 : ℝ) ^ 6 * ((8011/50000000000000000000000 : ℚ) : ℝ) = 16022 / 10 ^ 17 := by norm_num
  rw [e]
  have hr := rigidity_pos (energy := 16022 / 10 ^ 17) (by norm_num) hm hq
  rw [div_self hr.ne', one_rpow]
  norm_num

/-- **C118, scaling.** Multiplying the distance by `s` multiplies the mean free path by `s` to the radial power;
between two energies it changes by the ratio of rigidities to the rigidity power; it is proportional to the
reference value. -/
theorem c118_scaling (r s e1 e2 mass charge a b lambda0 t : ℝ) (hr : 0 < r) (hs : 0 < s)
    (he1 : 0 < e1) (he2 : 0 < e2) (hm : 0 ≤ mass) (hq : 0 < charge) :
    meanFreePath (s * r) e1 mass charge a b lambda0 = s ^ a * meanFreePath r e1 mass charge a b lambda0 ∧
    meanFreePath r e2 mass charge a b lambda0
      = (rigidity e2 mass charge / rigidity e1 mass charge) ^ b * meanFreePath r e1 mass charge a b lambda0 ∧
    meanFreePath r e1 mass charge a b (t * lambda0) = t * meanFreePath r e1 mass charge a b lambda0 ∧
    (0 < lambda0 → 0 < meanFreePath r e1 mass charge a b lambda0) := by
  have hau : (0 : ℝ) < ((mks c!"au" : ℚ) : ℝ) := by
    have h : (0 : ℚ) < mks c!"au" := by decide +kernel
    exact_mod_cast h
  have p1 := rigidity_pos he1 hm hq
  have p2 := rigidity_pos he2 hm hq
  have p0 := rigidity_pos (energy := 10 ^ 6 * ((mks c!"eV" : ℚ) : ℝ)) (by have := eV_pos; positivity) hm hq
  unfold meanFreePath
  generalize ((mks c!"au" : ℚ) : ℝ) = au at hau
  generalize rigidity (10 ^ 6 * ((mks c!"eV" : ℚ) : ℝ)) mass charge = g0 at p0
  generalize rigidity e1 mass charge = g1 at p1
  generalize rigidity e2 mass charge = g2 at p2
  refine ⟨?_, ?_, by ring, fun hl => by positivity⟩
  · rw [mul_div_assoc, mul_rpow hs.le (by positivity)]; ring
  · have : g2 / g0 = g2 / g1 * (g1 / g0) := by field_simp
    rw [this, mul_rpow (by positivity) (by positivity)]; ring

/-- Twice the distance with a linear law: twice the mean free path. -/
example : meanFreePath (2 * 149597870700) (16022 / 10 ^ 17) 1 1 1 (1 / 3) 5 = 10 := by
  rw [(c118_scaling 149597870700 2 (16022 / 10 ^ 17) 1 1 1 1 (1 / 3) 5 1 (by norm_num) (by norm_num)
    (by norm_num) (by norm_num) (by norm_num) (by norm_num)).1, c118_reference _ _ _ _ _ (by norm_num) (by norm_num)]
  norm_num

/-! ## C125: acceleration rate -/

/-- **C125.** Where the velocity is the same at all shells and not zero, the acceleration rate is zero at every
shell; wherever the flow, the mean free paths, the particle speed and the ratio of diffusion coefficients are not
negative, neither is the rate. -/
theorem c125_rate (n : Nat) (vr vt vp angle mfp : Nat → ℝ) (vparticle kper : ℝ) (i : Nat) (hi : i < n) :
    ((∀ j, j < n → vr j = vr 0 ∧ vt j = vt 0 ∧ vp j = vp 0) → (vr 0, vt 0, vp 0) ≠ (0, 0, 0) →
      accelerationRate n vr vt vp angle mfp vparticle kper i = 0) ∧
    ((∀ j, j < n → 0 ≤ mfp j) → 0 ≤ vparticle → 0 ≤ kper →
      0 ≤ accelerationRate n vr vt vp angle mfp vparticle kper i) := by
  constructor
  · intro hu h0
    have hahead : ∀ f : Nat → ℝ, (∀ j, j < n → f j = f 0) → ahead n f i = f 0 := by
      intro f hf
      unfold ahead
      split_ifs with h
      · exact hf _ h
      · exact hf _ (by omega)
    have hbehind : ∀ f : Nat → ℝ, (∀ j, j < n → f j = f 0) → behind f i = f 0 := by
      intro f hf
      unfold behind
      split_ifs with h
      · rfl
      · exact hf _ (by omega)
    have e1 := fun j hj => (hu j hj).1
    have e2 := fun j hj => (hu j hj).2.1
    have e3 := fun j hj => (hu j hj).2.2
    have em := hahead (fun j => mag (vr j) (vt j) (vp j)) (fun j hj => by rw [e1 j hj, e2 j hj, e3 j hj])
    unfold accelerationRate
    simp only
    rw [em, hahead vr e1, hahead vt e2, hahead vp e3, hbehind vr e1, hbehind vt e2, hbehind vp e3]
    have hm := mag_pos h0
    have hs := mag_sq (vr 0) (vt 0) (vp 0)
    have : vr 0 * vr 0 + vt 0 * vt 0 + vp 0 * vp 0 = mag (vr 0) (vt 0) (vp 0) * mag (vr 0) (vt 0) (vp 0) := by
      rw [← sq (mag _ _ _), hs]; ring
    rw [this, div_self (by positivity)]
    simp
  · intro hm hv hk
    have hahead : ∀ f : Nat → ℝ, (∀ j, j < n → 0 ≤ f j) → 0 ≤ ahead n f i := by
      intro f hf
      unfold ahead
      split_ifs with h
      · exact hf _ h
      · exact hf _ (by omega)
    have hbehind : ∀ f : Nat → ℝ, (∀ j, j < n → 0 ≤ f j) → 0 ≤ behind f i := by
      intro f hf
      unfold behind
      split_ifs with h
      · exact hf _ (by omega)
      · exact hf _ (by omega)
    have hx : ∀ j, j < n → 0 ≤ (fun j => mfp j * ((cos (angle j) ^ 2 + kper * sin (angle j) ^ 2) * vparticle / 3)
        / mag (vr j) (vt j) (vp j)) j := by
      intro j hj
      have := hm j hj
      have := mag_nonneg (vr j) (vt j) (vp j)
      positivity
    unfold accelerationRate
    simp only
    refine div_nonneg (mul_nonneg (hahead (fun j => mag (vr j) (vt j) (vp j)) (fun j _ => mag_nonneg _ _ _))
      (abs_nonneg _)) ?_
    exact mul_nonneg (by norm_num) (add_nonneg (hahead _ hx) (hbehind _ hx))

/-- **C125, jump.** Two shells, a flow along one axis that changes from `a` to `b` (both positive) with everything
else equal: the rate at the first shell is `|b - a|` over the sum of the diffusion lengths. -/
theorem c125_jump (a b m p : ℝ) (ha : 0 < a) (hb : 0 < b) (hm : 0 < m) (hp : 0 < p) :
    accelerationRate 2 (fun j => if j = 0 then a else b) (fun _ => 0) (fun _ => 0) (fun _ => 0) (fun _ => m) p 0 0
      = |b - a| / (m * p / b + m * p / a) := by
  have h1 : ∀ u : ℝ, 0 < u → mag u 0 0 = u := fun u hu => sqrt_of_sq hu.le (by ring)
  simp only [accelerationRate, ahead, behind]
  norm_num
  rw [h1 b hb, h1 a ha]
  have e : (1 : ℝ) - b * a / (b * b) = (b - a) / b := by field_simp
  rw [e, abs_div, abs_of_pos hb]
  field_simp

/-! ## C126: flux of protons -/

/-- **C126.** For protons of speed `v`, with the kinetic energy `m v² / 2`, the flux is the distribution times
`v² / m`; it is proportional to the distribution and, for one value of the distribution, to the energy. -/
theorem c126_flux (v f g energy a b : ℝ) :
    flux ((16726 / 10 ^ 31) * v ^ 2 / 2) f = v ^ 2 / (16726 / 10 ^ 31) * f ∧
    flux energy (a * f + b * g) = a * flux energy f + b * flux energy g ∧
    flux (a * energy) f = a * flux energy f ∧
    (0 ≤ energy → 0 ≤ f → 0 ≤ flux energy f) := by
  have h : mks c!"mp" = 16726 / 10 ^ 31 := by decide +kernel
  unfold flux
  rw [h]
  push_cast
  refine ⟨?_, by ring, by ring, fun h1 h2 => by positivity⟩
  field_simp

example : flux ((16726 / 10 ^ 31) * 3 ^ 2 / 2) 2 = 18 / (16726 / 10 ^ 31) := by
  rw [(c126_flux 3 2 0 0 0 0).1]; norm_num

end Verif.Physics
