import Verif.Physics.FieldProps

/-!
# Property C262: spherical coordinates round trip
-/

set_option linter.unusedSimpArgs false

namespace Verif.Physics

open Verif.Py Real

theorem radius_of_position {r t p : ℝ} (hr : 0 ≤ r) :
    √((r * sin t * cos p) ^ 2 + (r * sin t * sin p) ^ 2 + (r * cos t) ^ 2) = r := by
  have e : (r * sin t * cos p) ^ 2 + (r * sin t * sin p) ^ 2 + (r * cos t) ^ 2 = r ^ 2 := by
    have h1 := sin_sq_add_cos_sq t
    have h2 := sin_sq_add_cos_sq p
    calc _ = r ^ 2 * (sin t ^ 2 * (sin p ^ 2 + cos p ^ 2) + cos t ^ 2) := by ring
      _ = r ^ 2 := by rw [h2, mul_one, h1, mul_one]
  rw [e, sqrt_sq hr]

theorem position_not_below {r t p : ℝ} (hr : 0 < r) (ht : 0 < sin t) (h0 : 0 ≤ p) (h2 : p < 2 * π) (hp : p ≠ 3 * π / 2) :
    ¬ (r * sin t * cos p = 0 ∧ r * sin t * sin p < 0) := by
  rintro ⟨hc, hs⟩
  have hrs : 0 < r * sin t := mul_pos hr ht
  have hc' : cos p = 0 := (mul_eq_zero.1 hc).resolve_left hrs.ne'
  have hs' : sin p < 0 := by
    by_contra h
    exact absurd hs (not_lt.2 (mul_nonneg hrs.le (not_lt.1 h)))
  have hpi : π < p := by
    by_contra h
    exact absurd hs' (not_lt.2 (sin_nonneg_of_nonneg_of_le_pi h0 (not_lt.1 h)))
  obtain ⟨k, hk⟩ := cos_eq_zero_iff.1 hc'
  have k1 : k = 1 := by
    have a1 : (0 : ℝ) < k := by
      by_contra h
      have : (k : ℝ) * π ≤ 0 := mul_nonpos_of_nonpos_of_nonneg (not_lt.1 h) pi_pos.le
      nlinarith [pi_pos]
    have a2 : (k : ℝ) < 2 := by
      by_contra h
      have : 2 * π ≤ (k : ℝ) * π := mul_le_mul_of_nonneg_right (not_lt.1 h) pi_pos.le
      nlinarith [pi_pos]
    have b1 : 0 < k := by exact_mod_cast a1
    have b2 : k < 2 := by exact_mod_cast a2
    omega
  rw [k1] at hk
  apply hp
  rw [hk]
  push_cast
  ring

/-- **C262, what holds.** For every list of positions off the axis, the coordinates of which are zero or not cut off, and the azimuth of
which is not three quarters of a turn: `xyz2rtp` of the Cartesian coordinates gives the radii, polar angles and azimuths. -/
theorem c262_partial (ps : List (ℝ × ℝ × ℝ))
    (h : ∀ p ∈ ps, 0 < p.1 ∧ 0 < p.2.1 ∧ p.2.1 < π ∧ 0 ≤ p.2.2 ∧ p.2.2 < 2 * π ∧ p.2.2 ≠ 3 * π / 2
      ∧ Kept (x p.1 p.2.1 p.2.2) ∧ Kept (y p.1 p.2.1 p.2.2) ∧ Kept (z p.1 p.2.1)) :
    xyz2rtp (.arrays (ps.map (fun p => rtp2xyz p.1 p.2.1 p.2.2))) = .ok ps
      ∧ xyz2rtp (.arrays (ps.map (fun p => (x p.1 p.2.1 p.2.2, y p.1 p.2.1 p.2.2, z p.1 p.2.1)))) = .ok ps := by
  have key : ∀ p ∈ ps, (fun q : ℝ × ℝ × ℝ => (radiusOf q.1 q.2.1 q.2.2, polarOf q.1 q.2.1 q.2.2, azimuthOf q.1 q.2.1))
      (x p.1 p.2.1 p.2.2, y p.1 p.2.1 p.2.2, z p.1 p.2.1) = p := by
    intro p hp
    obtain ⟨r, t, ph⟩ := p
    obtain ⟨hr, ht, htp, h0, h2, h3, kx, ky, kz⟩ := h _ hp
    simp only at hr ht htp h0 h2 h3 kx ky kz ⊢
    have hs : 0 < sin t := sin_pos_of_pos_of_lt_pi ht htp
    have hrad : radiusOf (x r t ph) (y r t ph) (z r t) = r := by
      rw [(c114_partial_polar kx ky kz).1]
      exact radius_of_position hr.le
    have hpol : polarOf (x r t ph) (y r t ph) (z r t) = t := by
      unfold polarOf
      rw [hrad, if_neg hr.ne', z, mul_div_cancel_left₀ _ hr.ne', arccos_cos ht.le htp.le]
    have hrs : 0 < r * sin t := mul_pos hr hs
    have hxy : √(x r t ph ^ 2 + y r t ph ^ 2) = r * sin t := by
      have e : x r t ph ^ 2 + y r t ph ^ 2 = (r * sin t) ^ 2 := by
        unfold x y
        have h2 := sin_sq_add_cos_sq ph
        calc _ = (r * sin t) ^ 2 * (sin ph ^ 2 + cos ph ^ 2) := by ring
          _ = _ := by rw [h2, mul_one]
      rw [e, sqrt_sq hrs.le]
    have haz : azimuthOf (x r t ph) (y r t ph) = ph := by
      refine (c115_partial (x r t ph) (y r t ph)).2.2 ph ?_ (position_not_below hr hs h0 h2 h3) h0 h2 ?_ ?_
      · intro he
        rw [Prod.mk.injEq] at he
        rw [he.1, he.2] at hxy
        simp at hxy
        rcases hxy with h' | h' <;> [exact hr.ne' h'; exact hs.ne' h']
      · rw [hxy]; rfl
      · rw [hxy]; rfl
    rw [hrad, hpol, haz]
  constructor
  · simp only [xyz2rtp, List.map_map]
    congr 1
    conv_rhs => rw [← List.map_id ps]
    refine List.map_congr_left fun p hp => ?_
    obtain ⟨-, -, -, -, -, -, kx, ky, kz⟩ := h p hp
    have e : rtp2xyz p.1 p.2.1 p.2.2 = (x p.1 p.2.1 p.2.2, y p.1 p.2.1 p.2.2, z p.1 p.2.1) := by
      unfold rtp2xyz
      rw [← x, ← y, ← z, zeroFloor_kept kx, zeroFloor_kept ky, zeroFloor_kept kz]
    simp only [Function.comp, id, e]
    exact key p hp
  · simp only [xyz2rtp, List.map_map]
    congr 1
    conv_rhs => rw [← List.map_id ps]
    exact List.map_congr_left fun p hp => key p hp

/-- A point in the equatorial plane. -/
example : xyz2rtp (.arrays [rtp2xyz 2 (π / 2) π]) = .ok [(2, π / 2, π)] := by
  have he : epsilon ≤ 1 := by unfold epsilon; norm_num
  refine (c262_partial [(2, π / 2, π)] ?_).1
  simp only [List.mem_singleton, forall_eq]
  have hp := pi_pos
  refine ⟨by norm_num, by positivity, by linarith, hp.le, by linarith, ?_, ?_, ?_, ?_⟩
  · intro h; linarith
  · right; simp [x]; linarith
  · left; simp [y]
  · left; simp [z]

/-- **C262 fails in the code** at three quarters of a turn: for every radius and polar angle with coordinates that are not cut off, the
azimuth comes back as minus a quarter of a turn. -/
theorem c262_counterexample (r t : ℝ) (hr : 0 < r) (ht : 0 < sin t) (hk : epsilon ≤ r * sin t) :
    ∃ q, xyz2rtp (.arrays [rtp2xyz r t (3 * π / 2)]) = .ok [q] ∧ q.2.2 = -(π / 2) := by
  refine ⟨_, rfl, ?_⟩
  have hc : cos (3 * π / 2) = 0 := by
    rw [show 3 * π / 2 = π / 2 + π by ring, cos_add_pi, cos_pi_div_two, neg_zero]
  have hs : sin (3 * π / 2) = -1 := by
    rw [show 3 * π / 2 = π / 2 + π by ring, sin_add_pi, sin_pi_div_two]
  have hrs : 0 < r * sin t := mul_pos hr ht
  simp only [rtp2xyz, hc, hs, mul_zero, mul_neg, mul_one]
  rw [zeroFloor_kept (Or.inl rfl), zeroFloor_kept (Or.inr (by rw [abs_neg, abs_of_pos hrs]; exact hk))]
  exact (c115_partial 0 (-(r * sin t))).2.1 ⟨rfl, by linarith⟩

end Verif.Physics
