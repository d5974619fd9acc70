import Verif.Physics.FieldProps
import Verif.Physics.SumProps

/-!
# The direction of the axes, and the order of minimum energies: properties C244, C245
-/

set_option linter.unusedSimpArgs false

namespace Verif.Physics

open Real Verif.Py

/-! ## C245: directions of axes -/

theorem mag_dot (a b c : ℝ) : mag a b c = √(dot (a, b, c) (a, b, c)) := by
  unfold mag dot; congr 1; ring

theorem vPara_dot (v1 v2 v3 b1 b2 b3 : ℝ) :
    vPara v1 v2 v3 b1 b2 b3 = dot (b1, b2, b3) (v1, v2, v3) / √(dot (b1, b2, b3) (b1, b2, b3)) := by
  unfold vPara; rw [mag_dot]; rfl

/-- **C245.** For every map `R` of vectors that preserves products of vectors (a rotation of the axes, or a reflection):
magnitudes, components along and across the field, and the flow angle are the same for the field and velocity in
the new axes. -/
theorem c245_fields (R : ℝ × ℝ × ℝ → ℝ × ℝ × ℝ) (hR : ∀ u w, dot (R u) (R w) = dot u w) (b v : ℝ × ℝ × ℝ) :
    mag (R b).1 (R b).2.1 (R b).2.2 = mag b.1 b.2.1 b.2.2 ∧
    bvMag (R b).1 (R b).2.1 (R b).2.2 (R v).1 (R v).2.1 (R v).2.2 = bvMag b.1 b.2.1 b.2.2 v.1 v.2.1 v.2.2 ∧
    vPara (R v).1 (R v).2.1 (R v).2.2 (R b).1 (R b).2.1 (R b).2.2 = vPara v.1 v.2.1 v.2.2 b.1 b.2.1 b.2.2 ∧
    vPerp (R v).1 (R v).2.1 (R v).2.2 (R b).1 (R b).2.1 (R b).2.2 = vPerp v.1 v.2.1 v.2.2 b.1 b.2.1 b.2.2 ∧
    flowAngle (R b).1 (R b).2.1 (R b).2.2 (R v).1 (R v).2.1 (R v).2.2 = flowAngle b.1 b.2.1 b.2.2 v.1 v.2.1 v.2.2 := by
  have hm : ∀ u, mag (R u).1 (R u).2.1 (R u).2.2 = mag u.1 u.2.1 u.2.2 := fun u => by
    rw [mag_dot, mag_dot]; simp only [Prod.mk.eta, hR]
  have hp : ∀ u w, vPara (R u).1 (R u).2.1 (R u).2.2 (R w).1 (R w).2.1 (R w).2.2
      = vPara u.1 u.2.1 u.2.2 w.1 w.2.1 w.2.2 := fun u w => by
    rw [vPara_dot, vPara_dot]; simp only [Prod.mk.eta, hR]
  refine ⟨hm b, ?_, hp v b, ?_, ?_⟩
  · unfold bvMag; rw [hm, hm]
  · unfold vPerp; rw [hm, hp]
  · unfold flowAngle bvMag; rw [hm, hm, hp]

/-- **C245, acceleration.** The acceleration rate is the same for the velocities in the new axes. -/
theorem c245_acceleration (R : ℝ × ℝ × ℝ → ℝ × ℝ × ℝ) (hR : ∀ u w, dot (R u) (R w) = dot u w) (n : Nat)
    (v : Nat → ℝ × ℝ × ℝ) (angle mfp : Nat → ℝ) (vparticle kper : ℝ) (i : Nat) :
    accelerationRate n (fun j => (R (v j)).1) (fun j => (R (v j)).2.1) (fun j => (R (v j)).2.2) angle mfp vparticle kper i
      = accelerationRate n (fun j => (v j).1) (fun j => (v j).2.1) (fun j => (v j).2.2) angle mfp vparticle kper i := by
  have hm : ∀ u, mag (R u).1 (R u).2.1 (R u).2.2 = mag u.1 u.2.1 u.2.2 := fun u => by
    rw [mag_dot, mag_dot]; simp only [Prod.mk.eta, hR]
  have hd : ∀ j k, (R (v j)).1 * (R (v k)).1 + (R (v j)).2.1 * (R (v k)).2.1 + (R (v j)).2.2 * (R (v k)).2.2
      = (v j).1 * (v k).1 + (v j).2.1 * (v k).2.1 + (v j).2.2 * (v k).2.2 := fun j k => hR (v j) (v k)
  unfold accelerationRate
  simp only [hm]
  have e : ∀ j k : Nat, ∃ a b : Nat, ∀ f : Nat → ℝ, ahead n f i = f a ∧ behind f i = f b := fun _ _ =>
    ⟨if i + 1 < n then i + 1 else n - 1, if i = 0 then 0 else i - 1, fun f => by
      unfold ahead behind; constructor <;> split <;> rfl⟩
  obtain ⟨a, b, hab⟩ := e 0 0
  simp only [hab, hd]

/-- A quarter turn about the first axis. -/
example : ∀ u w : ℝ × ℝ × ℝ, dot (u.1, -u.2.2, u.2.1) (w.1, -w.2.2, w.2.1) = dot u w := by
  intro u w; unfold dot; simp only; ring

example (b v : ℝ × ℝ × ℝ) : flowAngle b.1 (-b.2.2) b.2.1 v.1 (-v.2.2) v.2.1 = flowAngle b.1 b.2.1 b.2.2 v.1 v.2.1 v.2.2 :=
  (c245_fields (fun u => (u.1, -u.2.2, u.2.1)) (fun u w => by unfold dot; simp only; ring) b v).2.2.2.2

/-! ## C244: order of minimum energies -/

theorem getD_lt (l : List ℝ) (j : Nat) (h : j < l.length) : l.getD j 0 = l[j] := by
  rw [List.getD_eq_getElem?_getD, List.getElem?_eq_getElem h, Option.getD_some]

theorem simpson_congr (n : Nat) (hn : 0 < n) (x x' y y' : Nat → ℝ) (hx : ∀ j < n, x j = x' j) (hy : ∀ j < n, y j = y' j) :
    simpson n x y = simpson n x' y' := by
  have hp : ∀ s m, s + 2 * m < n → panels s m x y = panels s m x' y' := by
    intro s m h
    unfold panels
    refine Finset.sum_congr rfl fun k hk => ?_
    have hk := Finset.mem_range.1 hk
    unfold panel
    rw [hx _ (by omega), hx _ (by omega), hx _ (by omega), hy _ (by omega), hy _ (by omega), hy _ (by omega)]
  unfold simpson
  split
  · exact hp 0 _ (by omega)
  · rw [hp 0 _ (by omega), hp 1 _ (by omega), hx _ (by omega), hx _ (by omega), hx 1 (by omega), hx 0 (by omega),
      hy _ (by omega), hy (n - 2) (by omega), hy 1 (by omega), hy 0 (by omega)]

/-- Integrating `A u ^ g` for `g` zero or one over any ascending energies. -/
theorem simpsonList_affine (l : List ℝ) (hl : l ≠ []) (hs : l.Pairwise (· < ·)) (a b : ℝ) :
    simpsonList (l.map (fun u => a + b * u)) l
      = .ok (a * (l.getLast hl - l.head hl) + b * (l.getLast hl ^ 2 - l.head hl ^ 2) / 2) := by
  have hn : 0 < l.length := List.length_pos_iff.2 hl
  unfold simpsonList
  rw [if_neg (by omega)]
  have := c122_affine l.length (l.getD · 0) a b hn (fun j hj => by
    show l.getD j 0 < l.getD (j + 1) 0
    rw [getD_lt l j (by omega), getD_lt l (j + 1) hj]
    exact List.pairwise_iff_getElem.1 hs j (j + 1) (by omega) hj (by omega))
  unfold fluence at this
  rw [simpson_congr l.length hn _ (l.getD · 0) _ (fun i => a + b * l.getD i 0) (fun _ _ => rfl) (fun j hj => by
    show (l.map (fun u => a + b * u)).getD j 0 = _
    rw [getD_lt _ j (by simpa using hj), getD_lt l j hj, List.getElem_map]), this]
  have e1 : l.getD (l.length - 1) 0 = l.getLast hl := by
    rw [getD_lt _ _ (by omega), List.getLast_eq_getElem]
  have e2 : l.getD 0 0 = l.head hl := by
    rw [getD_lt _ _ hn, List.head_eq_getElem]
  simp only [e1, e2]

/-- **C244 (partial).** For ascending positive energies and a minimum energy among or between them, the integral flux of
a differential flux that is constant (`g = 0`) or proportional to energy (`g = 1`) is the integral from the minimum to
the greatest energy, which decreases as the minimum rises. -/
theorem c244_exact_partial (e : List ℝ) (A lowest m : ℝ) (g : Nat) (hg : g ≤ 1) (he : e.Pairwise (· < ·))
    (hpos : ∀ u ∈ e, 0 < u) (hA : 0 < A) (hm : floatMin ≤ m) (hlow : lowest ≤ m) (h0 : ∃ u ∈ e, u ≤ m)
    (h1 : ∃ u ∈ e, m < u) (hne : e ≠ []) :
    integralFlux e (e.map (fun u => A * u ^ g)) lowest m
      = .ok (A * (e.getLast hne ^ (g + 1) - m ^ (g + 1)) / (g + 1)) := by
  have hi := c124_power_law e m A g he hpos hA h0 h1
  simp only [Real.rpow_natCast] at hi
  have hs : (m :: e.filter (fun u => m < u)).Pairwise (· < ·) := by
    rw [List.pairwise_cons]
    exact ⟨fun u hu => by simpa using (List.mem_filter.1 hu).2, he.filter _⟩
  have hlast : (m :: e.filter (fun u => m < u)).getLast (by simp) = e.getLast hne := by
    obtain ⟨w, hw, hmw⟩ := h1
    have hf : e.filter (fun u => m < u) ≠ [] := by
      intro h
      have : w ∈ e.filter (fun u => m < u) := List.mem_filter.2 ⟨hw, by simpa using hmw⟩
      rw [h] at this; cases this
    rw [List.getLast_cons hf]
    have hle : ∀ u ∈ e, u ≤ e.getLast hne := by
      intro u hu
      obtain ⟨j, hj, rfl⟩ := List.mem_iff_getElem.1 hu
      rw [List.getLast_eq_getElem]
      rcases Nat.lt_or_ge j (e.length - 1) with h | h
      · exact (List.pairwise_iff_getElem.1 he j (e.length - 1) hj (by omega) h).le
      · have : j = e.length - 1 := by omega
        subst this; exact le_rfl
    have hlm : e.getLast hne ∈ e.filter (fun u => m < u) :=
      List.mem_filter.2 ⟨List.getLast_mem hne, by simpa using lt_of_lt_of_le hmw (hle w hw)⟩
    apply le_antisymm
    · exact hle _ (List.mem_filter.1 (List.getLast_mem hf)).1
    · obtain ⟨j, hj, hje⟩ := List.mem_iff_getElem.1 hlm
      rw [← hje, List.getLast_eq_getElem]
      rcases Nat.lt_or_ge j ((e.filter (fun u => m < u)).length - 1) with h | h
      · exact (List.pairwise_iff_getElem.1 (he.filter _) j _ hj (by omega) h).le
      · have : j = (e.filter (fun u => m < u)).length - 1 := by omega
        subst this; exact le_rfl
  unfold integralFlux
  simp only [max_eq_left hm]
  rw [if_neg (not_lt.2 hlow), hi]
  simp only
  rcases Nat.le_one_iff_eq_zero_or_eq_one.1 hg with rfl | rfl
  · have := simpsonList_affine (m :: e.filter (fun u => m < u)) (by simp) hs A 0
    simp only [zero_mul, add_zero, hlast, List.head_cons, zero_div] at this
    simp only [pow_zero, mul_one]
    rw [this]
    congr 1; ring
  · have := simpsonList_affine (m :: e.filter (fun u => m < u)) (by simp) hs 0 A
    simp only [zero_mul, zero_add, hlast, List.head_cons] at this
    simp only [pow_one]
    rw [this]
    congr 1; norm_num

/-- A flux of 2 above 3/2 and energies 1, 2, 4, 8. -/
example : integralFlux [1, 2, 4, 8] ([1, 2, 4, 8].map (fun u => 2 * u ^ 0)) 1 (3 / 2) = .ok 13 := by
  have := c244_exact_partial [1, 2, 4, 8] 2 1 (3 / 2) 0 (by omega) (by simp; norm_num) (by simp) (by norm_num)
    (by have := floatMin_le_half; linarith) (by norm_num) ⟨1, by simp, by norm_num⟩ ⟨2, by simp, by norm_num⟩ (by simp)
  rw [this]; norm_num

/-- **C244 (partial), energies of the series.** For ascending positive energies, neighbouring intervals of which differ by
a factor of two at most, and a positive differential flux: raising the minimum energy by two energies does not raise
the integral flux if the number of energies from the minimum on is odd. -/
theorem c244_step_partial (e f : List ℝ) (lowest r r' : ℝ) (k : Nat) (he : e.Pairwise (· < ·)) (hl : f.length = e.length)
    (hmin : ∀ u ∈ e, floatMin ≤ u) (hf : ∀ u ∈ f, 0 ≤ u) (hb : Balanced e) (hk : k + 3 < e.length)
    (hlow : ∀ u ∈ e, lowest ≤ u) (hodd : (e.length - k) % 2 = 1)
    (h : integralFlux e f lowest e[k] = .ok r) (h' : integralFlux e f lowest e[k + 2] = .ok r') : r' ≤ r := by
  have hpos : ∀ u ∈ e, u ≠ 0 := fun u hu => (lt_of_lt_of_le (by unfold floatMin; positivity) (hmin u hu)).ne'
  have key : ∀ j (hj : j + 1 < e.length) s, (e.length - j) % 2 = 1 → integralFlux e f lowest e[j] = .ok s →
      s = panels j ((e.length - j) / 2) (e.getD · 0) (f.getD · 0) := by
    intro j hj s ho hs
    unfold integralFlux at hs
    simp only [max_eq_left (hmin _ (List.getElem_mem _))] at hs
    rw [if_neg (not_lt.2 (hlow _ (List.getElem_mem _))),
      c124_on_grid f e he hl j hj (hpos _ (List.getElem_mem _))] at hs
    simp only [simpsonList, List.length_drop] at hs
    rw [if_neg (by omega)] at hs
    simp only [Except.ok.injEq] at hs
    rw [← hs, simpson, if_pos ho]
    unfold panels panel
    simp only [List.getD_eq_getElem?_getD, List.getElem?_drop, Nat.zero_add, Nat.add_assoc]
  have e1 := key k (by omega) r hodd h
  have e2 := key (k + 2) (by omega) r' (by omega) h'
  obtain ⟨m, hm⟩ : ∃ m, (e.length - k) / 2 = m + 1 := ⟨(e.length - k) / 2 - 1, by omega⟩
  have hm' : (e.length - (k + 2)) / 2 = m := by omega
  rw [hm] at e1
  rw [hm'] at e2
  have hsplit : panels k (m + 1) (e.getD · 0) (f.getD · 0)
      = panel (e.getD · 0) (f.getD · 0) k + panels (k + 2) m (e.getD · 0) (f.getD · 0) := by
    unfold panels
    rw [Finset.sum_range_succ', add_comm]
    congr 1
    refine Finset.sum_congr rfl fun j _ => ?_
    congr 1; omega
  have hp : 0 ≤ panel (e.getD · 0) (f.getD · 0) k := by
    have s0 := List.pairwise_iff_getElem.1 he k (k + 1) (by omega) (by omega) (by omega)
    have s1 := List.pairwise_iff_getElem.1 he (k + 1) (k + 2) (by omega) (by omega) (by omega)
    have bb := hb k (by omega)
    refine panel_nonneg _ _ k ?_ ?_ ?_ ?_ ⟨?_, ?_, ?_⟩ <;>
      simp only [getD_lt e k (by omega), getD_lt e (k + 1) (by omega), getD_lt e (k + 2) (by omega),
        getD_lt f k (by omega), getD_lt f (k + 1) (by omega), getD_lt f (k + 2) (by omega)]
    · exact s0
    · exact s1
    · exact bb.1
    · exact bb.2
    · exact hf _ (List.getElem_mem _)
    · exact hf _ (List.getElem_mem _)
    · exact hf _ (List.getElem_mem _)
  rw [e1, e2, hsplit]
  linarith

/-- Energies 1, 2, 4, 6, 8 with any positive flux. -/
example (a b c d g r r' : ℝ) (hp : 0 ≤ a ∧ 0 ≤ b ∧ 0 ≤ c ∧ 0 ≤ d ∧ 0 ≤ g)
    (h : integralFlux [1, 2, 4, 6, 8] [a, b, c, d, g] 1 1 = .ok r)
    (h' : integralFlux [1, 2, 4, 6, 8] [a, b, c, d, g] 1 4 = .ok r') : r' ≤ r := by
  have hm : floatMin ≤ 1 := le_trans floatMin_le_half (by norm_num)
  refine c244_step_partial [1, 2, 4, 6, 8] [a, b, c, d, g] 1 r r' 0 (by simp; norm_num) rfl ?_ (by simpa using hp) ?_
    (by simp) (by norm_num) (by simp) h h'
  · intro u hu
    simp only [List.mem_cons, List.not_mem_nil, or_false] at hu
    rcases hu with rfl | rfl | rfl | rfl | rfl <;> linarith
  · intro j hj
    have : j = 0 ∨ j = 1 ∨ j = 2 := by simp at hj; omega
    rcases this with rfl | rfl | rfl <;> norm_num

/-- **C244 fails.** Four equally spaced energies and a positive flux that is great at the last: the integral flux above the
third energy is greater than above the first. -/
theorem c244_counterexample : ∃ (e f : List ℝ) (lowest m m' r r' : ℝ), e.Pairwise (· < ·) ∧ (∀ u ∈ f, 0 < u) ∧
    (∀ u ∈ e, lowest ≤ u) ∧ Balanced e ∧ lowest ≤ m ∧ m < m' ∧
    integralFlux e f lowest m = .ok r ∧ integralFlux e f lowest m' = .ok r' ∧ r < r' := by
  have hm1 : floatMin ≤ 1 := le_trans floatMin_le_half (by norm_num)
  have hs : [(1 : ℝ), 2, 3, 4].Pairwise (· < ·) := by simp; norm_num
  have hb : Balanced [(1 : ℝ), 2, 3, 4] := by
    intro j hj
    have : j = 0 ∨ j = 1 := by simp at hj; omega
    rcases this with rfl | rfl <;> norm_num
  refine ⟨[1, 2, 3, 4], [1, 1, 1, 100], 1, 1, 3, 177 / 4, 101 / 2, hs, by simp, by norm_num, hb, le_rfl, by norm_num,
    ?_, ?_, by norm_num⟩
  · unfold integralFlux
    simp only [max_eq_left hm1]
    have := c124_on_grid [1, 1, 1, 100] [1, 2, 3, 4] hs rfl 0 (by simp) (by simp)
    simp only [List.getElem_cons_zero] at this
    rw [if_neg (by norm_num), this]
    simp [simpsonList, simpson, panels, panel]
    norm_num
  · unfold integralFlux
    have h3 : floatMin ≤ 3 := by linarith
    simp only [max_eq_left h3]
    have := c124_on_grid [1, 1, 1, 100] [1, 2, 3, 4] hs rfl 2 (by simp) (by simp)
    simp only [List.getElem_cons_succ, List.getElem_cons_zero] at this
    rw [if_neg (by norm_num), this]
    simp [simpsonList, simpson, panels, panel]
    norm_num

end Verif.Physics
