import Verif.Axes.Props

/-!
# Properties of observing a quantity over time and shells, or along pitch angles
-/

set_option linter.unusedSimpArgs false
set_option linter.unusedSectionVars false

namespace Verif.Axes

open Verif.Py Verif.Iterables Verif.Measurable Verif.Numerical
open Verif.Metric (Str)

variable {U : Type}

/-! ## Lemmas -/

theorem contains_mem {array : List Rat} {v : Rat} (h : v ∈ array) : contains array v = true := by
  simp [contains, h]

theorem contains_range {array : List Rat} {v : Rat} (h : contains array v = true) :
    (∃ x ∈ array, x ≤ v) ∧ ∃ x ∈ array, v ≤ x := by
  simp only [contains, Bool.or_eq_true, decide_eq_true_eq, Bool.and_eq_true, List.any_eq_true] at h
  rcases h with h | ⟨⟨h1, h2⟩, -⟩
  · exact ⟨⟨v, h, le_rfl⟩, ⟨v, h, le_rfl⟩⟩
  · exact ⟨h1, h2⟩

theorem columns_getElem (n : Nat) (rows : List (List Rat)) (j : Nat) (hj : j < (columns n rows).length) :
    (columns n rows)[j] = rows.filterMap (fun r => r[j]?) := by
  simp [columns]

theorem length_columns (n : Nat) (rows : List (List Rat)) : (columns n rows).length = n := by
  simp [columns]

theorem column_map {α : Type} (xs : List α) (f : α → List Rat) (n j : Nat) (hj : j < n)
    (hf : ∀ x ∈ xs, (f x).length = n) (g : α → Rat) (hg : ∀ x ∈ xs, (f x)[j]? = some (g x)) :
    (xs.map f).filterMap (fun r => r[j]?) = xs.map g := by
  induction xs with
  | nil => rfl
  | cons x xs ih =>
    have hx := hg x (by simp)
    rw [List.map_cons, List.filterMap_cons_some (f := fun r : List Rat => r[j]?) (b := g x) hx,
      ih (fun y hy => hf y (by simp [hy])) (fun y hy => hg y (by simp [hy])), List.map_cons]

/-- Every number in the range of an ascending list is a member or between neighbours. -/
theorem bracket (xs : List Rat) (hne : xs ≠ []) (t : Rat) (h0 : xs.head hne ≤ t) (h1 : t ≤ xs.getLast hne) :
    (∃ i, ∃ h : i < xs.length, xs[i] = t) ∨ ∃ i, ∃ h : i + 1 < xs.length, xs[i] < t ∧ t < xs[i + 1] := by
  induction xs with
  | nil => exact absurd rfl hne
  | cons x xs ih =>
    simp only [List.head_cons] at h0
    rcases eq_or_lt_of_le h0 with rfl | hlt
    · exact Or.inl ⟨0, by simp, rfl⟩
    · cases xs with
      | nil => simp at h1; exact absurd h1 (not_le.2 hlt)
      | cons y ys =>
        rcases lt_or_ge t y with hy | hy
        · exact Or.inr ⟨0, by simp, hlt, hy⟩
        · rcases ih (by simp) (by simpa using hy) (by simpa using h1) with ⟨i, h, e⟩ | ⟨i, h, e1, e2⟩
          · exact Or.inl ⟨i + 1, by simpa using h, by simpa using e⟩
          · exact Or.inr ⟨i + 1, by simpa using h, by simpa using e1, by simpa using e2⟩

theorem line_affine (p q x0 x1 t : Rat) (h : x0 < x1) : line x0 (p * x0 + q) x1 (p * x1 + q) t = p * t + q := by
  have : x1 - x0 ≠ 0 := sub_ne_zero.2 h.ne'
  unfold line
  field_simp
  ring

/-- Interpolation of an affine function is exact. -/
theorem applyOne_affine (xs : List Rat) (hne : xs ≠ []) (hs : xs.Pairwise (· < ·)) (p q t : Rat)
    (h0 : xs.head hne ≤ t) (h1 : t ≤ xs.getLast hne) (axis : Bool) :
    applyOne (xs.map (fun x => p * x + q)) xs t axis = .ok (p * t + q) := by
  have hc := c92_partial.1 (xs.map (fun x => p * x + q)) xs t axis (by simp) hs
  rcases bracket xs hne t h0 h1 with ⟨i, h, e⟩ | ⟨i, h, e1, e2⟩
  · rw [hc.1 i h (by simpa using h) e]
    simp [e]
  · rw [hc.2.1 i h (by simpa using h) e1 e2]
    simp only [List.getElem_map]
    rw [line_affine]
    exact List.pairwise_iff_getElem.1 hs i (i + 1) _ h (by omega)

theorem mapM_const {α β : Type} (f : α → Res β) (g : α → β) (xs : List α) (h : ∀ x ∈ xs, f x = .ok (g x)) :
    xs.mapM f = .ok (xs.map g) := by
  rw [mapM_ok_iff]
  refine ⟨by simp, fun i hi hi' => ?_⟩
  rw [h _ (List.getElem_mem hi), List.getElem_map]

/-! ## C144: pitch angles -/

/-- **C144.** Pitch angles on the axis: the values at the points are observed. All others are rejected with
`AxisError`, rather than interpolated. -/
theorem c144_partial (mus values : List Rat) (hl : values.length = mus.length) (mu : Data Rat) :
    ((∀ v ∈ mu.values, v ∈ mus) → observeMu mus values mu = mu.points.mapM (getItem values)) ∧
    ((∃ v ∈ mu.values, contains mus v = false) → observeMu mus values mu = .error (.named "AxisError")) := by
  constructor
  · intro h
    unfold observeMu
    rw [if_pos (List.all_eq_true.2 (fun v hv => contains_mem (h v hv)))]
  · rintro ⟨v, hv, hc⟩
    have hnot : ¬ mu.values.all (contains mus) = true := by
      intro h
      have := List.all_eq_true.1 h v hv
      rw [hc] at this
      exact absurd this (by simp)
    unfold observeMu
    rw [if_neg hnot]
    have hcol : columns 1 (values.map ([·])) = [values] := by
      have : (values.map ([·])).filterMap (fun r => r[0]?) = values := by
        rw [column_map values _ 1 0 (by simp) (by simp) id (by simp)]
        simp
      simp [columns, List.range_succ, this]
    have : interpolateRows (some 1) mus 1 (values.map ([·])) mu.values = .error (.named "AxisError") := by
      unfold interpolateRows
      rw [hcol]
      have hv' : v ∉ mus := fun hm => by
        rw [contains_mem hm] at hc
        exact absurd hc (by simp)
      clear hnot
      generalize mu.values = ws at hv
      induction ws with
      | nil => simp at hv
      | cons w ws ih =>
        rw [List.mapM_cons]
        by_cases hw : w ∈ mus
        · have hvs : v ∈ ws := by
            rcases List.mem_cons.1 hv with rfl | h
            · exact absurd hw hv'
            · exact h
          have hne : mus ≠ [] := List.ne_nil_of_mem hw
          obtain ⟨i, hi, h1, -, -⟩ := nearest_spec mus hne w
          have hok : applyOne values mus w true = .ok (values[i]'(by omega)) := by
            simp [applyOne, hw, nearestIndex, h1, bind, Except.bind, pure, Except.pure,
              getItem_nat values i (by omega)]
          rw [if_neg (by simp [hw]), ih hvs]
          simp [hok, bind, Except.bind, pure, Except.pure]
        · rw [if_pos ⟨by simp, by simp, hw⟩]
          rfl
    rw [this]

example : observeMu [-1, 0, 1] [10, 20, 30] ⟨[2, 0], [1, -1]⟩ = .ok [30, 10] ∧
    observeMu [-1, 0, 1] [10, 20, 30] ⟨[2], [1 / 2]⟩ = .error (.named "AxisError") := by
  constructor <;> decide +kernel

/-- **C144, violated.** Halfway between two pitch angles, there is an error instead of the mean value. -/
theorem c144_counterexample :
    observeMu [-1, 0, 1] [10, 20, 30] ⟨[1], [1 / 2]⟩ = .error (.named "AxisError") ∧
    applyOne [(10 : Rat), 20, 30] [-1, 0, 1] (1 / 2) true = .ok 25 := by
  constructor <;> decide +kernel

/-! ## C145: interpolation in time and radius -/

/-- A quantity that depends on time and radius as a product of affine functions, and sums of these. -/
def bilinear (a b c d t r : Rat) : Rat := (a + b * t) * r + (c + d * t)

theorem radius_rows (g : Grid) (rows : List (List Rat)) (n : Nat) (hn : g.radius ≠ [])
    (hl : rows.length ≤ g.radius.length)
    (hg : ∀ x ∈ g.radius, x.length = n ∧ x.Pairwise (· < ·)) (r : Rat)
    (hr : ∀ x ∈ g.radius, ∃ i, ∃ h : i + 1 < x.length, x[i] < r ∧ r < x[i + 1])
    (p q : Nat → Rat)
    (hrows : ∀ k (h : k < rows.length) (h' : k < g.radius.length),
      rows[k] = g.radius[k].map (fun x => p k * x + q k)) :
    interpolateRadius g.radius rows r = .ok ((List.range rows.length).map (fun k => [p k * r + q k])) := by
  have : ∀ k, ∃ i, ∀ hk : k < g.radius.length, ∃ h : i + 1 < g.radius[k].length,
      g.radius[k][i] < r ∧ r < g.radius[k][i + 1] := by
    intro k
    by_cases hk : k < g.radius.length
    · obtain ⟨i, h, h'⟩ := hr _ (List.getElem_mem hk)
      exact ⟨i, fun _ => ⟨h, h'⟩⟩
    · exact ⟨0, fun h => absurd h hk⟩
  choose pos hpos using this
  have harr : ∀ x ∈ rows, x.length = n := by
    intro x hx
    obtain ⟨k, hk, rfl⟩ := List.getElem_of_mem hx
    rw [hrows k hk (by omega), List.length_map]
    exact (hg _ (List.getElem_mem _)).1
  obtain ⟨vs, h1, h2, h3⟩ := applyTwo_between rows g.radius r n pos hn hl hg harr hpos
  unfold interpolateRadius
  rw [h1]
  simp only [Except.ok.injEq]
  apply List.ext_getElem (by simp [h2])
  intro k hk hk'
  have hk1 : k < rows.length := by simpa using hk'
  have hk2 : k < g.radius.length := by omega
  obtain ⟨hp, hlt1, hlt2⟩ := hpos k hk2
  have hp' : pos k + 1 < rows[k].length := by
    rw [harr _ (List.getElem_mem _)]
    rw [(hg _ (List.getElem_mem _)).1] at hp
    exact hp
  simp only [List.getElem_map, List.getElem_range]
  rw [h3 k hk2 hk1 (by simpa using hk) hp hp']
  simp only [hrows k hk1 hk2, List.getElem_map]
  rw [line_affine _ _ _ _ _ (hlt1.trans hlt2)]

theorem time_rows (g : Grid) (hne : g.times ≠ []) (hs : g.times.Pairwise (· < ·)) (ρ : List Rat)
    (hρ : ρ.length = g.shells.length) (a b c d : Rat) (ts : List Rat)
    (hts : ∀ t ∈ ts, g.times.head hne ≤ t ∧ t ≤ g.times.getLast hne) :
    interpolateRows (some 0) g.times g.shells.length
        (g.times.map (fun t => ρ.map (fun x => bilinear a b c d t x))) ts
      = .ok (ts.map (fun t => ρ.map (fun x => bilinear a b c d t x))) := by
  unfold interpolateRows
  apply mapM_const
  intro t ht
  rw [if_neg (by simp)]
  rw [mapM_ok_iff]
  refine ⟨by simp [length_columns, hρ], fun j hj hj' => ?_⟩
  rw [columns_getElem]
  have hjρ : j < ρ.length := by simpa using hj'
  rw [column_map g.times _ ρ.length j hjρ (by simp) (fun t => (b * ρ[j] + d) * t + (a * ρ[j] + c)) (by
    intro t _
    simp only [List.getElem?_map, List.getElem?_eq_getElem hjρ, Option.map_some, bilinear, Option.some.injEq]
    ring)]
  rw [show (some 0 : Option Nat).isSome = true from rfl, applyOne_affine g.times hne hs _ _ t (hts t ht).1 (hts t ht).2]
  simp only [List.getElem_map, bilinear, Except.ok.injEq]
  ring

/-- **C145.** With the radius strictly inside the grid at every time: for times on the axis, a quantity that
at each of its times is an affine function of the radius has at the radius the value of that function. If the
grid does not move, and no more times are requested than the axis has, the same holds for any times in its
range, for a quantity that is affine in both. -/
theorem c145_partial (g : Grid) (rows : List (List Rat)) (n : Nat) (r : Rat) (shell : Data Int)
    (hsh : g.shellNeeded shell = false) (hn : g.radius ≠ []) (hlr : rows.length = g.radius.length)
    (hg : ∀ x ∈ g.radius, x.length = n ∧ x.Pairwise (· < ·))
    (hr : ∀ x ∈ g.radius, ∃ i, ∃ h : i + 1 < x.length, x[i] < r ∧ r < x[i + 1]) :
    (∀ (more : Bool) (p q : Nat → Rat) (ps : List Nat) (values : List Rat),
      (∀ k (h : k < rows.length) (h' : k < g.radius.length),
        rows[k] = g.radius[k].map (fun x => p k * x + q k)) →
      (∀ v ∈ values, v ∈ g.times) → (∀ i ∈ ps, i < rows.length) →
      observe g rows more ⟨ps.map Int.ofNat, values⟩ shell (some r) = .ok (ps.map (fun i => [p i * r + q i]))) ∧
    (∀ (a b c d : Rat) (hne : g.times ≠ []) (ρ : List Rat) (points : List Int) (ts : List Rat),
      g.times.Pairwise (· < ·) → g.times.length = g.radius.length → n = g.shells.length →
      (∀ x ∈ g.radius, x = ρ) → rows = g.times.map (fun t => ρ.map (fun x => bilinear a b c d t x)) →
      (∀ t ∈ ts, g.times.head hne ≤ t ∧ t ≤ g.times.getLast hne) → (∃ t ∈ ts, contains g.times t = false) →
      ts.length ≤ g.times.length →
      observe g rows true ⟨points, ts⟩ shell (some r) = .ok (ts.map (fun t => [bilinear a b c d t r]))) := by
  constructor
  · intro more p q ps values hrows hv hps
    have ht : g.timeNeeded ⟨ps.map Int.ofNat, values⟩ = false := by
      unfold Grid.timeNeeded
      rw [List.all_eq_true.2 (fun v hv' => contains_mem (hv v hv'))]
      rfl
    have hrad := radius_rows g rows n hn hlr.le hg r hr p q hrows
    unfold observe Grid.overTime Grid.overShell Grid.overRadius
    simp only [ht, hsh, Bool.false_eq_true, if_false, hrad, Option.isSome_some, Bool.or_true]
    unfold subscriptRows
    rw [mapM_ok_iff]
    refine ⟨by simp, fun k hk hk' => ?_⟩
    have hk2 : k < ps.length := by simpa using hk
    have hlt := hps _ (List.getElem_mem hk2)
    simp only [List.getElem_map]
    have := getItem_nat ((List.range rows.length).map (fun k => [p k * r + q k])) ps[k] (by simpa using hlt)
    simpa using this
  · intro a b c d hne ρ points ts hs hlt hnn hρ hrows hts hoff hlen
    have ht : g.timeNeeded ⟨points, ts⟩ = true := by
      obtain ⟨t, h1, h2⟩ := hoff
      unfold Grid.timeNeeded
      rw [Bool.not_eq_true', Bool.eq_false_iff]
      intro h
      have := List.all_eq_true.1 h t h1
      rw [h2] at this
      exact absurd this (by simp)
    obtain ⟨x0, hx0⟩ := List.exists_mem_of_ne_nil _ hn
    have hρn : ρ.length = g.shells.length := by rw [← hρ x0 hx0, (hg x0 hx0).1, hnn]
    have htime := time_rows g hne hs ρ hρn a b c d ts hts
    have hrad := radius_rows g (ts.map (fun t => ρ.map (fun x => bilinear a b c d t x))) n hn
      (by simp; omega) hg r hr (fun k => a + b * ts.getD k 0) (fun k => c + d * ts.getD k 0) (by
        intro k h h'
        have hk : k < ts.length := by simpa using h
        simp only [List.getElem_map, hρ _ (List.getElem_mem h')]
        apply List.map_congr_left
        intro x _
        simp [bilinear, List.getD_eq_getElem?_getD, hk])
    unfold observe Grid.overTime Grid.overShell Grid.overRadius
    simp only [ht, hsh, if_true, Bool.false_eq_true, if_false, hrows, htime, hrad, Option.isSome_some, Bool.or_true]
    simp only [Except.ok.injEq, List.length_map]
    apply List.ext_getElem (by simp)
    intro k hk hk'
    have hk2 : k < ts.length := by simpa using hk
    simp [bilinear, List.getD_eq_getElem?_getD, hk2]

example : observe ⟨[0, 10], [0, 1, 2], [[1, 2, 3], [2, 3, 4]]⟩ [[1, 2, 3], [4, 6, 8]] false ⟨[1, 0], [10, 0]⟩
    ⟨[0, 1, 2], [0, 1, 2]⟩ (some (5 / 2)) = .ok [[5], [5 / 2]] ∧
    observe ⟨[0, 10], [0, 1, 2], [[1, 2, 3], [1, 2, 3]]⟩ [[1, 2, 3], [2, 4, 6]] true ⟨[0], [5]⟩
    ⟨[0, 1, 2], [0, 1, 2]⟩ (some (5 / 2)) = .ok [[15 / 4]] := by
  constructor <;> decide +kernel

/-- **C145, violated.** On a grid that moves outward with time, a quantity that equals the radius at every
time and every shell is observed at radius 5/2 as 3, since values for the time between are combined with
the radii at the first time. -/
theorem c145_counterexample :
    observe ⟨[0, 10], [0, 1, 2], [[1, 2, 3], [2, 3, 4]]⟩ [[1, 2, 3], [2, 3, 4]] true ⟨[0], [5]⟩
      ⟨[0, 1, 2], [0, 1, 2]⟩ (some (5 / 2)) = .ok [[3]] := by decide +kernel

/-! ## C146: the shape of an observation -/

theorem mapM_length {α β : Type} {f : α → Res β} {xs : List α} {ys : List β} (h : xs.mapM f = .ok ys) :
    ys.length = xs.length := ((mapM_ok_iff _ _ _).1 h).1.symm

theorem mapM_mem {α β : Type} {f : α → Res β} {xs : List α} {ys : List β} (h : xs.mapM f = .ok ys) {y : β}
    (hy : y ∈ ys) : ∃ x ∈ xs, f x = .ok y := by
  obtain ⟨h1, h2⟩ := (mapM_ok_iff _ _ _).1 h
  obtain ⟨k, hk, rfl⟩ := List.getElem_of_mem hy
  exact ⟨xs[k], List.getElem_mem _, h2 k (by omega) hk⟩

theorem interpolateRadius_rows {reference rows out : List (List Rat)} {t : Rat}
    (h : interpolateRadius reference rows t = .ok out) : ∀ x ∈ out, x.length = 1 := by
  unfold interpolateRadius at h
  split at h
  · exact absurd h (by simp)
  · exact absurd h (by simp)
  · cases h
    intro x hx
    obtain ⟨v, -, rfl⟩ := List.mem_map.1 hx
    rfl

/-- The number of times requested: that of the values for off-axis times, otherwise that of the points. -/
def timesWanted (g : Grid) (time : Data Rat) : Nat :=
  if g.timeNeeded time then time.values.length else time.points.length

/-- The number of places requested. -/
def placesWanted (g : Grid) (shell : Data Int) (radius : Option Rat) : Nat :=
  if radius.isSome then 1 else if g.shellNeeded shell then shell.values.length else shell.points.length

/-- **C146.** Unless both time and place are interpolated, an observation has one row for each time and one
entry in it for each shell, or for the radius. If both are, and the quantity has no other axis, then no
observation at a radius succeeds that is not restricted to the first or last shell. -/
theorem c146_partial (g : Grid) (rows : List (List Rat)) (more : Bool) (time : Data Rat) (shell : Data Int)
    (radius : Option Rat) :
    (∀ out, (g.timeNeeded time && (g.shellNeeded shell || radius.isSome)) = false →
      observe g rows more time shell radius = .ok out →
      out.length = timesWanted g time ∧ ∀ x ∈ out, x.length = placesWanted g shell radius) ∧
    (g.timeNeeded time = true → radius.isSome = true → more = false → time.points ≠ [] →
      (∃ j ∈ shell.points, j ≠ 0 ∧ j ≠ -1) → ∀ out, observe g rows more time shell radius ≠ .ok out) := by
  constructor
  · intro out hnot h
    unfold observe at h
    split at h
    · exact absurd h (by simp)
    · next a ha =>
      split at h
      · exact absurd h (by simp)
      · next b hb =>
        split at h
        · exact absurd h (by simp)
        · next c hc =>
          unfold timesWanted placesWanted
          cases ht : g.timeNeeded time <;> cases hs : g.shellNeeded shell <;> cases hr : radius <;>
            simp only [ht, hs, hr, Option.isSome_none, Option.isSome_some, Bool.or_false, Bool.or_true,
              Bool.false_eq_true, if_false, if_true, Bool.and_true, Bool.true_and, Bool.and_false,
              Bool.or_self, Bool.true_eq_false, Bool.false_and] at h hnot ⊢
          · -- neither
            unfold subscript at h
            split at h
            · exact absurd h (by simp)
            · next picked hp =>
              refine ⟨(mapM_length h).trans (mapM_length hp), fun x hx => ?_⟩
              obtain ⟨r, -, hr⟩ := mapM_mem h hx
              exact mapM_length hr
          · refine ⟨mapM_length h, fun x hx => ?_⟩
            obtain ⟨i, -, hi⟩ := mapM_mem h hx
            subst hr
            have hmem : x ∈ c := by
              unfold getItem at hi
              simp only at hi
              split_ifs at hi
              all_goals split at hi
              all_goals try contradiction
              all_goals
                next y hy =>
                  cases hi
                  exact List.mem_of_getElem? hy
            exact interpolateRadius_rows hc x hmem
          · refine ⟨mapM_length h, fun x hx => ?_⟩
            obtain ⟨i, -, hi⟩ := mapM_mem h hx
            subst hr
            have hmem : x ∈ c := by
              unfold getItem at hi
              simp only at hi
              split_ifs at hi
              all_goals split at hi
              all_goals try contradiction
              all_goals
                next y hy =>
                  cases hi
                  exact List.mem_of_getElem? hy
            have hcb : c = b := by
              unfold Grid.overRadius at hc
              exact (Except.ok.inj hc).symm
            unfold Grid.overShell at hb
            rw [if_pos hs] at hb
            obtain ⟨r, -, hr⟩ := mapM_mem hb (hcb ▸ hmem)
            rw [mapM_length hr]
            simp
          · refine ⟨mapM_length h, fun x hx => ?_⟩
            obtain ⟨i, -, hi⟩ := mapM_mem h hx
            subst hr
            have hmem : x ∈ c := by
              unfold getItem at hi
              simp only at hi
              split_ifs at hi
              all_goals split at hi
              all_goals try contradiction
              all_goals
                next y hy =>
                  cases hi
                  exact List.mem_of_getElem? hy
            exact interpolateRadius_rows hc x hmem
          · subst hr
            have hcb : c = b := by
              unfold Grid.overRadius at hc
              exact (Except.ok.inj hc).symm
            unfold Grid.overShell at hb
            rw [if_neg (by simp [hs])] at hb
            have hba : b = a := (Except.ok.inj hb).symm
            unfold Grid.overTime at ha
            rw [if_pos ht] at ha
            refine ⟨?_, fun x hx => ?_⟩
            · rw [mapM_length h, hcb, hba, mapM_length ha]
            · obtain ⟨r, -, hr⟩ := mapM_mem h hx
              exact mapM_length hr
  · intro ht hr hmore hp hj out h
    obtain ⟨r, rfl⟩ := Option.isSome_iff_exists.1 hr
    unfold observe at h
    split at h
    · exact absurd h (by simp)
    · split at h
      · exact absurd h (by simp)
      · split at h
        · exact absurd h (by simp)
        · next c hc =>
          have hrows := interpolateRadius_rows hc
          simp only [ht, Option.isSome_some, Bool.or_true, hmore, Bool.false_eq_true, if_false] at h
          unfold subscript at h
          split at h
          · exact absurd h (by simp)
          · next picked hpick =>
            obtain ⟨i, hi⟩ := List.exists_mem_of_ne_nil _ hp
            have hlen := mapM_length hpick
            have hpos : 0 < picked.length := by
              rw [hlen]; exact List.length_pos_of_ne_nil hp
            have h0 := ((mapM_ok_iff _ _ _).1 h).2 0 hpos (by rw [mapM_length h]; exact hpos)
            obtain ⟨i, -, hi⟩ := mapM_mem hpick (List.getElem_mem hpos)
            have hmem : picked[0] ∈ c := by
              unfold getItem at hi
              simp only at hi
              split_ifs at hi
              all_goals split at hi
              all_goals try contradiction
              all_goals
                next y hy =>
                  cases hi
                  exact List.mem_of_getElem? hy
            have hone := hrows _ hmem
            obtain ⟨j, hjm, hj0, hj1⟩ := hj
            obtain ⟨k, hk, rfl⟩ := List.getElem_of_mem hjm
            have hkk := ((mapM_ok_iff _ _ _).1 h0).2 k hk (by rw [mapM_length h0]; exact hk)
            unfold getItem at hkk
            simp only [hone] at hkk
            split_ifs at hkk with q1 q2
            · simp only [List.getElem?_eq_none (show picked[0].length ≤ (shell.points[k] + ((1 : Nat) : Int)).toNat by omega)] at hkk
              exact absurd hkk (by simp)
            · simp only [List.getElem?_eq_none (show picked[0].length ≤ (shell.points[k]).toNat by omega)] at hkk
              exact absurd hkk (by simp)

example : observe ⟨[0, 10], [0, 1, 2], [[1, 2, 3], [2, 3, 4]]⟩ [[1, 2, 3], [4, 6, 8]] false ⟨[0, 1], [3, 7]⟩
    ⟨[0, 2], [0, 2]⟩ none = .ok [[19 / 10, 9 / 2], [31 / 10, 13 / 2]] := by decide +kernel

/-- **C146, violated.** A quantity over time and shells cannot be observed at a time and a radius that are
both off the grid; and of three times requested for a quantity with further axes, on a grid of two times, two
are observed. -/
theorem c146_counterexample :
    observe ⟨[0, 10], [0, 1, 2], [[1, 2, 3], [1, 2, 3]]⟩ [[1, 2, 3], [2, 4, 6]] false ⟨[0], [5]⟩
      ⟨[0, 1, 2], [0, 1, 2]⟩ (some (5 / 2)) = .error .indexError ∧
    observe ⟨[0, 10], [0, 1, 2], [[1, 2, 3], [1, 2, 3]]⟩ [[1, 2, 3], [2, 4, 6]] true ⟨[0, 0, 1], [2, 5, 8]⟩
      ⟨[0, 1, 2], [0, 1, 2]⟩ (some (5 / 2)) = .ok [[3], [15 / 4]] := by
  constructor <;> decide +kernel

/-! ## C147: the radius requested -/

/-- **C147.** A single length is converted to the unit of the metric system. Several are rejected. -/
theorem c147_partial (M : Units U) (size : U → Rat) (hM : Sizes M size) (base : U → Res U) (text : Arg → Str)
    (ts : List Item) (qs : List Rat) (s : Str) (hm : Measures (.tuple (ts.map Item.arg)) qs s) (u v : U)
    (hu : M.read s = .ok u) (hv : base u = .ok v) (hc : M.consistent u v = true) :
    ∃ n, ∀ more,
      (∀ q, qs = [q] → ∃ x, radiusTarget M base text (n + more) ts = .ok x ∧ x * size v = q * size u) ∧
      (2 ≤ qs.length → radiusTarget M base text (n + more) ts = .error .valueError) := by
  obtain ⟨n, hn⟩ := measure_ok text ts qs s hm
  refine ⟨n, fun more => ⟨?_, ?_⟩⟩
  · rintro q rfl
    refine ⟨q * (size u / size v), ?_, ?_⟩
    · unfold radiusTarget
      rw [hn more]
      simp only [hu, hv, rescale_ok hM [q] u v (Or.inl hc), List.map_cons, List.map_nil]
    · have := (hM.pos v).ne'
      field_simp
  · intro h2
    unfold radiusTarget
    rw [hn more]
    match qs, h2 with
    | a :: b :: l, _ => rfl

/-- The units of the metric system for the concrete cases. -/
def demoBase : Demo → Res Demo
  | .min => .ok .s
  | u => .ok u

example : radiusTarget demo demoBase (fun _ => []) 2 [.other (.atom 3), .other (.str c!"m")] = .ok 3 ∧
    radiusTarget demo demoBase (fun _ => []) 2 [.other (.atom 3), .other (.atom 4), .other (.str c!"m")]
      = .error .valueError := by
  constructor <;> decide +kernel

/-- **C147, violated.** Two minutes are accepted as a radius of 120; and two radii are rejected. -/
theorem c147_counterexample :
    radiusTarget demo demoBase (fun _ => []) 2 [.other (.atom 2), .other (.str c!"min")] = .ok 120 ∧
    radiusTarget demo demoBase (fun _ => []) 2 [.other (.atom 1), .other (.atom 2), .other (.str c!"m")]
      = .error .valueError := by
  constructor <;> decide +kernel

/-! ## C148: times and radii outside of the simulated range -/

/-- **C148.** A radius below that of all shells, or above it, at every of several times is rejected. A time
after the last one is not: the quantity is observed as at the last time. -/
theorem c148_partial (g : Grid) (rows : List (List Rat)) (n : Nat) (hn : 0 < n) (shell : Data Int)
    (hl : rows.length = g.radius.length) (hrow : ∀ x ∈ rows, x.length = n)
    (hg : ∀ x ∈ g.radius, x.length = n ∧ x.Pairwise (· < ·)) :
    (∀ r, 2 ≤ g.radius.length → (∀ x ∈ g.radius, ∀ y ∈ x, r < y) ∨ (∀ x ∈ g.radius, ∀ y ∈ x, y < r) →
      interpolateRadius g.radius rows r = .error .valueError) ∧
    (∀ (more : Bool) (p : Int) (t : Rat) (hne : rows ≠ []) (hts : g.times ≠ []), g.times.Pairwise (· < ·) →
      g.times.length = rows.length → n = g.shells.length → g.shellNeeded shell = false →
      g.times.getLast hts < t →
      observe g rows more ⟨[p], [t]⟩ shell none = subscriptColumns [rows.getLast hne] shell.points) := by
  constructor
  · intro r h2 hr
    have hne : g.radius ≠ [] := by
      intro h; rw [h] at h2; simp at h2
    have hnot : r ∉ g.radius.flatten := by
      intro hm
      obtain ⟨x, hx, hrx⟩ := List.mem_flatten.1 hm
      rcases hr with hr | hr
      · exact lt_irrefl _ (hr x hx r hrx)
      · exact lt_irrefl _ (hr x hx r hrx)
    have hfind : ∃ i : Nat, i < n ∧ ∀ x ∈ g.radius, find1dIndices x r = ((i : Int), (i : Int)) := by
      rcases hr with hr | hr
      · refine ⟨0, hn, fun x hx => ?_⟩
        have hxne : x ≠ [] := by
          intro h
          have := (hg x hx).1
          rw [h] at this
          simp at this
          omega
        exact (c37_partial x hxne ((hg x hx).2.imp le_of_lt) r).2.1 (hr x hx _ (List.head_mem _))
      · refine ⟨n - 1, by omega, fun x hx => ?_⟩
        have hxne : x ≠ [] := by
          intro h
          have := (hg x hx).1
          rw [h] at this
          simp at this
          omega
        have := (c37_partial x hxne ((hg x hx).2.imp le_of_lt) r).2.2 (hr x hx _ (List.getLast_mem _))
        rw [this, (hg x hx).1]
        have : (n : Int) - 1 = ((n - 1 : Nat) : Int) := by omega
        rw [this]
    obtain ⟨i, hi, hfind⟩ := hfind
    obtain ⟨l, u, e, ⟨r1, hr1, e1⟩, ⟨r2, hr2, e2⟩, -⟩ := restrictRows_spec g.radius hne r
    rw [hfind r1 hr1] at e1
    rw [hfind r2 hr2] at e2
    simp only at e1 e2
    subst e1 e2
    have hsel : ∀ xs : List (List Rat), (∀ x ∈ xs, x.length = n) →
        ∃ ys, xs.mapM (select · (closedRange (i : Int) (i : Int))) = .ok ys ∧ ys.length = xs.length ∧
          ∀ y ∈ ys, y.length = 1 := by
      intro xs hxs
      induction xs with
      | nil => exact ⟨[], rfl, rfl, by simp⟩
      | cons x xs ih =>
        obtain ⟨ys, h1, h2, h3⟩ := ih (fun y hy => hxs y (by simp [hy]))
        obtain ⟨y, hy, hly, -⟩ := select_window x i i le_rfl (by rw [hxs x (by simp)]; exact hi)
        refine ⟨y :: ys, ?_, by simp [h2], ?_⟩
        · rw [List.mapM_cons, hy, h1]; rfl
        · intro z hz
          rcases List.mem_cons.1 hz with rfl | hz
          · omega
          · exact h3 z hz
    obtain ⟨ref, href, lref, oref⟩ := hsel g.radius (fun x hx => (hg x hx).1)
    obtain ⟨arr, harr, larr, oarr⟩ := hsel rows hrow
    have hflat : ref.flatten.length ≠ 1 := by
      match ref, lref, oref with
      | [], lref, _ => simp at lref; omega
      | [_], lref, _ => simp at lref; omega
      | x :: y :: rest, _, oref =>
        have h1 := oref x (by simp)
        have h2 := oref y (by simp)
        simp only [List.flatten_cons, List.length_append]
        omega
    have hint : interpRows r ref arr = .error .valueError := by
      match ref, arr, lref, larr, oref with
      | [], _, lref, _, _ => simp at lref; omega
      | _, [], _, larr, _ => simp at larr; omega
      | x :: xs, y :: ys, _, _, oref =>
        have : interp1d x y r = .error .valueError := by
          unfold interp1d
          rw [if_pos (Or.inr (by rw [oref x (by simp)]; omega))]
        simp [interpRows, this, bind, Except.bind]
    unfold interpolateRadius applyTwo
    rw [if_neg hnot, e]
    simp only [bind, Except.bind, href, harr, if_neg hflat, hint]
  · intro more p t hne hts hs hlt hnn hsh hlast
    have hnot : contains g.times t = false := by
      rw [Bool.eq_false_iff]
      intro h
      obtain ⟨-, x, hx, hle⟩ := contains_range h
      obtain ⟨k, hk, rfl⟩ := List.getElem_of_mem hx
      rw [List.getLast_eq_getElem] at hlast
      rcases Nat.lt_or_eq_of_le (Nat.le_sub_one_of_lt hk) with h' | h'
      · have := List.pairwise_iff_getElem.1 hs k _ hk (by omega) h'
        linarith
      · subst h'
        linarith
    have ht : g.timeNeeded ⟨[p], [t]⟩ = true := by
      simp [Grid.timeNeeded, hnot]
    have hrowsTime : interpolateRows (some 0) g.times g.shells.length rows [t] = .ok [rows.getLast hne] := by
      unfold interpolateRows
      have : (columns g.shells.length rows).mapM (fun c => applyOne c g.times t true) = .ok (rows.getLast hne) := by
        rw [mapM_ok_iff]
        have hlen : (rows.getLast hne).length = n := hrow _ (List.getLast_mem _)
        refine ⟨by rw [length_columns, hlen, hnn], fun j hj hj' => ?_⟩
        rw [columns_getElem]
        have hjn : j < n := by omega
        have hcol : rows.filterMap (fun r => r[j]?) = rows.map (fun r => r.getD j 0) := by
          have := column_map rows id n j hjn (by simpa using hrow) (fun r => r.getD j 0) (by
            intro x hx
            have := hrow x hx
            simp [List.getD_eq_getElem?_getD, this ▸ hjn])
          simpa using this
        rw [hcol]
        have hcne : rows.map (fun r => r.getD j 0) ≠ [] := by simpa using hne
        rw [(c92_partial.1 (rows.map (fun r => r.getD j 0)) g.times t true (by simp [hlt]) hs).2.2.2.1 hcne hts
          hlast]
        rw [List.getLast_map]
        simp [List.getD_eq_getElem?_getD, hj']
      simp only [List.mapM_cons, List.mapM_nil]
      rw [if_neg (by simp), show (some 0 : Option Nat).isSome = true from rfl, this]
      rfl
    unfold observe Grid.overTime Grid.overShell Grid.overRadius
    simp only [ht, if_true, hrowsTime, hsh, Bool.false_eq_true, if_false, Option.isSome_none, Bool.or_false]

example : interpolateRadius [[1, 2, 3], [2, 3, 4]] [[1, 2, 3], [4, 6, 8]] 5 = .error .valueError := by
  decide +kernel

/-- **C148, violated.** A day after the end of the simulation, the quantity is observed as at the end. -/
theorem c148_counterexample :
    observe ⟨[0, 3600], [0, 1], [[1, 2], [2, 3]]⟩ [[1, 2], [4, 6]] false ⟨[1], [90000]⟩ ⟨[0, 1], [0, 1]⟩ none
      = .ok [[4, 6]] := by decide +kernel

end Verif.Axes
