import Verif.Axes.Reference
import Verif.Axes.ObserveProps

/-!
# Observing coordinates (C238), and quantities along energies (C239)
-/

set_option linter.unusedSimpArgs false
set_option linter.unusedSectionVars false

namespace Verif.Axes

open Verif.Py Verif.Iterables Verif.Measurable Verif.Numerical
open Verif.Metric (Str)
open Verif.Defaults (referenceBase)

/-! ## C238: coordinates -/

/-- The names of coordinates. -/
def coordinateList : List Str :=
  [c!"time", c!"t", c!"times", c!"shell", c!"shells", c!"mu", c!"mus", c!"pitch angle", c!"pitch-angle",
    c!"pitch-angle cosine", c!"pitch angles", c!"pitch-angles", c!"pitch-angle cosines",
    c!"energy", c!"egrid", c!"energies", c!"E", c!"radius", c!"R", c!"r", c!"theta", c!"T", c!"phi", c!"P"]

theorem aliasesOf_unknown {key : Str} (h : key ∉ referenceBase.flatMap (·.1)) : aliasesOf key = [] := by
  unfold aliasesOf
  rw [List.find?_eq_none.2]
  · rfl
  · intro g hg hc
    obtain ⟨e, he, rfl⟩ := List.mem_map.1 hg
    exact h (List.mem_flatMap.2 ⟨e, he, by simpa using hc⟩)

theorem isCoordinate_known : ∀ key ∈ referenceBase.flatMap (·.1),
    (isCoordinate aliasesOf key = true ↔ key ∈ coordinateList) := by decide +kernel

theorem coordinateList_known : ∀ key ∈ coordinateList, key ∈ referenceBase.flatMap (·.1) := by decide +kernel

theorem isCoordinate_iff (key : Str) : isCoordinate aliasesOf key = true ↔ key ∈ coordinateList := by
  by_cases h : key ∈ referenceBase.flatMap (·.1)
  · exact isCoordinate_known key h
  · rw [isCoordinate, aliasesOf_unknown h]
    exact ⟨fun h' => absurd h' (by simp), fun h' => absurd (coordinateList_known key h') h⟩

/-- **C238.** In a dataset whose variables have the documented names. A quantity that is not a coordinate is
interpolated; so are coordinates, trivially, at times and shells on the grid without a radius. For all other times,
coordinates are the values at the positions found for these times, which are the nearest ones (C141).

Missing: the values at the requested time (`c238_counterexample`). -/
theorem c238_partial (key : Str) (g : Grid) (rows : List (List Rat)) (more : Bool) (time : Data Rat)
    (shell : Data Int) (radius : Option Rat) :
    (key ∉ coordinateList → observeNamed aliasesOf key g rows more time shell radius
      = observe g rows more time shell radius) ∧
    (key ∈ coordinateList → (∀ t ∈ time.values, t ∈ g.times) → (∀ i ∈ shell.values, (i : Rat) ∈ g.shells) →
      observeNamed aliasesOf key g rows more time shell none = observe g rows more time shell none) ∧
    (key ∈ coordinateList → ∀ (ps qs : List Nat) (ts : List Rat) (is : List Int) (n : Nat),
      (∀ p ∈ ps, p < rows.length) → (∀ x ∈ rows, x.length = n) → (∀ q ∈ qs, q < n) →
      observeNamed aliasesOf key g rows more ⟨ps.map Int.ofNat, ts⟩ ⟨qs.map Int.ofNat, is⟩ radius
        = .ok (ps.map (fun p => qs.map (fun q => ((rows[p]?.getD [])[q]?).getD 0)))) := by
  refine ⟨?_, ?_, ?_⟩
  · intro h
    rw [observeNamed, if_neg (fun h' => h ((isCoordinate_iff key).1 h'))]
  · intro h ht hs
    have h1 : g.timeNeeded time = false := by
      rw [Grid.timeNeeded, Bool.not_eq_false', List.all_eq_true]
      exact fun t h => contains_mem (ht t h)
    have h2 : g.shellNeeded shell = false := by
      rw [Grid.shellNeeded, Bool.not_eq_false', List.all_eq_true]
      exact fun t h => contains_mem (hs t h)
    rw [observeNamed, if_pos ((isCoordinate_iff key).2 h), observe, Grid.overTime, h1]
    simp only [Bool.false_eq_true, if_false, Grid.overShell, h2, Grid.overRadius, Option.isSome_none, Bool.or_self]
  · intro h ps qs ts is n hp hx hq
    rw [observeNamed, if_pos ((isCoordinate_iff key).2 h), subscript, subscriptRows]
    have e1 : (ps.map Int.ofNat).mapM (getItem rows) = .ok (ps.map (fun p => rows[p]?.getD [])) := by
      rw [mapM_ok_iff]
      refine ⟨by simp, fun i hi hi' => ?_⟩
      have hi2 : i < ps.length := by simpa using hi
      have hpi := hp _ (List.getElem_mem hi2)
      simp only [List.getElem_map]
      rw [show Int.ofNat ps[i] = (ps[i] : Int) from rfl, getItem_nat rows _ hpi]
      simp [hpi]
    rw [e1]
    simp only [subscriptColumns]
    rw [mapM_ok_iff]
    refine ⟨by simp, fun i hi hi' => ?_⟩
    have hi2 : i < ps.length := by simpa using hi
    have hpi := hp _ (List.getElem_mem hi2)
    simp only [List.getElem_map, List.getElem?_eq_getElem hpi, Option.getD_some]
    rw [mapM_ok_iff]
    refine ⟨by simp, fun k hk hk' => ?_⟩
    have hk2 : k < qs.length := by simpa using hk
    have hqk : qs[k] < rows[ps[i]].length := by
      rw [hx _ (List.getElem_mem hpi)]; exact hq _ (List.getElem_mem hk2)
    simp only [List.getElem_map]
    rw [show Int.ofNat qs[k] = (qs[k] : Int) from rfl, getItem_nat _ _ hqk]
    simp [hqk]

/-- **C238 fails in the code.** On a grid that moves from the radii 1, 2 and 3 to 2, 3 and 4, the radius observed
half-way in time is that at the start. A quantity that equals the radius, such as `x` in the equatorial plane along
the axis, is interpolated. -/
theorem c238_counterexample :
    let g : Grid := ⟨[0, 10], [0, 1, 2], [[1, 2, 3], [2, 3, 4]]⟩
    observeNamed aliasesOf c!"radius" g g.radius false ⟨[0], [5]⟩ ⟨[0, 1, 2], [0, 1, 2]⟩ none = .ok [[1, 2, 3]] ∧
    observeNamed aliasesOf c!"x" g g.radius false ⟨[0], [5]⟩ ⟨[0, 1, 2], [0, 1, 2]⟩ none
      = .ok [[3 / 2, 5 / 2, 7 / 2]] := by decide +kernel

example : c!"R" ∈ coordinateList ∧ c!"Br" ∉ coordinateList := by decide +kernel

/-! ## C239: energies -/

theorem getElem_swapRows {n : Nat} {rows : List (List Rat)} (h : ∀ r ∈ rows, r.length = n) (k : Nat) (hk : k < n) :
    (swapRows n rows)[k]? = some (rows.map (fun r => (r[k]?).getD 0)) := by
  rw [swapRows, List.getElem?_map, List.getElem?_range hk, Option.map_some]
  congr 1
  induction rows with
  | nil => rfl
  | cons r rs ih =>
    have hr : k < r.length := by rw [h r (by simp)]; exact hk
    simp only [List.filterMap_cons, List.getElem?_eq_getElem hr, List.map_cons, Option.getD_some,
      ih (fun x hx => h x (by simp [hx]))]

/-- The target is strictly between neighbouring energies of every species. -/
def Inside (grid : List (List Rat)) (t : Rat) : Prop :=
  ∀ x ∈ grid, ∃ i, ∃ h : i + 1 < x.length, x[i] < t ∧ t < x[i + 1]

theorem inside_rows {grid rows : List (List Rat)} {n : Nat} (hn : grid ≠ []) (hl : rows.length = grid.length)
    (hg : ∀ x ∈ grid, x.length = n ∧ x.Pairwise (· < ·)) (hr : ∀ x ∈ rows, x.length = n) {t : Rat}
    (ht : Inside grid t) :
    ∃ vs, applyTwo rows grid t = .ok (.rows vs) ∧ vs.length = grid.length ∧
      ∀ k (hk : k < grid.length) (h1 : k < rows.length) (h2 : k < vs.length), ∀ i (h3 : i + 1 < grid[k].length)
        (h4 : i + 1 < rows[k].length), grid[k][i] < t → t < grid[k][i + 1] →
        vs[k] = line grid[k][i] rows[k][i] grid[k][i + 1] rows[k][i + 1] t := by
  have : ∀ k, ∃ i, ∀ hk : k < grid.length, ∃ h : i + 1 < grid[k].length, grid[k][i] < t ∧ t < grid[k][i + 1] := by
    intro k
    by_cases hk : k < grid.length
    · obtain ⟨i, h, h'⟩ := ht _ (List.getElem_mem hk)
      exact ⟨i, fun _ => ⟨h, h'⟩⟩
    · exact ⟨0, fun h => absurd h hk⟩
  choose pos hpos using this
  obtain ⟨vs, h1, h2, h3⟩ := c92_partial.2 rows grid t n pos hn hl hg hr hpos
  refine ⟨vs, h1, h2, ?_⟩
  intro k hk e1 e2 i e3 e4 lo hi
  obtain ⟨hp, p1, p2⟩ := hpos k hk
  have hpi : pos k = i := by
    have hpw := List.pairwise_iff_getElem.1 (hg _ (List.getElem_mem hk)).2
    rcases lt_trichotomy (pos k) i with h | h | h
    · exfalso
      rcases Nat.eq_or_lt_of_le (Nat.succ_le_of_lt h) with e | e
      · have : grid[k][pos k + 1] = grid[k][i] := by congr 1
        rw [this] at p2
        exact absurd (lo.trans p2) (lt_irrefl _)
      · exact absurd ((hpw (pos k + 1) i hp (by omega) e).trans lo) (not_lt.2 p2.le)
    · exact h
    · exfalso
      rcases Nat.eq_or_lt_of_le (Nat.succ_le_of_lt h) with e | e
      · have : grid[k][i + 1] = grid[k][pos k] := by congr 1
        rw [this] at hi
        exact absurd (p1.trans hi) (lt_irrefl _)
      · exact absurd ((hpw (i + 1) (pos k) e3 (by omega) e).trans p1) (not_lt.2 hi.le)
  subst hpi
  exact h3 k hk e1 e2 e3 e4

theorem single_of_mem {grid rows : List (List Rat)} (hl : rows.flatten.length = grid.flatten.length) {t : Rat}
    (ht : t ∈ grid.flatten) : ∃ v, applyTwo rows grid t = .ok (.single v) := by
  have hne : grid.flatten ≠ [] := List.ne_nil_of_mem ht
  obtain ⟨i0, hi0, k1, -, -⟩ := nearest_spec grid.flatten hne t
  refine ⟨rows.flatten[i0]'(by omega), ?_⟩
  unfold applyTwo
  rw [if_pos ht]
  simp only [nearestIndex, k1, bind, Except.bind, pure, Except.pure, getItem_nat rows.flatten i0 (by omega)]

/-- **C239.** For species with any energies, in ascending order. If every target is strictly between two energies of
every species, and one of them is not close to any energy, then the values of each species are on the lines through
the values at its own neighbouring energies. If every target is an energy of some species, the values are those at the
positions found for the targets (which are positions among the energies of the first species, C142). If one target is an energy of some species and another is not close to any, there is no result:
`ValueError`.

Missing: targets that are energies of some but not all species, and combinations
(`c239_counterexample`). -/
theorem c239_partial (grid rows : List (List Rat)) (n : Nat) (hn : grid ≠ []) (hl : rows.length = grid.length)
    (hg : ∀ x ∈ grid, x.length = n ∧ x.Pairwise (· < ·)) (hr : ∀ x ∈ rows, x.length = n)
    (species : List Nat) (hs : ∀ s ∈ species, s < grid.length) (points : List Int) (ts : List Rat) :
    ((∀ t ∈ ts, Inside grid t) → (∃ t ∈ ts, contains grid.flatten t = false) →
      ∃ out, observeEnergy grid rows (species.map Int.ofNat) ⟨points, ts⟩ = .ok out ∧ out.length = species.length ∧
        ∀ a (ha : a < out.length) (ha' : a < species.length), ∃ hb : out[a].length = ts.length,
          ∀ b (hb' : b < ts.length), ∀ x y, grid[species[a]]? = some x → rows[species[a]]? = some y →
            ∀ i (h3 : i + 1 < x.length) (h4 : i + 1 < y.length), x[i] < ts[b] → ts[b] < x[i + 1] →
              out[a][b] = line x[i] y[i] x[i + 1] y[i + 1] ts[b]) ∧
    ((∀ t ∈ ts, t ∈ grid.flatten) → observeEnergy grid rows (species.map Int.ofNat) ⟨points, ts⟩
      = subscript rows (species.map Int.ofNat) points) ∧
    ((∀ t ∈ ts, Inside grid t ∨ t ∈ grid.flatten) → (∃ t ∈ ts, t ∈ grid.flatten) →
      (∃ t ∈ ts, contains grid.flatten t = false) →
      observeEnergy grid rows (species.map Int.ofNat) ⟨points, ts⟩ = .error .valueError) := by
  have hneeded : (∃ t ∈ ts, contains grid.flatten t = false) → ¬ (ts.all (contains grid.flatten) = true) := by
    rintro ⟨t, h1, h2⟩ h
    have := List.all_eq_true.1 h t h1
    rw [h2] at this
    exact absurd this (by simp)
  refine ⟨?_, ?_, ?_⟩
  · intro hin hex
    have hrow : ∀ t, ∃ vs, t ∈ ts → applyTwo rows grid t = .ok (.rows vs) ∧ vs.length = grid.length ∧
      ∀ k (hk : k < grid.length) (h1 : k < rows.length) (h2 : k < vs.length), ∀ i (h3 : i + 1 < grid[k].length)
        (h4 : i + 1 < rows[k].length), grid[k][i] < t → t < grid[k][i + 1] →
        vs[k] = line grid[k][i] rows[k][i] grid[k][i + 1] rows[k][i + 1] t := by
      intro t
      by_cases ht : t ∈ ts
      · obtain ⟨vs, h⟩ := inside_rows hn hl hg hr (hin t ht)
        exact ⟨vs, fun _ => h⟩
      · exact ⟨[], fun h => absurd h ht⟩
    choose f hf using hrow
    have e1 : ts.mapM (applyTwo rows grid) = .ok (ts.map (fun t => .rows (f t))) :=
      mapM_const _ _ _ (fun t ht => (hf t ht).1)
    have e2 : (ts.map (fun t => Interpolated.rows (f t))).mapM rowOf = .ok (ts.map f) := by
      rw [mapM_ok_iff]
      exact ⟨by simp, fun i hi hi' => by simp [rowOf]⟩
    have e3 : (species.map Int.ofNat).mapM (getItem (swapRows grid.length (ts.map f)))
        = .ok (species.map (fun s => (ts.map f).map (fun r => (r[s]?).getD 0))) := by
      rw [mapM_ok_iff]
      refine ⟨by simp, fun i hi hi' => ?_⟩
      have hsi := hs _ (List.getElem_mem (by simpa using hi : i < species.length))
      simp only [List.getElem_map]
      have hlen : species[i]'(by simpa using hi) < (swapRows grid.length (ts.map f)).length := by
        simpa [swapRows] using hsi
      rw [show Int.ofNat (species[i]'(by simpa using hi)) = ((species[i]'(by simpa using hi) : Nat) : Int) from rfl,
        getItem_nat _ _ hlen]
      have := getElem_swapRows (rows := ts.map f) (by
        intro r hr
        obtain ⟨t, ht, rfl⟩ := List.mem_map.1 hr
        exact (hf t ht).2.1) _ hsi
      rw [List.getElem?_eq_getElem hlen] at this
      rw [Option.some.inj this]
    refine ⟨species.map (fun s => (ts.map f).map (fun r => (r[s]?).getD 0)), ?_, by simp, ?_⟩
    · unfold observeEnergy
      rw [if_neg (hneeded hex), e1]
      simp only [e2, subscriptRows, e3]
    · intro a ha ha'
      refine ⟨by simp, ?_⟩
      intro b hb' x y hx hy i h3 h4 lo hi
      have hsa := hs _ (List.getElem_mem ha')
      rw [List.getElem?_eq_getElem hsa, Option.some.injEq] at hx
      have hra : species[a] < rows.length := by omega
      rw [List.getElem?_eq_getElem hra, Option.some.injEq] at hy
      subst hx
      subst hy
      obtain ⟨-, q2, q3⟩ := hf ts[b] (List.getElem_mem hb')
      simp only [List.getElem_map]
      rw [List.getElem?_eq_getElem (by omega), Option.getD_some]
      exact q3 _ hsa (by omega) (by omega) i h3 h4 lo hi
  · intro h
    unfold observeEnergy
    rw [if_pos (List.all_eq_true.2 (fun t ht => contains_mem (h t ht)))]
  · intro hall hone hex
    have hflat : rows.flatten.length = grid.flatten.length := by
      rw [List.length_flatten, List.length_flatten]
      have e1 : rows.map List.length = List.replicate rows.length n :=
        List.eq_replicate_iff.2 ⟨by simp, by simpa using hr⟩
      have e2 : grid.map List.length = List.replicate grid.length n :=
        List.eq_replicate_iff.2 ⟨by simp, by intro b hb; obtain ⟨x, hx, rfl⟩ := List.mem_map.1 hb; exact (hg x hx).1⟩
      rw [e1, e2, hl]
    have hres : ∀ t, ∃ r, t ∈ ts → applyTwo rows grid t = .ok r ∧ (t ∈ grid.flatten → rowOf r = .error .valueError)
        ∧ ∀ e, rowOf r = .error e → e = .valueError := by
      intro t
      by_cases ht : t ∈ ts
      · by_cases hm : t ∈ grid.flatten
        · obtain ⟨v, hv⟩ := single_of_mem hflat hm
          exact ⟨.single v, fun _ => ⟨hv, fun _ => rfl, fun e he => by simpa [rowOf] using he.symm⟩⟩
        · obtain ⟨vs, hv, -⟩ := inside_rows hn hl hg hr ((hall t ht).resolve_right hm)
          exact ⟨.rows vs, fun _ => ⟨hv, fun h => absurd h hm, fun e he => by simp [rowOf] at he⟩⟩
      · exact ⟨.rows [], fun h => absurd h ht⟩
    choose f hf using hres
    have e1 : ts.mapM (applyTwo rows grid) = .ok (ts.map f) := mapM_const _ _ _ (fun t ht => (hf t ht).1)
    have e2 : ∀ l : List Rat, (∀ t ∈ l, t ∈ ts) → (∃ t ∈ l, t ∈ grid.flatten) →
        (l.map f).mapM rowOf = .error .valueError := by
      intro l
      induction l with
      | nil => rintro - ⟨t, h, -⟩; simp at h
      | cons t l ih =>
        intro hsub hone
        rw [List.map_cons, List.mapM_cons]
        obtain ⟨-, p1, p2⟩ := hf t (hsub t (by simp))
        cases hq : rowOf (f t) with
        | error e => rw [p2 e hq]; rfl
        | ok v =>
          obtain ⟨t', h1, h2⟩ := hone
          rcases List.mem_cons.1 h1 with rfl | h1
          · rw [p1 h2] at hq; exact absurd hq (by simp)
          · rw [show (do let a ← Except.ok v; let b ← (l.map f).mapM rowOf; pure (a :: b) : Res (List (List Rat)))
              = (do let b ← (l.map f).mapM rowOf; pure (v :: b)) from rfl,
              ih (fun x hx => hsub x (by simp [hx])) ⟨t', h1, h2⟩]
            rfl
    unfold observeEnergy
    rw [if_neg (hneeded hex), e1]
    simp only [e2 ts (fun _ h => h) hone]

/-- **C239 fails in the code.** Two species; the value of each is ten times the number of the energy in its list.
The energy 2 is one of the first species; the second, whose value there is 25, is given its value at 3 / 2. The energy
9 / 4 is interpolated for both, but not if requested together with 2. -/
theorem c239_counterexample :
    let grid : List (List Rat) := [[1, 2, 3], [1 / 2, 3 / 2, 5 / 2]]
    let rows : List (List Rat) := [[10, 20, 30], [10, 20, 30]]
    observeEnergy grid rows [0, 1] ⟨[1], [2]⟩ = .ok [[20], [20]] ∧
    observeEnergy grid rows [0, 1] ⟨[1], [9 / 4]⟩ = .ok [[45 / 2], [55 / 2]] ∧
    observeEnergy grid rows [0, 1] ⟨[1, 1], [2, 9 / 4]⟩ = .error .valueError ∧
    interp1d [(1 / 2 : Rat), 3 / 2, 5 / 2] [10, 20, 30] 2 = .ok 25 := by decide +kernel

example : Inside [[1, 2, 3], [1 / 2, 3 / 2, 5 / 2]] (9 / 4) ∧
    contains ([[1, 2, 3], [1 / 2, 3 / 2, 5 / 2]] : List (List Rat)).flatten (9 / 4) = false := by
  refine ⟨?_, by decide +kernel⟩
  intro x hx
  simp only [List.mem_cons, List.not_mem_nil, or_false] at hx
  rcases hx with rfl | rfl
  · exact ⟨1, by decide, by norm_num⟩
  · exact ⟨1, by decide, by norm_num⟩

end Verif.Axes
