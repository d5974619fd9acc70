import Mathlib.Tactic.FieldSimp
import Mathlib.Tactic.Linarith
import Verif.Axes.Spec
import Verif.Numerical.Props

/-!
# Properties of the axes and of observing
-/

set_option linter.unusedSimpArgs false
set_option linter.unusedSectionVars false

namespace Verif.Axes

open Verif.Py Verif.Iterables Verif.Measurable Verif.Numerical
open Verif.Metric (Str)

variable {U : Type}

/-- Units for the concrete cases: seconds, minutes, metres and none. -/
inductive Demo where
  | one | s | min | m
  deriving DecidableEq

def Demo.size : Demo → Rat
  | .min => 60
  | _ => 1

def Demo.kind : Demo → Nat
  | .one => 0
  | .s => 1
  | .min => 1
  | .m => 2

def demo : Units Demo where
  one := .one
  read s := if s = c!"1" then .ok .one else if s = c!"s" then .ok .s else if s = c!"min" then .ok .min
    else if s = c!"m" then .ok .m else .error .valueError
  same u v := u = v
  consistent u v := u.kind = v.kind
  factor u v := .ok (u.size / v.size)

theorem demo_sizes : Sizes demo Demo.size := by
  constructor
  · intro u; cases u <;> decide
  · intro u; cases u <;> decide
  · intro u v h; simp only [demo, decide_eq_true_eq] at h; rw [h]
  · intro u v _; rfl

/-! ## Conversions -/

theorem rescale_ok {M : Units U} {size : U → Rat} (hM : Sizes M size) (qs : List Rat) (u v : U)
    (h : M.consistent u v = true ∨ M.same v u = true) :
    rescale M qs u v = .ok (qs.map (fun q => q * (size u / size v))) := by
  unfold rescale
  split
  · next hs =>
    have := hM.same _ _ hs
    have hp := (hM.pos u).ne'
    simp [this, hp]
  · next hs =>
    have hc : M.consistent u v = true := by
      rcases h with h | h
      · exact h
      · exact absurd h hs
    rw [if_neg (by simp [hc]), hM.factor u v hc]
    simp [mul_comm]

theorem mapM_number (vs : List Rat) : (vs.map (Obj.atom (α := Rat))).mapM number = .ok vs := by
  rw [mapM_ok_iff]
  refine ⟨by simp, fun i h h' => ?_⟩
  simp [number]

theorem measure_ok (text : Arg → Str) (ts : List Item) (qs : List Rat) (s : Str)
    (h : Measures (.tuple (ts.map Item.arg)) qs s) :
    ∃ n, ∀ more, measure text (n + more) ts = .ok (qs, s) := by
  obtain ⟨n, hn⟩ := (c69_partial text).1 _ _ _ h
  refine ⟨n, fun more => ?_⟩
  unfold measure
  rw [hn more]
  simp only [mapM_number]

/-- The positions that `find_nearest` gives, for an axis in another unit. -/
theorem nearest_selects (axis : List Rat) (hne : axis ≠ []) (a c : Rat) (hc : 0 < c) (wanted values : List Rat)
    (hl : values.length = wanted.length)
    (hv : ∀ k (h : k < values.length) (h' : k < wanted.length), values[k] * c = wanted[k]) :
    ∃ points, values.mapM (fun v => nearestIndex (axis.map (fun x => x * (a / c))) v .free) = .ok points ∧
      Selects axis a wanted points := by
  have key : ∀ v : Rat, ∃ i, ∃ hi : i < axis.length,
      nearestIndex (axis.map (fun x => x * (a / c))) v .free = .ok (i : Int) ∧
      (∀ j (hj : j < axis.length), |axis[i] * a - v * c| ≤ |axis[j] * a - v * c|) ∧
      ∀ j (hj : j < i), |axis[i] * a - v * c| < |axis[j] * a - v * c| := by
    intro v
    obtain ⟨i, hi, h1, h2, h3⟩ := nearest_spec (axis.map (fun x => x * (a / c))) (by simpa using hne) v
    have hi' : i < axis.length := by simpa using hi
    have scale : ∀ x : Rat, |x * a - v * c| = |x * (a / c) - v| * c := by
      intro x
      rw [← abs_of_pos hc, ← abs_mul, abs_of_pos hc]
      congr 1
      field_simp
    refine ⟨i, hi', ?_, ?_, ?_⟩
    · unfold nearestIndex
      rw [h1]
      rfl
    · intro j hj
      have := h2 j (by simpa using hj)
      simp only [List.getElem_map] at this
      rw [scale, scale]
      exact mul_le_mul_of_nonneg_right this hc.le
    · intro j hj
      have := h3 j hj
      simp only [List.getElem_map] at this
      rw [scale, scale]
      exact mul_lt_mul_of_pos_right this hc
  choose f hf h1 h2 h3 using key
  refine ⟨values.map (fun v => (f v : Int)), ?_, ?_, ?_⟩
  · rw [mapM_ok_iff]
    refine ⟨by simp, fun k h h' => ?_⟩
    rw [h1]
    simp
  · simpa using hl
  · intro k h h'
    have hk : k < values.length := by simpa using h
    refine ⟨f values[k], hf _, by simp, ?_, ?_⟩
    · intro j hj
      rw [← hv k hk h']
      exact h2 _ j hj
    · intro j hj
      rw [← hv k hk h']
      exact h3 _ j hj

theorem not_all_int {ts : List Item} (h : ∃ t ∈ ts, t.isInt = false) :
    ¬ ts = [] ∧ ¬ ts.all Item.isInt = true := by
  obtain ⟨t, ht, hi⟩ := h
  refine ⟨List.ne_nil_of_mem ht, fun ha => ?_⟩
  have := List.all_eq_true.1 ha t ht
  rw [hi] at this
  exact absurd this (by simp)

/-! ## C141: the nearest point -/

/-- **C141.** If some target is not an integer, and the targets measure the numbers `qs` in the unit that `s`
names, which is the default unit for pure numbers: the points selected are those nearest to the targets as
physical values, and the values are the targets in the default unit. -/
theorem c141_partial (M : Units U) (size : U → Rat) (hM : Sizes M size) (text : Arg → Str)
    (axis : List Rat) (hne : axis ≠ []) (axisUnit unit : U) (hc : M.consistent axisUnit unit = true)
    (ts : List Item) (hi : ∃ t ∈ ts, t.isInt = false) (qs : List Rat) (s : Str)
    (hm : Measures (.tuple (ts.map Item.arg)) qs s) (u : U)
    (hu : ∃ u0, M.read s = .ok u0 ∧ ((M.same u0 M.one = true ∧ u = unit) ∨ (M.same u0 M.one = false ∧ u = u0)))
    (hcu : M.consistent u unit = true) :
    ∃ n, ∀ more, ∃ d, coordinateIndex M text (n + more) axis axisUnit (.targets ts) unit = .ok d ∧
      Selects axis (size axisUnit) (qs.map (· * size u)) d.points ∧
      d.values = qs.map (fun q => q * size u / size unit) := by
  obtain ⟨n, hn⟩ := measure_ok text ts qs s hm
  refine ⟨n, fun more => ?_⟩
  obtain ⟨u0, hr, hu⟩ := hu
  have ht : targetUnit M s unit = .ok u := by
    unfold targetUnit
    rw [hr]
    rcases hu with ⟨h1, rfl⟩ | ⟨h1, rfl⟩
    · simp [h1]
    · simp [h1]
  obtain ⟨hz, hz'⟩ := not_all_int hi
  have hp := (hM.pos unit)
  obtain ⟨points, hq, hs⟩ := nearest_selects axis hne (size axisUnit) (size unit) hp (qs.map (· * size u))
    (qs.map (fun q => q * (size u / size unit))) (by simp) (by
      intro k h h'
      simp only [List.getElem_map]
      field_simp)
  have hnorm : normalize axis.length (.targets ts) = ts := by
    cases ts with
    | nil => exact absurd rfl hz
    | cons t ts => rfl
  refine ⟨⟨points, qs.map (fun q => q * (size u / size unit))⟩, ?_, hs, ?_⟩
  · unfold coordinateIndex coordinate
    rw [hnorm, rescale_ok hM axis axisUnit unit (Or.inl hc)]
    simp only [if_neg hz, if_neg hz', hn more, ht]
    unfold intoUnit
    rw [if_pos hcu, rescale_ok hM qs u unit (Or.inl hcu)]
    simp only [hq]
  · apply List.map_congr_left
    intro q _
    ring

example : ∃ n, ∀ more, ∃ d,
    coordinateIndex demo (fun _ => []) (n + more) [0, 60, 180] .s
      (.targets [.int 2, .other (.atom (1 / 2)), .other (.str c!"min")]) .s = .ok d ∧
      Selects [0, 60, 180] 1 [120, 30] d.points ∧ d.values = [120, 30] := by
  have := c141_partial demo Demo.size demo_sizes (fun _ => []) [0, 60, 180] (by simp) .s .s (by decide)
    [.int 2, .other (.atom (1 / 2)), .other (.str c!"min")] ⟨.other (.atom (1 / 2)), by simp, rfl⟩ [2, 1 / 2] c!"min"
    (.withUnit _ 2 [1 / 2] _ (Or.inr (by simp [Item.arg]))) .min ⟨.min, by decide, Or.inr ⟨by decide, rfl⟩⟩ (by decide)
  norm_num [Demo.size] at this
  exact this

/-- **C141, violated.** Targets in metres select times, as if they were in the unit of the axis; a slice
without members selects every point. -/
theorem c141_counterexample :
    coordinateIndex demo (fun _ => []) 2 [0, 60, 180] .s (.targets [.other (.atom 70), .other (.str c!"m")]) .s
      = .ok ⟨[1], [70]⟩ ∧
    coordinateIndex demo (fun _ => []) 2 [0, 60, 180] .s (.slice ⟨some 2, some 2, none⟩) .s
      = .ok ⟨[0, 1, 2], [0, 60, 180]⟩ := by
  constructor <;> decide +kernel

/-- **C141, violated for every such unit.** Whatever the unit of the targets, if it is not consistent with
that of the axis, the result is the one for the same numbers in the unit of the axis. -/
theorem c141_ignored (M : Units U) (size : U → Rat) (hM : Sizes M size) (text : Arg → Str)
    (axis : List Rat) (hne : axis ≠ []) (axisUnit unit : U) (hc : M.consistent axisUnit unit = true)
    (ts : List Item) (hi : ∃ t ∈ ts, t.isInt = false) (qs : List Rat) (s : Str)
    (hm : Measures (.tuple (ts.map Item.arg)) qs s) (u : U) (hr : M.read s = .ok u)
    (hone : M.same u M.one = false) (hcu : M.consistent u unit = false) :
    ∃ n, ∀ more, ∃ d, coordinateIndex M text (n + more) axis axisUnit (.targets ts) unit = .ok d ∧
      Selects axis (size axisUnit) (qs.map (· * size unit)) d.points ∧ d.values = qs := by
  obtain ⟨n, hn⟩ := measure_ok text ts qs s hm
  refine ⟨n, fun more => ?_⟩
  have ht : targetUnit M s unit = .ok u := by
    unfold targetUnit
    rw [hr]
    simp [hone]
  obtain ⟨hz, hz'⟩ := not_all_int hi
  obtain ⟨points, hq, hs⟩ := nearest_selects axis hne (size axisUnit) (size unit) (hM.pos unit)
    (qs.map (· * size unit)) qs (by simp) (by
      intro k h h'
      simp only [List.getElem_map])
  have hnorm : normalize axis.length (.targets ts) = ts := by
    cases ts with
    | nil => exact absurd rfl hz
    | cons t ts => rfl
  refine ⟨⟨points, qs⟩, ?_, hs, rfl⟩
  unfold coordinateIndex coordinate
  rw [hnorm, rescale_ok hM axis axisUnit unit (Or.inl hc)]
  simp only [if_neg hz, if_neg hz', hn more, ht]
  unfold intoUnit
  rw [if_neg (by simp [hcu])]
  simp only [hq]

/-! ## C140: the values reported -/

theorem all_points (n : Nat) :
    ((List.range n).map (fun i : Nat => Item.int i)).filterMap Item.position = (List.range n).map Int.ofNat := by
  rw [List.filterMap_map]
  induction (List.range n) with
  | nil => rfl
  | cons a l ih => rw [List.filterMap_cons_some (by rfl), ih, List.map_cons]; rfl

theorem ints_points (is : List Int) :
    (is.map Item.int).filterMap Item.position = is := by
  rw [List.filterMap_map]
  induction is with
  | nil => rfl
  | cons a l ih => rw [List.filterMap_cons_some (by rfl), ih]

theorem coordinate_ints (M : Units U) (text : Arg → Str) (depth : Nat) (axis : List Rat) (axisUnit unit : U)
    (converted : List Rat) (hr : rescale M axis axisUnit unit = .ok converted) (ts : List Item)
    (hall : ts.all Item.isInt = true) (is : List Int) (his : ts.filterMap Item.position = is)
    (h0 : ts = [] → is = (List.range converted.length).map Int.ofNat) :
    coordinate M text depth axis axisUnit ts unit = .ok ⟨is, converted⟩ := by
  unfold coordinate
  rw [hr]
  by_cases h : ts = []
  · simp only [if_pos h, h0 h]
  · simp only [if_neg h, if_pos hall, his]

theorem getItem_range {α : Type} (xs : List α) (i : Int) (k : Nat) (hk : k < xs.length) (hx : xs.Nodup) :
    getItem xs i = .ok xs[k] ↔ i = k ∨ i = (k : Int) - xs.length := by
  unfold getItem
  constructor
  · intro h
    simp only at h
    split_ifs at h with h1 h2
    all_goals split at h
    all_goals try contradiction
    all_goals
      next x hx' =>
        obtain ⟨hlt, he⟩ := List.getElem?_eq_some_iff.1 hx'
        have := Except.ok.inj h
        rw [← he] at this
        have := (List.Nodup.getElem_inj_iff hx).1 this
        omega
  · rintro (rfl | rfl)
    · have : ¬ ((k : Int) < 0) := by omega
      simp [this, hk]
    · have h1 : (k : Int) - xs.length < 0 := by omega
      have h2 : ¬ ((k : Int) - xs.length + xs.length < 0) := by omega
      have h3 : ((k : Int) - xs.length + xs.length).toNat = k := by omega
      simp only [h1, if_true, h2, if_false, h3, List.getElem?_eq_getElem hk]

/-- **C140.** For the whole axis, the values reported are those of the points. For targets that are
measured there are as many values as points, and where a target is a value on the axis, the value at the point
is the target. For integer targets, it is the case only if these are the positions of the whole axis in
order. -/
theorem c140_partial (M : Units U) (text : Arg → Str) (depth : Nat) (axis : List Rat) (axisUnit unit : U)
    (converted : List Rat) (hr : rescale M axis axisUnit unit = .ok converted) (hn : converted.Nodup) :
    (∃ d, coordinateIndex M text depth axis axisUnit .nothing unit = .ok d ∧ Reports converted d ∧
      d.values = converted) ∧
    (∀ ts d, (∃ t ∈ ts, t.isInt = false) →
      coordinateIndex M text depth axis axisUnit (.targets ts) unit = .ok d →
      d.points.length = d.values.length ∧
      ∀ k (h : k < d.points.length) (h' : k < d.values.length), d.values[k] ∈ converted →
        getItem converted d.points[k] = .ok d.values[k]) ∧
    (∀ is : List Int, is ≠ [] →
      (coordinateIndex M text depth axis axisUnit (.range is) unit = .ok ⟨is, converted⟩ ∧
        coordinateIndex M text depth axis axisUnit (.targets (is.map .int)) unit = .ok ⟨is, converted⟩) ∧
      (Reports converted ⟨is, converted⟩ ↔ is.length = converted.length ∧
        ∀ k (h : k < is.length), is[k] = k ∨ is[k] = (k : Int) - is.length)) := by
  have hlen : converted.length = axis.length := by
    unfold rescale at hr
    split at hr
    · cases hr; rfl
    · split at hr
      · exact absurd hr (by simp)
      · split at hr
        · exact absurd hr (by simp)
        · cases hr; simp
  refine ⟨?_, ?_, ?_⟩
  · refine ⟨⟨(List.range axis.length).map Int.ofNat, converted⟩, ?_, ⟨by simp [hlen], ?_⟩, rfl⟩
    · exact coordinate_ints M text depth axis axisUnit unit converted hr _ (by simp [normalize, Item.isInt]) _
        (all_points _) (fun _ => by rw [hlen])
    · intro k h h'
      simp only [List.getElem_map, List.getElem_range]
      exact getItem_nat converted k h'
  · intro ts d hi hd
    obtain ⟨hz, hz'⟩ := not_all_int hi
    have hnorm : normalize axis.length (.targets ts) = ts := by
      cases ts with
      | nil => exact absurd rfl hz
      | cons t ts => rfl
    unfold coordinateIndex coordinate at hd
    rw [hnorm, hr] at hd
    simp only [if_neg hz, if_neg hz'] at hd
    split at hd
    · exact absurd hd (by simp)
    · split at hd
      · exact absurd hd (by simp)
      · split at hd
        · exact absurd hd (by simp)
        · next values _ =>
          split at hd
          · exact absurd hd (by simp)
          · next points hp =>
            cases hd
            obtain ⟨hl, hg⟩ := (mapM_ok_iff _ _ _).1 hp
            refine ⟨hl.symm, fun k h h' hmem => ?_⟩
            simp only at h h' hmem ⊢
            have hne : converted ≠ [] := List.ne_nil_of_mem hmem
            obtain ⟨i, hi, h1, h2, -⟩ := nearest_spec converted hne values[k]
            have hgk := hg k h' h
            unfold nearestIndex at hgk
            rw [h1] at hgk
            have hpt : ((i : Nat) : Int) = points[k] := Except.ok.inj hgk
            rw [← hpt, getItem_nat converted i hi]
            obtain ⟨j, hj, hjv⟩ := List.getElem_of_mem hmem
            have := h2 j hj
            rw [hjv, sub_self, abs_zero] at this
            rw [sub_eq_zero.1 (abs_eq_zero.1 (le_antisymm this (abs_nonneg _)))]
  · intro is his
    have hall : ((is.map Item.int).all Item.isInt) = true := by simp [Item.isInt]
    have hne : ¬ is.map Item.int = [] := by simpa using his
    refine ⟨⟨?_, ?_⟩, ?_⟩
    · exact coordinate_ints M text depth axis axisUnit unit converted hr _ hall _ (ints_points is)
        (fun h => absurd h hne)
    · have hnorm : normalize axis.length (.targets (is.map .int)) = is.map .int := by
        cases is with
        | nil => exact absurd rfl his
        | cons t ts => rfl
      unfold coordinateIndex
      rw [hnorm]
      exact coordinate_ints M text depth axis axisUnit unit converted hr _ hall _ (ints_points is)
        (fun h => absurd h hne)
    · constructor
      · rintro ⟨h1, h2⟩
        simp only at h1 h2
        refine ⟨h1, fun k h => ?_⟩
        rw [h1]
        exact (getItem_range converted _ k (by omega) hn).1 (h2 k h (by omega))
      · rintro ⟨h1, h2⟩
        refine ⟨h1, fun k h h' => ?_⟩
        simp only at h h' ⊢
        refine (getItem_range converted _ k h' hn).2 ?_
        rw [← h1]
        exact h2 k h

example : (∃ d, coordinateIndex demo (fun _ => []) 2 [0, 60, 180] .s .nothing .s = .ok d ∧
    Reports [0, 60, 180] d ∧ d.values = [0, 60, 180]) ∧
    coordinateIndex demo (fun _ => []) 2 [0, 60, 180] .s
      (.targets [.int 3, .other (.atom 1), .other (.str c!"min")]) .min = .ok ⟨[2, 1], [3, 1]⟩ := by
  refine ⟨(c140_partial demo (fun _ => []) 2 [0, 60, 180] .s .s [0, 60, 180] rfl (by decide)).1, ?_⟩
  decide +kernel

/-- **C140, violated.** For the time at position 1, all times are reported. -/
theorem c140_counterexample :
    coordinateIndex demo (fun _ => []) 2 [0, 60, 180] .s (.targets [.int 1]) .s = .ok ⟨[1], [0, 60, 180]⟩ ∧
    ¬ Reports [(0 : Rat), 60, 180] ⟨[1], [0, 60, 180]⟩ ∧
    speciesIndex [c!"H+", c!"He++"] [.symbol c!"He++"] = .ok ⟨[1], [c!"H+", c!"He++"]⟩ ∧
    ¬ Reports [c!"H+", c!"He++"] ⟨[1], [c!"H+", c!"He++"]⟩ := by
  refine ⟨by decide +kernel, fun h => ?_, by decide +kernel, fun h => ?_⟩
  · exact absurd h.1 (by decide)
  · exact absurd h.1 (by decide)

/-! ## C230: shells -/

/-- **C230.** Without a request all shells are selected; shells are selected by position, in the order
given, and the values of the axis are the positions; a slice selects the same shells as the positions in it; anything
that is not an integer raises `ValueError`. -/
theorem c230_partial (size : Nat) :
    (0 < size → ∃ d, shellIndex size .nothing = .ok d ∧ d.values = d.points ∧ d.points.length = size ∧
      ∀ k (h : k < d.points.length), d.points[k] = k) ∧
    (∀ is : List Int, is ≠ [] → shellIndex size (.range is) = .ok ⟨is, is⟩ ∧
      shellIndex size (.targets (is.map .int)) = .ok ⟨is, is⟩) ∧
    (∀ s : Slice, shellIndex size (.slice s) = shellIndex size (.range (sliceToRange s size))) ∧
    ∀ ts, (∃ t ∈ ts, t.isInt = false) → shellIndex size (.targets ts) = .error .valueError := by
  have hints : ∀ is : List Int, is ≠ [] → ∀ r, normalize size r = is.map .int → shellIndex size r = .ok ⟨is, is⟩ := by
    intro is his r hr
    have hall : ((is.map Item.int).all Item.isInt) = true := by simp [Item.isInt]
    unfold shellIndex
    rw [hr, if_pos hall, ints_points is]
    cases is with
    | nil => exact absurd rfl his
    | cons i is => rfl
  refine ⟨fun hs => ?_, fun is his => ⟨hints is his _ rfl, hints is his _ ?_⟩, fun s => rfl, fun ts hts => ?_⟩
  · have hne : (List.range size).map Int.ofNat ≠ [] := by
      intro h
      have := congrArg List.length h
      simp at this
      omega
    refine ⟨_, hints _ hne _ ?_, rfl, by simp, fun k h => by simp⟩
    simp [normalize]
  · cases is with
    | nil => exact absurd rfl his
    | cons i is => rfl
  · obtain ⟨hz, hz'⟩ := not_all_int hts
    have hnorm : normalize size (.targets ts) = ts := by
      cases ts with
      | nil => exact absurd rfl hz
      | cons t ts => rfl
    unfold shellIndex
    rw [hnorm, if_neg hz']

/-- **C230, violated.** A shell that does not exist is accepted, and a slice without shells raises `IndexError`. -/
theorem c230_counterexample :
    shellIndex 3 (.targets [.int 7]) = .ok ⟨[7], [7]⟩ ∧
    shellIndex 3 (.slice ⟨some 2, some 2, none⟩) = .error .indexError := by decide +kernel

example : shellIndex 4 (.slice ⟨some 1, none, some 2⟩) = .ok ⟨[1, 3], [1, 3]⟩ ∧
    shellIndex 4 (.targets [.other (.atom (3 / 2))]) = .error .valueError := by decide +kernel

/-! ## C142: energies of a species -/

/-- **C142.** If the energies of the species are those of the first one, the points selected are nearest to the
targets among the energies of the species. -/
theorem c142_partial (M : Units U) (size : U → Rat) (hM : Sizes M size) (text : Arg → Str)
    (grid : List (List Rat)) (species : Nat) (hs : species < grid.length)
    (heq : grid[species] = grid.head (by rintro rfl; simp at hs))
    (hne : grid[species] ≠ []) (axisUnit unit : U) (hc : M.consistent axisUnit unit = true)
    (ts : List Item) (hi : ∃ t ∈ ts, t.isInt = false) (qs : List Rat) (s : Str)
    (hm : Measures (.tuple (ts.map Item.arg)) qs s) (u : U)
    (hu : ∃ u0, M.read s = .ok u0 ∧ ((M.same u0 M.one = true ∧ u = unit) ∨ (M.same u0 M.one = false ∧ u = u0)))
    (hcu : M.consistent u unit = true) :
    ∃ n, ∀ more, ∃ d, energyIndex M text (n + more) grid axisUnit (.targets ts) unit = .ok d ∧
      Selects grid[species] (size axisUnit) (qs.map (· * size u)) d.points := by
  obtain ⟨n, hn⟩ := c141_partial M size hM text grid[species] hne axisUnit unit hc ts hi qs s hm u hu hcu
  refine ⟨n, fun more => ?_⟩
  obtain ⟨d, h1, h2, -⟩ := hn more
  refine ⟨d, ?_, h2⟩
  have : getItem grid 0 = .ok grid[species] := by
    rw [heq, List.head_eq_getElem]
    exact getItem_nat grid 0 (by omega)
  unfold energyIndex
  rw [this]
  exact h1

example : energyIndex demo (fun _ => []) 2 [[1, 2, 4], [1, 2, 4]] .m
    (.targets [.other (.atom (7 / 2)), .other (.str c!"m")]) .m = .ok ⟨[2], [7 / 2]⟩ := by decide +kernel

/-- **C142, violated.** The second species has the energies 2, 4, 6; a target of 2 selects its energy 4,
which is the value at the position of 2 among the energies of the first species. -/
theorem c142_counterexample :
    energyIndex demo (fun _ => []) 2 [[1, 2, 3], [2, 4, 6]] .m
      (.targets [.other (.atom 2), .other (.str c!"m")]) .m = .ok ⟨[1], [2]⟩ ∧
    ¬ Selects [2, 4, 6] 1 [2] [1] := by
  refine ⟨by decide +kernel, fun h => ?_⟩
  obtain ⟨i, hi, h1, h2, -⟩ := h.2 0 (by simp) (by simp)
  simp only [List.getElem_cons_zero] at h1
  have : i = 1 := by omega
  subst this
  have := h2 0 (by simp)
  norm_num at this

/-! ## C143: species -/

theorem truncate_spec (q : Rat) :
    (0 ≤ q → (truncate q : Rat) ≤ q ∧ q < truncate q + 1) ∧ (q < 0 → (truncate q : Rat) - 1 < q ∧ q ≤ truncate q) := by
  have h1 := Rat.floor_le q
  have h2 := Rat.lt_floor_add_one q
  have h3 := Rat.floor_le (-q)
  have h4 := Rat.lt_floor_add_one (-q)
  constructor
  · intro h
    rw [truncate, if_neg (not_lt.2 h)]
    exact ⟨h1, by exact_mod_cast h2⟩
  · intro h
    rw [truncate, if_pos h]
    push_cast at h4 ⊢
    constructor <;> linarith

/-- **C143.** Species are selected by symbol or number: the points are the positions of the first species
with the symbols, in the order of the request, or the numbers themselves; if there is no species with some
symbol, `ValueError` is raised. Without a request all species are selected. -/
theorem c143_species (symbols : List Str) (targets : List Species) :
    ((∀ s, .symbol s ∈ targets → s ∈ symbols) → targets ≠ [] →
      ∃ d, speciesIndex symbols targets = .ok d ∧ d.points.length = targets.length ∧
        ∀ k (h : k < targets.length) (h' : k < d.points.length), Picks symbols targets[k] d.points[k]) ∧
    ((∃ s, .symbol s ∈ targets ∧ s ∉ symbols) → speciesIndex symbols targets = .error .valueError) ∧
    speciesIndex symbols [] = .ok ⟨(List.range symbols.length).map Int.ofNat, symbols⟩ := by
  refine ⟨?_, ?_, ?_⟩
  · intro h hne
    have : ∃ points, targets.mapM (Species.point symbols) = .ok points ∧ points.length = targets.length ∧
        ∀ k (h : k < targets.length) (h' : k < points.length), Picks symbols targets[k] points[k] := by
      clear hne
      induction targets with
      | nil => exact ⟨[], rfl, rfl, fun k h => absurd h (by simp)⟩
      | cons t ts ih =>
        obtain ⟨ps, h1, h2, h3⟩ := ih (fun s hs => h s (by simp [hs]))
        have ht : ∃ p, Species.point symbols t = .ok p ∧ Picks symbols t p := by
          cases t with
          | symbol s =>
            have hs : s ∈ symbols := h s (by simp)
            refine ⟨symbols.idxOf s, by simp [Species.point, hs], ?_⟩
            have hlt := List.idxOf_lt_length_iff.2 hs
            refine .symbol s _ hlt (List.getElem_idxOf hlt) (fun j hj => ?_)
            have := List.not_of_lt_findIdx hj
            simpa using this
          | number q =>
            exact ⟨truncate q, rfl, .number q _ (truncate_spec q).1 (truncate_spec q).2⟩
        obtain ⟨p, hp, hpp⟩ := ht
        refine ⟨p :: ps, ?_, by simp [h2], ?_⟩
        · rw [List.mapM_cons, hp, h1]
          rfl
        · intro k hk hk'
          cases k with
          | zero => exact hpp
          | succ k => exact h3 k (by simpa using hk) (by simpa using hk')
    obtain ⟨points, h1, h2, h3⟩ := this
    refine ⟨⟨points, symbols⟩, ?_, h2, h3⟩
    unfold speciesIndex
    rw [if_neg hne, h1]
  · rintro ⟨s, hs, hns⟩
    have : targets.mapM (Species.point symbols) = .error .valueError := by
      induction targets with
      | nil => simp at hs
      | cons t ts ih =>
        rw [List.mapM_cons]
        rcases List.mem_cons.1 hs with rfl | hs
        · simp [Species.point, hns, bind, Except.bind]
        · rw [ih hs]
          cases t with
          | symbol s' =>
            by_cases hm : s' ∈ symbols <;> simp [Species.point, hm, bind, Except.bind]
          | number q => simp [Species.point, bind, Except.bind]
    unfold speciesIndex
    rw [if_neg (List.ne_nil_of_mem hs), this]
  · unfold speciesIndex
    have : ((List.range symbols.length).map (fun i : Nat => Species.number i)).mapM (Species.point symbols)
        = .ok ((List.range symbols.length).map Int.ofNat) := by
      rw [mapM_ok_iff]
      refine ⟨by simp, fun k h h' => ?_⟩
      have h0 : ¬ ((k : Rat) < 0) := not_lt.2 (by positivity)
      simp only [List.getElem_map, List.getElem_range, Species.point, truncate, if_neg h0]
      exact congrArg Except.ok (by exact_mod_cast Rat.floor_intCast (k : Int))
    rw [if_pos rfl, this]

example : speciesIndex [c!"H+", c!"He++", c!"O6+"] [.symbol c!"O6+", .number 0, .symbol c!"He++"]
    = .ok ⟨[2, 0, 1], [c!"H+", c!"He++", c!"O6+"]⟩ ∧
    speciesIndex [c!"H+"] [.symbol c!"Fe"] = .error .valueError := by
  constructor <;> decide +kernel

end Verif.Axes
