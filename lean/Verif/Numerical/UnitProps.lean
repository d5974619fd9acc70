import Verif.Numerical.Props
import Mathlib.Tactic.Ring
import Mathlib.Tactic.FieldSimp
import Mathlib.Tactic.Linarith

/-!
# Properties C264 to C266: units, sums and bounds of interpolated values
-/

set_option linter.unusedSimpArgs false
set_option linter.unusedSectionVars false

namespace Verif.Numerical

open Verif.Py

variable {K : Type _} [Field K] [LinearOrder K] [IsStrictOrderedRing K]

/-! ## C264: units -/

theorem getItem_map {α β : Type _} (f : α → β) (l : List α) (i : Int) : getItem (l.map f) i = (getItem l i).map f := by
  unfold getItem
  simp only [List.length_map, List.getElem?_map]
  generalize (if i < 0 then i + (l.length : Int) else i) = j
  by_cases hj : j < 0
  · rw [if_pos hj, if_pos hj]; rfl
  · rw [if_neg hj, if_neg hj]
    cases l[j.toNat]? <;> rfl

theorem mapM_res {α β : Type _} (f : α → Res β) (g : β → β) (f' : α → Res β) (l : List α)
    (h : ∀ a, f' a = (f a).map g) : l.mapM f' = (l.mapM f).map (List.map g) := by
  induction l with
  | nil => rfl
  | cons a l ih =>
    simp only [List.mapM_cons, h, ih, bind, Except.bind, pure, Except.pure]
    cases f a with
    | error e => rfl
    | ok v =>
      simp only [Except.map]
      cases l.mapM f <;> rfl

theorem select_map {α : Type _} (f : α → α) (xs : List α) (is : List Int) :
    select (xs.map f) is = (select xs is).map (List.map f) := by
  unfold select
  exact mapM_res _ f _ is (fun i => getItem_map f xs i)

theorem argminFrom_unit {k : K} (hk : 0 < k) (best : Nat) (v : K) (i : Nat) (l : List K) :
    argminFrom best (k * v) i (l.map (k * ·)) = argminFrom best v i l := by
  induction l generalizing best v i with
  | nil => rfl
  | cons x l ih =>
    simp only [List.map_cons, argminFrom, mul_lt_mul_iff_right₀ hk, ih]

theorem nearest_unit {k : K} (hk : 0 < k) (s : K) (l : List K) (t : K) :
    nearestIndex (l.map (fun x => k * x + s)) (k * t + s) .free = nearestIndex l t .free := by
  have e : (l.map (fun x => k * x + s)).map (fun x => |x - (k * t + s)|)
      = (l.map (fun x => |x - t|)).map (k * ·) := by
    rw [List.map_map, List.map_map]
    refine List.map_congr_left fun x _ => ?_
    simp only [Function.comp]
    rw [show k * x + s - (k * t + s) = k * (x - t) by ring, abs_mul, abs_of_pos hk]
  unfold nearestIndex
  rw [e]
  cases l with
  | nil => rfl
  | cons a l => simp only [List.map_cons, argmin, argminFrom_unit hk]

theorem whereIdx_unit (f : K → K) (p q : K → Bool) (h : ∀ x, p (f x) = q x) (l : List K) :
    whereIdx p (l.map f) = whereIdx q l := by
  unfold whereIdx
  rw [List.length_map]
  refine List.filter_congr fun i _ => ?_
  rw [List.getElem?_map]
  cases l[i]? with
  | none => rfl
  | some x => exact h x

theorem unit_le {k : K} (hk : 0 < k) (s x y : K) : k * x + s ≤ k * y + s ↔ x ≤ y := by
  rw [add_le_add_iff_right, mul_le_mul_iff_right₀ hk]

theorem unit_lt {k : K} (hk : 0 < k) (s x y : K) : k * x + s < k * y + s ↔ x < y := by
  rw [add_lt_add_iff_right, mul_lt_mul_iff_right₀ hk]

theorem unit_eq {k : K} (hk : 0 < k) (s x y : K) : k * x + s = k * y + s ↔ x = y := by
  rw [add_left_inj, mul_right_inj' hk.ne']

theorem find1d_unit {k : K} (hk : 0 < k) (s : K) (l : List K) (t : K) :
    find1dIndices (l.map (fun x => k * x + s)) (k * t + s) = find1dIndices l t := by
  unfold find1dIndices
  rw [whereIdx_unit (fun x => k * x + s) (· ≤ k * t + s) (· ≤ t) (fun x => by simp only [unit_le hk]),
    whereIdx_unit (fun x => k * x + s) (fun x => k * t + s ≤ x) (fun x => t ≤ x) (fun x => by simp only [unit_le hk]),
    List.length_map]

theorem line_unit {k : K} (hk : 0 < k) (s c d x0 y0 x1 y1 t : K) :
    line (k * x0 + s) (c * y0 + d) (k * x1 + s) (c * y1 + d) (k * t + s) = c * line x0 y0 x1 y1 t + d := by
  unfold line
  by_cases h : x1 - x0 = 0
  · rw [show k * x1 + s - (k * x0 + s) = k * (x1 - x0) by ring, h]
    simp
  · rw [show k * x1 + s - (k * x0 + s) = k * (x1 - x0) by ring, show k * t + s - (k * x0 + s) = k * (t - x0) by ring,
      show c * y1 + d - (c * y0 + d) = c * (y1 - y0) by ring]
    have := hk.ne'
    field_simp
    ring

theorem interp1d_unit {k : K} (hk : 0 < k) (s c d : K) (x y : List K) (t : K) :
    interp1d (x.map (fun v => k * v + s)) (y.map (fun v => c * v + d)) (k * t + s)
      = (interp1d x y t).map (fun v => c * v + d) := by
  unfold interp1d
  simp only [List.length_map]
  by_cases h : x.length ≠ y.length ∨ x.length < 2
  · rw [if_pos h, if_pos h]; rfl
  rw [if_neg h, if_neg h]
  simp only [getItem_map, bind, Except.bind, pure, Except.pure]
  cases getItem x 0 with
  | error e => rfl
  | ok first =>
    cases getItem x (-1) with
    | error e => rfl
    | ok last =>
      simp only [Except.map, unit_lt hk]
      by_cases h2 : t < first ∨ last < t
      · rw [if_pos h2, if_pos h2]
      rw [if_neg h2, if_neg h2]
      have hf : (x.map (fun v => k * v + s)).findIdx (fun v => decide (k * t + s ≤ v))
          = x.findIdx (fun v => decide (t ≤ v)) := by
        rw [List.findIdx_map]
        congr 1
        funext v
        simp only [Function.comp, unit_le hk]
      rw [hf]
      generalize min (max (x.findIdx (fun v => decide (t ≤ v))) 1) (x.length - 1) = hi
      cases getItem x ((hi : Int) - 1) with
      | error e => rfl
      | ok x0 =>
        cases getItem y ((hi : Int) - 1) with
        | error e => rfl
        | ok y0 =>
          cases getItem x hi with
          | error e => rfl
          | ok x1 =>
            cases getItem y hi with
            | error e => rfl
            | ok y1 => simp only [line_unit hk]

/-- **C264, one dimension.** A change of the unit of the reference (and of its origin) that applies to the target as well changes nothing;
a change of the unit of the array (and of its origin) applies to the result. Exceptions are the same. -/
theorem c264_one (k s c d : K) (hk : 0 < k) (array reference : List K) (t : K) (axis : Bool) :
    applyOne (array.map (fun v => c * v + d)) (reference.map (fun v => k * v + s)) (k * t + s) axis
      = (applyOne array reference t axis).map (fun v => c * v + d) := by
  unfold applyOne
  have hm : k * t + s ∈ reference.map (fun v => k * v + s) ↔ t ∈ reference := by
    rw [List.mem_map]
    constructor
    · rintro ⟨v, hv, e⟩
      rw [unit_eq hk] at e
      exact e ▸ hv
    · intro h; exact ⟨t, h, rfl⟩
  by_cases h : t ∈ reference
  · rw [if_pos h, if_pos (hm.2 h), nearest_unit hk]
    simp only [getItem_map, bind, Except.bind]
    cases nearestIndex reference t .free <;> rfl
  · rw [if_neg h, if_neg (mt hm.1 h)]
    unfold restrict1d
    simp only [find1d_unit hk, List.length_map, select_map]
    generalize (if axis = true then closedRange (find1dIndices reference t).1 (find1dIndices reference t).2
      else (List.range reference.length).map Int.ofNat) = is
    simp only [bind, Except.bind]
    cases select reference is with
    | error e => rfl
    | ok ref =>
      cases select array is with
      | error e => rfl
      | ok arr =>
        simp only [Except.map, List.length_map]
        by_cases h1 : ref.length = 1
        · rw [if_pos h1, if_pos h1, getItem_map]; rfl
        · rw [if_neg h1, if_neg h1]
          exact interp1d_unit hk s c d ref arr t

/-- From radii in one unit to another, and temperatures with another origin. -/
example : applyOne ([(10 : Rat), 20, 40].map (fun v => 9 / 5 * v + 32)) ([1, 2, 4].map (fun v => 215 * v + 0)) (215 * 3 + 0) true
    = .ok (9 / 5 * 30 + 32) := by
  rw [c264_one 215 0 (9 / 5) 32 (by norm_num) [10, 20, 40] [1, 2, 4] 3 true,
    show applyOne [(10 : Rat), 20, 40] [1, 2, 4] 3 true = .ok 30 by decide +kernel]
  rfl

theorem restrictRows_unit {k : K} (hk : 0 < k) (s : K) (rows : List (List K)) (t : K) :
    restrictRows (rows.map (List.map (fun v => k * v + s))) (k * t + s) = restrictRows rows t := by
  unfold restrictRows
  simp only [List.map_map, Function.comp_def, find1d_unit hk]

theorem mapM_select_map (f : K → K) (rows : List (List K)) (is : List Int) :
    (rows.map (List.map f)).mapM (select · is) = (rows.mapM (select · is)).map (List.map (List.map f)) := by
  induction rows with
  | nil => rfl
  | cons r rows ih =>
    simp only [List.map_cons, List.mapM_cons, ih, select_map, bind, Except.bind, pure, Except.pure]
    cases select r is with
    | error e => rfl
    | ok v =>
      simp only [Except.map]
      cases rows.mapM (select · is) <;> rfl

theorem interpRows_unit {k : K} (hk : 0 < k) (s c d : K) (t : K) (xs ys : List (List K)) :
    interpRows (k * t + s) (xs.map (List.map (fun v => k * v + s))) (ys.map (List.map (fun v => c * v + d)))
      = (interpRows t xs ys).map (List.map (fun v => c * v + d)) := by
  induction xs generalizing ys with
  | nil => rfl
  | cons x xs ih =>
    cases ys with
    | nil => rfl
    | cons y ys =>
      simp only [List.map_cons, interpRows, interp1d_unit hk, ih, bind, Except.bind, pure, Except.pure]
      cases interp1d x y t with
      | error e => rfl
      | ok v =>
        simp only [Except.map]
        cases interpRows t xs ys <;> rfl

/-- The result with each number changed. -/
def Interpolated.map (f : K → K) : Interpolated K → Interpolated K
  | .single v => .single (f v)
  | .rows vs => .rows (vs.map f)

/-- **C264, two dimensions.** -/
theorem c264_two (k s c d : K) (hk : 0 < k) (array reference : List (List K)) (t : K) :
    applyTwo (array.map (List.map (fun v => c * v + d))) (reference.map (List.map (fun v => k * v + s))) (k * t + s)
      = (applyTwo array reference t).map (Interpolated.map (fun v => c * v + d)) := by
  unfold applyTwo
  have hfl : ∀ (f : K → K) (l : List (List K)), (l.map (List.map f)).flatten = l.flatten.map f := by
    intro f l
    rw [List.map_flatten]
  have hm : k * t + s ∈ reference.flatten.map (fun v => k * v + s) ↔ t ∈ reference.flatten := by
    rw [List.mem_map]
    constructor
    · rintro ⟨v, hv, e⟩
      rw [unit_eq hk] at e
      exact e ▸ hv
    · intro h; exact ⟨t, h, rfl⟩
  simp only [hfl]
  by_cases h : t ∈ reference.flatten
  · rw [if_pos h, if_pos (hm.2 h), nearest_unit hk]
    simp only [getItem_map, bind, Except.bind, pure, Except.pure]
    cases nearestIndex reference.flatten t .free with
    | error e => rfl
    | ok i =>
      simp only
      cases getItem array.flatten i <;> rfl
  · rw [if_neg h, if_neg (mt hm.1 h), restrictRows_unit hk]
    simp only [mapM_select_map, bind, Except.bind, pure, Except.pure]
    cases restrictRows reference t with
    | error e => rfl
    | ok is =>
      simp only
      cases reference.mapM (select · is) with
      | error e => rfl
      | ok ref =>
        cases array.mapM (select · is) with
        | error e => rfl
        | ok arr =>
          simp only [Except.map, hfl, List.length_map]
          by_cases h1 : ref.flatten.length = 1
          · rw [if_pos h1, if_pos h1]; rfl
          · rw [if_neg h1, if_neg h1, interpRows_unit hk]
            cases interpRows t ref arr <;> rfl

example : applyTwo ([[(10 : Rat), 20, 40], [0, 1, 2]].map (List.map (fun v => 100 * v + 0)))
      ([[1, 2, 4], [0, 2, 4]].map (List.map (fun v => 215 * v + 1))) (215 * 3 + 1)
    = .ok (.rows [3000, 150]) := by
  rw [c264_two 215 1 100 0 (by norm_num), show applyTwo [[(10 : Rat), 20, 40], [0, 1, 2]] [[1, 2, 4], [0, 2, 4]] 3
    = .ok (.rows [30, 3 / 2]) by decide +kernel]
  simp only [Except.map, Interpolated.map, List.map]
  norm_num

/-! ## C265: sums -/

/-- Both succeed and the results are added; otherwise the exception of the first one that fails. -/
def addRes (a b : Res K) : Res K := do
  let x ← a
  let y ← b
  return x + y

theorem getItem_add (a b : List K) (h : a.length = b.length) (i : Int) :
    getItem (List.zipWith (· + ·) a b) i = addRes (getItem a i) (getItem b i) := by
  unfold getItem addRes
  have hl : (List.zipWith (· + ·) a b).length = b.length := by rw [List.length_zipWith, h, min_self]
  simp only [hl, h, List.getElem?_zipWith]
  generalize (if i < 0 then i + (b.length : Int) else i) = j
  by_cases hj : j < 0
  · simp only [if_pos hj]; rfl
  · simp only [if_neg hj]
    by_cases hb : j.toNat < b.length
    · rw [List.getElem?_eq_getElem (by omega : j.toNat < a.length), List.getElem?_eq_getElem hb]; rfl
    · rw [List.getElem?_eq_none (by omega : a.length ≤ j.toNat), List.getElem?_eq_none (by omega : b.length ≤ j.toNat)]; rfl

theorem getItem_isOk {α β : Type _} (a : List α) (b : List β) (h : a.length = b.length) (i : Int) :
    (∃ x y, getItem a i = .ok x ∧ getItem b i = .ok y) ∨ (getItem a i = .error .indexError ∧ getItem b i = .error .indexError) := by
  unfold getItem
  simp only [h]
  generalize (if i < 0 then i + (b.length : Int) else i) = j
  by_cases hj : j < 0
  · simp only [if_pos hj]; exact Or.inr (by simp)
  · simp only [if_neg hj]
    by_cases hb : j.toNat < b.length
    · rw [List.getElem?_eq_getElem (by omega : j.toNat < a.length), List.getElem?_eq_getElem hb]
      exact Or.inl ⟨_, _, rfl, rfl⟩
    · rw [List.getElem?_eq_none (by omega : a.length ≤ j.toNat), List.getElem?_eq_none (by omega : b.length ≤ j.toNat)]
      exact Or.inr ⟨rfl, rfl⟩

theorem select_add (a b : List K) (h : a.length = b.length) (is : List Int) :
    (∃ x y, select a is = .ok x ∧ select b is = .ok y ∧ x.length = y.length
        ∧ select (List.zipWith (· + ·) a b) is = .ok (List.zipWith (· + ·) x y))
      ∨ (select a is = .error .indexError ∧ select b is = .error .indexError
        ∧ select (List.zipWith (· + ·) a b) is = .error .indexError) := by
  unfold select
  induction is with
  | nil => exact Or.inl ⟨[], [], rfl, rfl, rfl, rfl⟩
  | cons i is ih =>
    simp only [List.mapM_cons, getItem_add a b h, addRes, bind, Except.bind, pure, Except.pure]
    rcases getItem_isOk a b h i with ⟨x, y, hx, hy⟩ | ⟨hx, hy⟩
    · simp only [hx, hy]
      rcases ih with ⟨xs, ys, e1, e2, e3, e4⟩ | ⟨e1, e2, e4⟩
      · simp only [e1, e2, e4]
        exact Or.inl ⟨_, _, rfl, rfl, by simp [e3], rfl⟩
      · simp only [e1, e2, e4]
        exact Or.inr (by simp)
    · simp only [hx, hy]
      exact Or.inr (by simp)

theorem line_add (x0 x1 t y0 z0 y1 z1 : K) : line x0 (y0 + z0) x1 (y1 + z1) t = line x0 y0 x1 y1 t + line x0 z0 x1 z1 t := by
  unfold line
  rw [show y1 + z1 - (y0 + z0) = (y1 - y0) + (z1 - z0) by ring, add_div]
  ring

theorem interp1d_add (x a b : List K) (h : a.length = b.length) (t : K) :
    interp1d x (List.zipWith (· + ·) a b) t = addRes (interp1d x a t) (interp1d x b t) := by
  unfold interp1d addRes
  have hl : (List.zipWith (· + ·) a b).length = b.length := by rw [List.length_zipWith, h, min_self]
  simp only [hl, h]
  by_cases h1 : x.length ≠ b.length ∨ x.length < 2
  · simp only [if_pos h1]; rfl
  simp only [if_neg h1, getItem_add a b h, addRes, bind, Except.bind, pure, Except.pure]
  cases getItem x 0 with
  | error e => rfl
  | ok first =>
    cases getItem x (-1) with
    | error e => rfl
    | ok last =>
      simp only
      by_cases h2 : t < first ∨ last < t
      · simp only [if_pos h2]
      simp only [if_neg h2]
      generalize min (max (x.findIdx (fun v => decide (t ≤ v))) 1) (x.length - 1) = hi
      cases getItem x ((hi : Int) - 1) with
      | error e => rfl
      | ok x0 =>
        rcases getItem_isOk a b h ((hi : Int) - 1) with ⟨y0, z0, hy0, hz0⟩ | ⟨hy0, hz0⟩
        · simp only [hy0, hz0]
          cases getItem x hi with
          | error e => rfl
          | ok x1 =>
            rcases getItem_isOk a b h (hi : Int) with ⟨y1, z1, hy1, hz1⟩ | ⟨hy1, hz1⟩
            · simp only [hy1, hz1, line_add]
            · simp only [hy1, hz1]
        · simp only [hy0, hz0]

/-- **C265.** For arrays of the same length: the interpolated sum is the sum of the interpolated arrays, with the same exceptions. -/
theorem c265_sum (a b reference : List K) (h : a.length = b.length) (t : K) (axis : Bool) :
    applyOne (List.zipWith (· + ·) a b) reference t axis = addRes (applyOne a reference t axis) (applyOne b reference t axis) := by
  unfold applyOne
  by_cases hm : t ∈ reference
  · simp only [if_pos hm, bind, Except.bind]
    cases nearestIndex reference t .free with
    | error e => rfl
    | ok i => exact getItem_add a b h i
  · simp only [if_neg hm]
    generalize (if axis = true then restrict1d reference t else (List.range reference.length).map Int.ofNat) = is
    simp only [bind, Except.bind]
    cases select reference is with
    | error e => rfl
    | ok ref =>
      rcases select_add a b h is with ⟨x, y, e1, e2, e3, e4⟩ | ⟨e1, e2, e4⟩
      · simp only [e1, e2, e4]
        by_cases h1 : ref.length = 1
        · simp only [if_pos h1]
          exact getItem_add x y e3 0
        · simp only [if_neg h1]
          exact interp1d_add ref x y e3 t
      · simp only [e1, e2, e4]
        rfl

example : applyOne [(11 : Rat), 22, 44] [1, 2, 4] 3 true
    = addRes (applyOne [10, 20, 40] [1, 2, 4] 3 true) (applyOne [1, 2, 4] [1, 2, 4] 3 true) := by
  have := c265_sum [(10 : Rat), 20, 40] [1, 2, 4] [1, 2, 4] rfl 3 true
  rw [← this]
  norm_num [List.zipWith]

/-! ## C266: bounds and order -/

/-- Where a target lies relative to ascending values. -/
theorem locate (l : List K) (hne : l ≠ []) (t : K) :
    (∃ (i : Nat) (h : i < l.length), l[i] = t) ∨ (∃ (i : Nat) (h : i + 1 < l.length), l[i] < t ∧ t < l[i + 1])
      ∨ t < l.head hne ∨ l.getLast hne < t := by
  induction l with
  | nil => exact absurd rfl hne
  | cons x l ih =>
    rcases lt_trichotomy t x with h | h | h
    · exact Or.inr (Or.inr (Or.inl h))
    · exact Or.inl ⟨0, by simp, h.symm⟩
    · cases l with
      | nil => exact Or.inr (Or.inr (Or.inr h))
      | cons y l =>
        rcases ih (by simp) with ⟨i, hi, e⟩ | ⟨i, hi, e⟩ | e | e
        · exact Or.inl ⟨i + 1, by simpa using hi, by simpa using e⟩
        · exact Or.inr (Or.inl ⟨i + 1, by simpa using hi, by simpa using e⟩)
        · exact Or.inr (Or.inl ⟨0, by simp, by simpa using h, by simpa using e⟩)
        · exact Or.inr (Or.inr (Or.inr (by simpa using e)))

/-- What the value is when there is one. -/
theorem place (array reference : List K) (hl : array.length = reference.length) (hs : reference.Pairwise (· < ·)) (t v : K)
    (axis : Bool) (hv : applyOne array reference t axis = .ok v) :
    ∃ hpos : 0 < reference.length,
      (∃ (i : Nat) (h : i < reference.length), reference[i] = t ∧ v = array[i])
      ∨ (∃ (i : Nat) (h : i + 1 < reference.length), reference[i] < t ∧ t < reference[i + 1]
          ∧ v = line reference[i] array[i] reference[i + 1] array[i + 1] t)
      ∨ (t < reference[0] ∧ v = array[0])
      ∨ (reference[reference.length - 1] < t ∧ v = array[array.length - 1]) := by
  obtain ⟨c1, c2, c3, c4, c5⟩ := (c92_partial (K := K)).1 array reference t axis hl hs
  have hne : reference ≠ [] := by
    rintro rfl
    have : array = [] := List.length_eq_zero_iff.1 hl
    subst this
    cases axis <;> simp [applyOne, restrict1d, find1dIndices, whereIdx, closedRange, rangeUp, select, interp1d, bind,
      Except.bind, pure, Except.pure] at hv
  have hpos := List.length_pos_of_ne_nil hne
  have hna : array ≠ [] := List.ne_nil_of_length_pos (by omega)
  refine ⟨hpos, ?_⟩
  have ends : ∀ w, t < reference.head hne ∨ reference.getLast hne < t → axis = false → applyOne array reference t axis = .ok w →
      reference.length = 1 ∧ w = array[0] := by
    intro w ho ha hw
    by_cases h2 : 2 ≤ reference.length
    · have := c5 hne h2 ho
      rw [← ha, hw] at this
      exact absurd this (by simp)
    · have h1 : reference.length = 1 := by omega
      refine ⟨h1, ?_⟩
      obtain ⟨x, rfl⟩ := List.length_eq_one_iff.1 h1
      obtain ⟨y, rfl⟩ := List.length_eq_one_iff.1 (hl.trans h1)
      have hx : t ≠ x := by
        rintro rfl
        rcases ho with h | h <;> simp at h
      subst ha
      have hr := select_all [x]
      have hy := select_all [y]
      simp only [List.length_singleton] at hr hy
      simp only [applyOne, List.mem_singleton, hx, if_false, List.length_singleton, hr, hy, bind, Except.bind, if_true,
        Bool.false_eq_true] at hw
      have hg : getItem [y] 0 = .ok y := rfl
      rw [hg] at hw
      exact (Except.ok.inj hw).symm
  rcases locate reference hne t with ⟨i, hi, e⟩ | ⟨i, hi, e1, e2⟩ | e | e
  · have := c1 i hi (by omega) e
    rw [hv] at this
    exact Or.inl ⟨i, hi, e, Except.ok.inj this⟩
  · have := c2 i hi (by omega) e1 e2
    rw [hv] at this
    exact Or.inr (Or.inl ⟨i, hi, e1, e2, Except.ok.inj this⟩)
  · refine Or.inr (Or.inr (Or.inl ⟨by rw [← List.head_eq_getElem hne]; exact e, ?_⟩))
    cases axis with
    | true =>
      have := c3 hna hne e
      rw [hv] at this
      rw [Except.ok.inj this, List.head_eq_getElem]
    | false => exact (ends v (Or.inl e) rfl hv).2
  · refine Or.inr (Or.inr (Or.inr ⟨by rw [← List.getLast_eq_getElem hne]; exact e, ?_⟩))
    cases axis with
    | true =>
      have := c4 hna hne e
      rw [hv] at this
      rw [Except.ok.inj this, List.getLast_eq_getElem]
    | false =>
      obtain ⟨h1, h2⟩ := ends v (Or.inr e) rfl hv
      rw [h2]
      congr 1
      omega

/-- A point on a line between two points is between their values. -/
theorem line_between (x0 x1 t y0 y1 : K) (h0 : x0 < t) (h1 : t < x1) :
    min y0 y1 ≤ line x0 y0 x1 y1 t ∧ line x0 y0 x1 y1 t ≤ max y0 y1 := by
  have hd : 0 < x1 - x0 := by linarith
  have e : line x0 y0 x1 y1 t = ((x1 - t) / (x1 - x0)) * y0 + ((t - x0) / (x1 - x0)) * y1 := by
    unfold line
    field_simp
    ring
  have hp : 0 ≤ (x1 - t) / (x1 - x0) := div_nonneg (by linarith) hd.le
  have hq : 0 ≤ (t - x0) / (x1 - x0) := div_nonneg (by linarith) hd.le
  have hpq : (x1 - t) / (x1 - x0) + (t - x0) / (x1 - x0) = 1 := by
    rw [← add_div, show x1 - t + (t - x0) = x1 - x0 by ring, div_self hd.ne']
  rw [e]
  generalize (x1 - t) / (x1 - x0) = p at *
  generalize (t - x0) / (x1 - x0) = q at *
  have k1 := mul_le_mul_of_nonneg_left (min_le_left y0 y1) hp
  have k2 := mul_le_mul_of_nonneg_left (min_le_right y0 y1) hq
  have k3 := mul_le_mul_of_nonneg_left (le_max_left y0 y1) hp
  have k4 := mul_le_mul_of_nonneg_left (le_max_right y0 y1) hq
  have e1 : p * min y0 y1 + q * min y0 y1 = min y0 y1 := by rw [← add_mul, hpq, one_mul]
  have e2 : p * max y0 y1 + q * max y0 y1 = max y0 y1 := by rw [← add_mul, hpq, one_mul]
  constructor <;> linarith

theorem line_mono (x0 x1 t t' y0 y1 : K) (h : x0 < x1) (hy : y0 ≤ y1) (ht : t ≤ t') :
    line x0 y0 x1 y1 t ≤ line x0 y0 x1 y1 t' := by
  unfold line
  have : 0 ≤ (y1 - y0) / (x1 - x0) := div_nonneg (by linarith) (by linarith)
  have := mul_le_mul_of_nonneg_left (by linarith : t - x0 ≤ t' - x0) this
  linarith

/-- **C266, bounds.** For strictly ascending references, an interpolated value is never outside of bounds that hold for the array. -/
theorem c266_bounds (array reference : List K) (hl : array.length = reference.length) (hs : reference.Pairwise (· < ·))
    (t v : K) (axis : Bool) (hv : applyOne array reference t axis = .ok v) (lo hi : K) (hb : ∀ y ∈ array, lo ≤ y ∧ y ≤ hi) :
    lo ≤ v ∧ v ≤ hi := by
  obtain ⟨hpos, ⟨i, h, -, rfl⟩ | ⟨i, h, h0, h1, rfl⟩ | ⟨-, rfl⟩ | ⟨-, rfl⟩⟩ := place array reference hl hs t v axis hv
  · exact hb _ (List.getElem_mem _)
  · obtain ⟨a1, a2⟩ := line_between reference[i] reference[i + 1] t array[i] array[i + 1] h0 h1
    obtain ⟨b1, b2⟩ := hb array[i] (List.getElem_mem _)
    obtain ⟨b3, b4⟩ := hb array[i + 1] (List.getElem_mem _)
    exact ⟨(le_min b1 b3).trans a1, a2.trans (max_le b2 b4)⟩
  · exact hb _ (List.getElem_mem _)
  · exact hb _ (List.getElem_mem _)

/-- **C266, order.** For strictly ascending references and arrays that do not descend, greater targets do not give lower values. -/
theorem c266_order (array reference : List K) (hl : array.length = reference.length) (hs : reference.Pairwise (· < ·))
    (ha : array.Pairwise (· ≤ ·)) (t t' v v' : K) (axis : Bool) (hv : applyOne array reference t axis = .ok v)
    (hv' : applyOne array reference t' axis = .ok v') (htt : t ≤ t') : v ≤ v' := by
  have hm : ∀ (i j : Nat) (hi : i < reference.length) (hj : j < reference.length), reference[i] < reference[j] → i < j := by
    intro i j hi hj h
    by_contra hn
    rcases Nat.lt_or_eq_of_le (not_lt.1 hn) with h' | h'
    · exact absurd (List.pairwise_iff_getElem.1 hs j i hj hi h') (not_lt.2 h.le)
    · subst h'; exact lt_irrefl _ h
  have hr : ∀ (i j : Nat) (hi : i < reference.length) (hj : j < reference.length), i ≤ j → reference[i] ≤ reference[j] := by
    intro i j hi hj h
    rcases Nat.lt_or_eq_of_le h with h' | h'
    · exact (List.pairwise_iff_getElem.1 hs i j hi hj h').le
    · subst h'; exact le_rfl
  have hy : ∀ (i j : Nat) (hi : i < array.length) (hj : j < array.length), i ≤ j → array[i] ≤ array[j] := by
    intro i j hi hj h
    rcases Nat.lt_or_eq_of_le h with h' | h'
    · exact List.pairwise_iff_getElem.1 ha i j hi hj h'
    · subst h'; exact le_rfl
  have hpos := (place array reference hl hs t v axis hv).1
  -- values are on the same side of each grid point as the targets
  have side : ∀ (u w : K), applyOne array reference u axis = .ok w → ∀ (j : Nat) (hj : j < reference.length),
      (reference[j] ≤ u → array[j] ≤ w) ∧ (u ≤ reference[j] → w ≤ array[j]) := by
    intro u w hw j hj
    obtain ⟨_, ⟨i, h, rfl, rfl⟩ | ⟨i, h, h0, h1, rfl⟩ | ⟨h0, rfl⟩ | ⟨h0, rfl⟩⟩ := place array reference hl hs u w axis hw
    · constructor
      · intro hle
        refine hy _ _ _ _ ?_
        by_contra hn
        exact absurd (List.pairwise_iff_getElem.1 hs i j h hj (by omega)) (not_lt.2 hle)
      · intro hle
        refine hy _ _ _ _ ?_
        by_contra hn
        exact absurd (List.pairwise_iff_getElem.1 hs j i hj h (by omega)) (not_lt.2 hle)
    · obtain ⟨a1, a2⟩ := line_between reference[i] reference[i + 1] u array[i] array[i + 1] h0 h1
      have hi := hy i (i + 1) (by omega) (by omega) (by omega)
      rw [min_eq_left hi] at a1
      rw [max_eq_right hi] at a2
      constructor
      · intro hle
        have := hm j (i + 1) hj h (hle.trans_lt h1)
        exact (hy j i (by omega) (by omega) (by omega)).trans a1
      · intro hle
        have := hm i j (by omega) hj (h0.trans_le hle)
        exact a2.trans (hy (i + 1) j (by omega) (by omega) (by omega))
    · constructor
      · intro hle
        exact absurd (hr 0 j hpos hj (by omega)) (not_le.2 (hle.trans_lt h0))
      · intro _
        exact hy 0 j (by omega) (by omega) (by omega)
    · constructor
      · intro _
        exact hy j (array.length - 1) (by omega) (by omega) (by omega)
      · intro hle
        exact absurd (hr j (reference.length - 1) hj (by omega) (by omega)) (not_le.2 (h0.trans_le hle))
  have through : ∀ (j : Nat) (hj : j < reference.length), t ≤ reference[j] → reference[j] ≤ t' → v ≤ v' := fun j hj h h' =>
    ((side t v hv j hj).2 h).trans ((side t' v' hv' j hj).1 h')
  obtain ⟨_, ⟨i, h, rfl, -⟩ | ⟨i, h, h0, h1, e⟩ | ⟨h0, e⟩ | ⟨h0, e⟩⟩ := place array reference hl hs t v axis hv
  · exact through i h le_rfl htt
  · by_cases hc : reference[i + 1] ≤ t'
    · exact through (i + 1) h h1.le hc
    have hc := not_le.1 hc
    obtain ⟨_, ⟨j, g, rfl, -⟩ | ⟨j, g, g0, g1, e'⟩ | ⟨g0, e'⟩ | ⟨g0, e'⟩⟩ := place array reference hl hs t' v' axis hv'
    · exact through j g htt le_rfl
    · have a1 := hm i (j + 1) (by omega) g ((h0.trans_le htt).trans g1)
      have a2 := hm j (i + 1) (by omega) h (g0.trans hc)
      have : i = j := by omega
      subst this
      rw [e, e']
      exact line_mono _ _ _ _ _ _ (h0.trans h1) (hy i (i + 1) (by omega) (by omega) (by omega)) htt
    · exact absurd (hr 0 i hpos (by omega) (by omega)) (not_le.2 ((h0.trans_le htt).trans g0))
    · exact absurd (hr (i + 1) (reference.length - 1) h (by omega) (by omega)) (not_le.2 (g0.trans hc))
  · obtain ⟨_, ⟨j, g, rfl, -⟩ | ⟨j, g, g0, g1, e'⟩ | ⟨g0, e'⟩ | ⟨g0, e'⟩⟩ := place array reference hl hs t' v' axis hv'
    · exact through j g htt le_rfl
    · exact through j (by omega) (h0.le.trans (hr 0 j hpos (by omega) (by omega))) g0.le
    · rw [e, e']
    · exact through 0 hpos h0.le ((hr 0 (reference.length - 1) hpos (by omega) (by omega)).trans g0.le)
  · obtain ⟨_, ⟨j, g, rfl, -⟩ | ⟨j, g, g0, g1, e'⟩ | ⟨g0, e'⟩ | ⟨g0, e'⟩⟩ := place array reference hl hs t' v' axis hv'
    · exact through j g htt le_rfl
    · exact absurd (hr (j + 1) (reference.length - 1) g (by omega) (by omega)) (not_le.2 ((h0.trans_le htt).trans g1))
    · exact absurd (hr 0 (reference.length - 1) hpos (by omega) (by omega)) (not_le.2 ((h0.trans_le htt).trans g0))
    · rw [e, e']

example (v : Rat) (hv : applyOne [(10 : Rat), 20, 5] [1, 2, 4] (7 / 2) true = .ok v) : 5 ≤ v ∧ v ≤ 20 :=
  c266_bounds [10, 20, 5] [1, 2, 4] rfl (by decide +kernel) _ _ _ hv 5 20 (by decide +kernel)

example : applyOne [(10 : Rat), 20, 5] [1, 2, 4] (7 / 2) true = .ok (35 / 4) := by decide +kernel

end Verif.Numerical
