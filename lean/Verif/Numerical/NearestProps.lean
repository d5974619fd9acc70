import Verif.Numerical.Props
import Mathlib.Tactic.Linarith
import Mathlib.Tactic.Ring

/-!
# Property C275: nearest values, units and order
-/

set_option linter.unusedSimpArgs false
set_option linter.unusedSectionVars false

namespace Verif.Numerical

open Verif.Py

variable {K : Type} [Field K] [LinearOrder K] [IsStrictOrderedRing K]

/-- What was found, in the new unit. -/
def inUnit (c b : K) (r : Res (Int × K)) : Res (Int × K) := r.map (fun p => (p.1, c * p.2 + b))

theorem argminFrom_scale (c : K) (hc : 0 < c) (best : Nat) (value : K) (i : Nat) (l : List K) :
    argminFrom best (c * value) i (l.map (c * ·)) = argminFrom best value i l := by
  induction l generalizing best value i with
  | nil => rfl
  | cons x l ih =>
    simp only [List.map_cons, argminFrom, mul_lt_mul_iff_right₀ hc]
    split
    · exact ih _ _ _
    · exact ih _ _ _

theorem argmin_scale (c : K) (hc : 0 < c) (l : List K) : argmin (l.map (c * ·)) = argmin l := by
  cases l with
  | nil => rfl
  | cons x l => simp only [List.map_cons, argmin, argminFrom_scale c hc]

theorem argmin_unit (c b : K) (hc : c ≠ 0) (a : List K) (t : K) :
    argmin ((a.map (fun x => c * x + b)).map (fun x => |x - (c * t + b)|)) = argmin (a.map (fun x => |x - t|)) := by
  rw [← argmin_scale |c| (abs_pos.2 hc) (a.map _), List.map_map, List.map_map]
  congr 1
  refine List.map_congr_left fun x _ => ?_
  simp only [Function.comp]
  rw [← abs_mul]
  congr 1
  ring

theorem getItem_unit (c b : K) (a : List K) (i : Int) :
    getItem (a.map (fun x => c * x + b)) i = (getItem a i).map (fun x => c * x + b) := by
  unfold getItem
  rw [List.length_map]
  generalize (if i < 0 then i + (a.length : Int) else i) = j
  simp only
  split
  · rfl
  · rw [List.getElem?_map]
    cases a[j.toNat]? <;> rfl

theorem walkUp_unit (c b : K) (hc : 0 < c) (a : List K) (t : K) (n : Nat) (i : Int) :
    walkUp (a.map (fun x => c * x + b)) (c * t + b) n i = walkUp a t n i := by
  induction n generalizing i with
  | zero => rfl
  | succ n ih =>
    simp only [walkUp, getItem_unit]
    cases getItem a i with
    | error e => rfl
    | ok v =>
      simp only [Except.map, add_lt_add_iff_right, mul_lt_mul_iff_right₀ hc]
      rw [ih]

theorem walkDown_unit (c b : K) (hc : 0 < c) (a : List K) (t : K) (n : Nat) (i : Int) :
    walkDown (a.map (fun x => c * x + b)) (c * t + b) n i = walkDown a t n i := by
  induction n generalizing i with
  | zero => rfl
  | succ n ih =>
    simp only [walkDown, getItem_unit]
    cases getItem a i with
    | error e => rfl
    | ok v =>
      simp only [Except.map, gt_iff_lt, add_lt_add_iff_right, mul_lt_mul_iff_right₀ hc]
      rw [ih]

theorem findNearest_of_index (c b : K) (a : List K) (t : K) (bound : Bound)
    (h : nearestIndex (a.map (fun x => c * x + b)) (c * t + b) bound = nearestIndex a t bound) :
    findNearest (a.map (fun x => c * x + b)) (c * t + b) bound = inUnit c b (findNearest a t bound) := by
  unfold findNearest inUnit
  rw [h]
  cases nearestIndex a t bound with
  | error e => rfl
  | ok i =>
    simp only [bind, Except.bind, pure, Except.pure, getItem_unit]
    cases getItem a i <;> rfl

/-- **C275, units.** In every other unit, with any origin and even in the opposite direction, the same position is found; with a bound
for every unit of the same direction. -/
theorem c275_units (a : List K) (t c b : K) :
    (c ≠ 0 → findNearest (a.map (fun x => c * x + b)) (c * t + b) .free = inUnit c b (findNearest a t .free)) ∧
    (0 < c → ∀ bound, findNearest (a.map (fun x => c * x + b)) (c * t + b) bound = inUnit c b (findNearest a t bound)) := by
  have hfree : c ≠ 0 → nearestIndex (a.map (fun x => c * x + b)) (c * t + b) .free = nearestIndex a t .free := fun hc => by
    unfold nearestIndex
    rw [argmin_unit c b hc]
  refine ⟨fun hc => findNearest_of_index _ _ _ _ _ (hfree hc), fun hc bound => findNearest_of_index _ _ _ _ _ ?_⟩
  cases bound with
  | free => exact hfree hc.ne'
  | lower =>
    unfold nearestIndex
    rw [argmin_unit c b hc.ne', List.length_map]
    simp only [walkUp_unit c b hc]
  | upper =>
    unfold nearestIndex
    rw [argmin_unit c b hc.ne', List.length_map]
    simp only [walkDown_unit c b hc]

/-- **C275, order.** For all arrays, in whatever order: the nearest value of a greater target is not smaller. -/
theorem c275_order (a : List K) (t s : K) (hts : t ≤ s) (i j : Int) (x y : K) (ht : findNearest a t .free = .ok (i, x))
    (hs : findNearest a s .free = .ok (j, y)) : x ≤ y := by
  have hne : a ≠ [] := by
    rintro rfl
    exact absurd ht (by rw [show findNearest ([] : List K) t .free = .error .valueError from rfl]; simp)
  obtain ⟨i', hi', e1, m1, f1⟩ := c35_nearest a hne t
  obtain ⟨j', hj', e2, m2, f2⟩ := c35_nearest a hne s
  rw [e1] at ht
  rw [e2] at hs
  obtain ⟨-, rfl⟩ := Prod.mk.inj (Except.ok.inj ht)
  obtain ⟨-, rfl⟩ := Prod.mk.inj (Except.ok.inj hs)
  by_contra hlt
  push Not at hlt
  have h1 := m1 j' hj'
  have h2 := m2 i' hi'
  generalize hx : a[i'] = x at *
  generalize hy : a[j'] = y at *
  -- the middle of both values is neither above `t` nor below `s`
  have k1 : x + y ≤ 2 * t := by
    rcases le_total x t with q | q
    · linarith
    · rw [abs_of_nonneg (by linarith)] at h1
      rcases le_total y t with q' | q'
      · rw [abs_of_nonpos (by linarith)] at h1; linarith
      · rw [abs_of_nonneg (by linarith)] at h1; linarith
  have k2 : 2 * s ≤ x + y := by
    rcases le_total s y with q | q
    · linarith
    · rw [abs_of_nonpos (by linarith : y - s ≤ 0)] at h2
      rcases le_total x s with q' | q'
      · rw [abs_of_nonpos (by linarith : x - s ≤ 0)] at h2; linarith
      · rw [abs_of_nonneg (by linarith : 0 ≤ x - s)] at h2; linarith
  have hst : s = t := by linarith
  subst hst
  have hij : i' = j' := by
    rcases Nat.lt_trichotomy i' j' with q | q | q
    · have := f2 i' q
      rw [hx] at this
      linarith
    · exact q
    · have := f1 j' q
      rw [hy] at this
      linarith
  subst hij
  rw [hx] at hy
  exact absurd hy (ne_of_gt hlt)

/-- **C275, values of the array.** A value of the array is its own nearest value. -/
theorem c275_member (a : List K) (x : K) (hx : x ∈ a) : ∃ i, findNearest a x .free = .ok (i, x) := by
  obtain ⟨i, hi, e, m, -⟩ := c35_nearest a (List.ne_nil_of_mem hx) x
  obtain ⟨k, hk, rfl⟩ := List.mem_iff_getElem.1 hx
  have := m k hk
  rw [sub_self, abs_zero] at this
  have h0 : a[i] - a[k] = 0 := abs_eq_zero.1 (le_antisymm this (abs_nonneg _))
  exact ⟨i, by rw [e, sub_eq_zero.1 h0]⟩

/-- Temperatures in another unit, and two targets. -/
example : findNearest ([(3 : Rat), 10, 5].map (fun x => 9 / 5 * x + 32)) (9 / 5 * 6 + 32) .free = .ok (2, 41) := by decide +kernel

example : findNearest [(3 : Rat), 10, 5] 6 .free = .ok (2, 5) ∧ findNearest [(3 : Rat), 10, 5] 8 .free = .ok (1, 10) := by decide +kernel

/-- In the opposite direction a bound is the other bound. -/
example : findNearest [(3 : Rat), 5, 10] 6 .lower = .ok (2, 10) ∧
    findNearest ([(3 : Rat), 5, 10].map (fun x => -1 * x + 0)) (-1 * 6 + 0) .lower = .ok (1, -5) := by decide +kernel

end Verif.Numerical
