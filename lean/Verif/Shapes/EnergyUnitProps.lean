import Verif.Shapes.AmountProps
import Verif.Physics.FluenceProps

/-!
# Property C263: integral flux in other units of energy
-/

set_option linter.unusedSimpArgs false

namespace Verif.Shapes

open Verif.Py Real

theorem argminFrom_scale {k : ℝ} (hk : 0 < k) (best : Nat) (v : ℝ) (i : Nat) (l : List ℝ) :
    Numerical.argminFrom best (k * v) i (l.map (k * ·)) = Numerical.argminFrom best v i l := by
  induction l generalizing best v i with
  | nil => rfl
  | cons x l ih =>
    simp only [List.map_cons, Numerical.argminFrom, mul_lt_mul_iff_right₀ hk, ih]

theorem getItem_scale (k : ℝ) (l : List ℝ) (i : Int) :
    getItem (l.map (k * ·)) i = (getItem l i).map (k * ·) := by
  unfold getItem
  simp only [List.length_map, List.getElem?_map]
  generalize (if i < 0 then i + (l.length : Int) else i) = j
  by_cases hj : j < 0
  · rw [if_pos hj, if_pos hj]; rfl
  · rw [if_neg hj, if_neg hj]
    cases l[j.toNat]? <;> rfl

theorem walkDown_scale {k : ℝ} (hk : 0 < k) (l : List ℝ) (t : ℝ) (n : Nat) (i : Int) :
    Numerical.walkDown (l.map (k * ·)) (k * t) n i = Numerical.walkDown l t n i := by
  induction n generalizing i with
  | zero => rfl
  | succ n ih =>
    simp only [Numerical.walkDown, getItem_scale]
    cases getItem l i with
    | error e => rfl
    | ok v => simp only [Except.map, gt_iff_lt, mul_lt_mul_iff_right₀ hk, ih]

theorem findNearest_scale {k : ℝ} (hk : 0 < k) (l : List ℝ) (t : ℝ) :
    Numerical.findNearest (l.map (k * ·)) (k * t) .upper
      = (Numerical.findNearest l t .upper).map (fun p => (p.1, k * p.2)) := by
  have ha : Numerical.argmin ((l.map (k * ·)).map (fun x => |x - k * t|))
      = Numerical.argmin (l.map (fun x => |x - t|)) := by
    rw [List.map_map, show (fun x => |x - k * t|) ∘ (fun x => k * x) = (fun x => k * x) ∘ (fun x => |x - t|) by
      funext x
      simp only [Function.comp, ← mul_sub, abs_mul, abs_of_pos hk], ← List.map_map]
    cases l with
    | nil => rfl
    | cons a l =>
      simp only [List.map_cons, Numerical.argmin, argminFrom_scale hk]
  unfold Numerical.findNearest Numerical.nearestIndex
  simp only [ha, List.length_map, walkDown_scale hk, getItem_scale, bind, Except.bind, pure, Except.pure]
  cases Numerical.argmin (l.map (fun x => |x - t|)) with
  | error e => rfl
  | ok i =>
    simp only
    cases Numerical.walkDown l t (2 * l.length + 2) i with
    | none => rfl
    | some j =>
      simp only
      cases getItem l j <;> rfl

theorem interpolate_units {k c : ℝ} (hk : 0 < k) (hc : 0 < c) (f x : List ℝ) (m : ℝ) :
    Physics.interpolate (f.map (c * ·)) (x.map (k * ·)) (k * m)
      = (Physics.interpolate f x m).map (fun p => (p.1.map (c * ·), p.2.map (k * ·))) := by
  rw [interpolate_scale hc]
  unfold Physics.interpolate
  rw [findNearest_scale hk]
  cases Numerical.findNearest x m .upper with
  | error e => rfl
  | ok p =>
    obtain ⟨i, x0⟩ := p
    simp only [Except.map, List.getElem?_map]
    cases f[i.toNat]? with
    | none => rfl
    | some f0 =>
      cases f[i.toNat + 1]? with
      | none => rfl
      | some f1 =>
        cases x[i.toNat + 1]? with
        | none => rfl
        | some x1 =>
          simp only [Option.map_some, Except.ok.injEq, Prod.mk.injEq]
          rw [mul_div_mul_left _ _ hk.ne', mul_div_mul_left _ _ hk.ne', List.map_drop, List.map_drop, List.map_set,
            List.map_set]
          exact ⟨rfl, rfl⟩

theorem simpsonList_units {k : ℝ} (hk : 0 < k) (c : ℝ) (y x : List ℝ) :
    Physics.simpsonList (y.map (c * ·)) (x.map (k * ·)) = (Physics.simpsonList y x).map (fun r => c * k * r) := by
  rw [simpsonList_scale]
  unfold Physics.simpsonList
  simp only [List.length_map]
  split_ifs
  · rfl
  · have h := Physics.c252_units x.length (x.getD · 0) (y.getD · 0) k 0 hk.ne'
    simp only [Physics.fluence, add_zero] at h
    simp only [Except.map, Except.ok.injEq]
    rw [getD_scale, h, mul_assoc]

theorem integral_units {k c : ℝ} (hk : 0 < k) (hc : 0 < c) (e f : List ℝ) (lowest bound : ℝ)
    (h1 : Physics.floatMin < lowest) (h2 : Physics.floatMin < k * lowest) :
    Physics.integralFlux (e.map (k * ·)) (f.map (c * ·)) (k * lowest) (k * bound)
      = (Physics.integralFlux e f lowest bound).map (fun r => c * k * r) := by
  unfold Physics.integralFlux
  simp only
  by_cases hb : bound < lowest
  · rw [if_pos (max_lt ((mul_lt_mul_iff_right₀ hk).2 hb) h2), if_pos (max_lt hb h1)]
    exact simpsonList_units hk c f e
  · have hb' := not_lt.1 hb
    have hkb : k * lowest ≤ k * bound := mul_le_mul_of_nonneg_left hb' hk.le
    rw [max_eq_left (h1.le.trans hb'), max_eq_left (h2.le.trans hkb), if_neg (not_lt.2 hkb), if_neg hb,
      interpolate_units hk hc]
    cases Physics.interpolate f e bound with
    | error e => rfl
    | ok p => exact simpsonList_units hk c p.1 p.2

theorem foldl_min_scale {k : ℝ} (hk : 0 < k) (l : List ℝ) (a : ℝ) :
    (l.map (k * ·)).foldl min (k * a) = k * l.foldl min a := by
  induction l generalizing a with
  | nil => rfl
  | cons b l ih => rw [List.map_cons, List.foldl_cons, List.foldl_cons, ← mul_min_of_nonneg _ _ hk.le, ih]

theorem foldl_min_all (P : ℝ → Prop) (l : List ℝ) (a : ℝ) (ha : P a) (hl : ∀ x ∈ l, P x) : P (l.foldl min a) := by
  induction l generalizing a with
  | nil => exact ha
  | cons b l ih =>
    rw [List.foldl_cons]
    refine ih _ ?_ (fun x hx => hl x (List.mem_cons_of_mem _ hx))
    rcases min_choice a b with h | h <;> rw [h]
    exacts [ha, hl b (by simp)]

theorem series_scale (k : ℝ) (a : Arr ℝ) (i : List Nat) (n : Nat) :
    series (a.map (k * ·)) i n = (series a i n).map (k * ·) := by
  simp [series, Arr.map, List.map_map, Function.comp_def]

theorem lowest_scale {k : ℝ} (hk : 0 < k) (a : Arr ℝ) (s n : Nat) : lowest (a.map (k * ·)) s n = k * lowest a s n := by
  unfold lowest
  rw [← foldl_min_scale hk]
  congr 1
  rw [List.map_flatMap]
  simp only [series_scale]

/-- **C263.** For energies and fluxes of any shape, all energies above the least normal number in both units, and all minimum energies:
with energies that are greater by a factor `k` and fluxes that are greater by a factor `c`, the integral flux is greater by the factor
`c k`. If the flux is counted per unit of energy, `c` is `1 / k` and the integral flux is the same. -/
theorem c263_integral (k c : ℝ) (hk : 0 < k) (hc : 0 < c) (energies flux : Arr ℝ) (bounds : List ℝ)
    (he : ∀ i, Physics.floatMin < energies.entry i ∧ Physics.floatMin < k * energies.entry i) :
    integralFluxArr (energies.map (k * ·)) (flux.map (c * ·)) (bounds.map (k * ·))
        = (integralFluxArr energies flux bounds).map (fun r => r.map (c * k * ·))
      ∧ (c = 1 / k → integralFluxArr (energies.map (k * ·)) (flux.map (c * ·)) (bounds.map (k * ·))
        = integralFluxArr energies flux bounds) := by
  have hlow : ∀ s n, Physics.floatMin < lowest energies s n ∧ Physics.floatMin < k * lowest energies s n := by
    intro s n
    refine foldl_min_all (fun x => Physics.floatMin < x ∧ Physics.floatMin < k * x) _ _ (he _) ?_
    intro x hx
    obtain ⟨j, -, hj⟩ := List.mem_flatMap.1 hx
    obtain ⟨e, -, rfl⟩ := List.mem_map.1 hj
    exact he _
  have hent : ∀ species n t j s i, integralEntry (energies.map (k * ·)) (flux.map (c * ·)) species n (bounds.map (k * ·)) t j s i
      = (integralEntry energies flux species n bounds t j s i).map (fun r => c * k * r) := by
    intro species n t j s i
    unfold integralEntry
    rw [series_scale, series_scale, lowest_scale hk]
    have hb : (bounds.map (k * ·)).getD i 0 = k * bounds.getD i 0 := congrFun (getD_scale k bounds) i
    rw [hb]
    exact integral_units hk hc _ _ _ _ (hlow _ _).1 (hlow _ _).2
  have main : integralFluxArr (energies.map (k * ·)) (flux.map (c * ·)) (bounds.map (k * ·))
        = (integralFluxArr energies flux bounds).map (fun r => r.map (c * k * ·)) := by
    simp only [integralFluxArr, hent, mapM_map, List.length_map]
    have hs : (energies.map (k * ·)).shape = energies.shape := rfl
    have hs' : (flux.map (c * ·)).shape = flux.shape := rfl
    rw [hs, hs']
    split
    · split_ifs
      · rfl
      · rfl
      · rename_i species n t j s n' _ _ _ _
        simp only [bind, Except.bind, pure, Except.pure]
        cases (List.range bounds.length).mapM (fun i => (List.range species).mapM (fun s =>
          (List.range t).mapM (fun a => (List.range j).mapM (fun b => integralEntry energies flux species n bounds a b s i)))) with
        | error e => rfl
        | ok r =>
          simp only [Except.map, Arr.map, Except.ok.injEq, Arr.mk.injEq, true_and]
          funext idx
          split
          · split_ifs
            · rename_i a' b' j' i' _
              cases integralEntry energies flux species n bounds a' b' j' i' <;> simp
            · simp
          · simp
    · rfl
  refine ⟨main, ?_⟩
  intro hck
  rw [main, hck, one_div_mul_cancel hk.ne']
  cases integralFluxArr energies flux bounds with
  | error e => rfl
  | ok r => simp [Except.map, Arr.map]

/-- Two energies of two species, in a unit a thousandth as large. -/
example (flux : Arr ℝ) (bounds : List ℝ) :
    integralFluxArr ((⟨[2, 2], fun i => 1 + i.sum⟩ : Arr ℝ).map (1000 * ·)) (flux.map (1 / 1000 * ·)) (bounds.map (1000 * ·))
      = integralFluxArr ⟨[2, 2], fun i => 1 + i.sum⟩ flux bounds := by
  refine (c263_integral 1000 (1 / 1000) (by norm_num) (by norm_num) ⟨[2, 2], fun i => 1 + i.sum⟩ flux bounds ?_).2 rfl
  intro i
  have h := Physics.floatMin_le_half
  have h0 : (0 : ℝ) ≤ (i.sum : ℝ) := Nat.cast_nonneg _
  constructor
  · show Physics.floatMin < 1 + (i.sum : ℝ)
    linarith
  · show Physics.floatMin < 1000 * (1 + (i.sum : ℝ))
    linarith

end Verif.Shapes
