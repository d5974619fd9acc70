import Verif.Axes.ObserveProps
import Verif.Numerical.UnitProps

/-!
# Properties C267 and C268: units and bounds of observed values
-/

set_option linter.unusedSimpArgs false
set_option linter.unusedSectionVars false

namespace Verif.Axes

open Verif.Py Verif.Iterables Verif.Measurable Verif.Numerical

/-! ## C267: units -/

theorem scaled_eq (k x : Rat) : k * x = k * x + 0 := (add_zero _).symm

theorem contains_scale {k : Rat} (hk : 0 < k) (l : List Rat) (v : Rat) :
    contains (l.map (k * ·)) (k * v) = contains l v := by
  unfold contains
  have hm : k * v ∈ l.map (k * ·) ↔ v ∈ l := by
    rw [List.mem_map]
    constructor
    · rintro ⟨x, hx, e⟩
      rw [mul_right_inj' hk.ne'] at e
      exact e ▸ hx
    · intro h; exact ⟨v, h, rfl⟩
  have hc : ∀ x : Rat, |k * v - k * x| ≤ 1 / 100000 * |k * x| ↔ |v - x| ≤ 1 / 100000 * |x| := by
    intro x
    rw [← mul_sub, abs_mul, abs_mul, abs_of_pos hk, show (1 : Rat) / 100000 * (k * |x|) = k * (1 / 100000 * |x|) by ring,
      mul_le_mul_iff_right₀ hk]
  simp only [List.any_map, Function.comp_def, mul_le_mul_iff_right₀ hk, hc, hm]

theorem mapM_images {α β : Type _} (f f' : α → Res β) (g : β → β) (l : List α)
    (h : ∀ a ∈ l, f' a = (f a).map g) : l.mapM f' = (l.mapM f).map (List.map g) := by
  induction l with
  | nil => rfl
  | cons a l ih =>
    simp only [List.mapM_cons, h a (List.mem_cons_self), ih (fun x hx => h x (List.mem_cons_of_mem _ hx)), bind, Except.bind,
      pure, Except.pure]
    cases f a with
    | error e => rfl
    | ok v =>
      simp only [Except.map]
      cases l.mapM f <;> rfl

theorem mapM_of_map {α β γ : Type _} (f : β → Res γ) (g : α → β) (l : List α) : (l.map g).mapM f = l.mapM (fun a => f (g a)) := by
  induction l with
  | nil => rfl
  | cons a l ih => simp only [List.map_cons, List.mapM_cons, ih]

theorem columns_map (f : Rat → Rat) (n : Nat) (rows : List (List Rat)) :
    columns n (rows.map (List.map f)) = (columns n rows).map (List.map f) := by
  unfold columns
  rw [List.map_map]
  refine List.map_congr_left fun j _ => ?_
  simp only [Function.comp, List.filterMap_map, List.map_filterMap, Function.comp_def, List.getElem?_map]

theorem interpolateRows_unit {k : Rat} (hk : 0 < k) (c d : Rat) (axis : Option Nat) (reference : List Rat) (width : Nat)
    (rows : List (List Rat)) (targets : List Rat) :
    interpolateRows axis (reference.map (k * ·)) width (rows.map (List.map (fun v => c * v + d))) (targets.map (k * ·))
      = (interpolateRows axis reference width rows targets).map (List.map (List.map (fun v => c * v + d))) := by
  unfold interpolateRows
  rw [mapM_of_map]
  refine mapM_images _ _ _ _ fun t _ => ?_
  have hm : k * t ∈ reference.map (k * ·) ↔ t ∈ reference := by
    rw [List.mem_map]
    constructor
    · rintro ⟨x, hx, e⟩
      rw [mul_right_inj' hk.ne'] at e
      exact e ▸ hx
    · intro h; exact ⟨t, h, rfl⟩
  simp only [hm]
  split
  · rfl
  · rw [columns_map, mapM_of_map]
    refine mapM_images _ _ _ _ fun col _ => ?_
    have := c264_one k 0 c d hk col reference t axis.isSome
    simpa only [add_zero] using this

theorem interpolateWithin_unit (c d : Rat) (reference : List Rat) (rows : List (List Rat)) (targets : List Rat) :
    interpolateWithin reference (rows.map (List.map (fun v => c * v + d))) targets
      = (interpolateWithin reference rows targets).map (List.map (List.map (fun v => c * v + d))) := by
  unfold interpolateWithin
  rw [mapM_of_map]
  refine mapM_images _ _ _ _ fun r _ => mapM_images _ _ _ _ fun t _ => ?_
  have := c264_one 1 0 c d one_pos r reference t false
  simpa only [one_mul, add_zero, List.map_id'] using this

theorem interpolateRadius_unit {k : Rat} (hk : 0 < k) (c d : Rat) (reference rows : List (List Rat)) (t : Rat) :
    interpolateRadius (reference.map (List.map (k * ·))) (rows.map (List.map (fun v => c * v + d))) (k * t)
      = (interpolateRadius reference rows t).map (List.map (List.map (fun v => c * v + d))) := by
  unfold interpolateRadius
  have := c264_two k 0 c d hk rows reference t
  simp only [add_zero] at this
  rw [this]
  cases applyTwo rows reference t with
  | error e => rfl
  | ok v =>
    cases v with
    | single x => rfl
    | rows vs => simp only [Except.map, Interpolated.map, List.map_map, Function.comp_def, List.map_cons, List.map_nil]

theorem subscriptRows_unit (f : Rat → Rat) (rows : List (List Rat)) (is : List Int) :
    subscriptRows (rows.map (List.map f)) is = (subscriptRows rows is).map (List.map (List.map f)) := by
  unfold subscriptRows
  exact mapM_images _ _ _ _ fun i _ => getItem_map _ _ _

theorem subscriptColumns_unit (f : Rat → Rat) (rows : List (List Rat)) (js : List Int) :
    subscriptColumns (rows.map (List.map f)) js = (subscriptColumns rows js).map (List.map (List.map f)) := by
  unfold subscriptColumns
  rw [mapM_of_map]
  exact mapM_images _ _ _ _ fun r _ => mapM_images _ _ _ _ fun j _ => getItem_map _ _ _

theorem subscript_unit (f : Rat → Rat) (rows : List (List Rat)) (is js : List Int) :
    subscript (rows.map (List.map f)) is js = (subscript rows is js).map (List.map (List.map f)) := by
  unfold subscript
  rw [subscriptRows_unit]
  cases subscriptRows rows is with
  | error e => rfl
  | ok a => exact subscriptColumns_unit f a js

/-- The dataset with times and radii in other units. -/
def Grid.inUnits (a b : Rat) (g : Grid) : Grid := ⟨g.times.map (a * ·), g.shells, g.radius.map (List.map (b * ·))⟩

/-- **C267.** If times are counted in another unit, in the dataset and in the request, and radii as well, an observation has the same
values; if the quantity is stored in another unit, the observed values are in this unit. Exceptions are the same. -/
theorem c267_units (a b c d : Rat) (ha : 0 < a) (hb : 0 < b) (g : Grid) (rows : List (List Rat)) (more : Bool) (time : Data Rat)
    (shell : Data Int) (radius : Option Rat) :
    observe (g.inUnits a b) (rows.map (List.map (fun v => c * v + d))) more ⟨time.points, time.values.map (a * ·)⟩ shell
        (radius.map (b * ·))
      = (observe g rows more time shell radius).map (List.map (List.map (fun v => c * v + d))) := by
  have ht : (g.inUnits a b).timeNeeded ⟨time.points, time.values.map (a * ·)⟩ = g.timeNeeded time := by
    unfold Grid.timeNeeded Grid.inUnits
    simp only [List.all_map, Function.comp_def, contains_scale ha]
  have hs : (g.inUnits a b).shellNeeded shell = g.shellNeeded shell := rfl
  have h1 : (g.inUnits a b).overTime (rows.map (List.map (fun v => c * v + d))) ⟨time.points, time.values.map (a * ·)⟩
      = (g.overTime rows time).map (List.map (List.map (fun v => c * v + d))) := by
    unfold Grid.overTime
    rw [ht]
    split
    · exact interpolateRows_unit ha c d (some 0) g.times g.shells.length rows time.values
    · rfl
  have h2 : ∀ r, (g.inUnits a b).overShell (r.map (List.map (fun v => c * v + d))) shell
      = (g.overShell r shell).map (List.map (List.map (fun v => c * v + d))) := by
    intro r
    unfold Grid.overShell
    rw [hs]
    split
    · exact interpolateWithin_unit c d g.shells r _
    · rfl
  have h3 : ∀ r, (g.inUnits a b).overRadius (r.map (List.map (fun v => c * v + d))) (radius.map (b * ·))
      = (g.overRadius r radius).map (List.map (List.map (fun v => c * v + d))) := by
    intro r
    cases radius with
    | none => rfl
    | some x => exact interpolateRadius_unit hb c d g.radius r x
  have hi : (radius.map (b * ·)).isSome = radius.isSome := by cases radius <;> rfl
  unfold observe
  simp only [h1, ht, hs, hi]
  cases g.overTime rows time with
  | error e => rfl
  | ok r1 =>
    simp only [Except.map, h2]
    cases g.overShell r1 shell with
    | error e => rfl
    | ok r2 =>
      simp only [Except.map, h3]
      cases g.overRadius r2 radius with
      | error e => rfl
      | ok r3 =>
        simp only [Except.map]
        cases g.timeNeeded time <;> cases (g.shellNeeded shell || radius.isSome)
        · exact subscript_unit _ r3 _ _
        · exact subscriptRows_unit _ r3 _
        · exact subscriptColumns_unit _ r3 _
        · simp only
          split
          · rfl
          · exact subscript_unit _ r3 _ _

/-- Times in seconds instead of hours, radii in solar radii instead of astronomical units, and the quantity in another unit with another
origin. -/
example : observe (Grid.inUnits 3600 215 ⟨[0, 10], [0, 1, 2], [[1, 2, 3], [1, 2, 3]]⟩)
      ([[1, 2, 3], [2, 4, 6]].map (List.map (fun v => 100 * v + 7))) true ⟨[0], [5].map (3600 * ·)⟩ ⟨[0, 1, 2], [0, 1, 2]⟩
      ((some (5 / 2)).map (215 * ·)) = .ok [[382]] := by
  have h := c267_units 3600 215 100 7 (by norm_num) (by norm_num) ⟨[0, 10], [0, 1, 2], [[1, 2, 3], [1, 2, 3]]⟩ [[1, 2, 3], [2, 4, 6]]
    true ⟨[0], [5]⟩ ⟨[0, 1, 2], [0, 1, 2]⟩ (some (5 / 2))
  refine h.trans ?_
  rw [show observe ⟨[0, 10], [0, 1, 2], [[1, 2, 3], [1, 2, 3]]⟩
    [[1, 2, 3], [2, 4, 6]] true ⟨[0], [5]⟩ ⟨[0, 1, 2], [0, 1, 2]⟩ (some (5 / 2)) = .ok [[15 / 4]] by decide +kernel]
  simp only [Except.map, List.map]
  norm_num

/-! ## C268: bounds -/

/-- All entries are within the bounds. -/
def Within (lo hi : Rat) (rows : List (List Rat)) : Prop := ∀ r ∈ rows, ∀ v ∈ r, lo ≤ v ∧ v ≤ hi

theorem getItem_mem {α : Type _} {l : List α} {i : Int} {v : α} (h : getItem l i = .ok v) : v ∈ l := by
  unfold getItem at h
  generalize (if i < 0 then i + (l.length : Int) else i) = j at h
  simp only at h
  split at h
  · exact absurd h (by simp)
  · split at h
    · next x hx =>
      rw [Except.ok.injEq] at h
      exact h ▸ List.mem_of_getElem? hx
    · exact absurd h (by simp)

theorem select_mem {α : Type} {l : List α} {is : List Int} {ys : List α} (h : select l is = .ok ys) {y : α} (hy : y ∈ ys) : y ∈ l := by
  obtain ⟨i, -, hi⟩ := mapM_mem h hy
  exact getItem_mem hi

/-- A point on a line between two points, or at one of them. -/
theorem line_bounds {x0 x1 t y0 y1 lo hi : Rat} (h0 : x0 ≤ t) (h1 : t ≤ x1) (b0 : lo ≤ y0 ∧ y0 ≤ hi) (b1 : lo ≤ y1 ∧ y1 ≤ hi) :
    lo ≤ line x0 y0 x1 y1 t ∧ line x0 y0 x1 y1 t ≤ hi := by
  rcases h0.eq_or_lt with rfl | h0'
  · unfold line; rw [sub_self, mul_zero, zero_add]; exact b0
  rcases h1.eq_or_lt with rfl | h1'
  · have : t - x0 ≠ 0 := by intro h; linarith
    unfold line
    rw [div_mul_cancel₀ _ this, sub_add_cancel]
    exact b1
  obtain ⟨k1, k2⟩ := line_between x0 x1 t y0 y1 h0' h1'
  exact ⟨(le_min b0.1 b1.1).trans k1, k2.trans (max_le b0.2 b1.2)⟩

theorem interp1d_bounds {x y : List Rat} {t v lo hi : Rat} (hs : x.Pairwise (· < ·)) (h : interp1d x y t = .ok v)
    (hb : ∀ w ∈ y, lo ≤ w ∧ w ≤ hi) : lo ≤ v ∧ v ≤ hi := by
  have hmono : ∀ j k (hj : j < x.length) (hk : k < x.length), j ≤ k → x[j] ≤ x[k] := by
    intro j k hj hk hjk
    rcases Nat.lt_or_eq_of_le hjk with h | h
    · exact (List.pairwise_iff_getElem.1 hs j k hj hk h).le
    · subst h; exact le_rfl
  unfold interp1d at h
  split at h
  · exact absurd h (by simp)
  next hl =>
  have hl1 : x.length = y.length := by
    by_contra hn; exact hl (Or.inl hn)
  have hl2 : 2 ≤ x.length := by
    by_contra hn; exact hl (Or.inr (by omega))
  have hne : x ≠ [] := List.ne_nil_of_length_pos (by omega)
  have hf := getItem_nat x 0 (by omega)
  simp only [Nat.cast_zero] at hf
  rw [hf, getItem_last x hne] at h
  simp only [bind, Except.bind, pure, Except.pure] at h
  split at h
  · exact absurd h (by simp)
  next ho =>
  obtain ⟨o1, o2⟩ := not_or.1 ho
  rw [not_lt] at o1 o2
  rw [List.getLast_eq_getElem] at o2
  have hidx : x.findIdx (fun v => decide (t ≤ v)) < x.length := by
    rw [List.findIdx_lt_length]
    exact ⟨_, List.getElem_mem (show x.length - 1 < x.length by omega), by simpa using o2⟩
  have hge : t ≤ x[x.findIdx (fun v => decide (t ≤ v))] := by
    simpa using List.findIdx_getElem (w := hidx)
  have hlt : ∀ j (_ : j < x.findIdx (fun v => decide (t ≤ v))) (hj' : j < x.length), x[j] < t := by
    intro j hj hj'
    have := List.not_of_lt_findIdx hj
    simpa using this
  generalize x.findIdx (fun v => decide (t ≤ v)) = p at h hidx hge hlt
  have hm : min (max p 1) (x.length - 1) = max p 1 := by omega
  rw [hm] at h
  have hp1 : 1 ≤ max p 1 := by omega
  generalize hq : max p 1 = q at h hp1
  have hqx : q < x.length := by omega
  rw [show ((q : Int) - 1) = ((q - 1 : Nat) : Int) by omega, getItem_nat x (q - 1) (by omega), getItem_nat y (q - 1) (by omega),
    getItem_nat x q hqx, getItem_nat y q (by omega)] at h
  simp only [Except.ok.injEq] at h
  rw [← h]
  refine line_bounds ?_ ?_ (hb _ (List.getElem_mem _)) (hb _ (List.getElem_mem _))
  · by_cases h0 : p = 0
    · have : q - 1 = 0 := by omega
      simp only [this]
      exact o1
    · exact (hlt (q - 1) (by omega) (by omega)).le
  · exact hge.trans (hmono p q hidx hqx (by omega))

theorem interpRows_bounds {t lo hi : Rat} {xs ys : List (List Rat)} (hx : ∀ x ∈ xs, x.Pairwise (· < ·)) (hy : Within lo hi ys)
    {vs : List Rat} (h : interpRows t xs ys = .ok vs) : ∀ v ∈ vs, lo ≤ v ∧ v ≤ hi := by
  induction xs generalizing ys vs with
  | nil =>
    cases ys <;> (simp only [interpRows, Except.ok.injEq] at h; subst h; simp)
  | cons x xs ih =>
    cases ys with
    | nil => simp only [interpRows, Except.ok.injEq] at h; subst h; simp
    | cons y ys =>
      simp only [interpRows, bind, Except.bind, pure, Except.pure] at h
      cases e : interp1d x y t with
      | error e' => rw [e] at h; exact absurd h (by simp)
      | ok v =>
        rw [e] at h
        simp only at h
        cases e2 : interpRows t xs ys with
        | error e' => rw [e2] at h; exact absurd h (by simp)
        | ok ws =>
          rw [e2] at h
          simp only [Except.ok.injEq] at h
          subst h
          intro w hw
          rcases List.mem_cons.1 hw with rfl | hw
          · exact interp1d_bounds (hx x List.mem_cons_self) e (hy y List.mem_cons_self)
          · exact ih (fun z hz => hx z (List.mem_cons_of_mem _ hz)) (fun z hz => hy z (List.mem_cons_of_mem _ hz)) e2 w hw

theorem find1d_nonneg (r : List Rat) (t : Rat) : 0 ≤ (find1dIndices r t).1 := by
  unfold find1dIndices
  simp only
  split <;> simp

theorem select_ascending {x ys : List Rat} (hs : x.Pairwise (· < ·)) {lo hi : Int} (h0 : 0 ≤ lo)
    (h : select x (closedRange lo hi) = .ok ys) : ys.Pairwise (· < ·) := by
  by_cases hlh : lo ≤ hi
  · by_cases hh : hi < x.length
    · obtain ⟨zs, e, -, g⟩ := select_window x lo.toNat hi.toNat (by omega) (by omega)
      rw [Int.toNat_of_nonneg h0, Int.toNat_of_nonneg (by omega), h, Except.ok.injEq] at e
      subst e
      rw [List.pairwise_iff_getElem]
      intro i j hi' hj' hij
      have hlen := mapM_length h
      have hcr : (closedRange lo hi).length = (hi + 1 - lo).toNat := by
        obtain ⟨zs', e', l', -⟩ := select_window x lo.toNat hi.toNat (by omega) (by omega)
        rw [Int.toNat_of_nonneg h0, Int.toNat_of_nonneg (by omega), h, Except.ok.injEq] at e'
        subst e'
        omega
      rw [g i hi' (by omega), g j hj' (by omega)]
      exact List.pairwise_iff_getElem.1 hs _ _ _ _ (by omega)
    · exfalso
      have hm : hi ∈ closedRange lo hi := (mem_closedRange lo hi hi).2 ⟨hlh, le_rfl⟩
      obtain ⟨k, hk, e⟩ := List.getElem_of_mem hm
      have := ((mapM_ok_iff _ _ _).1 h).2 k hk (by rw [mapM_length h]; exact hk)
      rw [e] at this
      have hbig := getItem_big x hi.toNat (by omega)
      rw [Int.toNat_of_nonneg (by omega)] at hbig
      exact absurd (hbig.symm.trans this) (by simp)
  · have : closedRange lo hi = [] := by
      rw [List.eq_nil_iff_forall_not_mem]
      intro i hi'
      have := (mem_closedRange lo hi i).1 hi'
      omega
    rw [this] at h
    simp only [select, List.mapM_nil, pure, Except.pure, Except.ok.injEq] at h
    subst h
    exact List.Pairwise.nil

theorem restrictRows_range {rows : List (List Rat)} {t : Rat} {is : List Int} (h : restrictRows rows t = .ok is) :
    ∃ lo hi, 0 ≤ lo ∧ is = closedRange lo hi := by
  have hne : rows ≠ [] := by
    rintro rfl
    exact absurd h (by simp [restrictRows, minInt, bind, Except.bind])
  unfold restrictRows at h
  simp only [bind, Except.bind, pure, Except.pure] at h
  cases e1 : minInt (rows.map (fun r => (find1dIndices r t).1)) with
  | error e => rw [e1] at h; exact absurd h (by simp)
  | ok lo =>
    rw [e1] at h
    simp only at h
    cases e2 : maxInt (rows.map (fun r => (find1dIndices r t).2)) with
    | error e => rw [e2] at h; exact absurd h (by simp)
    | ok hi =>
      rw [e2] at h
      simp only [Except.ok.injEq] at h
      refine ⟨lo, hi, ?_, h.symm⟩
      cases rows with
      | nil => exact absurd rfl hne
      | cons r rows =>
        simp only [List.map_cons, minInt, Except.ok.injEq] at e1
        obtain ⟨h3, -⟩ := foldl_min_spec (rows.map (fun r => (find1dIndices r t).1)) (find1dIndices r t).1
        rw [e1] at h3
        rcases List.mem_cons.1 h3 with h3 | h3
        · rw [h3]; exact find1d_nonneg r t
        · obtain ⟨r', -, e⟩ := List.mem_map.1 h3
          rw [← e]; exact find1d_nonneg r' t

theorem applyTwo_bounds {array reference : List (List Rat)} {t lo hi : Rat} (hr : ∀ x ∈ reference, x.Pairwise (· < ·))
    (hb : Within lo hi array) {vs : List Rat} (h : applyTwo array reference t = .ok (.rows vs)) : ∀ v ∈ vs, lo ≤ v ∧ v ≤ hi := by
  unfold applyTwo at h
  simp only [bind, Except.bind, pure, Except.pure] at h
  split at h
  · split at h
    · exact absurd h (by simp)
    · split at h <;> exact absurd h (by simp)
  · split at h
    · exact absurd h (by simp)
    next is his =>
    obtain ⟨l, u, hl, rfl⟩ := restrictRows_range his
    split at h
    · exact absurd h (by simp)
    next ref href =>
    split at h
    · exact absurd h (by simp)
    next arr harr =>
    have hA : Within lo hi arr := by
      intro r hr' v hv
      obtain ⟨x, hx, e⟩ := mapM_mem harr hr'
      exact hb x hx v (select_mem e hv)
    split at h
    · simp only [Except.ok.injEq, Interpolated.rows.injEq] at h
      subst h
      intro v hv
      obtain ⟨r, hr', hv'⟩ := List.mem_flatten.1 hv
      exact hA r hr' v hv'
    · split at h
      · exact absurd h (by simp)
      next ws hws =>
      simp only [Except.ok.injEq, Interpolated.rows.injEq] at h
      subst h
      refine interpRows_bounds ?_ hA hws
      intro x hx
      obtain ⟨y, hy, e⟩ := mapM_mem href hx
      exact select_ascending (hr y hy) hl e

theorem column_bounds {n : Nat} {rows : List (List Rat)} {lo hi : Rat} (hw : ∀ r ∈ rows, r.length = n) (hb : Within lo hi rows)
    {c : List Rat} (hc : c ∈ columns n rows) : c.length = rows.length ∧ ∀ v ∈ c, lo ≤ v ∧ v ≤ hi := by
  obtain ⟨j, hj, rfl⟩ := List.mem_map.1 hc
  rw [List.mem_range] at hj
  constructor
  · clear hc hb
    induction rows with
    | nil => rfl
    | cons r rows ih =>
      have := hw r List.mem_cons_self
      rw [List.filterMap_cons, List.getElem?_eq_getElem (by omega : j < r.length)]
      simp only [List.length_cons]
      rw [ih (fun x hx => hw x (List.mem_cons_of_mem _ hx))]
  · intro v hv
    obtain ⟨r, hr, e⟩ := List.mem_filterMap.1 hv
    exact hb r hr v (List.mem_of_getElem? e)

/-- **C268.** For strictly ascending times and shells, radii that ascend with the shell at each time, and a quantity with one row for each
time and one entry for each shell: all observed values, interpolated or not, are within all bounds that hold for the stored values. -/
theorem c268_bounds (g : Grid) (ht : g.times.Pairwise (· < ·)) (hs : g.shells.Pairwise (· < ·)) (hr : ∀ x ∈ g.radius, x.Pairwise (· < ·))
    (rows : List (List Rat)) (hl : rows.length = g.times.length) (hw : ∀ r ∈ rows, r.length = g.shells.length) (lo hi : Rat)
    (hb : ∀ r ∈ rows, ∀ v ∈ r, lo ≤ v ∧ v ≤ hi) (more : Bool) (time : Data Rat) (shell : Data Int) (radius : Option Rat)
    (out : List (List Rat)) (h : observe g rows more time shell radius = .ok out) : ∀ r ∈ out, ∀ v ∈ r, lo ≤ v ∧ v ≤ hi := by
  have key : ∀ {rs : List (List Rat)} {is : List Int} {os : List (List Rat)}, Within lo hi rs → subscriptRows rs is = .ok os →
      Within lo hi os := by
    intro rs is os hW ho r hr' v hv
    obtain ⟨i, -, e⟩ := mapM_mem ho hr'
    exact hW r (getItem_mem e) v hv
  have key2 : ∀ {rs : List (List Rat)} {is : List Int} {os : List (List Rat)}, Within lo hi rs → subscriptColumns rs is = .ok os →
      Within lo hi os := by
    intro rs is os hW ho r hr' v hv
    obtain ⟨x, hx, e⟩ := mapM_mem ho hr'
    obtain ⟨j, -, e'⟩ := mapM_mem e hv
    exact hW x hx v (getItem_mem e')
  have key3 : ∀ {rs : List (List Rat)} {is js : List Int} {os : List (List Rat)}, Within lo hi rs → subscript rs is js = .ok os →
      Within lo hi os := by
    intro rs is js os hW ho
    unfold subscript at ho
    split at ho
    · exact absurd ho (by simp)
    · next p hp => exact key2 (key hW hp) ho
  unfold observe at h
  split at h
  · exact absurd h (by simp)
  next a ha =>
  have hA : Within lo hi a ∧ ∀ r ∈ a, r.length = g.shells.length := by
    unfold Grid.overTime at ha
    split at ha
    · unfold interpolateRows at ha
      constructor
      · intro r hr' v hv
        obtain ⟨t, -, e⟩ := mapM_mem ha hr'
        split at e
        · exact absurd e (by simp)
        · obtain ⟨c, hc, e'⟩ := mapM_mem e hv
          obtain ⟨c1, c2⟩ := column_bounds hw hb hc
          exact c266_bounds c g.times (by omega) ht t v _ e' lo hi c2
      · intro r hr'
        obtain ⟨t, -, e⟩ := mapM_mem ha hr'
        split at e
        · exact absurd e (by simp)
        · rw [mapM_length e, columns, List.length_map, List.length_range]
    · rw [Except.ok.injEq] at ha
      exact ha ▸ ⟨hb, hw⟩
  split at h
  · exact absurd h (by simp)
  next b hb' =>
  have hB : Within lo hi b := by
    unfold Grid.overShell at hb'
    split at hb'
    · unfold interpolateWithin at hb'
      intro r hr' v hv
      obtain ⟨x, hx, e⟩ := mapM_mem hb' hr'
      obtain ⟨t, -, e'⟩ := mapM_mem e hv
      exact c266_bounds x g.shells (hA.2 x hx) hs t v _ e' lo hi (hA.1 x hx)
    · rw [Except.ok.injEq] at hb'
      exact hb' ▸ hA.1
  split at h
  · exact absurd h (by simp)
  next c hc =>
  have hC : Within lo hi c := by
    cases radius with
    | none =>
      rw [Grid.overRadius, Except.ok.injEq] at hc
      exact hc ▸ hB
    | some r =>
      rw [Grid.overRadius, interpolateRadius] at hc
      split at hc
      · exact absurd hc (by simp)
      · exact absurd hc (by simp)
      · next vs hvs =>
        rw [Except.ok.injEq] at hc
        subst hc
        intro x hx v hv
        obtain ⟨w, hw', rfl⟩ := List.mem_map.1 hx
        rw [List.mem_singleton] at hv
        subst hv
        exact applyTwo_bounds hr hB hvs v hw'
  split at h
  · exact key3 hC h
  · exact key2 hC h
  · exact key hC h
  · split at h
    · rw [Except.ok.injEq] at h
      exact h ▸ hC
    · exact key3 hC h

example (out : List (List Rat)) (h : observe ⟨[0, 10], [0, 1, 2], [[1, 2, 3], [1, 2, 3]]⟩ [[1, 2, 3], [2, 4, 6]] true ⟨[0], [5]⟩
    ⟨[0, 1, 2], [0, 1, 2]⟩ (some (5 / 2)) = .ok out) : ∀ r ∈ out, ∀ v ∈ r, 1 ≤ v ∧ v ≤ 6 :=
  c268_bounds _ (by decide +kernel) (by decide +kernel) (by decide +kernel) _ (by decide) (by decide) 1 6 (by decide +kernel) _ _ _ _ _ h

end Verif.Axes
