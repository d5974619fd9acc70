import Verif.Axes.UnitProps

/-!
# Property C269: observing a sum
-/

set_option linter.unusedSimpArgs false
set_option linter.unusedSectionVars false

namespace Verif.Axes

open Verif.Py Verif.Iterables Verif.Measurable Verif.Numerical

/-- Either all three fail with the same exception, or the third result is the sum of the other two, which have the same shape. -/
def Adds {α : Type} (same : α → α → Prop) (add : α → α → α) (x y z : Res α) : Prop :=
  (∃ e, x = .error e ∧ y = .error e ∧ z = .error e) ∨ ∃ a b, x = .ok a ∧ y = .ok b ∧ same a b ∧ z = .ok (add a b)

theorem Adds.of_eq {α : Type} {same : α → α → Prop} {add : α → α → α} {x y z x' y' z' : Res α} (h : Adds same add x y z)
    (hx : x' = x) (hy : y' = y) (hz : z' = z) : Adds same add x' y' z' := by
  subst hx hy hz; exact h

theorem Adds.fail {α : Type} {same : α → α → Prop} {add : α → α → α} (e : Err) :
    Adds same add (.error e) (.error e) (.error e) := Or.inl ⟨e, rfl, rfl, rfl⟩

theorem Adds.done {α : Type} {same : α → α → Prop} {add : α → α → α} {a b : α} (h : same a b) :
    Adds same add (.ok a) (.ok b) (.ok (add a b)) := Or.inr ⟨a, b, rfl, rfl, h, rfl⟩

theorem adds_bind {α β : Type} {same : α → α → Prop} {add : α → α → α} {same' : β → β → Prop} {add' : β → β → β} {x y z : Res α}
    (h : Adds same add x y z) {f g k : α → Res β} (hf : ∀ a b, same a b → Adds same' add' (f a) (g b) (k (add a b))) :
    Adds same' add' (x.bind f) (y.bind g) (z.bind k) := by
  rcases h with ⟨e, rfl, rfl, rfl⟩ | ⟨a, b, rfl, rfl, hs, rfl⟩
  · exact .fail e
  · exact hf a b hs

theorem adds_mapM {α β : Type} {same : β → β → Prop} {add : β → β → β} {f g h : α → Res β} (l : List α)
    (hl : ∀ i ∈ l, Adds same add (f i) (g i) (h i)) :
    Adds (List.Forall₂ same) (List.zipWith add) (l.mapM f) (l.mapM g) (l.mapM h) := by
  induction l with
  | nil => exact .done List.Forall₂.nil
  | cons i l ih =>
    simp only [List.mapM_cons, bind, pure, Except.pure]
    refine adds_bind (hl i List.mem_cons_self) fun a b hab => ?_
    refine adds_bind (ih fun j hj => hl j (List.mem_cons_of_mem _ hj)) fun as bs hs => ?_
    exact .done (List.Forall₂.cons hab hs)

theorem adds_mapM_zip {α β : Type} {P : α → α → Prop} {add0 : α → α → α} {same : β → β → Prop} {add : β → β → β} {f : α → Res β}
    {a b : List α} (hab : List.Forall₂ P a b) (hf : ∀ x y, P x y → Adds same add (f x) (f y) (f (add0 x y))) :
    Adds (List.Forall₂ same) (List.zipWith add) (a.mapM f) (b.mapM f) ((List.zipWith add0 a b).mapM f) := by
  induction hab with
  | nil => exact .done List.Forall₂.nil
  | cons h _ ih =>
    simp only [List.zipWith_cons_cons, List.mapM_cons, bind, pure, Except.pure]
    refine adds_bind (hf _ _ h) fun a b hab => ?_
    refine adds_bind ih fun as bs hs => ?_
    exact .done (List.Forall₂.cons hab hs)

theorem forall₂_zip_get {α : Type} {same : α → α → Prop} (add : α → α → α) {a b : List α} (h : List.Forall₂ same a b) (j : Nat) :
    (a[j]? = none ∧ b[j]? = none ∧ (List.zipWith add a b)[j]? = none)
      ∨ ∃ x y, a[j]? = some x ∧ b[j]? = some y ∧ same x y ∧ (List.zipWith add a b)[j]? = some (add x y) := by
  induction h generalizing j with
  | nil => exact Or.inl (by simp)
  | cons h _ ih =>
    cases j with
    | zero => exact Or.inr ⟨_, _, rfl, rfl, h, rfl⟩
    | succ j => simpa only [List.getElem?_cons_succ, List.zipWith_cons_cons] using ih j

theorem adds_getItem {α : Type} {same : α → α → Prop} (add : α → α → α) {a b : List α} (h : List.Forall₂ same a b) (i : Int) :
    Adds same add (getItem a i) (getItem b i) (getItem (List.zipWith add a b) i) := by
  unfold getItem
  have h1 : b.length = a.length := h.length_eq.symm
  have h2 : (List.zipWith add a b).length = a.length := by rw [List.length_zipWith, h1, min_self]
  simp only [h1, h2]
  generalize (if i < 0 then i + (a.length : Int) else i) = j
  by_cases hj : j < 0
  · simp only [if_pos hj]; exact .fail _
  · simp only [if_neg hj]
    rcases forall₂_zip_get add h j.toNat with ⟨e1, e2, e3⟩ | ⟨x, y, e1, e2, e3, e4⟩
    · simp only [e1, e2, e3]; exact .fail _
    · simp only [e1, e2, e4]; exact .done e3

/-- Any two numbers have the same shape. -/
abbrev anyRat (_ _ : Rat) : Prop := True

/-- Lists of the same length. -/
abbrev sameRow : List Rat → List Rat → Prop := List.Forall₂ anyRat

/-- Tables of the same shape. -/
abbrev sameRows : List (List Rat) → List (List Rat) → Prop := List.Forall₂ sameRow

/-- The sum of two rows. -/
abbrev addRow : List Rat → List Rat → List Rat := List.zipWith (· + ·)

/-- The sum of two tables. -/
abbrev addRows : List (List Rat) → List (List Rat) → List (List Rat) := List.zipWith addRow

theorem sameRow_iff {a b : List Rat} : sameRow a b ↔ a.length = b.length := by
  constructor
  · exact fun h => h.length_eq
  · intro h
    exact List.forall₂_iff_get.2 ⟨h, fun _ _ _ => trivial⟩

theorem adds_select {a b : List Rat} (h : sameRow a b) (is : List Int) :
    Adds sameRow addRow (select a is) (select b is) (select (addRow a b) is) :=
  adds_mapM is fun i _ => adds_getItem (· + ·) h i

theorem adds_interp1d (x : List Rat) {a b : List Rat} (h : sameRow a b) (t : Rat) :
    Adds anyRat (· + ·) (interp1d x a t) (interp1d x b t) (interp1d x (addRow a b) t) := by
  unfold interp1d
  have h1 : b.length = a.length := h.length_eq.symm
  have h2 : (addRow a b).length = a.length := by rw [List.length_zipWith, h1, min_self]
  simp only [h1, h2]
  by_cases hc : x.length ≠ a.length ∨ x.length < 2
  · simp only [if_pos hc]; exact .fail _
  simp only [if_neg hc, bind, Except.bind, pure, Except.pure]
  cases getItem x 0 with
  | error e => exact .fail _
  | ok first =>
    cases getItem x (-1) with
    | error e => exact .fail _
    | ok last =>
      simp only
      by_cases ho : t < first ∨ last < t
      · simp only [if_pos ho]; exact .fail _
      simp only [if_neg ho]
      generalize min (max (x.findIdx (fun v => decide (t ≤ v))) 1) (x.length - 1) = hi
      cases getItem x ((hi : Int) - 1) with
      | error e => exact .fail _
      | ok x0 =>
        simp only
        rcases adds_getItem (same := anyRat) (· + ·) h ((hi : Int) - 1) with ⟨e, e1, e2, e3⟩ | ⟨u, w, e1, e2, -, e3⟩
        · simp only [e1, e2, e3]; exact .fail _
        simp only [e1, e2, e3]
        cases getItem x hi with
        | error e => exact .fail _
        | ok x1 =>
          simp only
          rcases adds_getItem (same := anyRat) (· + ·) h (hi : Int) with ⟨e, e1, e2, e3⟩ | ⟨u', w', e1, e2, -, e3⟩
          · simp only [e1, e2, e3]; exact .fail _
          simp only [e1, e2, e3, line_add]
          exact .done trivial

theorem adds_applyOne {a b : List Rat} (h : sameRow a b) (reference : List Rat) (t : Rat) (axis : Bool) :
    Adds anyRat (· + ·) (applyOne a reference t axis) (applyOne b reference t axis) (applyOne (addRow a b) reference t axis) := by
  unfold applyOne
  by_cases hm : t ∈ reference
  · simp only [if_pos hm, bind, Except.bind]
    cases nearestIndex reference t .free with
    | error e => exact .fail _
    | ok i => exact adds_getItem _ h i
  · simp only [if_neg hm]
    generalize (if axis = true then restrict1d reference t else (List.range reference.length).map Int.ofNat) = is
    simp only [bind]
    cases select reference is with
    | error e => exact .fail _
    | ok ref =>
      refine adds_bind (adds_select h is) fun x y hxy => ?_
      by_cases h1 : ref.length = 1
      · simp only [if_pos h1]; exact adds_getItem _ hxy 0
      · simp only [if_neg h1]; exact adds_interp1d ref hxy t

theorem adds_interpRows (t : Rat) (xs : List (List Rat)) {a b : List (List Rat)} (h : sameRows a b) :
    Adds sameRow addRow (interpRows t xs a) (interpRows t xs b) (interpRows t xs (addRows a b)) := by
  induction h generalizing xs with
  | nil => cases xs <;> exact .done List.Forall₂.nil
  | cons h _ ih =>
    cases xs with
    | nil => exact .done List.Forall₂.nil
    | cons x xs =>
      simp only [List.zipWith_cons_cons, interpRows, bind, pure, Except.pure]
      refine adds_bind (adds_interp1d x h t) fun u v _ => ?_
      refine adds_bind (ih xs) fun us vs hs => ?_
      exact .done (List.Forall₂.cons trivial hs)

theorem adds_flatten {a b : List (List Rat)} (h : sameRows a b) :
    sameRow a.flatten b.flatten ∧ (addRows a b).flatten = addRow a.flatten b.flatten := by
  induction h with
  | nil => exact ⟨List.Forall₂.nil, rfl⟩
  | cons h _ ih =>
    simp only [List.flatten_cons, List.zipWith_cons_cons]
    refine ⟨List.rel_append h ih.1, ?_⟩
    rw [ih.2, ← List.zipWith_append h.length_eq]

theorem adds_interpolateRadius {a b : List (List Rat)} (h : sameRows a b) (reference : List (List Rat)) (t : Rat) :
    Adds sameRows addRows (interpolateRadius reference a t) (interpolateRadius reference b t)
      (interpolateRadius reference (addRows a b) t) := by
  have wrap : ∀ us vs : List Rat, sameRow us vs → sameRows (us.map ([·])) (vs.map ([·]))
      ∧ (addRow us vs).map ([·]) = addRows (us.map ([·])) (vs.map ([·])) := by
    intro us vs hs
    induction hs with
    | nil => exact ⟨List.Forall₂.nil, rfl⟩
    | cons _ _ ih =>
      simp only [List.map_cons, List.zipWith_cons_cons]
      exact ⟨List.Forall₂.cons (List.Forall₂.cons trivial List.Forall₂.nil) ih.1, by rw [ih.2]; rfl⟩
  unfold interpolateRadius applyTwo
  by_cases hm : t ∈ reference.flatten
  · simp only [if_pos hm, bind, Except.bind, pure, Except.pure]
    cases nearestIndex reference.flatten t .free with
    | error e => exact .fail _
    | ok i =>
      simp only
      obtain ⟨f1, f2⟩ := adds_flatten h
      rw [f2]
      rcases adds_getItem (same := anyRat) (· + ·) f1 i with ⟨e, e1, e2, e3⟩ | ⟨u, w, e1, e2, -, e3⟩
      · simp only [e1, e2, e3]; exact .fail _
      · simp only [e1, e2, e3]; exact .fail _
  · simp only [if_neg hm, bind, Except.bind, pure, Except.pure]
    cases restrictRows reference t with
    | error e => exact .fail _
    | ok is =>
      simp only
      cases reference.mapM (select · is) with
      | error e => exact .fail _
      | ok ref =>
        simp only
        have hsel := adds_mapM_zip (f := (select · is)) h (fun x y hxy => adds_select hxy is)
        rcases hsel with ⟨e, e1, e2, e3⟩ | ⟨u, w, e1, e2, hs, e3⟩
        · simp only [e1, e2, e3]; exact .fail _
        simp only [e1, e2, e3]
        by_cases h1 : ref.flatten.length = 1
        · simp only [if_pos h1]
          obtain ⟨f1, f2⟩ := adds_flatten hs
          obtain ⟨w1, w2⟩ := wrap _ _ f1
          refine Adds.of_eq (.done w1) rfl rfl ?_
          rw [f2, w2]
        · simp only [if_neg h1]
          rcases adds_interpRows t ref hs with ⟨e, e1, e2, e3⟩ | ⟨us, vs, e1, e2, hv, e3⟩
          · simp only [e1, e2, e3]; exact .fail _
          · simp only [e1, e2, e3]
            obtain ⟨w1, w2⟩ := wrap _ _ hv
            refine Adds.of_eq (.done w1) rfl rfl ?_
            rw [w2]

theorem adds_columns {a b : List (List Rat)} (h : sameRows a b) (n : Nat) :
    List.Forall₂ sameRow (columns n a) (columns n b) ∧ columns n (addRows a b) = addRows (columns n a) (columns n b) := by
  have hj : ∀ j : Nat, sameRow (a.filterMap (fun r => r[j]?)) (b.filterMap (fun r => r[j]?))
      ∧ (addRows a b).filterMap (fun r => r[j]?) = addRow (a.filterMap (fun r => r[j]?)) (b.filterMap (fun r => r[j]?)) := by
    intro j
    induction h with
    | nil => exact ⟨List.Forall₂.nil, rfl⟩
    | cons h _ ih =>
      simp only [List.zipWith_cons_cons, List.filterMap_cons]
      rcases forall₂_zip_get (· + ·) h j with ⟨e1, e2, e3⟩ | ⟨x, y, e1, e2, -, e3⟩
      · simp only [e1, e2, e3]; exact ih
      · simp only [e1, e2, e3]
        exact ⟨List.Forall₂.cons trivial ih.1, by rw [ih.2]; rfl⟩
  unfold columns
  generalize List.range n = l
  induction l with
  | nil => exact ⟨List.Forall₂.nil, rfl⟩
  | cons j l ih =>
    simp only [List.map_cons, List.zipWith_cons_cons]
    exact ⟨List.Forall₂.cons (hj j).1 ih.1, by rw [ih.2, (hj j).2]⟩

theorem adds_interpolateRows {a b : List (List Rat)} (h : sameRows a b) (axis : Option Nat) (reference : List Rat) (width : Nat)
    (targets : List Rat) :
    Adds sameRows addRows (interpolateRows axis reference width a targets) (interpolateRows axis reference width b targets)
      (interpolateRows axis reference width (addRows a b) targets) := by
  unfold interpolateRows
  refine adds_mapM targets fun t _ => ?_
  by_cases hc : axis ≠ none ∧ axis ≠ some 0 ∧ t ∉ reference
  · simp only [if_pos hc]; exact .fail _
  · simp only [if_neg hc]
    obtain ⟨c1, c2⟩ := adds_columns h width
    rw [c2]
    exact adds_mapM_zip c1 fun x y hxy => adds_applyOne hxy reference t _

theorem adds_interpolateWithin {a b : List (List Rat)} (h : sameRows a b) (reference : List Rat) (targets : List Rat) :
    Adds sameRows addRows (interpolateWithin reference a targets) (interpolateWithin reference b targets)
      (interpolateWithin reference (addRows a b) targets) := by
  unfold interpolateWithin
  exact adds_mapM_zip h fun x y hxy => adds_mapM targets fun t _ => adds_applyOne hxy reference t false

theorem adds_subscriptRows {a b : List (List Rat)} (h : sameRows a b) (is : List Int) :
    Adds sameRows addRows (subscriptRows a is) (subscriptRows b is) (subscriptRows (addRows a b) is) :=
  adds_mapM is fun i _ => adds_getItem addRow h i

theorem adds_subscriptColumns {a b : List (List Rat)} (h : sameRows a b) (js : List Int) :
    Adds sameRows addRows (subscriptColumns a js) (subscriptColumns b js) (subscriptColumns (addRows a b) js) :=
  adds_mapM_zip h fun _ _ hxy => adds_mapM js fun i _ => adds_getItem (· + ·) hxy i

theorem adds_subscript {a b : List (List Rat)} (h : sameRows a b) (is js : List Int) :
    Adds sameRows addRows (subscript a is js) (subscript b is js) (subscript (addRows a b) is js) := by
  unfold subscript
  rcases adds_subscriptRows h is with ⟨e, e1, e2, e3⟩ | ⟨u, w, e1, e2, hs, e3⟩
  · simp only [e1, e2, e3]; exact .fail _
  · simp only [e1, e2, e3]; exact adds_subscriptColumns hs js

/-- **C269.** For quantities of the same shape: observing the sum gives the sum of the observations, which have the same shape; it fails
if and only if both observations do, with the same exception. -/
theorem c269_sum (g : Grid) (a b : List (List Rat)) (hab : a.map List.length = b.map List.length) (more : Bool) (time : Data Rat)
    (shell : Data Int) (radius : Option Rat) :
    (∃ e, observe g a more time shell radius = .error e ∧ observe g b more time shell radius = .error e
        ∧ observe g (List.zipWith (List.zipWith (· + ·)) a b) more time shell radius = .error e)
      ∨ ∃ u v, observe g a more time shell radius = .ok u ∧ observe g b more time shell radius = .ok v
        ∧ u.map List.length = v.map List.length
        ∧ observe g (List.zipWith (List.zipWith (· + ·)) a b) more time shell radius
          = .ok (List.zipWith (List.zipWith (· + ·)) u v) := by
  have hshape : ∀ a b : List (List Rat), sameRows a b ↔ a.map List.length = b.map List.length := by
    intro a b
    rw [← List.forall₂_eq_eq_eq, List.forall₂_map_left_iff, List.forall₂_map_right_iff]
    constructor
    · exact fun h => h.imp fun _ _ h => sameRow_iff.1 h
    · exact fun h => h.imp fun _ _ h => sameRow_iff.2 h
  have h : sameRows a b := (hshape a b).2 hab
  suffices H : Adds sameRows addRows (observe g a more time shell radius) (observe g b more time shell radius)
      (observe g (addRows a b) more time shell radius) by
    rcases H with H | ⟨u, v, e1, e2, e3, e4⟩
    · exact Or.inl H
    · exact Or.inr ⟨u, v, e1, e2, (hshape u v).1 e3, e4⟩
  unfold observe
  have h1 : Adds sameRows addRows (g.overTime a time) (g.overTime b time) (g.overTime (addRows a b) time) := by
    unfold Grid.overTime
    by_cases hn : g.timeNeeded time = true
    · simp only [if_pos hn]; exact adds_interpolateRows h _ _ _ _
    · simp only [if_neg hn]; exact .done h
  rcases h1 with ⟨e, e1, e2, e3⟩ | ⟨a1, b1, e1, e2, h1, e3⟩
  · simp only [e1, e2, e3]; exact .fail _
  simp only [e1, e2, e3]
  have h2 : Adds sameRows addRows (g.overShell a1 shell) (g.overShell b1 shell) (g.overShell (addRows a1 b1) shell) := by
    unfold Grid.overShell
    by_cases hn : g.shellNeeded shell = true
    · simp only [if_pos hn]; exact adds_interpolateWithin h1 _ _
    · simp only [if_neg hn]; exact .done h1
  rcases h2 with ⟨e, e1, e2, e3⟩ | ⟨a2, b2, e1, e2, h2, e3⟩
  · simp only [e1, e2, e3]; exact .fail _
  simp only [e1, e2, e3]
  have h3 : Adds sameRows addRows (g.overRadius a2 radius) (g.overRadius b2 radius) (g.overRadius (addRows a2 b2) radius) := by
    cases radius with
    | none => exact .done h2
    | some r => exact adds_interpolateRadius h2 g.radius r
  rcases h3 with ⟨e, e1, e2, e3⟩ | ⟨a3, b3, e1, e2, h3, e3⟩
  · simp only [e1, e2, e3]; exact .fail _
  simp only [e1, e2, e3]
  cases g.timeNeeded time <;> cases (g.shellNeeded shell || radius.isSome)
  · exact adds_subscript h3 _ _
  · exact adds_subscriptRows h3 _
  · exact adds_subscriptColumns h3 _
  · simp only
    cases more
    · exact adds_subscript h3 _ _
    · exact .done h3

example : observe ⟨[0, 10], [0, 1, 2], [[1, 2, 3], [1, 2, 3]]⟩ [[1, 2, 3], [2, 4, 6]] true ⟨[0], [5]⟩
      ⟨[0, 1, 2], [0, 1, 2]⟩ (some (5 / 2)) = .ok [[15 / 4]] ∧
    observe ⟨[0, 10], [0, 1, 2], [[1, 2, 3], [1, 2, 3]]⟩ [[1, 0, 3], [2, 0, 6]] true ⟨[0], [5]⟩
      ⟨[0, 1, 2], [0, 1, 2]⟩ (some (5 / 2)) = .ok [[9 / 4]] ∧
    observe ⟨[0, 10], [0, 1, 2], [[1, 2, 3], [1, 2, 3]]⟩ [[2, 2, 6], [4, 4, 12]] true ⟨[0], [5]⟩
      ⟨[0, 1, 2], [0, 1, 2]⟩ (some (5 / 2)) = .ok [[6]] := by
  refine ⟨?_, ?_, ?_⟩ <;> decide +kernel

end Verif.Axes
