import Verif.Axes.SumProps

/-!
# Property C276: observing keeps the order of quantities
-/

set_option linter.unusedSimpArgs false
set_option linter.unusedSectionVars false

namespace Verif.Axes

open Verif.Py Verif.Iterables Verif.Measurable Verif.Numerical

/-- The same shape, and no entry of the first is greater than that of the second. -/
def AtMost (a b : List (List Rat)) : Prop := List.Forall₂ (List.Forall₂ (· ≤ ·)) a b

theorem atMost_lengths {a b : List (List Rat)} (h : AtMost a b) : a.map List.length = b.map List.length := by
  induction h with
  | nil => rfl
  | cons h _ ih => simp only [List.map_cons, h.length_eq, ih]

theorem row_split {x y : List Rat} (h : List.Forall₂ (· ≤ ·) x y) :
    ∃ d, List.zipWith (· + ·) x d = y ∧ d.length = x.length ∧ ∀ v ∈ d, 0 ≤ v := by
  induction h with
  | nil => exact ⟨[], rfl, rfl, by simp⟩
  | @cons p q _ _ h _ ih =>
    obtain ⟨d, d1, d2, d3⟩ := ih
    refine ⟨(q - p) :: d, by rw [List.zipWith_cons_cons, d1]; congr 1; ring, by simp [d2], fun v hv => ?_⟩
    rcases List.mem_cons.1 hv with rfl | hv
    · linarith
    · exact d3 v hv

theorem rows_split {a b : List (List Rat)} (h : AtMost a b) :
    ∃ d, List.zipWith (List.zipWith (· + ·)) a d = b ∧ d.map List.length = a.map List.length ∧ ∀ r ∈ d, ∀ v ∈ r, 0 ≤ v := by
  unfold AtMost at h
  induction h with
  | nil => exact ⟨[], rfl, rfl, by simp⟩
  | cons h _ ih =>
    obtain ⟨d, d1, d2, d3⟩ := ih
    obtain ⟨r, r1, r2, r3⟩ := row_split h
    refine ⟨r :: d, by rw [List.zipWith_cons_cons, d1, r1], by simp [d2, r2], fun x hx => ?_⟩
    rcases List.mem_cons.1 hx with rfl | hx
    · exact r3
    · exact d3 x hx

theorem atMost_add {u w : List (List Rat)} (h : u.map List.length = w.map List.length) (hw : ∀ r ∈ w, ∀ v ∈ r, 0 ≤ v) :
    AtMost u (List.zipWith (List.zipWith (· + ·)) u w) := by
  have row : ∀ x d : List Rat, x.length = d.length → (∀ v ∈ d, 0 ≤ v) → List.Forall₂ (· ≤ ·) x (List.zipWith (· + ·) x d) := by
    intro x
    induction x with
    | nil => intro d _ _; exact List.Forall₂.nil
    | cons p x ih =>
      intro d hl hd
      cases d with
      | nil => exact absurd hl (by simp)
      | cons q d =>
        refine List.Forall₂.cons ?_ (ih d (by simpa using hl) (fun v hv => hd v (List.mem_cons_of_mem _ hv)))
        have := hd q List.mem_cons_self
        linarith
  unfold AtMost
  induction u generalizing w with
  | nil => exact List.Forall₂.nil
  | cons x u ih =>
    cases w with
    | nil => exact absurd h (by simp)
    | cons d w =>
      rw [List.map_cons, List.map_cons, List.cons.injEq] at h
      exact List.Forall₂.cons (row x d h.1 (hw d List.mem_cons_self)) (ih h.2 (fun r hr => hw r (List.mem_cons_of_mem _ hr)))

theorem bounded_above (d : List (List Rat)) : ∃ hi, ∀ r ∈ d, ∀ v ∈ r, v ≤ hi := by
  have row : ∀ x : List Rat, ∃ hi, ∀ v ∈ x, v ≤ hi := by
    intro x
    induction x with
    | nil => exact ⟨0, by simp⟩
    | cons p x ih =>
      obtain ⟨hi, h⟩ := ih
      refine ⟨max p hi, fun v hv => ?_⟩
      rcases List.mem_cons.1 hv with rfl | hv
      · exact le_max_left _ _
      · exact (h v hv).trans (le_max_right _ _)
  induction d with
  | nil => exact ⟨0, by simp⟩
  | cons x d ih =>
    obtain ⟨h1, k1⟩ := row x
    obtain ⟨h2, k2⟩ := ih
    refine ⟨max h1 h2, fun r hr v hv => ?_⟩
    rcases List.mem_cons.1 hr with rfl | hr
    · exact (k1 v hv).trans (le_max_left _ _)
    · exact (k2 r hr v hv).trans (le_max_right _ _)

/-- **C276.** For strictly ascending times and shells, radii that ascend with the shell at each time, and quantities with one row for each
time and one entry for each shell: if the first quantity is nowhere greater than the second, neither is its observation, wherever and
whenever; both succeed or fail with the same exception. -/
theorem c276_order (g : Grid) (ht : g.times.Pairwise (· < ·)) (hs : g.shells.Pairwise (· < ·)) (hr : ∀ x ∈ g.radius, x.Pairwise (· < ·))
    (a b : List (List Rat)) (hl : a.length = g.times.length) (hw : ∀ r ∈ a, r.length = g.shells.length) (hab : AtMost a b) (more : Bool)
    (time : Data Rat) (shell : Data Int) (radius : Option Rat) :
    (∃ e, observe g a more time shell radius = .error e ∧ observe g b more time shell radius = .error e)
      ∨ ∃ u v, observe g a more time shell radius = .ok u ∧ observe g b more time shell radius = .ok v ∧ AtMost u v := by
  obtain ⟨d, d1, d2, d3⟩ := rows_split hab
  obtain ⟨hi, hhi⟩ := bounded_above d
  have hdl : d.length = g.times.length := by
    have := congrArg List.length d2
    rw [List.length_map, List.length_map] at this
    rw [this, hl]
  have hdw : ∀ r ∈ d, r.length = g.shells.length := by
    intro r hr
    have : r.length ∈ a.map List.length := d2 ▸ List.mem_map.2 ⟨r, hr, rfl⟩
    obtain ⟨x, hx, e⟩ := List.mem_map.1 this
    rw [← e, hw x hx]
  rcases c269_sum g a d d2.symm more time shell radius with ⟨e, e1, -, e3⟩ | ⟨u, w, e1, e2, hlen, e3⟩
  · rw [d1] at e3
    exact Or.inl ⟨e, e1, e3⟩
  · rw [d1] at e3
    refine Or.inr ⟨u, _, e1, e3, atMost_add hlen fun r hr' v hv => ?_⟩
    exact (c268_bounds g ht hs hr d hdl hdw 0 hi (fun r hr v hv => ⟨d3 r hr v hv, hhi r hr v hv⟩) more time shell radius w e2 r hr' v hv).1

/-- Two quantities at a time and radius in between. -/
example : observe ⟨[0, 10], [0, 1], [[1, 2], [1, 2]]⟩ [[1, 2], [3, 6]] true ⟨[0], [5]⟩ ⟨[0, 1], [0, 1]⟩ (some (3 / 2)) = .ok [[3]] ∧
    observe ⟨[0, 10], [0, 1], [[1, 2], [1, 2]]⟩ [[2, 2], [3, 8]] true ⟨[0], [5]⟩ ⟨[0, 1], [0, 1]⟩ (some (3 / 2)) = .ok [[15 / 4]] := by
  decide +kernel

example : AtMost [[1, 2], [3, 6]] [[2, 2], [3, 8]] := by
  refine .cons (.cons ?_ (.cons ?_ .nil)) (.cons (.cons ?_ (.cons ?_ .nil)) .nil) <;> norm_num

end Verif.Axes
