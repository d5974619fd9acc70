import Verif.Helpers.BoundProps

/-!
# Property C296: restrictions of arrays in several steps
-/

set_option linter.unusedSimpArgs false

namespace Verif.Helpers

open Verif.Py
open Verif.Shapes (Arr)

variable {K : Type}

/-- Specification: the position `i` lies in an array of this shape. -/
def Inside (shape i : List Nat) : Prop := List.Forall₂ (· < ·) i shape

/-- Specification: two arrays have the same shape, and the same entry at each position. -/
def Same (a b : Arr K) : Prop := a.shape = b.shape ∧ ∀ i, Inside a.shape i → a.entry i = b.entry i

/-- Specification: `c` has the entries of the list `l` at the indices `js`, which may be counted from the end. -/
def Picked (l js c : List Int) : Prop := List.Forall₂ (fun j x => ∃ p, Means l.length j p ∧ l[p]? = some x) js c

theorem Inside.getElem {shape i : List Nat} (h : Inside shape i) {k n : Nat} (hn : shape[k]? = some n) :
    ∃ j, i[k]? = some j ∧ j < n := by
  obtain ⟨hk, rfl⟩ := List.getElem?_eq_some_iff.1 hn
  have hki : k < i.length := by rw [h.length_eq]; exact hk
  exact ⟨i[k], List.getElem?_eq_getElem hki, List.Forall₂.get h hki hk⟩

/-- **C296.** Restrictions along different axes can be exchanged. -/
theorem c296_exchange (a : Arr K) (axis axis' : Option Int) (k k' n n' : Nat) (hax : Axis a.shape.length axis k)
    (hax' : Axis a.shape.length axis' k') (hne : k ≠ k') (hn : a.shape[k]? = some n) (hn' : a.shape[k']? = some n')
    (is is' : List Int) (ks ks' : List Nat) (hi : List.Forall₂ (Means n) is ks) (hi' : List.Forall₂ (Means n') is' ks') :
    ∃ r r' s s', restrict is a axis = .ok r ∧ restrict is' r axis' = .ok s ∧
      restrict is' a axis' = .ok r' ∧ restrict is r' axis = .ok s' ∧ Same s s' := by
  obtain ⟨r, hr, sr, er⟩ := c217_restrict a axis k n hax hn is ks hi
  obtain ⟨r', hr', sr', er'⟩ := c217_restrict a axis' k' n' hax' hn' is' ks' hi'
  have l1 : r.shape.length = a.shape.length := by rw [sr, List.length_set]
  have l1' : r'.shape.length = a.shape.length := by rw [sr', List.length_set]
  obtain ⟨s, hs, ss, es⟩ := c217_restrict r axis' k' n' (by rw [l1]; exact hax')
    (by rw [sr, List.getElem?_set_ne hne]; exact hn') is' ks' hi'
  obtain ⟨s', hs', ss', es'⟩ := c217_restrict r' axis k n (by rw [l1']; exact hax)
    (by rw [sr', List.getElem?_set_ne hne.symm]; exact hn) is ks hi
  refine ⟨r, r', s, s', hr, hs, hr', hs', ?_, fun i hin => ?_⟩
  · rw [ss, ss', sr, sr', List.set_comm _ _ hne]
  · have hlen : i.length = a.shape.length := by rw [hin.length_eq, ss, List.length_set, l1]
    obtain ⟨j', hj', hlt'⟩ := hin.getElem (k := k') (n := is'.length)
      (by rw [ss, List.getElem?_set_self (by rw [l1]; exact hax'.1)])
    obtain ⟨j, hj, hlt⟩ := hin.getElem (k := k) (n := is.length)
      (by rw [ss, List.getElem?_set_ne hne.symm, sr, List.getElem?_set_self hax.1])
    have hm' : ks'[j']? = some ks'[j']! := by
      rw [hi'.length_eq] at hlt'; simp [List.getElem?_eq_getElem hlt', getElem!_pos, hlt']
    have hm : ks[j]? = some ks[j]! := by
      rw [hi.length_eq] at hlt; simp [List.getElem?_eq_getElem hlt, getElem!_pos, hlt]
    rw [es i (by rw [hlen, l1]) j' _ hj' hm', es' i (by rw [hlen, l1']) j _ hj hm,
      er _ (by rw [List.length_set, hlen]) j _ (by rw [List.getElem?_set_ne hne.symm]; exact hj) hm,
      er' _ (by rw [List.length_set, hlen]) j' _ (by rw [List.getElem?_set_ne hne]; exact hj') hm',
      List.set_comm _ _ hne]

theorem picked_means {n : Nat} {is : List Int} {ks : List Nat} (hi : List.Forall₂ (Means n) is ks) {js c : List Int}
    (h : Picked is js c) : ∃ ps, List.Forall₂ (Means ks.length) js ps ∧
      List.Forall₂ (Means n) c (ps.map (fun p => ks.getD p 0)) ∧ ∀ p ∈ ps, p < ks.length := by
  induction h with
  | nil => exact ⟨[], .nil, .nil, by simp⟩
  | cons h t ih =>
    obtain ⟨p, hp, hx⟩ := h
    obtain ⟨ps, h1, h2, h3⟩ := ih
    obtain ⟨hlt, rfl⟩ := List.getElem?_eq_some_iff.1 hx
    have hlt' : p < ks.length := by rw [← hi.length_eq]; exact hlt
    refine ⟨p :: ps, .cons (by rw [← hi.length_eq]; exact hp) h1, ?_, ?_⟩
    · rw [List.map_cons]
      refine .cons ?_ h2
      have := List.Forall₂.get hi hlt hlt'
      simpa [List.getD_eq_getElem?_getD, List.getElem?_eq_getElem hlt'] using this
    · intro q hq
      rcases List.mem_cons.1 hq with rfl | hq
      · exact hlt'
      · exact h3 q hq

/-- **C296.** Restricting twice along one axis is restricting once, to the indices that the second step picks of the first. -/
theorem c296_twice (a : Arr K) (axis : Option Int) (k n : Nat) (hax : Axis a.shape.length axis k)
    (hn : a.shape[k]? = some n) (is js c : List Int) (ks : List Nat) (hi : List.Forall₂ (Means n) is ks)
    (hc : Picked is js c) :
    ∃ r s t, restrict is a axis = .ok r ∧ restrict js r axis = .ok s ∧ restrict c a axis = .ok t ∧ Same s t := by
  obtain ⟨ps, h1, h2, h3⟩ := picked_means hi hc
  obtain ⟨r, hr, sr, er⟩ := c217_restrict a axis k n hax hn is ks hi
  have l1 : r.shape.length = a.shape.length := by rw [sr, List.length_set]
  obtain ⟨s, hs, ss, es⟩ := c217_restrict r axis k ks.length (by rw [l1]; exact hax)
    (by rw [sr, List.getElem?_set_self hax.1, hi.length_eq]) js ps h1
  obtain ⟨t, ht, st, et⟩ := c217_restrict a axis k n hax hn c _ h2
  refine ⟨r, s, t, hr, hs, ht, ?_, fun i hin => ?_⟩
  · rw [ss, st, sr, List.set_set, hc.length_eq]
  · have hlen : i.length = a.shape.length := by rw [hin.length_eq, ss, List.length_set, l1]
    have hki : k < i.length := by rw [hlen]; exact hax.1
    obtain ⟨j, hj, hlt⟩ := hin.getElem (k := k) (n := js.length)
      (by rw [ss, List.getElem?_set_self (by rw [l1]; exact hax.1)])
    rw [h1.length_eq] at hlt
    have hp : ps[j]? = some ps[j] := List.getElem?_eq_getElem hlt
    have hpk := h3 _ (List.getElem_mem hlt)
    have hq : ks[ps[j]]? = some ks[ps[j]] := List.getElem?_eq_getElem hpk
    rw [es i (by rw [hlen, l1]) j _ hj hp,
      er _ (by rw [List.length_set, hlen]) _ _ (by rw [List.getElem?_set_self hki]) hq,
      et i hlen j ks[ps[j]] hj (by rw [List.getElem?_map, hp]; simp [List.getD_eq_getElem?_getD, hq]), List.set_set]

/-- **C296.** Restricting an axis to all of its indices, in order, changes nothing. -/
theorem c296_all (a : Arr K) (axis : Option Int) (k n : Nat) (hax : Axis a.shape.length axis k)
    (hn : a.shape[k]? = some n) :
    ∃ r, restrict ((List.range n).map (fun p : Nat => (p : Int))) a axis = .ok r ∧ Same r a := by
  obtain ⟨r, hr, sr, er⟩ := c217_restrict a axis k n hax hn ((List.range n).map (fun p : Nat => (p : Int))) (List.range n) (by
    rw [List.forall₂_map_left_iff, List.forall₂_same]
    intro p hp
    exact ⟨List.mem_range.1 hp, Or.inl rfl⟩)
  obtain ⟨hk, rfl⟩ := List.getElem?_eq_some_iff.1 hn
  have hsh : r.shape = a.shape := by
    rw [sr]; simp
  refine ⟨r, hr, hsh, fun i hin => ?_⟩
  rw [hsh] at hin
  obtain ⟨j, hj, hlt⟩ := hin.getElem hn
  rw [er i hin.length_eq j j hj (by simp [hlt])]
  obtain ⟨_, rfl⟩ := List.getElem?_eq_some_iff.1 hj
  simp

section
variable [Field K] [LinearOrder K] [IsStrictOrderedRing K]

/-- **C296.** The bounding indices of a restricted array are the restricted bounding indices, if the restriction is along another
axis. -/
theorem c296_bounds (a : Arr K) (t : K) (axis axis' : Option Int) (k k' n' : Nat) (hax : Axis a.shape.length axis k)
    (hax' : Axis a.shape.length axis' k') (hne : k ≠ k') (hn' : a.shape[k']? = some n') (hpos : ∀ m ∈ a.shape, 0 < m)
    (is : List Int) (ks : List Nat) (hi : List.Forall₂ (Means n') is ks) (his : is ≠ []) :
    ∃ r b s s', restrict is a axis' = .ok r ∧ boundingIndices r t axis = .ok s ∧
      boundingIndices a t axis = .ok b ∧ restrict is b axis' = .ok s' ∧ Same s s' := by
  obtain ⟨r, hr, sr, er⟩ := c217_restrict a axis' k' n' hax' hn' is ks hi
  have l1 : r.shape.length = a.shape.length := by rw [sr, List.length_set]
  have h0 : 0 ∉ a.shape.eraseIdx k := fun h => absurd (hpos 0 (List.mem_of_mem_eraseIdx h)) (lt_irrefl _)
  have h0' : 0 ∉ r.shape.eraseIdx k := by
    intro h
    have h := List.mem_of_mem_eraseIdx h
    rw [sr] at h
    rcases List.mem_or_eq_of_mem_set h with h | h
    · exact absurd (hpos 0 h) (lt_irrefl _)
    · exact his (List.length_eq_zero_iff.1 h.symm)
  have hb := boundingIndices_ok a t axis k hax h0
  obtain ⟨s', hs', ss', es'⟩ := c217_restrict (⟨a.shape.set k 2, fun i =>
      let b := Verif.Numerical.find1dIndices (lineAt a k i) t
      if i.getD k 0 = 0 then b.1 else b.2⟩ : Arr Int) axis' k' n' (by simpa using hax')
    (by simp only; rw [List.getElem?_set_ne hne]; exact hn') is ks hi
  refine ⟨r, _, _, s', hr, boundingIndices_ok r t axis k (by rw [l1]; exact hax) h0', hb, hs', ?_, fun i hin => ?_⟩
  · rw [ss']; simp only; rw [sr, List.set_comm _ _ hne]
  · simp only at hin ⊢
    have hlen : i.length = a.shape.length := by rw [hin.length_eq, List.length_set, l1]
    obtain ⟨j, hj, hlt⟩ := hin.getElem (k := k') (n := is.length)
      (by rw [List.getElem?_set_ne hne, sr, List.getElem?_set_self hax'.1])
    rw [hi.length_eq] at hlt
    have hm : ks[j]? = some ks[j] := List.getElem?_eq_getElem hlt
    rw [es' i (by simp [hlen]) j _ hj hm]
    have hline : lineAt r k i = lineAt a k (i.set k' ks[j]) := by
      unfold lineAt
      have : r.shape.getD k 0 = a.shape.getD k 0 := by
        rw [sr, List.getD_eq_getElem?_getD, List.getElem?_set_ne hne.symm, ← List.getD_eq_getElem?_getD]
      rw [this]
      refine List.map_congr_left fun q _ => ?_
      rw [er _ (by simp [hlen]) j _ (by rw [List.getElem?_set_ne hne]; exact hj) hm, List.set_comm _ _ hne]
    simp only [hline, List.getD_eq_getElem?_getD, List.getElem?_set_ne hne.symm]

end

/-- A table of two rows and three columns. -/
def sampleTable : Arr Rat := ⟨[2, 3], fun i => 10 * i.getD 0 0 + i.getD 1 0⟩

example : Axis sampleTable.shape.length none 1 ∧ Axis sampleTable.shape.length (some 0) 0 ∧
    List.Forall₂ (Means 3) [2, -3] [2, 0] ∧ List.Forall₂ (Means 2) [-1] [1] ∧ Picked [2, -3] [-1, 0, 0] [-3, 2, 2] := by
  refine ⟨by unfold Axis sampleTable; simp, by unfold Axis sampleTable; simp, ?_, ?_, ?_⟩
  · exact .cons (by unfold Means; simp) (.cons (by unfold Means; simp) .nil)
  · exact .cons (by unfold Means; simp) .nil
  · exact .cons ⟨1, by unfold Means; simp⟩ (.cons ⟨0, by unfold Means; simp⟩ (.cons ⟨0, by unfold Means; simp⟩ .nil))

example : (restrict [2, -3] sampleTable none).map (fun r => (r.shape, r.entry [1, 0], r.entry [1, 1])) =
    .ok ([2, 2], 12, 10) := by decide +kernel

end Verif.Helpers
