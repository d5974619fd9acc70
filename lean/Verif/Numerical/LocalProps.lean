import Verif.Numerical.UnitProps

/-!
# Property C284: an interpolated value depends only on its neighbours, and a grid can be refined along the line
-/

set_option linter.unusedSimpArgs false
set_option linter.unusedSectionVars false

namespace Verif.Numerical

open Verif.Py

variable {K : Type} [Field K] [LinearOrder K] [IsStrictOrderedRing K]

/-- Interpolation of the values at given points. -/
def atPoints (ps : List (K × K)) (t : K) (axis : Bool) : Res K := applyOne (ps.map (·.2)) (ps.map (·.1)) t axis

/-- The points are in strictly ascending order. -/
def Ascending (ps : List (K × K)) : Prop := (ps.map (·.1)).Pairwise (· < ·)

theorem line_left (x0 y0 x1 y1 : K) : line x0 y0 x1 y1 x0 = y0 := by simp [line]

theorem line_right {x0 x1 : K} (h : x0 < x1) (y0 y1 : K) : line x0 y0 x1 y1 x1 = y1 := by
  have : x1 - x0 ≠ 0 := (sub_pos.2 h).ne'
  unfold line
  field_simp
  ring

/-- Between two neighbours the value is on the line through them. -/
theorem atPoints_between (a b : List (K × K)) (p q : K × K) (hs : Ascending (a ++ p :: q :: b)) (t : K) (axis : Bool)
    (h0 : p.1 ≤ t) (h1 : t ≤ q.1) : atPoints (a ++ p :: q :: b) t axis = .ok (line p.1 p.2 q.1 q.2 t) := by
  obtain ⟨c1, c2, -⟩ := (c92_partial (K := K)).1 ((a ++ p :: q :: b).map Prod.snd) ((a ++ p :: q :: b).map Prod.fst) t axis (by simp) hs
  have hpq : p.1 < q.1 := by
    have := hs
    unfold Ascending at this
    rw [List.map_append, List.pairwise_append] at this
    simpa using (List.pairwise_cons.1 this.2.1).1 q.1 (by simp)
  have hlen : a.length + 1 < ((a ++ p :: q :: b).map (·.1)).length := by simp
  have e0 : ((a ++ p :: q :: b).map (·.1))[a.length]'(by omega) = p.1 := by simp
  have e1 : ((a ++ p :: q :: b).map (·.1))[a.length + 1] = q.1 := by
    simp [List.getElem_append_right]
  have f0 : ((a ++ p :: q :: b).map (·.2))[a.length]'(by simp) = p.2 := by simp
  have f1 : ((a ++ p :: q :: b).map (·.2))[a.length + 1]'(by simp) = q.2 := by
    simp [List.getElem_append_right]
  unfold atPoints
  rcases h0.lt_or_eq with h0 | h0
  · rcases h1.lt_or_eq with h1 | h1
    · rw [c2 a.length hlen (by simp) (by rw [e0]; exact h0) (by rw [e1]; exact h1), e0, e1, f0, f1]
    · rw [c1 (a.length + 1) hlen (by simp) (by rw [e1, h1]), f1, h1, line_right hpq]
  · rw [c1 a.length (by simp) (by simp) (by rw [e0, h0]), f0, ← h0, line_left]

theorem bracket_below (a : List (K × K)) (p : K × K) (t : K) (ht : t < p.1) :
    (∃ c d q r, a ++ [p] = c ++ q :: r :: d ∧ q.1 ≤ t ∧ t ≤ r.1) ∨ ∀ s ∈ (a ++ [p]).head?, t < s.1 := by
  induction a with
  | nil => right; simpa using ht
  | cons x a ih =>
    by_cases hx : t < x.1
    · right; simpa using hx
    · left
      rcases ih with ⟨c, d, q, r, e, h⟩ | h
      · exact ⟨x :: c, d, q, r, by simp [e], h⟩
      · cases a with
        | nil => exact ⟨[], [], x, p, rfl, not_lt.1 hx, ht.le⟩
        | cons y a => exact ⟨[], a ++ [p], x, y, rfl, not_lt.1 hx, (h y (by simp)).le⟩

theorem bracket_above (p : K × K) (b : List (K × K)) (t : K) (ht : p.1 < t) :
    (∃ c d q r, p :: b = c ++ q :: r :: d ∧ q.1 ≤ t ∧ t ≤ r.1) ∨ ∀ s ∈ (p :: b).getLast?, s.1 < t := by
  induction b generalizing p with
  | nil => right; simpa using ht
  | cons x b ih =>
    by_cases hx : x.1 < t
    · rcases ih x hx with ⟨c, d, q, r, e, h⟩ | h
      · left; exact ⟨p :: c, d, q, r, by simp [e], h⟩
      · right; simpa [List.getLast?_cons_cons] using h
    · left; exact ⟨[], b, p, x, rfl, ht.le, not_lt.1 hx⟩

/-- Outside of a grid of two points or more. -/
theorem atPoints_below (ps : List (K × K)) (hs : Ascending ps) (h2 : 2 ≤ ps.length) (p : K × K) (hp : ps.head? = some p) (t : K)
    (ht : t < p.1) (axis : Bool) : atPoints ps t axis = if axis then .ok p.2 else .error .valueError := by
  obtain ⟨-, -, c3, -, c5⟩ := (c92_partial (K := K)).1 (ps.map Prod.snd) (ps.map Prod.fst) t axis (by simp) hs
  obtain ⟨l, rfl⟩ : ∃ l, ps = p :: l := by
    cases ps with
    | nil => simp at hp
    | cons x l => exact ⟨l, by simp at hp; rw [hp]⟩
  cases axis with
  | true => exact c3 (by simp) (by simp) (by simpa using ht)
  | false => exact c5 (by simp) (by simpa using h2) (Or.inl (by simpa using ht))

theorem atPoints_above (ps : List (K × K)) (hs : Ascending ps) (h2 : 2 ≤ ps.length) (p : K × K) (hp : ps.getLast? = some p) (t : K)
    (ht : p.1 < t) (axis : Bool) : atPoints ps t axis = if axis then .ok p.2 else .error .valueError := by
  obtain ⟨-, -, -, c4, c5⟩ := (c92_partial (K := K)).1 (ps.map Prod.snd) (ps.map Prod.fst) t axis (by simp) hs
  obtain ⟨l, rfl⟩ : ∃ l, ps = l ++ [p] := by
    rw [List.getLast?_eq_some_iff] at hp
    exact hp
  cases axis with
  | true =>
    have := c4 (by simp) (by simp) (by simpa using ht)
    unfold atPoints
    rw [this]
    simp
  | false => exact c5 (by simp) (by simpa using h2) (Or.inr (by simpa using ht))

/-- **C284, neighbours.** Whatever the other points of two grids, a target from one point to the next gives the same value in both, if these
two are neighbours in both. -/
theorem c284_neighbours (a b a' b' : List (K × K)) (p q : K × K) (hs : Ascending (a ++ p :: q :: b))
    (hs' : Ascending (a' ++ p :: q :: b')) (t : K) (h0 : p.1 ≤ t) (h1 : t ≤ q.1) (axis axis' : Bool) :
    ∃ v, atPoints (a ++ p :: q :: b) t axis = .ok v ∧ atPoints (a' ++ p :: q :: b') t axis' = .ok v :=
  ⟨_, atPoints_between a b p q hs t axis h0 h1, atPoints_between a' b' p q hs' t axis' h0 h1⟩

/-- **C284, refinement.** A further point on the line between two neighbours changes the result for no target at all. -/
theorem c284_refine (a b : List (K × K)) (p q : K × K) (x : K) (hs : Ascending (a ++ p :: (x, line p.1 p.2 q.1 q.2 x) :: q :: b)) (t : K)
    (axis : Bool) : atPoints (a ++ p :: (x, line p.1 p.2 q.1 q.2 x) :: q :: b) t axis = atPoints (a ++ p :: q :: b) t axis := by
  have hs0 : Ascending (a ++ p :: q :: b) := by
    refine List.Pairwise.sublist ?_ hs
    exact (List.Sublist.append_left ((List.sublist_cons_self _ _).cons_cons p) a).map _
  have hpx : p.1 < x ∧ x < q.1 := by
    have := hs
    unfold Ascending at this
    rw [List.map_append, List.pairwise_append] at this
    have := this.2.1
    simp only [List.map_cons, List.pairwise_cons] at this
    exact ⟨this.1 x (by simp), this.2.1 q.1 (by simp)⟩
  have hpq := hpx.1.trans hpx.2
  rcases lt_or_ge t p.1 with ht | ht
  · rcases bracket_below a p t ht with ⟨c, d, r, s, e, h0, h1⟩ | h
    · have e1 : a ++ p :: q :: b = c ++ r :: s :: (d ++ q :: b) := by
        rw [show a ++ p :: q :: b = (a ++ [p]) ++ q :: b by simp, e]; simp
      have e2 : ∀ z, a ++ p :: z :: q :: b = c ++ r :: s :: (d ++ z :: q :: b) := fun z => by
        rw [show a ++ p :: z :: q :: b = (a ++ [p]) ++ z :: q :: b by simp, e]; simp
      rw [e1] at hs0
      rw [e2] at hs
      rw [e1, e2, atPoints_between _ _ _ _ hs t axis h0 h1, atPoints_between _ _ _ _ hs0 t axis h0 h1]
    · obtain ⟨f, hf⟩ : ∃ f, (a ++ [p]).head? = some f := by cases a <;> exact ⟨_, rfl⟩
      have hf' : ∀ l, (a ++ p :: l).head? = some f := fun l => by
        rw [← hf]; cases a <;> rfl
      rw [atPoints_below _ hs (by simp; omega) f (hf' _) t (h f hf), atPoints_below _ hs0 (by simp; omega) f (hf' _) t (h f hf)]
  · rcases le_or_gt t q.1 with ht' | ht'
    · rw [atPoints_between a b p q hs0 t axis ht ht']
      have hd : q.1 - p.1 ≠ 0 := (sub_pos.2 hpq).ne'
      rcases le_or_gt t x with hx | hx
      · rw [atPoints_between a (q :: b) p _ hs t axis ht hx]
        have hd' : x - p.1 ≠ 0 := (sub_pos.2 hpx.1).ne'
        simp only [line]
        congr 1
        field_simp
        ring
      · have e : a ++ p :: (x, line p.1 p.2 q.1 q.2 x) :: q :: b = (a ++ [p]) ++ (x, line p.1 p.2 q.1 q.2 x) :: q :: b := by simp
        rw [e] at hs ⊢
        rw [atPoints_between (a ++ [p]) b _ q hs t axis hx.le ht']
        have hd' : q.1 - x ≠ 0 := (sub_pos.2 hpx.2).ne'
        simp only [line]
        congr 1
        field_simp
        ring
    · rcases bracket_above q b t ht' with ⟨c, d, r, s, e, h0, h1⟩ | h
      · have e1 : ∀ l : List (K × K), l ++ q :: b = (l ++ c) ++ r :: s :: d := fun l => by rw [e]; simp
        have k1 : a ++ p :: q :: b = (a ++ [p]) ++ q :: b := by simp
        have k2 : ∀ z, a ++ p :: z :: q :: b = (a ++ [p, z]) ++ q :: b := fun z => by simp
        rw [k1, e1] at hs0
        rw [k2, e1] at hs
        rw [k1, k2, e1, e1, atPoints_between _ _ _ _ hs t axis h0 h1, atPoints_between _ _ _ _ hs0 t axis h0 h1]
      · obtain ⟨f, hf⟩ : ∃ f, (q :: b).getLast? = some f := ⟨_, List.getLast?_eq_some_getLast (by simp)⟩
        have hf' : ∀ l, (l ++ q :: b).getLast? = some f := fun l => by
          rw [List.getLast?_append_of_ne_nil _ (by simp), hf]
        have k1 : a ++ p :: q :: b = (a ++ [p]) ++ q :: b := by simp
        have k2 : ∀ z, a ++ p :: z :: q :: b = (a ++ [p, z]) ++ q :: b := fun z => by simp
        have g1 : (a ++ p :: q :: b).getLast? = some f := by rw [k1]; exact hf' _
        have g2 : ∀ z, (a ++ p :: z :: q :: b).getLast? = some f := fun z => by rw [k2]; exact hf' _
        rw [atPoints_above _ hs (by simp; omega) f (g2 _) t (h f hf), atPoints_above _ hs0 (by simp; omega) f g1 t (h f hf)]

example : atPoints [((1 : Rat), 10), (2, 20), (4, 40), (8, 0)] 3 true = .ok 30 ∧
    atPoints [((0 : Rat), 77), (2, 20), (4, 40)] 3 false = .ok 30 ∧
    atPoints [((1 : Rat), 10), (2, 20), (4, 40), (5, 30), (8, 0)] 7 true = .ok 10 ∧
    atPoints [((1 : Rat), 10), (2, 20), (4, 40), (8, 0)] 7 true = .ok 10 := by decide +kernel

end Verif.Numerical
