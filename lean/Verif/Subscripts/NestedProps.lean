import Verif.Subscripts.Props

/-!
# Property C291: one subscript after the other
-/

set_option linter.unusedSimpArgs false

namespace Verif.Subscripts

open Verif.Py Verif.Arrays

variable {K U N : Type}

theorem flatMap_chunk (k : Nat) : ∀ (n : Nat) (es : List K), es.length = n * k → (List.range n).flatMap (fun p => chunk k p es) = es
  | 0, es, h => by
    have : es = [] := List.eq_nil_of_length_eq_zero (by simpa using h)
    simp [this]
  | n + 1, es, h => by
    rw [List.range_succ, List.flatMap_append, List.flatMap_singleton]
    have ih := flatMap_chunk k n (es.take (n * k)) (by rw [List.length_take, h, Nat.succ_mul]; omega)
    have hc : (List.range n).flatMap (fun p => chunk k p es) = (List.range n).flatMap (fun p => chunk k p (es.take (n * k))) := by
      refine List.flatMap_congr (fun p hp => ?_)
      have hp := List.mem_range.1 hp
      have : p * k + k ≤ n * k := by rw [← Nat.succ_mul]; exact Nat.mul_le_mul_right k hp
      unfold chunk
      rw [List.drop_take, List.take_take, Nat.min_eq_left (by omega)]
    rw [hc, ih]
    unfold chunk
    rw [List.take_of_length_le (l := es.drop (n * k)) (by rw [List.length_drop, h, Nat.succ_mul]; omega), List.take_append_drop]

theorem pick_whole : ∀ (shape : List Nat) (es : List K), es.length = shape.prod →
    pick (shape.map (fun n => Axis.keep (List.range n))) shape es = es
  | [], es, _ => rfl
  | n :: shape, es, h => by
    rw [List.prod_cons] at h
    simp only [List.map_cons, pick]
    rw [← flatMap_chunk shape.prod n es h]
    refine List.flatMap_congr (fun p hp => ?_)
    rw [flatMap_chunk shape.prod n es h]
    exact pick_whole shape _ (chunk_length h (List.mem_range.1 hp))

theorem spread_cons (ndim : Nat) (i : Int) (xs : List Item) :
    spread (ndim + 1) (.int i :: xs) = (spread ndim xs).map (.int i :: ·) := by
  unfold spread
  rw [List.count_cons_of_ne (by simp)]
  generalize hc : xs.count .ellipsis = c
  rcases c with _ | _ | n
  · rfl
  · simp [Except.map, List.idxOf_cons]
  · rfl

theorem spread_error {ndim : Nat} {xs : List Item} {e : Err} (h : spread ndim xs = .error e) : e = .indexError := by
  unfold spread at h
  split at h
  · cases h
  · cases h
  · cases h; rfl

theorem position_cases (n : Nat) (i : Int) : position n i = .error .indexError ∨ ∃ p, position n i = .ok p ∧ p < n := by
  by_cases h : -(n : Int) ≤ i ∧ i < n
  · exact .inr ⟨_, position_ok h⟩
  · exact .inl (position_error h)

theorem nd_int {a : Nd K} {n : Nat} {shape : List Nat} (hs : a.shape = n :: shape) (i : Int) (xs : List Item) :
    a.get (.int i :: xs) = (position n i).bind (fun p => Nd.get ⟨shape, chunk shape.prod p a.entries⟩ xs) := by
  unfold Nd.get
  rw [hs, List.length_cons, spread_cons]
  cases hsp : spread shape.length xs with
  | error e =>
    cases spread_error hsp
    rcases position_cases n i with h | ⟨p, h, -⟩
    · simp only [h, Except.map, bind, Except.bind]
    · simp only [h, hsp, Except.map, bind, Except.bind]
  | ok ys =>
    rcases position_cases n i with h | ⟨p, h, -⟩
    · simp only [h, Except.map, bind, Except.bind, axes]
    · simp only [h, hsp, Except.map, bind, Except.bind, axes]
      cases axes shape ys with
      | error e => rfl
      | ok sel => rfl

theorem nd_all {a : Nd K} (ha : Spec.Whole a) : a.get [] = .ok a := by
  unfold Nd.get
  have h0 : spread a.shape.length [] = .ok [] := rfl
  simp only [h0, bind, Except.bind, axes, pure, Except.pure]
  rw [pick_whole a.shape a.entries ha, (match_rest a.shape).2.1]

/-- The part of a numpy array at a position of the first axis. -/
theorem nd_part {a : Nd K} (ha : Spec.Whole a) {n : Nat} {shape : List Nat} (hs : a.shape = n :: shape) (i : Int) :
    a.get [.int i] = (position n i).map (fun p => ⟨shape, chunk shape.prod p a.entries⟩) := by
  rw [nd_int hs]
  rcases position_cases n i with h | ⟨p, h, hp⟩
  · simp [h, Except.bind, Except.map]
  · simp only [h, Except.bind, Except.map]
    apply nd_all
    exact chunk_length (by rw [ha, hs, List.prod_cons]) hp

/-- Subscripting what a subscript gave (`src/goats/core/physical.py:330-373`). Simplified: a scalar has no entries; its `[unit]`
is not in question here. -/
def Got.get [Mul K] [One K] (g : Got K U N) (s : Sub) : Res (Got K U N) :=
  match g with
  | .array a => a.get s
  | .scalar _ _ _ => .error .typeError

/-- **C291 (part).** For an array of two axes or more: subscripting with a position and then with further integers, slices, `...`
and `None` gives the same as subscripting with all of them at once, for all arrays and subscripts; the same values, unit and name,
or the same exception. Missing: `None` on its own. -/
theorem c291_partial [MulOneClass K] (a : Arr K U N) (ha : Spec.Whole a.base) (n m : Nat) (shape : List Nat)
    (hs : a.base.shape = n :: m :: shape) (i : Int) (xs : List Item) (s : Sub) (hw : Spec.Written xs s)
    (hb : ∀ x ∈ xs, Spec.Basic x) (hn : xs ≠ [.newaxis]) :
    (a.get (.one (.int i))).bind (fun g => g.get s) = a.get (.many (.int i :: xs)) := by
  have h1 : a.get (.one (.int i)) = (a.base.get [.int i]).map (fun r => wrap (r.smul a.scale) a.unit a.name) :=
    written_get (.inr ⟨_, rfl, rfl⟩) (by simp [Spec.Basic]) (by simp) (by simp)
  have h2 : a.get (.many (.int i :: xs)) = (a.base.get (.int i :: xs)).map (fun r => wrap (r.smul a.scale) a.unit a.name) :=
    written_get (.inl rfl) (by
      intro x hx
      rcases List.mem_cons.1 hx with rfl | hx
      · trivial
      · exact hb x hx) (by simp) (by simp)
  rw [h1, h2, nd_part ha hs, nd_int hs]
  rcases position_cases n i with h | ⟨p, h, hp⟩
  · simp [h, Except.bind, Except.map]
  · simp only [h, Except.bind, Except.map]
    have hw2 : wrap (Nd.smul a.scale ⟨m :: shape, chunk (m :: shape).prod p a.base.entries⟩) a.unit a.name =
        .array ⟨Nd.smul a.scale ⟨m :: shape, chunk (m :: shape).prod p a.base.entries⟩, 1, a.unit, a.name⟩ := rfl
    rw [hw2]
    have hwh : Spec.Whole (⟨m :: shape, chunk (m :: shape).prod p a.base.entries⟩ : Nd K) :=
      chunk_length (by rw [ha, hs, List.prod_cons]) hp
    show Arr.get _ s = _
    by_cases hx : xs = []
    · subst hx
      have : s = .many [] := by
        rcases hw with rfl | ⟨x, hx, -⟩
        · rfl
        · cases hx
      subst this
      rw [nd_all hwh]
      show Except.ok (wrap (Nd.smul 1 (Nd.smul a.scale _)) a.unit a.name) = _
      rw [one_smul']
    · rw [written_get hw hb hn hx]
      simp only
      rw [get_smul]
      cases Nd.get ⟨m :: shape, chunk (m :: shape).prod p a.base.entries⟩ xs with
      | error e => rfl
      | ok r =>
        simp only [Except.map]
        rw [one_smul']

/-- The chunks of a selection of chunks. -/
theorem chunk_flatMap {k : Nat} (ps : List Nat) (es : List K) (hk : ∀ p ∈ ps, (chunk k p es).length = k) (j : Nat) (hj : j < ps.length) :
    chunk k j (ps.flatMap (fun p => chunk k p es)) = chunk k ps[j] es := by
  apply List.ext_getElem?
  intro r
  by_cases hr : r < k
  · rw [chunk_get hr, flatMap_get (fun p => chunk k p es) hr ps j hk hj]
  · rw [List.getElem?_eq_none, List.getElem?_eq_none]
    · unfold chunk; rw [List.length_take]; omega
    · unfold chunk; rw [List.length_take]; omega

theorem nd_slice {a : Nd K} (ha : Spec.Whole a) {n : Nat} {shape : List Nat} (hs : a.shape = n :: shape) (sl : Slice)
    (hz : sl.step ≠ some 0) :
    a.get [.slice sl] = .ok ⟨(Spec.chosen n sl).length :: shape,
      (Spec.chosen n sl).flatMap (fun p => chunk shape.prod p a.entries)⟩ := by
  unfold Nd.get
  have h0 : spread a.shape.length [Item.slice sl] = .ok [.slice sl] := spread_none (by simp)
  rw [h0, hs]
  simp only [bind, Except.bind, axes, positions_chosen hz, pure, Except.pure, outShape, (match_rest shape).2.1, pick]
  congr 2
  refine List.flatMap_congr (fun p hp => ?_)
  exact pick_whole shape _ (chunk_length (by rw [ha, hs, List.prod_cons]) (chosen_lt p hp))

/-- **C291 (part).** For every array, every slice and every position among those that the slice selects, counted from the start or
from the end: the entry (or part) of the sliced array at that position is the entry of the array at the position that the slice
selects there, also with further subscripts. -/
theorem c291_slice [MulOneClass K] (a : Arr K U N) (ha : Spec.Whole a.base) (n : Nat) (shape : List Nat) (hs : a.base.shape = n :: shape)
    (sl : Slice) (hz : sl.step ≠ some 0) (j : Int) (p : Nat) (hj : position (Spec.chosen n sl).length j = .ok p) (xs : List Item)
    (hb : ∀ x ∈ xs, Spec.Basic x) :
    (a.get (.one (.slice sl))).bind (fun g => g.get (.many (.int j :: xs))) =
      a.get (.many (.int ((Spec.chosen n sl).getD p 0) :: xs)) := by
  have hp : p < (Spec.chosen n sl).length := by
    rcases position_cases (Spec.chosen n sl).length j with h | ⟨q, h, hq⟩
    · rw [hj] at h; cases h
    · rw [hj] at h; cases h; exact hq
  have hbi : ∀ i : Int, ∀ x ∈ Item.int i :: xs, Spec.Basic x := by
    intro i x hx
    rcases List.mem_cons.1 hx with rfl | hx
    · trivial
    · exact hb x hx
  have h1 : a.get (.one (.slice sl)) = (a.base.get [.slice sl]).map (fun r => wrap (r.smul a.scale) a.unit a.name) :=
    written_get (.inr ⟨_, rfl, rfl⟩) (by simp [Spec.Basic]) (by simp) (by simp)
  have hget : (Spec.chosen n sl).getD p 0 = (Spec.chosen n sl)[p] := by simp [List.getD, hp]
  have hq : (Spec.chosen n sl)[p] < n := chosen_lt _ (List.getElem_mem hp)
  have hpos : position n ((Spec.chosen n sl).getD p 0 : Nat) = .ok (Spec.chosen n sl)[p] := by
    rw [hget]
    unfold position
    simp only
    rw [if_neg (by omega : ¬ (((Spec.chosen n sl)[p] : Nat) : Int) < 0), if_pos (by omega)]
    simp
  rw [written_get (.inl rfl) (hbi _) (by simp) (by simp), nd_int hs, hpos, h1, nd_slice ha hs sl hz]
  simp only [Except.map, Except.bind]
  show Arr.get ⟨Nd.smul a.scale _, 1, a.unit, a.name⟩ _ = _
  rw [written_get (.inl rfl) (hbi _) (by simp) (by simp)]
  simp only
  rw [get_smul, nd_int rfl, hj]
  simp only [Except.bind]
  rw [chunk_flatMap _ _ (fun q hq => chunk_length (by rw [ha, hs, List.prod_cons]) (chosen_lt q hq)) p hp]
  cases Nd.get ⟨shape, chunk shape.prod (Spec.chosen n sl)[p] a.base.entries⟩ xs with
  | error e => rfl
  | ok r => simp only [Except.map, one_smul']

/-- **C291 fails in the code** for `None` on its own: `a[0][None]` has the shape of `a[0]`, but `a[0, None]` has a new axis. -/
theorem c291_counterexample :
    let a : Arr Int String String := ⟨⟨[2, 3], [1, 2, 3, 4, 5, 6]⟩, 10, "m", "r"⟩
    (a.get (.one (.int 0))).bind (fun g => g.get (.one .newaxis)) = .ok (.array ⟨⟨[3], [10, 20, 30]⟩, 1, "m", "r"⟩)
    ∧ a.get (.many [.int 0, .newaxis]) = .ok (.array ⟨⟨[1, 3], [10, 20, 30]⟩, 1, "m", "r"⟩) := by decide +kernel

example :
    let a : Arr Int String String := ⟨⟨[2, 3], [1, 2, 3, 4, 5, 6]⟩, 10, "m", "r"⟩
    (a.get (.one (.int (-1)))).bind (fun g => g.get (.one (.int 1))) = .ok (.scalar 50 "m" "r")
    ∧ (a.get (.one (.int (-1)))).bind (fun g => g.get (.one (.int 1))) = a.get (.many [.int (-1), .int 1])
    ∧ (a.get (.one (.slice ⟨none, none, some (-1)⟩))).bind (fun g => g.get (.many [.int 0, .slice ⟨some 1, none, none⟩])) =
      .ok (.array ⟨⟨[2], [50, 60]⟩, 1, "m", "r"⟩) := by
  intro a
  exact ⟨by decide +kernel, c291_partial a rfl 2 3 [] rfl (-1) [.int 1] _ (.inr ⟨_, rfl, rfl⟩) (by simp [Spec.Basic]) (by simp),
    by decide +kernel⟩

example :
    let a : Arr Int String String := ⟨⟨[4], [1, 2, 3, 4]⟩, 10, "m", "r"⟩
    (a.get (.one (.slice ⟨some 1, none, some 2⟩))).bind (fun g => g.get (.many [.int (-1)])) = a.get (.many [.int 3]) := by
  intro a
  exact c291_slice a rfl 4 [] rfl ⟨some 1, none, some 2⟩ (by simp) (-1) 1 (by decide +kernel) [] (by simp)

end Verif.Subscripts
