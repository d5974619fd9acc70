import Verif.Subscripts.Spec
import Verif.Arrays.Lemmas

set_option linter.unusedSimpArgs false

namespace Verif.Subscripts

open Verif.Py Verif.Arrays

variable {K : Type}

/-! ## Blocks of a list -/

theorem chunk_length {k p n : Nat} {es : List K} (h : es.length = n * k) (hp : p < n) :
    (chunk k p es).length = k := by
  unfold chunk
  rw [List.length_take, List.length_drop, h]
  have : (p + 1) * k ≤ n * k := Nat.mul_le_mul_right _ hp
  rw [Nat.add_mul] at this
  omega

theorem chunk_get {k p r : Nat} {es : List K} (hr : r < k) : (chunk k p es)[r]? = es[p * k + r]? := by
  unfold chunk
  rw [List.getElem?_take, if_pos hr, List.getElem?_drop]

theorem flatMap_get {α β : Type} {k r : Nat} (f : α → List β) (hr : r < k) :
    ∀ (ps : List α) (j : Nat), (∀ p ∈ ps, (f p).length = k) → (hj : j < ps.length) →
      (ps.flatMap f)[j * k + r]? = (f ps[j])[r]? := by
  intro ps
  induction ps with
  | nil => intro j _ hj; simp at hj
  | cons p ps ih =>
    intro j hk hj
    have hp := hk p (by simp)
    cases j with
    | zero =>
      simp only [List.flatMap_cons, Nat.zero_mul, Nat.zero_add, List.getElem_cons_zero]
      rw [List.getElem?_append_left (by omega)]
    | succ j =>
      simp only [List.flatMap_cons, List.getElem_cons_succ]
      rw [List.getElem?_append_right (by rw [hp, Nat.add_mul]; omega), hp,
        show (j + 1) * k + r - k = j * k + r by rw [Nat.add_mul]; omega]
      exact ih j (fun q hq => hk q (List.mem_cons_of_mem _ hq)) (by simpa using hj)

/-! ## Entries of a subarray -/

/-- The axes match the shape, and the positions exist. -/
def Match : List Axis → List Nat → Prop
  | [], [] => True
  | .new :: sel, shape => Match sel shape
  | .at p :: sel, n :: shape => p < n ∧ Match sel shape
  | .keep ps :: sel, n :: shape => (∀ p ∈ ps, p < n) ∧ Match sel shape
  | _, _ => False

/-- The shape of the result, with an axis of size one for integers. -/
def keptShape : List Axis → List Nat
  | .new :: sel => 1 :: keptShape sel
  | .at _ :: sel => 1 :: keptShape sel
  | .keep ps :: sel => ps.length :: keptShape sel
  | [] => []

/-- The positions in the array, for positions in the result with the kept axes. -/
def origin : List Axis → List Nat → List Nat
  | .new :: sel, _ :: js => origin sel js
  | .at p :: sel, _ :: js => p :: origin sel js
  | .keep ps :: sel, j :: js => ps.getD j 0 :: origin sel js
  | _, _ => []

/-- Positions in the result with the kept axes. -/
def fill : List Axis → List Nat → List Nat
  | .new :: sel, j :: js => j :: fill sel js
  | .at _ :: sel, js => 0 :: fill sel js
  | .keep _ :: sel, j :: js => j :: fill sel js
  | _, _ => []

theorem prod_kept : ∀ sel : List Axis, (keptShape sel).prod = (outShape sel).prod := by
  intro sel
  induction sel with
  | nil => rfl
  | cons x sel ih => cases x <;> simp [keptShape, outShape, ih]

theorem pick_length : ∀ (sel : List Axis) (shape : List Nat) (es : List K), Match sel shape →
    es.length = shape.prod → (pick sel shape es).length = (keptShape sel).prod := by
  intro sel
  induction sel with
  | nil =>
    intro shape es hm he
    cases shape with
    | nil => simpa [pick, keptShape] using he
    | cons n shape => exact absurd hm id
  | cons x sel ih =>
    intro shape es hm he
    cases x with
    | new => simpa [pick, keptShape] using ih shape es hm he
    | «at» p =>
      cases shape with
      | nil => exact absurd hm id
      | cons n shape =>
        simp only [pick, keptShape, List.prod_cons, Nat.one_mul]
        exact ih shape _ hm.2 (chunk_length (by simpa using he) hm.1)
    | keep ps =>
      cases shape with
      | nil => exact absurd hm id
      | cons n shape =>
        simp only [pick, keptShape, List.prod_cons]
        have h : ∀ p ∈ ps, (pick sel shape (chunk shape.prod p es)).length = (keptShape sel).prod :=
          fun p hp => ih shape _ hm.2 (chunk_length (by simpa using he) (hm.1 p hp))
        rw [List.length_flatMap]
        clear ih he
        have hm1 := hm.1
        clear hm
        induction ps with
        | nil => simp
        | cons p ps ihp =>
          simp only [List.map_cons, List.sum_cons, List.length_cons]
          rw [h p (by simp), ihp (fun q hq => h q (List.mem_cons_of_mem _ hq))
            (fun q hq => hm1 q (List.mem_cons_of_mem _ hq)), Nat.add_mul]
          omega

theorem offset_lt : ∀ {js shape : List Nat}, Spec.Inside js shape → Spec.offset shape js < shape.prod := by
  intro js shape h
  induction h with
  | nil => simp [Spec.offset]
  | @cons j n js shape hjn _ ih =>
    simp only [Spec.offset, List.prod_cons]
    have : (j + 1) * shape.prod ≤ n * shape.prod := Nat.mul_le_mul_right _ hjn
    rw [Nat.add_mul] at this
    omega

theorem inside_origin : ∀ {sel : List Axis} {shape js : List Nat}, Match sel shape →
    Spec.Inside js (keptShape sel) → Spec.Inside (origin sel js) shape := by
  intro sel
  induction sel with
  | nil =>
    intro shape js hm h
    cases shape with
    | nil => cases h; exact .nil
    | cons n shape => exact absurd hm id
  | cons x sel ih =>
    intro shape js hm h
    cases x with
    | new => cases h with | cons h1 h2 => exact ih hm h2
    | «at» p =>
      cases shape with
      | nil => exact absurd hm id
      | cons n shape => cases h with | cons h1 h2 => exact .cons hm.1 (ih hm.2 h2)
    | keep ps =>
      cases shape with
      | nil => exact absurd hm id
      | cons n shape =>
        cases h with
        | @cons j _ js _ h1 h2 =>
          refine .cons ?_ (ih hm.2 h2)
          rw [List.getD_eq_getElem?_getD, List.getElem?_eq_getElem h1]
          exact hm.1 _ (List.getElem_mem h1)

/-- The entries of a subarray are those at the chosen positions. -/
theorem pick_get : ∀ (sel : List Axis) (shape js : List Nat) (es : List K), Match sel shape →
    es.length = shape.prod → Spec.Inside js (keptShape sel) →
    (pick sel shape es)[Spec.offset (keptShape sel) js]? = es[Spec.offset shape (origin sel js)]? := by
  intro sel
  induction sel with
  | nil =>
    intro shape js es hm he h
    cases shape with
    | nil => cases h; rfl
    | cons n shape => exact absurd hm id
  | cons x sel ih =>
    intro shape js es hm he h
    cases x with
    | new =>
      cases h with
      | @cons j _ js _ h1 h2 =>
        have : j = 0 := by omega
        subst this
        simp only [pick, keptShape, Spec.offset, origin, Nat.zero_mul, Nat.zero_add]
        exact ih shape js es hm he h2
    | «at» p =>
      cases shape with
      | nil => exact absurd hm id
      | cons n shape =>
        cases h with
        | @cons j _ js _ h1 h2 =>
          have : j = 0 := by omega
          subst this
          simp only [pick, keptShape, Spec.offset, origin, Nat.zero_mul, Nat.zero_add]
          rw [ih shape js _ hm.2 (chunk_length (by simpa using he) hm.1) h2,
            chunk_get (offset_lt (inside_origin hm.2 h2))]
    | keep ps =>
      cases shape with
      | nil => exact absurd hm id
      | cons n shape =>
        cases h with
        | @cons j _ js _ h1 h2 =>
          simp only [pick, keptShape, Spec.offset, origin]
          have hl : ∀ p ∈ ps, (pick sel shape (chunk shape.prod p es)).length = (keptShape sel).prod :=
            fun p hp => pick_length sel shape _ hm.2 (chunk_length (by simpa using he) (hm.1 p hp))
          rw [flatMap_get _ (offset_lt h2) ps j hl h1]
          have hpj := hm.1 _ (List.getElem_mem h1)
          rw [ih shape js _ hm.2 (chunk_length (by simpa using he) hpj) h2,
            chunk_get (offset_lt (inside_origin hm.2 h2)), List.getD_eq_getElem?_getD,
            List.getElem?_eq_getElem h1]
          rfl

theorem fill_inside : ∀ {sel : List Axis} {js : List Nat}, Spec.Inside js (outShape sel) →
    Spec.Inside (fill sel js) (keptShape sel)
    ∧ Spec.offset (keptShape sel) (fill sel js) = Spec.offset (outShape sel) js := by
  intro sel
  induction sel with
  | nil => intro js h; cases h; exact ⟨.nil, rfl⟩
  | cons x sel ih =>
    intro js h
    cases x with
    | new =>
      cases h with
      | cons h1 h2 =>
        obtain ⟨i1, i2⟩ := ih h2
        exact ⟨.cons h1 i1, by simp only [keptShape, outShape, fill, Spec.offset, i2, prod_kept]⟩
    | «at» p =>
      obtain ⟨i1, i2⟩ := ih h
      exact ⟨.cons Nat.one_pos i1, by
        simp only [keptShape, outShape, fill, Spec.offset, i2, Nat.zero_mul, Nat.zero_add]⟩
    | keep ps =>
      cases h with
      | cons h1 h2 =>
        obtain ⟨i1, i2⟩ := ih h2
        exact ⟨.cons h1 i1, by simp only [keptShape, outShape, fill, Spec.offset, i2, prod_kept]⟩

/-! ## Scaling -/

theorem pick_map {L : Type} (f : K → L) : ∀ (sel : List Axis) (shape : List Nat) (es : List K),
    pick sel shape (es.map f) = (pick sel shape es).map f := by
  have hc : ∀ (k p : Nat) (es : List K), chunk k p (es.map f) = (chunk k p es).map f := by
    intro k p es; simp [chunk, List.map_drop, List.map_take]
  intro sel
  induction sel with
  | nil => intro shape es; cases shape <;> rfl
  | cons x sel ih =>
    intro shape es
    cases x with
    | new => simp only [pick]; exact ih shape es
    | «at» p => cases shape with
      | nil => rfl
      | cons n shape => simp only [pick, hc]; exact ih shape _
    | keep ps => cases shape with
      | nil => rfl
      | cons n shape => simp only [pick, hc, ih, List.map_flatMap]

/-! ## Positions -/

theorem position_ok {n : Nat} {i : Int} (h : -(n : Int) ≤ i ∧ i < n) :
    position n i = .ok (Arrays.Spec.fromStart n i).toNat ∧ (Arrays.Spec.fromStart n i).toNat < n := by
  unfold position Arrays.Spec.fromStart
  simp only
  constructor
  · rw [if_pos]; split <;> omega
  · split <;> omega

theorem position_error {n : Nat} {i : Int} (h : ¬ (-(n : Int) ≤ i ∧ i < n)) :
    position n i = .error .indexError := by
  unfold position
  simp only
  rw [if_neg]
  split <;> omega

theorem sorted_perm_eq {l m : List Int} (h : l.Perm m) (hl : l.Pairwise (· < ·)) (hm : m.Pairwise (· < ·)) :
    l = m :=
  List.Perm.eq_of_pairwise (fun a b _ _ h1 h2 => by omega) hl hm h

theorem positions_chosen {n : Nat} {s : Slice} (h : s.step ≠ some 0) :
    slicePositions n s = .ok (Spec.chosen n s) := by
  obtain ⟨l, hl, hp⟩ := positions_selects s n h
  have hinc : (((List.range n).filter (Arrays.Spec.selects s n)).map Int.ofNat).Pairwise (· < ·) := by
    rw [List.pairwise_map]
    exact (List.pairwise_lt_range.filter _).imp (fun h => by simpa using h)
  have hstep : s.step.getD 1 ≠ 0 := by
    cases hs : s.step with
    | none => simp
    | some x => simpa [hs] using h
  have hback : ∀ m : List Nat, (m.map Int.ofNat).map Int.toNat = m := by
    intro m; rw [List.map_map]; simp [Function.comp_def]
  unfold slicePositions
  rw [hl]
  simp only [bind, Except.bind, pure, Except.pure, Spec.chosen, Except.ok.injEq]
  unfold positions at hl
  simp only at hl
  rw [if_neg hstep] at hl
  by_cases hpos : 0 < s.step.getD 1
  · rw [if_pos hpos, Except.ok.injEq] at hl
    rw [if_neg (by omega), sorted_perm_eq hp (hl ▸ Iterables.pairwise_rangeUp hpos) hinc, hback]
  · rw [if_neg hpos, Except.ok.injEq, rangeDown_eq _ _ _ (by omega)] at hl
    rw [if_pos (by omega)]
    have hdec : l.reverse.Pairwise (· < ·) := by
      rw [List.pairwise_reverse, ← hl, List.pairwise_map]
      exact (Iterables.pairwise_rangeUp (by omega)).imp (fun h => by omega)
    have := sorted_perm_eq ((List.reverse_perm l).trans hp) hdec hinc
    rw [← List.reverse_reverse l, this, List.map_reverse, hback]

theorem positions_step_zero {n : Nat} {s : Slice} (h : s.step = some 0) :
    slicePositions n s = .error .valueError := by
  simp [slicePositions, positions, h, bind, Except.bind]

theorem chosen_lt {n : Nat} {s : Slice} : ∀ p ∈ Spec.chosen n s, p < n := by
  intro p hp
  unfold Spec.chosen at hp
  simp only at hp
  have : p ∈ (List.range n).filter (Arrays.Spec.selects s n) := by
    split at hp
    · exact List.mem_reverse.1 hp
    · exact hp
  exact List.mem_range.1 (List.mem_filter.1 this).1

theorem chosen_full (n : Nat) : Spec.chosen n ⟨none, none, none⟩ = List.range n := by
  have h : slicePositions n ⟨none, none, none⟩ = .ok (List.range n) := by
    simp [slicePositions, positions, rangeUp, bind, Except.bind, pure, Except.pure, Function.comp_def]
  rw [positions_chosen (by simp)] at h
  injection h

/-! ## Axes -/

theorem match_rest : ∀ shape : List Nat,
    Match (shape.map (fun n => Axis.keep (List.range n))) shape
    ∧ outShape (shape.map (fun n => Axis.keep (List.range n))) = shape
    ∧ keptShape (shape.map (fun n => Axis.keep (List.range n))) = shape
    ∧ ∀ js, Spec.Inside js shape →
      origin (shape.map (fun n => Axis.keep (List.range n))) js = js
      ∧ fill (shape.map (fun n => Axis.keep (List.range n))) js = js := by
  intro shape
  induction shape with
  | nil => exact ⟨trivial, rfl, rfl, fun js h => by cases h; exact ⟨rfl, rfl⟩⟩
  | cons n shape ih =>
    obtain ⟨h1, h2, h3, h4⟩ := ih
    refine ⟨⟨fun p hp => List.mem_range.1 hp, h1⟩, by simp [outShape, h2], by simp [keptShape, h3], ?_⟩
    intro js h
    cases h with
    | @cons j _ js _ hj hjs =>
      obtain ⟨i1, i2⟩ := h4 js hjs
      refine ⟨?_, ?_⟩
      · simp only [List.map_cons, origin, i1, List.getD_eq_getElem?_getD]
        rw [List.getElem?_range hj]; rfl
      · simp only [List.map_cons, fill, i2]

/-- What the axes of a valid subscript without lists are. -/
theorem axes_valid : ∀ (xs : List Item) (shape : List Nat), (∀ x ∈ xs, Spec.Basic x) → Spec.Valid shape xs →
    ∃ sel, axes shape xs = .ok sel ∧ Match sel shape ∧ outShape sel = Spec.shapeOf shape xs
      ∧ ∀ js, Spec.Inside js (outShape sel) → origin sel (fill sel js) = Spec.source shape xs js := by
  intro xs
  induction xs with
  | nil =>
    intro shape _ _
    obtain ⟨h1, h2, h3, h4⟩ := match_rest shape
    refine ⟨_, by simp only [axes], h1, by simp only [Spec.shapeOf, h2], fun js hj => ?_⟩
    rw [h2] at hj
    rw [(h4 js hj).2, (h4 js hj).1]
    cases shape <;> rfl
  | cons x xs ih =>
    intro shape hb hv
    have hb' : ∀ y ∈ xs, Spec.Basic y := fun y hy => hb y (List.mem_cons_of_mem _ hy)
    have hx := hb x (by simp)
    cases x with
    | list is => exact absurd hx id
    | numpy i => exact absurd hx id
    | newaxis =>
      obtain ⟨sel, h1, h2, h3, h4⟩ := ih shape hb' (by cases shape <;> exact hv)
      refine ⟨.new :: sel, ?_, h2, ?_, ?_⟩
      · cases shape <;> simp [axes, h1, bind, Except.bind, pure, Except.pure]
      · cases shape <;> simp [outShape, Spec.shapeOf, h3]
      · intro js hj
        cases hj with
        | cons hj hjs => cases shape <;> simp only [fill, origin, Spec.source, h4 _ hjs]
    | ellipsis =>
      cases shape with
      | nil => exact absurd hv id
      | cons n shape => exact absurd hv.1 id
    | int i =>
      cases shape with
      | nil => exact absurd hv id
      | cons n shape =>
        obtain ⟨sel, h1, h2, h3, h4⟩ := ih shape hb' hv.2
        obtain ⟨p1, p2⟩ := position_ok hv.1
        refine ⟨.at _ :: sel, by simp [axes, p1, h1, bind, Except.bind, pure, Except.pure],
          ⟨p2, h2⟩, by simp [outShape, Spec.shapeOf, h3], ?_⟩
        intro js hj
        simp only [fill, origin, Spec.source, h4 js hj]
    | slice s =>
      cases shape with
      | nil => exact absurd hv id
      | cons n shape =>
        obtain ⟨sel, h1, h2, h3, h4⟩ := ih shape hb' hv.2
        refine ⟨.keep _ :: sel, by
          simp [axes, positions_chosen hv.1, h1, bind, Except.bind, pure, Except.pure]; rfl,
          ⟨chosen_lt, h2⟩, by simp [outShape, Spec.shapeOf, h3], ?_⟩
        intro js hj
        cases hj with
        | cons hj hjs => simp only [fill, origin, Spec.source, h4 _ hjs]

/-- A subscript that is not valid is refused. -/
theorem axes_invalid : ∀ (xs : List Item) (shape : List Nat), (∀ x ∈ xs, Spec.Basic x) →
    ¬ Spec.Valid shape xs → ∃ e, axes shape xs = .error e := by
  intro xs
  induction xs with
  | nil => intro shape _ h; exact absurd trivial h
  | cons x xs ih =>
    intro shape hb hv
    have hb' : ∀ y ∈ xs, Spec.Basic y := fun y hy => hb y (List.mem_cons_of_mem _ hy)
    have hx := hb x (by simp)
    cases x with
    | list is => exact absurd hx id
    | numpy i => exact absurd hx id
    | newaxis =>
      obtain ⟨e, he⟩ := ih shape hb' (by intro h; exact hv (by cases shape <;> exact h))
      exact ⟨e, by cases shape <;> simp [axes, he, bind, Except.bind]⟩
    | ellipsis => cases shape <;> exact ⟨_, rfl⟩
    | int i =>
      cases shape with
      | nil => exact ⟨_, rfl⟩
      | cons n shape =>
        by_cases hi : -(n : Int) ≤ i ∧ i < n
        · obtain ⟨e, he⟩ := ih shape hb' (fun h => hv ⟨hi, h⟩)
          exact ⟨e, by simp [axes, (position_ok hi).1, he, bind, Except.bind]⟩
        · exact ⟨_, by simp only [axes, position_error hi, bind, Except.bind]; rfl⟩
    | slice s =>
      cases shape with
      | nil => exact ⟨_, rfl⟩
      | cons n shape =>
        by_cases hs : s.step = some 0
        · exact ⟨_, by simp only [axes, positions_step_zero hs, bind, Except.bind]; rfl⟩
        · obtain ⟨e, he⟩ := ih shape hb' (fun h => hv ⟨hs, h⟩)
          exact ⟨e, by simp [axes, positions_chosen hs, he, bind, Except.bind]⟩

theorem mapM_position {n : Nat} : ∀ {is : List Int}, (∀ i ∈ is, -(n : Int) ≤ i ∧ i < n) →
    is.mapM (position n) = .ok (is.map (fun i => (Arrays.Spec.fromStart n i).toNat)) := by
  intro is
  induction is with
  | nil => intro _; rfl
  | cons i is ih =>
    intro h
    rw [List.mapM_cons, (position_ok (h i (by simp))).1, ih (fun j hj => h j (List.mem_cons_of_mem _ hj))]
    rfl

/-! ## Ellipsis -/

theorem spread_none {ndim : Nat} {xs : List Item} (h : .ellipsis ∉ xs) : spread ndim xs = .ok xs := by
  unfold spread
  rw [List.count_eq_zero.2 h]
  rfl

theorem spread_stands {ndim : Nat} {xs ys : List Item} (h : Spec.Stands ndim xs ys) :
    spread ndim xs = .ok ys := by
  rcases h with ⟨h, rfl⟩ | ⟨pre, post, k, rfl, h1, h2, rfl, h3⟩
  · exact spread_none h
  · unfold spread
    have hc : (pre ++ Item.ellipsis :: post).count .ellipsis = 1 := by
      rw [List.count_append, List.count_cons_self, List.count_eq_zero.2 h1, List.count_eq_zero.2 h2]
    have hi : (pre ++ Item.ellipsis :: post).idxOf .ellipsis = pre.length := by
      rw [List.idxOf_append_of_notMem h1, List.idxOf_cons_self, Nat.add_zero]
    rw [hc]
    simp only [hi]
    have hm : ((pre ++ Item.ellipsis :: post).filter (fun x => x ≠ .ellipsis ∧ x ≠ .newaxis)).length + k
        = ndim := by
      rw [← h3]
      unfold Spec.mentioned
      have hf : ∀ l : List Item, .ellipsis ∉ l →
          l.filter (fun x => x ≠ .ellipsis ∧ x ≠ .newaxis) = l.filter (fun x => x ≠ .newaxis) := by
        intro l hl
        apply List.filter_congr
        intro x hx
        have : x ≠ .ellipsis := fun e => hl (e ▸ hx)
        simp [this]
      have hr : ((List.replicate k Item.full).filter (fun x => x ≠ .newaxis)).length = k := by
        rw [List.filter_eq_self.2]
        · simp
        · intro x hx
          rw [List.eq_of_mem_replicate hx]
          simp [Item.full]
      simp only [List.filter_append, List.length_append, List.filter_cons, hf pre h1, hf post h2, hr]
      simp
      omega
    rw [show ndim - ((pre ++ Item.ellipsis :: post).filter
      (fun x => x ≠ .ellipsis ∧ x ≠ .newaxis)).length = k by omega]
    rw [List.take_left, show pre ++ Item.ellipsis :: post = (pre ++ [Item.ellipsis]) ++ post by simp,
      show pre.length + 1 = (pre ++ [Item.ellipsis]).length by simp, List.drop_left]

theorem stands_basic {ndim : Nat} {xs ys : List Item} (h : Spec.Stands ndim xs ys)
    (hb : ∀ x ∈ xs, Spec.Basic x) : ∀ y ∈ ys, Spec.Basic y := by
  rcases h with ⟨_, rfl⟩ | ⟨pre, post, k, rfl, _, _, rfl, _⟩
  · exact hb
  · intro y hy
    simp only [List.mem_append] at hy
    rcases hy with (hy | hy) | hy
    · exact hb y (by simp [hy])
    · rw [List.eq_of_mem_replicate hy]; trivial
    · exact hb y (by simp [hy])

end Verif.Subscripts
