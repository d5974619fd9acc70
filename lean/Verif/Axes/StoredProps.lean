import Verif.Axes.Stored
import Verif.Axes.Props
import Verif.Subscripts.Props

/-!
# C254: observing at the points of the grid gives the values that are stored
-/

set_option linter.unusedSimpArgs false

namespace Verif.Axes

open Verif.Py Verif.Iterables Verif.Measurable Verif.Subscripts
open Verif.Metric (Str)

variable {U N : Type}

/-- The positions of one entry of the observation in the array: along each axis, the one that the index has there. -/
def sources : List Nat → List Along → List Nat → List Nat
  | n :: shape, x :: xs, j :: js => (Arrays.Spec.fromStart n (x.points.getD j 0)).toNat :: sources shape xs js
  | _, _, _ => []

/-- One index for each axis, with positions that exist there. -/
def Suits : List Nat → List Along → Prop
  | n :: shape, x :: xs => (x.array = false ∧ ∀ i ∈ x.points, -(n : Int) ≤ i ∧ i < n) ∧ Suits shape xs
  | [], [] => True
  | _, _ => False

/-- Every value with a unit is on its axis. -/
def OnGrid : List (List Rat) → List Along → Prop
  | c :: cs, x :: xs => (x.unit = true → ∀ v ∈ x.values.numbers, v ∈ c) ∧ OnGrid cs xs
  | _, _ => True

theorem onGrid_needed : ∀ (cs : List (List Rat)) (xs : List Along), OnGrid cs xs →
    (cs.zip xs).any (fun p => p.2.needed p.1) = false := by
  intro cs
  induction cs with
  | nil => intro xs _; rfl
  | cons c cs ih =>
    intro xs h
    cases xs with
    | nil => rfl
    | cons x xs =>
      rw [List.zip_cons_cons, List.any_cons, ih xs h.2, Bool.or_false]
      unfold Along.needed
      cases hu : x.unit with
      | false => simp
      | true =>
        have : x.values.numbers.all (contains c) = true := by
          rw [List.all_eq_true]
          intro v hv
          unfold contains
          simp [h.1 hu v hv]
        simp [this]

theorem suits_positions : ∀ (shape : List Nat) (xs : List Along), Suits shape xs →
    xs.mapM Along.positions = .ok (xs.map Along.points) := by
  intro shape
  induction shape with
  | nil => intro xs h; cases xs with | nil => rfl | cons x xs => exact absurd h id
  | cons n shape ih =>
    intro xs h
    cases xs with
    | nil => exact absurd h id
    | cons x xs =>
      rw [List.mapM_cons, ih xs h.2]
      unfold Along.positions
      rw [h.1.1]
      rfl

/-- The same as a subscript with lists. -/
def lists (xs : List Along) : List Subscripts.Item := xs.map (fun x => .list x.points)

theorem suits_lists : ∀ (shape : List Nat) (xs : List Along), Suits shape xs →
    crossLists shape (lists xs) = xs.map Along.points ∧ Spec.Valid shape (lists xs) ∧
    Spec.shapeOf shape (lists xs) = xs.map (fun x => x.points.length) ∧
    ∀ js, Spec.Inside js (xs.map (fun x => x.points.length)) →
      Spec.source shape (lists xs) js = sources shape xs js ∧ Spec.Inside (sources shape xs js) shape := by
  intro shape
  induction shape with
  | nil =>
    intro xs h
    cases xs with
    | nil =>
      refine ⟨rfl, trivial, rfl, fun js hj => ?_⟩
      cases hj
      exact ⟨rfl, .nil⟩
    | cons x xs => exact absurd h id
  | cons n shape ih =>
    intro xs h
    cases xs with
    | nil => exact absurd h id
    | cons x xs =>
      obtain ⟨h1, h2, h3, h4⟩ := ih xs h.2
      refine ⟨?_, ⟨h.1.2, h2⟩, ?_, fun js hj => ?_⟩
      · show x.points :: crossLists shape (lists xs) = _
        rw [h1]; rfl
      · show x.points.length :: Spec.shapeOf shape (lists xs) = _
        rw [h3]; rfl
      · cases hj with
        | @cons j _ js _ hj hjs =>
          obtain ⟨s1, s2⟩ := h4 js hjs
          refine ⟨?_, ?_⟩
          · show _ :: Spec.source shape (lists xs) js = _ :: sources shape xs js
            rw [s1]
          · refine .cons ?_ s2
            have hmem : x.points.getD j 0 ∈ x.points := by
              rw [List.getD_eq_getElem?_getD, List.getElem?_eq_getElem hj]
              exact List.getElem_mem hj
            have := h.1.2 _ hmem
            unfold Arrays.Spec.fromStart
            split <;> omega

theorem lists_orthogonal (xs : List Along) : ∀ x ∈ lists xs, Orthogonal x := by
  intro x hx
  obtain ⟨y, _, rfl⟩ := List.mem_map.1 hx
  trivial

/-- **C254.** With one index for each axis, none of them an axis that the observer shows, with all positions on the axes and all
measured values on the grid: there is no interpolation, and every entry of the observation is the entry of the array at
the positions of the indices. The unit and the name are those of the array. -/
theorem c254_partial (a : Arr Rat U N) (ha : Spec.Whole a.base) (coordinates : List (List Rat)) (xs : List Along)
    (hs : Suits a.base.shape xs) (hg : OnGrid coordinates xs) :
    ∃ r, observeStored a coordinates xs = some (.ok r) ∧ r.unit = a.unit ∧ r.name = a.name
      ∧ r.values.shape = xs.map (fun x => x.points.length) ∧ Spec.Whole r.values
      ∧ ∀ js, Spec.Inside js r.values.shape → Spec.Inside (sources a.base.shape xs js) a.base.shape
        ∧ Spec.entry r.values js = Spec.entry a.values (sources a.base.shape xs js) := by
  unfold observeStored subscriptAll
  rw [onGrid_needed _ _ hg, suits_positions _ _ hs]
  obtain ⟨l1, l2, l3, l4⟩ := suits_lists _ _ hs
  cases xs with
  | nil =>
    have hsh : a.base.shape = [] := by
      cases h : a.base.shape with
      | nil => rfl
      | cons n shape => rw [h] at hs; exact absurd hs id
    refine ⟨⟨a.values, 1, a.unit, a.name⟩, by simp [Arr.loadCross, bind, Except.bind, pure, Except.pure], rfl, rfl, ?_, ?_, ?_⟩
    · exact hsh
    · exact whole_smul (whole_smul ha)
    · intro js hj
      have hj' : Spec.Inside js a.base.shape := hj
      rw [hsh] at hj' ⊢
      cases hj'
      refine ⟨.nil, ?_⟩
      show Spec.entry ((a.values).smul 1) [] = _
      rw [entry_smul]
      simp [sources]
  | cons x xs =>
    obtain ⟨sel, h1, h2, h3, h4⟩ := cross_valid _ _ (lists_orthogonal (x :: xs)) l2
    rw [l1] at h1
    have hout : outShape sel = (x :: xs).map (fun x => x.points.length) := by rw [h3, l3]
    refine ⟨⟨(⟨outShape sel, pick sel a.base.shape a.base.entries⟩ : Nd Rat).smul a.scale, 1, a.unit, a.name⟩, ?_, rfl, rfl, ?_, ?_, ?_⟩
    · simp only [List.map_cons] at h1
      simp [Arr.loadCross, Nd.cross, h1, bind, Except.bind, pure, Except.pure]
    · exact hout
    · apply whole_smul
      apply whole_smul
      show (pick sel a.base.shape a.base.entries).length = (outShape sel).prod
      rw [← prod_kept]
      exact pick_length sel a.base.shape a.base.entries h2 ha
    · intro js hj
      have hj' : Spec.Inside js (outShape sel) := hj
      have hj'' := hj'
      rw [hout] at hj''
      obtain ⟨i1, i2⟩ := fill_inside hj'
      refine ⟨(l4 js hj'').2, ?_⟩
      rw [← (l4 js hj'').1, ← h4 js hj']
      show Spec.entry (Nd.smul 1 _) js = _
      rw [entry_smul, entry_smul, Arr.values, entry_smul]
      simp only [Spec.entry]
      rw [← i2, pick_get sel a.base.shape _ a.base.entries h2 ha i1]
      simp [Function.comp_def]


/-- The grid value at the positions is the value of the index, for each axis with a unit. -/
def Agrees : List (List Rat) → List Along → List Nat → List Nat → Prop
  | c :: cs, x :: xs, i :: is, j :: js => (x.unit = true → ∃ v, x.values.numbers[j]? = some v ∧ c[i]? = some v) ∧ Agrees cs xs is js
  | _, _, _, _ => True

/-- For each axis with a unit, the index reports the values at its points, and the grid has one value for each position. -/
def Faithful : List Nat → List (List Rat) → List Along → Prop
  | n :: shape, c :: cs, x :: xs => c.length = n ∧ (x.unit = true → Reports c ⟨x.points, x.values.numbers⟩) ∧ Faithful shape cs xs
  | [], [], [] => True
  | _, _, _ => False

theorem getItem_source {c : List Rat} {i : Int} {v : Rat} (h : getItem c i = .ok v) :
    c[(Arrays.Spec.fromStart c.length i).toNat]? = some v := by
  unfold getItem at h
  unfold Arrays.Spec.fromStart
  dsimp only at h
  generalize (if i < 0 then i + (c.length : Int) else i) = j at h ⊢
  by_cases hj : j < 0
  · rw [if_pos hj] at h
    exact absurd h (by simp)
  · rw [if_neg hj] at h
    revert h
    cases c[j.toNat]? <;> simp

theorem faithful_agrees : ∀ (shape : List Nat) (cs : List (List Rat)) (xs : List Along), Faithful shape cs xs →
    OnGrid cs xs ∧ ∀ js, Spec.Inside js (xs.map (fun x => x.points.length)) → Agrees cs xs (sources shape xs js) js := by
  intro shape
  induction shape with
  | nil =>
    intro cs xs h
    cases cs <;> cases xs <;> first | exact absurd h id | exact ⟨trivial, fun js _ => trivial⟩
  | cons n shape ih =>
    intro cs xs h
    cases cs with
    | nil => cases xs <;> exact absurd h id
    | cons c cs =>
      cases xs with
      | nil => exact absurd h id
      | cons x xs =>
        obtain ⟨hn, hr, ht⟩ := h
        obtain ⟨i1, i2⟩ := ih cs xs ht
        refine ⟨⟨fun hu v hv => ?_, i1⟩, fun js hj => ?_⟩
        · obtain ⟨r1, r2⟩ := hr hu
          obtain ⟨k, hk, rfl⟩ := List.getElem_of_mem hv
          exact List.mem_of_getElem? (getItem_source (r2 k (r1 ▸ hk) hk))
        · cases hj with
          | @cons j _ js _ hj hjs =>
            refine ⟨fun hu => ?_, i2 js hjs⟩
            obtain ⟨r1, r2⟩ := hr hu
            have hj' : j < x.values.numbers.length := r1 ▸ hj
            refine ⟨x.values.numbers[j], List.getElem?_eq_getElem hj', ?_⟩
            have := getItem_source (r2 j hj hj')
            have hx : x.points.getD j 0 = x.points[j]'hj := by
              rw [List.getD_eq_getElem?_getD, List.getElem?_eq_getElem (by exact hj)]; rfl
            rw [← hn, hx]
            exact this

/-- **C254.** If moreover each index reports the values of the axis at its points, then every entry of the observation is the entry
of the array at positions where the axes have the reported values. -/
theorem c254_values_partial (a : Arr Rat U N) (ha : Spec.Whole a.base) (coordinates : List (List Rat)) (xs : List Along)
    (hs : Suits a.base.shape xs) (hf : Faithful a.base.shape coordinates xs) :
    ∃ r, observeStored a coordinates xs = some (.ok r)
      ∧ r.values.shape = xs.map (fun x => x.points.length)
      ∧ ∀ js, Spec.Inside js r.values.shape → ∃ is, Spec.Inside is a.base.shape ∧ Agrees coordinates xs is js
        ∧ Spec.entry r.values js = Spec.entry a.values is := by
  obtain ⟨g1, g2⟩ := faithful_agrees _ _ _ hf
  obtain ⟨r, h1, _, _, h4, _, h6⟩ := c254_partial a ha coordinates xs hs g1
  refine ⟨r, h1, h4, fun js hj => ⟨_, (h6 js hj).1, g2 js (h4 ▸ hj), (h6 js hj).2⟩⟩

/-- **C254.** The indices that the axes compute have these properties: that of a whole coordinate axis; that for targets in
some unit, if all are on the axis; and that of shells. -/
theorem c254_indices_partial {U : Type} (M : Units U) (text : Arg → Str) (depth : Nat) (axis : List Rat) (axisUnit unit : U)
    (converted : List Rat) (hr : rescale M axis axisUnit unit = .ok converted) (hn : converted.Nodup) :
    (∃ x, computeIndex (alongCoordinate M text depth axis axisUnit unit) none = .ok x ∧ x.array = false ∧ x.unit = true
      ∧ x.values = .floats converted ∧ Reports converted ⟨x.points, x.values.numbers⟩) ∧
    (∀ ts x, (∃ t ∈ ts, t.isInt = false) →
      computeIndex (alongCoordinate M text depth axis axisUnit unit) (some (.request (.targets ts))) = .ok x →
      (∀ v ∈ x.values.numbers, v ∈ converted) →
      x.array = false ∧ x.unit = true ∧ Reports converted ⟨x.points, x.values.numbers⟩) ∧
    (∀ (size : Nat) (is : List Int), is ≠ [] → (∀ i ∈ is, 0 ≤ i ∧ i < size) →
      ∃ x, computeIndex (alongShell size) (some (.request (.targets (is.map .int)))) = .ok x ∧ x.array = false
        ∧ x.points = is ∧ Reports ((List.range size).map (fun i : Nat => (i : Rat))) ⟨x.points, x.values.numbers⟩) := by
  obtain ⟨c1, c2, _⟩ := c140_partial M text depth axis axisUnit unit converted hr hn
  refine ⟨?_, ?_, ?_⟩
  · obtain ⟨d, h1, h2, h3⟩ := c1
    refine ⟨⟨d.points, .floats d.values, true, false⟩, ?_, rfl, rfl, by rw [h3], h2⟩
    simp [computeIndex, alongCoordinate, h1, bind, Except.bind, pure, Except.pure]
  · intro ts x ht hx hv
    unfold computeIndex alongCoordinate at hx
    cases hd : coordinateIndex M text depth axis axisUnit (.targets ts) unit with
    | error e => simp [hd, bind, Except.bind] at hx
    | ok d =>
      simp only [hd, bind, Except.bind, pure, Except.pure, Except.ok.injEq] at hx
      subst hx
      obtain ⟨p1, p2⟩ := c2 ts d ht hd
      exact ⟨rfl, rfl, p1, fun k h h' => p2 k h h' (hv _ (List.getElem_mem h'))⟩
  · intro size is hne hin
    have h := (c230_partial size).2.1 is hne
    refine ⟨⟨is, .ints is, true, false⟩, ?_, rfl, rfl, ?_, ?_⟩
    · simp [computeIndex, alongShell, h.2, bind, Except.bind, pure, Except.pure]
    · simp [Values.numbers]
    · intro k h h'
      obtain ⟨p1, p2⟩ := hin _ (List.getElem_mem (by exact h))
      simp only [Values.numbers, List.getElem_map]
      unfold getItem
      have : ¬ (is[k] < 0) := by omega
      simp only [this, if_false]
      have hk : is[k].toNat < size := by omega
      simp only [List.getElem?_map, List.getElem?_range hk, Option.map_some]
      congr 1
      exact_mod_cast Int.toNat_of_nonneg p1

/-- A variable over two times and three shells. -/
def stored : Arr Rat Demo Str := ⟨⟨[2, 3], [1, 2, 3, 4, 5, 6]⟩, 10, .s, c!"Vr"⟩

example : ∃ r, observeStored stored [[0, 60], [0, 1, 2]]
      [⟨[1], .floats [60], true, false⟩, ⟨[2, 0], .ints [2, 0], true, false⟩] = some (.ok r)
    ∧ r.values = ⟨[1, 2], [60, 40]⟩ ∧ Spec.entry r.values [0, 1] = Spec.entry stored.values [1, 0] :=
  ⟨_, rfl, by decide +kernel, by decide +kernel⟩

example : Suits stored.base.shape [⟨[1], .floats [60], true, false⟩, ⟨[2, 0], .ints [2, 0], true, false⟩] ∧
    Faithful stored.base.shape [[0, 60], [0, 1, 2]] [⟨[1], .floats [60], true, false⟩, ⟨[2, 0], .ints [2, 0], true, false⟩] := by
  refine ⟨⟨⟨rfl, by decide⟩, ⟨rfl, by decide⟩, trivial⟩, rfl, fun _ => ⟨rfl, fun k h h' => ?_⟩, rfl, fun _ => ⟨rfl, fun k h h' => ?_⟩,
    trivial⟩
  · match k, h with
    | 0, _ => rfl
  · match k, h with
    | 0, _ => rfl
    | 1, _ => rfl

example : computeIndex (alongCoordinate demo (fun _ => []) 2 [0, 60, 180] .s .s)
    (some (.request (.targets [.int 3, .other (.atom 1), .other (.str c!"min")]))) = .ok ⟨[2, 1], .floats [180, 60], true, false⟩ := by
  decide +kernel

/-- **C254, violated.** What an observer shows for an axis of numbers that are not integers, or of symbols, cannot be used as a
constraint on that axis: whenever nothing has to be interpolated, the observation raises `IndexError`. -/
theorem c254_shown (a : Arr Rat U N) (coordinates : List (List Rat)) (before after : List Along) (x : Along)
    (hx : x.array = true) (hv : (∃ q qs, x.values = .floats (q :: qs)) ∨ ∃ s ss, x.values = .symbols (s :: ss))
    (hb : ∀ y ∈ before, y.array = false) :
    observeStored a coordinates (before ++ x :: after) = none ∨
    observeStored a coordinates (before ++ x :: after) = some (.error .indexError) := by
  unfold observeStored
  split
  · exact .inl rfl
  · right
    have hp : x.positions = .error .indexError := by
      unfold Along.positions
      rw [if_pos hx]
      rcases hv with ⟨q, qs, h⟩ | ⟨s, ss, h⟩ <;> rw [h]
    rename_i hnone
    clear hnone
    have hm : (before ++ x :: after).mapM Along.positions = .error .indexError := by
      induction before with
      | nil => rw [List.nil_append, List.mapM_cons, hp]; rfl
      | cons y ys ih =>
        rw [List.cons_append, List.mapM_cons, ih (fun z hz => hb z (List.mem_cons_of_mem _ hz))]
        unfold Along.positions
        rw [hb y (by simp)]
        rfl
    unfold subscriptAll
    rw [hm]
    rfl

/-- **C254, violated.** All times of the dataset can be asked for by not saying anything, but not with the times that the observer
shows: that raises `IndexError`. With the shells that it shows, it works. The same times in minutes are taken for
seconds, so that values are interpolated. -/
theorem c254_counterexample :
    (∃ t s, shown (alongCoordinate demo (fun _ => []) 2 [0, 60] .s .s) = .ok t ∧ shown (alongShell 3) = .ok s ∧
      computeIndex (alongCoordinate demo (fun _ => []) 2 [0, 60] .s .s) (some (.index t)) = .ok t ∧
      observeStored stored [[0, 60], [0, 1, 2]] [t, { s with array := false }] = some (.error .indexError) ∧
      observeStored stored [[0, 60], [0, 1, 2]] [{ t with array := false }, s]
        = some (.ok ⟨stored.values, 1, .s, c!"Vr"⟩)) ∧
    observeStored stored [[0, 60], [0, 1, 2]] [⟨[0, 1], .floats [0, 1], true, true⟩, ⟨[0], .ints [0], true, false⟩] = none :=
  ⟨⟨⟨[0, 1], .floats [0, 60], true, true⟩, ⟨[0, 1, 2], .ints [0, 1, 2], true, true⟩, by decide +kernel, by decide +kernel,
    rfl, by decide +kernel, by decide +kernel⟩, by decide +kernel⟩

end Verif.Axes
