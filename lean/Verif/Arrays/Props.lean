import Verif.Arrays.Lemmas
import Verif.Metric.ConversionProps
import Mathlib.Tactic.FieldSimp
import Mathlib.Tactic.Ring

set_option linter.unusedSimpArgs false
set_option linter.unusedSectionVars false

namespace Verif.Arrays

open Verif.Py Verif.Metadata Verif.Numerical

/-! ## C39: an ellipsis in a subscript -/

/-- **C39, violated.** The ellipsis in `[..., [0]]` on three dimensions: the explicit index is dropped. -/
theorem c39_counterexample :
    expandEllipsis 3 [.ellipsis, .list [0]] = [Ix.full, Ix.full] ∧
    Spec.expanded 3 [] [.list [0]] = [Ix.full, Ix.full, .list [0]] := by decide

theorem idxOf_ellipsis {pre post : List Ix} (h : .ellipsis ∉ pre) :
    (pre ++ .ellipsis :: post).idxOf .ellipsis = pre.length := by
  rw [List.idxOf_append_of_notMem h]
  simp

/-- **C39.** A subscript without ellipsis stays as it is. An ellipsis at the end, or one that stands for
exactly one axis, is replaced by full slices for the axes that are not mentioned. Missing: an ellipsis
that stands for no axes or for more than one and is followed by other entries. -/
theorem c39_partial (ndim : Nat) (pre post : List Ix) (h : .ellipsis ∉ pre) :
    (.ellipsis ∉ post → expandEllipsis ndim (pre ++ post) = pre ++ post) ∧
    (pre.length ≤ ndim → expandEllipsis ndim (pre ++ [.ellipsis]) = Spec.expanded ndim pre []) ∧
    (pre.length + post.length + 1 = ndim →
      expandEllipsis ndim (pre ++ .ellipsis :: post) = Spec.expanded ndim pre post) := by
  refine ⟨?_, ?_, ?_⟩
  · intro h'
    unfold expandEllipsis
    rw [if_pos]
    rw [List.all_eq_true]
    intro x hx
    rcases List.mem_append.1 hx with hx | hx
    · simp; rintro rfl; exact h hx
    · simp; rintro rfl; exact h' hx
  · intro hl
    unfold expandEllipsis
    rw [if_neg (by simp)]
    simp only [idxOf_ellipsis (post := []) h]
    have e1 : ((ndim : Int) - ((pre ++ [Ix.ellipsis]).length : Nat) + 1).toNat = ndim - pre.length := by
      simp; omega
    have e2 : between (pre ++ [Ix.ellipsis])
        (pre.length + ((ndim : Int) - ((pre ++ [Ix.ellipsis]).length : Nat) + 1)) ndim = [] := by
      unfold between
      simp only [List.length_append, List.length_cons, List.length_nil, Nat.cast_add, Nat.cast_one,
        Nat.cast_zero]
      have : clipUp (pre.length + (0 + 1)) ((pre.length : Int) + ((ndim : Int) - (pre.length + (0 + 1)) + 1))
          = clipUp (pre.length + (0 + 1)) (ndim : Int) := by congr 1; omega
      rw [this, Nat.sub_self, List.take_zero]
    rw [e1, e2]
    simp [Spec.expanded]
  · intro hl
    unfold expandEllipsis
    rw [if_neg (by simp)]
    simp only [idxOf_ellipsis (post := post) h]
    have hlen : (pre ++ Ix.ellipsis :: post).length = ndim := by simp; omega
    have e1 : ((ndim : Int) - ((pre ++ Ix.ellipsis :: post).length : Nat) + 1) = 1 := by
      rw [hlen]; omega
    have e2 : between (pre ++ Ix.ellipsis :: post) ((pre.length : Int) + 1) ndim = post := by
      unfold between
      rw [hlen]
      have h1 : clipUp ndim ((pre.length : Int) + 1) = pre.length + 1 := clipUp_of_mem _ _ (by omega) (by omega)
      have h2 : clipUp ndim (ndim : Int) = ndim := clipUp_of_mem _ _ (by omega) (by omega)
      simp only [h1, h2]
      have h3 : ((pre.length : Int) + 1).toNat = pre.length + 1 := by omega
      rw [h3, Int.toNat_natCast, List.drop_append]
      simp only [List.drop_eq_nil_of_le (show pre.length ≤ pre.length + 1 by omega), List.nil_append]
      rw [show pre.length + 1 - pre.length = 1 by omega]
      simp only [List.drop_succ_cons, List.drop_zero]
      exact List.take_of_length_le (by omega)
    rw [e1, e2]
    simp only [Spec.expanded, Int.toNat_one]
    rw [show ndim - pre.length - post.length = 1 by omega, List.take_left]

example : expandEllipsis 4 [.int 0, .ellipsis] = [.int 0, Ix.full, Ix.full, Ix.full] ∧
    expandEllipsis 3 [.int 0, .ellipsis, .list [1, 2]] = [.int 0, Ix.full, .list [1, 2]] := by decide

/-! ## C94: lists in subscripts -/

/-- **C94, violated.** In `v[0:2, [0, 1]]` the slice is ignored: all five rows are selected. An integer
next to a list is rejected. -/
theorem c94_counterexample :
    customIndices [5, 3] [.slice ⟨some 0, some 2, none⟩, .list [0, 1]]
      = .ok [[0, 1, 2, 3, 4], [0, 1]] ∧
    positions ⟨some 0, some 2, none⟩ 5 = .ok [0, 1] ∧
    customIndices [5, 3] [.int 0, .list [0, 1]] = .error .valueError := by decide

/-- A list of positions, or all positions. -/
def Chosen (n : Nat) : Ix → List Int → Prop
  | .list is, l => l = is
  | .slice s, l => s = ⟨none, none, none⟩ ∧ positions s n = .ok l
  | _, _ => False

theorem positions_full (n : Nat) : positions ⟨none, none, none⟩ n = .ok ((List.range n).map Int.ofNat) := by
  simp [positions, rangeUp]

/-- **C94.** With one list of positions or full slice for each axis, the positions that are selected along
each axis are the listed ones, or all. Missing: other slices and integers. -/
theorem c94_partial (shape : List Nat) (user : List Ix) (ls : List (List Int))
    (hl : user.length = shape.length) (hl' : ls.length = shape.length)
    (h : ∀ i (hi : i < shape.length), Chosen shape[i] user[i] ls[i]) :
    customIndices shape user = .ok ls := by
  have hno : .ellipsis ∉ user := by
    intro hm
    obtain ⟨i, hi, e⟩ := List.mem_iff_getElem.1 hm
    have := h i (by omega)
    rw [e] at this
    exact this
  have key : ∀ (user : List Ix) (ls : List (List Int)) (k : Nat), user.length = ls.length →
      (∀ i (hi : i < user.length) (hi' : i < ls.length), ∃ n, shape[k + i]? = some n ∧ Chosen n user[i] ls[i]) →
      ((user.zipIdx k).mapM (fun p => rangeForSlice shape p.2 p.1)) = .ok (ls.map Ix.list) := by
    intro user
    induction user with
    | nil => intro ls k hk _; cases ls with
      | nil => rfl
      | cons a l => simp at hk
    | cons x user ih =>
      intro ls k hk hc
      cases ls with
      | nil => simp at hk
      | cons l ls =>
        have h0 := hc 0 (by simp) (by simp)
        simp only [List.getElem_cons_zero, Nat.add_zero] at h0
        obtain ⟨n, hn, hch⟩ := h0
        have hrest := ih ls (k + 1) (by simpa using hk) (by
          intro i hi hi'
          have := hc (i + 1) (by simpa using hi) (by simpa using hi')
          rw [List.getElem_cons_succ, List.getElem_cons_succ] at this
          rwa [show k + 1 + i = k + (i + 1) by omega])
        have hx : rangeForSlice shape k x = .ok (.list l) := by
          cases x with
          | list is => simp only [Chosen] at hch; rw [hch]; rfl
          | slice s =>
            obtain ⟨rfl, hp⟩ := hch
            rw [positions_full, Except.ok.injEq] at hp
            rw [rangeForSlice, hn, ← hp]
          | int i => exact absurd hch id
          | ellipsis => exact absurd hch id
        rw [List.zipIdx_cons, List.mapM_cons, hx, hrest]
        rfl
  have e1 : expandEllipsis shape.length user = user := by
    have := (c39_partial shape.length user [] hno).1 (by simp)
    simpa using this
  unfold customIndices
  simp only [e1]
  have e2 := key user ls 0 (by omega) (by
    intro i hi hi'
    refine ⟨shape[i], ?_, h i (by omega)⟩
    rw [Nat.zero_add, List.getElem?_eq_getElem])
  rw [e2]
  simp only [bind, Except.bind]
  rw [List.mapM_map]
  have : ∀ l : List (List Int), l.mapM (fun x => crossIndex (Ix.list x)) = .ok l := by
    intro l
    induction l with
    | nil => rfl
    | cons a l ih => rw [List.mapM_cons, ih]; rfl
  exact this ls

example : customIndices [3, 2] [Ix.full, .list [1]] = .ok [[0, 1, 2], [1]] := by decide

/-! ## C40: shapes of subarrays -/

/-- **C40, violated.** The entry `::2` next to an integer, a slice that ends after the last position or
begins before the end, trailing axes and an ellipsis that stands for several axes: `ValueError`. -/
theorem c40_counterexample :
    subscriptShape [2, 5] [.int 0, .slice ⟨none, none, some 2⟩] = .error .valueError ∧
    subscriptShape [2, 5] [.int 0, .slice ⟨some (-3), none, none⟩] = .error .valueError ∧
    subscriptShape [2, 5] [.int 0, .slice ⟨none, some 9, none⟩] = .error .valueError ∧
    subscriptShape [2, 3, 4] [.int 0, .int 1] = .error .valueError ∧
    subscriptShape [2, 3, 4] [.int 0, .ellipsis] = .error .valueError ∧
    Spec.sizes [2, 5] [.int 0, .slice ⟨none, none, some 2⟩] = [1, 3] ∧
    Spec.sizes [2, 3, 4] [.int 0, .int 1] = [1, 1, 4] := by decide

/-- **C40.** The subarray has as many axes as the array: of size one for an integer, and of the number of
selected positions for a slice; for a tuple with one entry per axis, of integers and slices from a lower
to an upper position; for a tuple of slices; and for a single integer or slice. Missing: integers
together with other slices, with trailing axes, or with an ellipsis. -/
theorem c40_partial (shape : List Nat) :
    (∀ idx, List.Forall₂ Spec.Plain shape idx → subscriptShape shape idx = .ok (Spec.sizes shape idx)) ∧
    (∀ idx, idx.length ≤ shape.length → (∀ x ∈ idx, ∃ s, x = .slice s ∧ s.step ≠ some 0) →
      subscriptShape shape idx = .ok (Spec.sizes shape idx)) ∧
    (∀ n rest i, shape = n :: rest → -(n : Int) ≤ i → i < n →
      subscriptShape1 shape (.int i) = .ok (Spec.sizes shape [.int i])) ∧
    (∀ n rest s, shape = n :: rest → s.step ≠ some 0 →
      subscriptShape1 shape (.slice s) = .ok (Spec.sizes shape [.slice s])) := by
  simp only [← posSizes_eq]
  refine ⟨?_, ?_, ?_, ?_⟩
  · intro idx h
    obtain ⟨sel, e, hp, hl, hs⟩ := selectAxes_plain shape idx h
    have hz := axisSizes_plain [] shape idx h
    simp only [List.nil_append, List.length_nil] at hz
    unfold subscriptShape
    have hne : numpyEllipsis shape.length idx = .ok idx := by
      unfold numpyEllipsis; rw [no_ellipsis_of_plain h]; rfl
    simp only [hne, bind, Except.bind, e, hz]
    split
    · rw [hp]; exact reshape_sizes _
    · next hh => rw [hs (by omega)]; rfl
  · intro idx hl h
    have h' : ∀ x ∈ idx, isSlice x = true := by
      intro x hx
      obtain ⟨s, rfl, hs⟩ := h x hx
      simpa [isSlice] using hs
    obtain ⟨sel, e, hs, hl⟩ := selectAxes_slices shape idx hl h'
    have hne : numpyEllipsis shape.length idx = .ok idx := by
      have : idx.count .ellipsis = 0 := by
        rw [List.count_eq_zero]
        intro hm
        obtain ⟨s, h, _⟩ := h _ hm
        cases h
      unfold numpyEllipsis; rw [this]; rfl
    unfold subscriptShape
    simp only [hne, bind, Except.bind, e]
    rw [if_neg (by omega), hs]
    rfl
  · intro n rest i hs h1 h2
    subst hs
    obtain ⟨sel, e, hss, hl⟩ := selectAxes_slices rest [] (by simp) (by simp)
    have e' : selectAxes (n :: rest) [.int i] = .ok (([if i < 0 then i + n else i], false) :: sel) := by
      simp only [selectAxes, selectAxis]
      rw [if_pos (by split <;> omega)]
      rw [selectAxes] at e
      simp only [Except.ok.injEq] at e
      simp [bind, Except.bind, pure, Except.pure, e]
    unfold subscriptShape1
    simp only [e', bind, Except.bind]
    have hn : numpyShape (([if i < 0 then i + (n : Int) else i], false) :: sel) = numpyShape sel := by
      simp [numpyShape]
    rw [hn, hl, hss]
    have : posSizes rest [] = rest := by cases rest <;> rfl
    simp [posSizes, posSize, this, pure, Except.pure]
  · intro n rest s hs hst
    subst hs
    obtain ⟨sel, e, hss, hl⟩ := selectAxes_slices (n :: rest) [.slice s] (by simp)
      (by simpa [isSlice] using hst)
    unfold subscriptShape1
    simp only [e, bind, Except.bind]
    rw [hl, hss]
    simp [pure, Except.pure]

example : List.Forall₂ Spec.Plain [2, 5] [.int (-1), .slice ⟨some 1, some 4, none⟩] ∧
    subscriptShape [2, 5] [.int (-1), .slice ⟨some 1, some 4, none⟩] = .ok [1, 3] ∧
    subscriptShape [2, 5, 3] [.slice ⟨none, none, some (-1)⟩, .slice ⟨some (-3), none, some 2⟩] = .ok [2, 2, 3]
    := by
  refine ⟨?_, by decide, by decide⟩
  refine .cons ?_ (.cons ?_ .nil) <;> simp [Spec.Plain]

/-! ## C41: reading through the cache -/

section
variable {ι K U : Type _}

/-- The state after a sequence of reads. -/
def Quantity.run [Mul K] (q : Quantity ι K U) (hist : List (Option (ι → ι))) : Quantity ι K U :=
  hist.foldl (fun q i => (q.read i).2) q

/-- What a read should return: the scale factor times the values at the positions read. -/
def Spec.readOf [Mul K] (scale : K) (data : ι → K) : Option (ι → ι) → ι → K
  | none => fun i => scale * data i
  | some f => fun i => scale * data (f i)

theorem run_inv [Mul K] (hist : List (Option (ι → ι))) : ∀ q : Quantity ι K U,
    (q.run hist).scale = q.scale ∧ (q.run hist).data = q.data ∧ (q.run hist).unit = q.unit ∧
    (q.run hist).cached.getD q.data = q.cached.getD q.data := by
  induction hist with
  | nil => intro q; exact ⟨rfl, rfl, rfl, rfl⟩
  | cons i hist ih =>
    intro q
    obtain ⟨h1, h2, h3, h4⟩ := ih (q.read i).2
    have hstep : (q.read i).2.scale = q.scale ∧ (q.read i).2.data = q.data ∧ (q.read i).2.unit = q.unit ∧
        (q.read i).2.cached.getD q.data = q.cached.getD q.data := by
      cases i with
      | some f => exact ⟨rfl, rfl, rfl, rfl⟩
      | none => cases hc : q.cached <;> simp [Quantity.read, Quantity.loadAll, hc]
    obtain ⟨s1, s2, s3, s4⟩ := hstep
    rw [s2] at h4
    exact ⟨h1.trans s1, h2.trans s2, h3.trans s3, h4.trans s4⟩

theorem read_eq [Mul K] (q : Quantity ι K U) (i : Option (ι → ι)) :
    (q.read i).1 = Spec.readOf q.scale (q.cached.getD q.data) i := by
  cases i <;> cases hc : q.cached <;>
    simp [Quantity.read, Quantity.loadAll, Quantity.loadPart, Spec.readOf, hc, Function.comp]

/-- **C41.** After any history of full and partial reads, a read returns the scale factor times the
values that the quantity was created from, and the same as it would have returned before. -/
theorem c41_read [Mul K] [One K] (data : ι → K) (unit : U) (scale : K)
    (hist : List (Option (ι → ι))) (i : Option (ι → ι)) :
    (({ Quantity.new data unit with scale := scale } : Quantity ι K U).run hist |>.read i).1
      = Spec.readOf scale data i ∧
    ∀ q : Quantity ι K U, ((q.run hist).read i).1 = (q.read i).1 := by
  have h2 : ∀ q : Quantity ι K U, ((q.run hist).read i).1 = (q.read i).1 := by
    intro q
    obtain ⟨h1, h2, _, h4⟩ := run_inv hist q
    rw [read_eq, read_eq, h1, h2, h4]
  refine ⟨?_, h2⟩
  rw [h2, read_eq]
  rfl

example : (((Quantity.new (fun i : Nat => (i : Rat) + 1) ()).run [some (· + 2), none, some (· + 1)]).read
    (some (· + 3))).1 4 = 8 := by decide +kernel

end

/-! ## C42, C43: conversions and copies -/

section
variable {ι U : Type _} {K : Type _} [Field K]

/-- How a quantity comes about: from data, and by reading, converting and subscripting. -/
inductive Reach (same consistent : U → U → Res Bool) (factor : U → U → Res K) : Quantity ι K U → Prop
  | new (data : ι → K) (u : U) : Reach same consistent factor (Quantity.new data u)
  | read {q} (i : Option (ι → ι)) : Reach same consistent factor q →
      Reach same consistent factor (q.read i).2
  | convert {q r} (u : U) : Reach same consistent factor q →
      q.convert same consistent factor u = .ok r → Reach same consistent factor r
  | part {q} (index : ι → ι) : Reach same consistent factor q →
      Reach same consistent factor (q.part index)

/-- The cache, if any, holds the data. -/
def Fresh (q : Quantity ι K U) : Prop := q.cached = none ∨ q.cached = some q.data

variable {same consistent : U → U → Res Bool} {factor : U → U → Res K}

theorem convert_cases {q r : Quantity ι K U} {u : U} (h : q.convert same consistent factor u = .ok r) :
    (same u q.unit = .ok true ∧ r = q) ∨
    (same u q.unit = .ok false ∧ ∃ f, factor q.unit u = .ok f ∧ r = ⟨q.data, none, q.scale * f, u⟩) := by
  unfold Quantity.convert at h
  cases hs : same u q.unit with
  | error e => rw [hs] at h; simp [bind, Except.bind] at h
  | ok b =>
    cases b with
    | true =>
      rw [hs] at h
      simp [bind, Except.bind, pure, Except.pure] at h
      exact Or.inl ⟨rfl, h.symm⟩
    | false =>
      rw [hs] at h
      simp only [bind, Except.bind, Bool.false_eq_true, if_false] at h
      cases hc : consistent q.unit u with
      | error e => rw [hc] at h; simp at h
      | ok b =>
        rw [hc] at h
        cases b with
        | false => simp at h
        | true =>
          cases hf : factor q.unit u with
          | error e => rw [hf] at h; simp at h
          | ok f =>
            rw [hf] at h
            simp [pure, Except.pure] at h
            exact Or.inr ⟨rfl, f, rfl, h.symm⟩

theorem fresh_of_reach {q : Quantity ι K U} (h : Reach same consistent factor q) : Fresh q := by
  induction h with
  | new => exact Or.inl rfl
  | @read q i _ ih =>
    cases i with
    | some f => exact ih
    | none =>
      cases hc : q.cached with
      | none => right; simp [Quantity.read, Quantity.loadAll, hc]
      | some a => simpa [Quantity.read, Quantity.loadAll, hc, Fresh] using ih
  | convert u _ h ih =>
    rcases convert_cases h with ⟨_, rfl⟩ | ⟨_, f, _, rfl⟩
    · exact ih
    · exact Or.inl rfl
  | @part q index _ _ =>
    right
    simp only [Quantity.part, Quantity.copy, Quantity.values, Quantity.new, Quantity.read,
      Quantity.loadAll, one_mul]

theorem values_fresh {q : Quantity ι K U} (h : Fresh q) : q.values = fun i => q.scale * q.data i := by
  unfold Quantity.values
  rw [read_eq]
  rcases h with h | h <;> simp [h, Spec.readOf]

theorem convert_values {q r : Quantity ι K U} {u : U} (mag : U → K) (hm : ∀ u, mag u ≠ 0)
    (hf : ∀ u v f, factor u v = .ok f → f = mag u / mag v)
    (hs : ∀ u v, same u v = .ok true → mag u = mag v) (hq : Fresh q)
    (h : q.convert same consistent factor u = .ok r) :
    Fresh r ∧ mag r.unit = mag u ∧ ∀ i, r.values i = q.values i * (mag q.unit / mag r.unit) := by
  rcases convert_cases h with ⟨h1, rfl⟩ | ⟨_, f, h2, rfl⟩
  · refine ⟨hq, (hs _ _ h1).symm, fun i => ?_⟩
    rw [div_self (hm _), mul_one]
  · refine ⟨Or.inl rfl, rfl, fun i => ?_⟩
    rw [values_fresh (Or.inl rfl : Fresh (⟨q.data, none, q.scale * f, u⟩ : Quantity ι K U)),
      values_fresh hq, hf _ _ _ h2]
    ring

theorem convertAll_values (mag : U → K) (hm : ∀ u, mag u ≠ 0)
    (hf : ∀ u v f, factor u v = .ok f → f = mag u / mag v)
    (hs : ∀ u v, same u v = .ok true → mag u = mag v) : ∀ (us : List U) (q r : Quantity ι K U), Fresh q →
    q.convertAll same consistent factor us = .ok r →
    Fresh r ∧ (∀ u us', us = us' ++ [u] → mag r.unit = mag u) ∧
      ∀ i, r.values i = q.values i * (mag q.unit / mag r.unit)
  | [], q, r, hq, h => by
    simp only [Quantity.convertAll, List.foldlM_nil, pure, Except.pure, Except.ok.injEq] at h
    subst h
    refine ⟨hq, ?_, fun i => by rw [div_self (hm _), mul_one]⟩
    intro u us' h
    simp at h
  | u :: us, q, r, hq, h => by
    simp only [Quantity.convertAll, List.foldlM_cons, bind, Except.bind] at h
    cases h1 : q.convert same consistent factor u with
    | error e => rw [h1] at h; simp at h
    | ok q' =>
      rw [h1] at h
      obtain ⟨f1, f2, f3⟩ := convert_values mag hm hf hs hq h1
      obtain ⟨g1, g2, g3⟩ := convertAll_values mag hm hf hs us q' r f1 h
      refine ⟨g1, ?_, fun i => ?_⟩
      · intro v us' hv
        rcases us.eq_nil_or_concat with rfl | ⟨us'', w, rfl⟩
        · simp only [List.foldlM_nil, pure, Except.pure, Except.ok.injEq] at h
          subst h
          rcases us' with _ | ⟨x, us'⟩
          · simp at hv; rw [f2, hv]
          · simp at hv
        · have := g2 w us'' (by simp)
          rw [this]
          have hh : (u :: us'') ++ [w] = us' ++ [v] := by simpa using hv
          rw [List.append_inj_right' hh rfl |> List.singleton_inj.1]
      · rw [g3, f3]
        have := hm q'.unit
        have := hm r.unit
        field_simp

theorem actualConvert_eq (q : Quantity ι Rat Str) (u : Str) : actualConvert q u = q.convert
    (fun u v => do
      Metric.unitEq Metric.fastBook
        (Metric.conversion Metric.fastBook (Metric.fastEnv Metric.numpyPi (Metric.declaredUnits Metric.numpyPi))
          Metric.powInt) (← Symbolic.ofString u) (← Symbolic.ofString v))
    (unitConsistent Metric.fastBook
      (Metric.conversion Metric.fastBook (Metric.fastEnv Metric.numpyPi (Metric.declaredUnits Metric.numpyPi))
        Metric.powInt))
    (Metric.conversion Metric.fastBook (Metric.fastEnv Metric.numpyPi (Metric.declaredUnits Metric.numpyPi))
        Metric.powInt) u := by
  have h1 : Metric.actualConversion (Metric.declaredUnits Metric.numpyPi)
      = Metric.conversion Metric.fastBook
        (Metric.fastEnv Metric.numpyPi (Metric.declaredUnits Metric.numpyPi)) Metric.powInt :=
    funext fun a => funext fun b => Metric.actualConversion_eq _ a b
  have h2 : Metric.actualUnitEq = (fun u v => (do
      Metric.unitEq Metric.fastBook
        (Metric.conversion Metric.fastBook (Metric.fastEnv Metric.numpyPi (Metric.declaredUnits Metric.numpyPi))
          Metric.powInt) (← Symbolic.ofString u) (← Symbolic.ofString v))) :=
    funext fun a => funext fun b => Metric.actualUnitEq_eq a b
  rw [actualConvert, h1, h2, Metric.actualBook_eq]

/-- **C42, violated.** Force in `kg km s^-2`: the newton is taken for the same unit, so the values stay as
they are; by way of `kg m s^-2` they are multiplied by one thousand. -/
theorem c42_counterexample :
    (do return (← actualConvert (Quantity.new (fun _ : Unit => 5) c!"kg km s^-2") c!"N").values ()
      : Res Rat) = .ok 5 ∧
    (do return (← actualConvert (← actualConvert (Quantity.new (fun _ : Unit => 5) c!"kg km s^-2")
      c!"kg m s^-2") c!"N").values () : Res Rat) = .ok 5000 := by
  simp only [actualConvert_eq]
  refine ⟨?_, ?_⟩ <;> decide +kernel

/-- **C42.** Suppose that every unit has a magnitude, that factors between units are the ratios of their
magnitudes, and that equal units have equal magnitudes. Then a chain of conversions multiplies the values
by the ratio of the first and last magnitudes; it gives the same values as the direct conversion to the
last unit, and the original values when the last unit is the original one. Whatever the units, converting
to the current unit gives the same object, and converting to an inconsistent one raises `ValueError`. -/
theorem c42_partial (mag : U → K) (hm : ∀ u, mag u ≠ 0)
    (hf : ∀ u v f, factor u v = .ok f → f = mag u / mag v)
    (hs : ∀ u v, same u v = .ok true → mag u = mag v)
    (q : Quantity ι K U) (hq : Reach same consistent factor q) :
    (∀ us u r, q.convertAll same consistent factor (us ++ [u]) = .ok r →
      (∀ i, r.values i = q.values i * (mag q.unit / mag u)) ∧
      (∀ r', q.convert same consistent factor u = .ok r' → r'.values = r.values) ∧
      (same u q.unit = .ok true → r.values = q.values)) ∧
    (∀ u, same u q.unit = .ok true → q.convert same consistent factor u = .ok q) ∧
    (∀ u, same u q.unit = .ok false → consistent q.unit u = .ok false →
      q.convert same consistent factor u = .error .valueError) := by
  have hfr := fresh_of_reach hq
  refine ⟨?_, ?_, ?_⟩
  · intro us u r h
    obtain ⟨g1, g2, g3⟩ := convertAll_values mag hm hf hs _ q r hfr h
    have hu := g2 u us rfl
    refine ⟨fun i => by rw [g3, hu], ?_, ?_⟩
    · intro r' h'
      obtain ⟨f1, f2, f3⟩ := convert_values mag hm hf hs hfr h'
      funext i
      rw [f3, g3, f2, hu]
    · intro h'
      funext i
      rw [g3, hu, hs _ _ h', div_self (hm _), mul_one]
  · intro u h
    unfold Quantity.convert
    rw [h]; rfl
  · intro u h h'
    unfold Quantity.convert
    rw [h, h']; rfl

/-- The factors between named units that the string-level search finds. -/
def stringFactor [CharZero K] [DecidableEq K] (pi : K) (order : List Str) (u v : Str) : Res K :=
  match Metric.convertStrings (Metric.env pi order) u v with
  | some (some f) => .ok f
  | _ => .error (.named "UnitConversionError")

/-- **C42** for the tables of the module, and conversions that the string-level search finds. -/
theorem c42_named_partial [CharZero K] [DecidableEq K] (pi : K) (hpi : pi ≠ 0) (order : List Str)
    (consistent : Str → Str → Res Bool) (data : ι → K) (u0 : Str) (us : List Str) (u : Str)
    (r : Quantity ι K Str)
    (h : (Quantity.new data u0).convertAll (fun a b => .ok (a = b)) consistent
      (stringFactor pi order) (us ++ [u]) = .ok r) :
    (∀ i, r.values i = data i * (Metric.magnitude pi u0 / Metric.magnitude pi u)) ∧
    (u = u0 → r.values = data) := by
  have hval : (Quantity.new data u0 : Quantity ι K Str).values = data := by
    rw [values_fresh (Or.inl rfl)]
    simp [Quantity.new]
  have := (c42_partial (same := fun a b => .ok (decide (a = b))) (consistent := consistent)
    (factor := stringFactor pi order) (Metric.magnitude pi) (Metric.magnitude_ne hpi)
    (by
      intro a b f hf
      unfold stringFactor at hf
      split at hf
      · next g hg =>
        rw [← Except.ok.inj hf]
        exact Metric.c29_magnitude _ _ _ _ (Metric.actual_consistent (K := K) hpi) _ _ _ hg
      · cases hf)
    (by
      intro a b h
      simp only [Except.ok.injEq, decide_eq_true_eq] at h
      rw [h])
    (Quantity.new data u0) (.new _ _)).1 us u r h
  rw [hval] at this
  refine ⟨this.1, fun hu => this.2.2 ?_⟩
  simp [hu, Quantity.new]

/-- **C43, violated.** Convert 2 km to metres, copy, and convert to centimetres: the copy gives 200, the
original 200000. -/
theorem c43_counterexample :
    let factor : Nat → Nat → Res Rat := fun u v => .ok (10 ^ u / 10 ^ v)
    let same : Nat → Nat → Res Bool := fun u v => .ok (u = v)
    let consistent : Nat → Nat → Res Bool := fun _ _ => .ok true
    let q : Res (Quantity Unit Rat Nat) := (Quantity.new (fun _ => (2 : Rat)) 5).convert same consistent factor 2
    (do ((← q).values () |> pure)) = .ok 2000 ∧
    (do ((← q).copy.values () |> pure)) = .ok 2000 ∧
    (do ((← (← q).convert same consistent factor 0).values () |> pure)) = .ok 200000 ∧
    (do ((← (← q).copy.convert same consistent factor 0).values () |> pure)) = .ok 200 := by
  decide +kernel

/-- **C43.** A copy has the unit and the values of the original. If the original has not been converted,
so that its scale factor is one, the two also have the same values after any chain of later conversions.
Missing: copies of converted quantities, which lose the scale factor with the next conversion. -/
theorem c43_partial (q : Quantity ι K U) :
    q.copy.unit = q.unit ∧ q.copy.values = q.values ∧
    (q.scale = 1 → ∀ us,
      (do return (← q.copy.convertAll same consistent factor us).values : Res (ι → K))
        = (do return (← q.convertAll same consistent factor us).values)) := by
  have hv : q.copy.values = q.values := by
    show (fun i => 1 * q.values i) = q.values
    simp
  refine ⟨rfl, hv, ?_⟩
  intro h1 us
  -- Two quantities that differ only in their caches.
  have key : ∀ (us : List U) (p q : Quantity ι K U), p.data = q.data → p.scale = q.scale → p.unit = q.unit →
      p.values = q.values →
      (do return (← p.convertAll same consistent factor us).values : Res (ι → K))
        = (do return (← q.convertAll same consistent factor us).values) := by
    intro us
    induction us with
    | nil =>
      intro p q _ _ _ h4
      simp [Quantity.convertAll, bind, Except.bind, pure, Except.pure, h4]
    | cons u us ih =>
      intro p q h1 h2 h3 h4
      simp only [Quantity.convertAll, List.foldlM_cons] at ih ⊢
      unfold Quantity.convert at ih ⊢
      rw [h1, h2, h3]
      cases same u q.unit with
      | error e => rfl
      | ok b =>
        cases b with
        | true => exact ih p q h1 h2 h3 h4
        | false =>
          simp only [bind, Except.bind, Bool.false_eq_true, if_false]
  exact key us _ _ rfl h1.symm rfl hv

end

end Verif.Arrays
