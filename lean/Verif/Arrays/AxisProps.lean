import Verif.Arrays.Lemmas
import Mathlib.Data.Rat.Floor
import Mathlib.Tactic.Linarith

set_option linter.unusedSimpArgs false
set_option linter.unusedSectionVars false

namespace Verif.Arrays

open Verif.Py Verif.Metadata Verif.Numerical

/-! ## C44: products align axes by name -/

theorem bshape_ok_form (s ks ks' : List Nat) (h : ∀ j < s.length, j ∈ ks ∨ j ∈ ks') :
    bshape (formShape s ks) (formShape s ks') = .ok s := by
  rw [bshape_form]
  congr 1
  refine List.ext_getElem (by simp [formShape]) (fun j h1 h2 => ?_)
  have := h j h2
  simp [formShape, this, h2]

theorem alignAxes_spec {K : Type} (u v : Var K) (size : Str → Nat)
    (hu : u.dims.Nodup) (hv : v.dims.Nodup)
    (su : u.array.shape = u.dims.map size) (sv : v.array.shape = v.dims.map size) :
    ∃ dims a b, alignAxes u v = .ok (dims, a, b) ∧ dims.Nodup ∧
      (∀ d, d ∈ dims ↔ d ∈ u.dims ∨ d ∈ v.dims) ∧
      a.shape = formShape (dims.map size) (u.dims.map dims.idxOf) ∧
      b.shape = formShape (dims.map size) (v.dims.map dims.idxOf) ∧
      (∀ σ : Str → Nat, (∀ d ∈ dims, σ d < size d) → a.bget (dims.map σ) = u.array.get (u.dims.map σ)) ∧
      (∀ σ : Str → Nat, (∀ d ∈ dims, σ d < size d) → b.bget (dims.map σ) = v.array.get (v.dims.map σ)) := by
  have hm := mergeAll_eq u.dims [.dims u.dims, .dims v.dims]
  simp only [List.map_cons, List.map_nil, namesOf, List.flatten_cons, List.flatten_nil,
    List.append_nil] at hm
  generalize hd : Iterables.unique (u.dims ++ (u.dims ++ v.dims)) = dims at hm
  have hmem : ∀ d, d ∈ dims ↔ d ∈ u.dims ∨ d ∈ v.dims := by
    intro d
    rw [← hd, Iterables.mem_unique]
    simp only [List.mem_append]
    tauto
  have hn : dims.Nodup := by rw [← hd]; exact Iterables.nodup_unique _
  have eu := shapeDict_eq u size hu su
  have ev := shapeDict_eq v size hv sv
  have hsize : dims.map (fun d => ((u.shapeDict.update v.shapeDict).get? d).getD 0) = dims.map size := by
    refine List.map_congr_left (fun d hdm => ?_)
    rw [ev, get?_update_map]
    split
    · rfl
    · next h =>
      have hu' : d ∈ u.dims := by rcases (hmem d).1 hdm with h' | h'; exact h'; exact absurd h' h
      have := get?_update_map size u.dims [] d
      rw [if_pos hu'] at this
      have e : Dict.update [] (u.dims.map (fun x => (x, size x))) = u.shapeDict := by
        have hz : u.dims.map (fun x => (x, size x)) = u.dims.zip u.array.shape := by
          rw [su, List.zip_map_right, List.zip, List.zipWith_self, List.map_map]; rfl
        rw [hz]; rfl
      rw [e] at this
      rw [this]; rfl
  have keys : ∀ (w : Var K), w.shapeDict = w.dims.map (fun d => (d, size d)) → w.shapeDict.keys = w.dims := by
    intro w hw
    rw [hw]
    simp [Dict.keys, Function.comp_def]
  obtain ⟨a, ea, sa, ga⟩ := fancy_spec size dims u.dims u.array (fun d h => (hmem d).2 (Or.inl h)) su
  obtain ⟨b, eb, sb, gb⟩ := fancy_spec size dims v.dims v.array (fun d h => (hmem d).2 (Or.inr h)) sv
  refine ⟨dims, a, b, ?_, hn, hmem, sa, sb, ga, gb⟩
  unfold alignAxes
  simp only [hm, hsize, keys u eu, keys v ev, ea, eb, bind, Except.bind, pure, Except.pure]

/-- **C44.** The product (or quotient, or any other elementwise operation) of two variables whose axis
sizes are given by `size`: its axes are those of the operands, and its entry at a combination `σ` of named
positions is the product of the operands' entries at the same named positions. -/
theorem c44_product {K : Type} (op : K → K → K) (u v : Var K) (size : Str → Nat)
    (hu : u.dims.Nodup) (hv : v.dims.Nodup)
    (su : u.array.shape = u.dims.map size) (sv : v.array.shape = v.dims.map size) :
    ∃ r : Var K, u.combine op v = .ok r ∧ r.dims.Nodup ∧ (∀ d, d ∈ r.dims ↔ d ∈ u.dims ∨ d ∈ v.dims) ∧
      r.array.shape = r.dims.map size ∧
      ∀ σ : Str → Nat, (∀ d ∈ r.dims, σ d < size d) →
        r.array.get (r.dims.map σ) = op (u.array.get (u.dims.map σ)) (v.array.get (v.dims.map σ)) := by
  obtain ⟨dims, a, b, e, hn, hmem, sa, sb, ga, gb⟩ := alignAxes_spec u v size hu hv su sv
  have hb : bshape a.shape b.shape = .ok (dims.map size) := by
    rw [sa, sb]
    refine bshape_ok_form _ _ _ (fun j hj => ?_)
    have hj' : j < dims.length := by simpa using hj
    have hidx : dims.idxOf dims[j] = j := hn.idxOf_getElem j hj'
    rcases (hmem dims[j]).1 (List.getElem_mem hj') with h | h
    · exact Or.inl (List.mem_map.2 ⟨_, h, hidx⟩)
    · exact Or.inr (List.mem_map.2 ⟨_, h, hidx⟩)
  refine ⟨⟨dims, ⟨dims.map size, fun p => op (a.bget p) (b.bget p)⟩⟩, ?_, hn, hmem, rfl, ?_⟩
  · unfold Var.combine
    simp only [e, hb, bind, Except.bind, pure, Except.pure]
  · intro σ hσ
    simp only
    rw [ga σ hσ, gb σ hσ]

/-- A matrix times a vector along its second axis. -/
example : (do
    let r ← Var.combine (· * ·)
      (⟨[c!"y"], ⟨[3], fun p => p.getD 0 0 + 1⟩⟩ : Var Nat)
      ⟨[c!"x", c!"y"], ⟨[2, 3], fun p => 10 * p.getD 0 0 + p.getD 1 0⟩⟩
    return (r.dims, r.array.shape, (grid r.array.shape).map r.array.get))
    = .ok ([c!"y", c!"x"], [3, 2], [0, 10, 2, 22, 6, 36]) := by decide +kernel

/-! ## C93: mismatched sizes -/

/-- **C93, violated.** Five values times three values along the same axis: the last two are dropped, with
no error. In the other order, `IndexError`. -/
theorem c93_counterexample :
    let u : Var Nat := ⟨[c!"x"], ⟨[5], fun p => p.getD 0 0⟩⟩
    let v : Var Nat := ⟨[c!"x"], ⟨[3], fun p => p.getD 0 0⟩⟩
    (do
      let r ← u.combine (· * ·) v
      return (r.array.shape, (grid r.array.shape).map r.array.get)) = .ok ([3], [0, 1, 4]) ∧
    (do
      let r ← v.combine (· * ·) u
      return r.array.shape) = .error .indexError := by decide +kernel

theorem fancy_error {K : Type} (a : Arr K) (rank : Nat) (idx : List (Arr Nat)) (shape : List Nat)
    (hs : bshapes rank (idx.map (·.shape)) = .ok shape) (p : List Nat) (hp : p ∈ grid shape)
    (i : Nat) (hi : i < idx.length) (hi' : i < a.shape.length) (h : a.shape[i] ≤ idx[i].bget p) :
    a.fancy rank idx = .error .indexError := by
  unfold Arr.fancy
  rw [hs]
  simp only [bind, Except.bind]
  rw [if_neg]
  rw [List.all_eq_true]
  intro hall
  have h1 := hall p hp
  rw [List.all_eq_true] at h1
  have h2 := h1 (decide (idx[i].bget p < a.shape[i])) (by
    refine List.mem_iff_getElem.2 ⟨i, by simp; omega, ?_⟩
    rw [List.getElem_zipWith])
  simp only [id_eq, decide_eq_true_eq] at h2
  omega

/-- **C93.** Two variables along one common axis: equal sizes give the product, and a first operand that
is shorter than the second raises `IndexError`. Missing: a longer first operand. -/
theorem c93_partial {K : Type} (op : K → K → K) (x : Str) (m n : Nat) (f g : List Nat → K) :
    (m = n → ∃ r, Var.combine op ⟨[x], ⟨[m], f⟩⟩ ⟨[x], ⟨[n], g⟩⟩ = .ok r ∧ r.array.shape = [n]) ∧
    (m < n → Var.combine op ⟨[x], ⟨[m], f⟩⟩ ⟨[x], ⟨[n], g⟩⟩ = .error .indexError) := by
  constructor
  · rintro rfl
    obtain ⟨r, h1, h2, h3, h4, _⟩ := c44_product op ⟨[x], ⟨[m], f⟩⟩ ⟨[x], ⟨[m], g⟩⟩ (fun _ => m)
      (by simp) (by simp) rfl rfl
    refine ⟨r, h1, ?_⟩
    rw [h4]
    have h3' : ∀ d, d ∈ r.dims ↔ d = x := by intro d; rw [h3]; simp
    match hr : r.dims, h2, h3' with
    | [], _, h3' => exact absurd ((h3' x).2 rfl) (by simp)
    | [d], _, _ => rfl
    | d :: d' :: _, h2, h3' =>
      have e1 := (h3' d).1 (by simp)
      have e2 := (h3' d').1 (by simp)
      simp [e1, e2] at h2
  · intro hmn
    have hm : mergeAll [x] [.dims [x], .dims [x]] = .ok [x] := by
      rw [mergeAll_eq]
      simp [namesOf, Iterables.unique, Iterables.uniqueLoop]
    have hfan : Arr.fancy ⟨[m], f⟩ 1 [mesh [n] 0] = .error .indexError := by
      refine fancy_error _ _ _ [n] ?_ [n - 1] ?_ 0 (by simp) (by simp) ?_
      · have := bshapes_form [n] [0]
        simpa [formShape] using this
      · simp [grid]; omega
      · simp only [List.getElem_cons_zero]
        rw [bget_mesh [n] [n - 1] 0 rfl (by simp)]
        simp only [List.getD_cons_zero]
        split <;> omega
    unfold Var.combine alignAxes
    simp only [hm, bind, Except.bind, Var.shapeDict, Dict.ofPairs, Dict.update, List.zip_cons_cons,
      List.zip_nil_right, List.foldl_cons, List.foldl_nil, Dict.set, if_true, Dict.get?, List.map_cons,
      List.map_nil, Option.getD_some, Dict.keys_cons, Dict.keys_nil, List.idxOf_cons_self, List.length_cons,
      List.length_nil]
    rw [hfan]

example : Var.combine (K := Nat) (· * ·) ⟨[c!"x"], ⟨[2], fun _ => 1⟩⟩ ⟨[c!"x"], ⟨[3], fun _ => 1⟩⟩
    = .error .indexError :=
  (c93_partial _ _ 2 3 _ _).2 (by omega)

/-! ## C45: removing axes -/

/-- **C45, violated.** The mean over the last axis, given as `-1`; squeezing one of two singular axes out
of three axes: `ValueError`. Squeezing one of two singular axes: the other one is renamed. -/
theorem c45_counterexample :
    mean [c!"t", c!"r"] [4, 3] (-1) = .error .valueError ∧
    mean [c!"t", c!"r"] [4, 3] 1 = .ok ([c!"t"], [4]) ∧
    squeeze [c!"t", c!"s", c!"r"] [1, 1, 3] (some 0) = .error .valueError ∧
    squeeze [c!"t", c!"s"] [1, 1] (some 0) = .ok ([c!"x0"], [1]) := by decide +kernel

theorem named_ok (dims : List Str) (shape : List Nat) (h : dims.length = shape.length) :
    named dims shape = .ok (dims, shape) := by
  unfold named
  by_cases hd : dims = []
  · subst hd
    have : shape = [] := by simpa using h.symm
    subst this
    rfl
  · simp [hd, h]

/-- **C45.** The mean over an axis with a non-negative number has the other axes, in order; squeezing all
singular axes leaves exactly the pairs of name and size with another size. Missing: negative axis numbers,
and squeezing a given axis. -/
theorem c45_partial (dims : List Str) (shape : List Nat) (hn : dims.Nodup)
    (hl : dims.length = shape.length) :
    (∀ k < dims.length, mean dims shape k = .ok (dims.eraseIdx k, shape.eraseIdx k)) ∧
    (∃ ds ss, squeeze dims shape none = .ok (ds, ss) ∧ ds.length = ss.length ∧
      ds.zip ss = (dims.zip shape).filter (fun p => p.2 ≠ 1)) := by
  constructor
  · intro k hk
    have h1 : dims.filter (fun a => ((dims.idxOf a : Nat) : Int) ≠ (k : Int)) = dims.eraseIdx k := by
      rw [← hn.erase_getElem k hk, hn.erase_eq_filter]
      refine List.filter_congr (fun a ha => ?_)
      have : dims.idxOf a = k ↔ a = dims[k] := by
        constructor
        · intro h
          subst h
          simp
        · rintro rfl
          exact hn.idxOf_getElem k hk
      have h' : ((dims.idxOf a : Nat) : Int) = (k : Int) ↔ a = dims[k] := by rw [Nat.cast_inj, this]
      rw [Bool.eq_iff_iff]
      simp only [decide_eq_true_eq, ne_eq, h', bne_iff_ne]
    have h2 : meanShape shape (k : Int) = .ok (shape.eraseIdx k) := by
      unfold meanShape
      rw [if_neg (show ¬ (k : Int) < 0 by omega)]
      rw [if_pos (by omega)]
      simp
    unfold mean
    simp only [h2, bind, Except.bind]
    rw [h1]
    exact named_ok _ _ (by rw [List.length_eraseIdx, List.length_eraseIdx, hl])
  · have hs : shape.filter (· ≠ 1) = ((dims.zip shape).filter (fun p => p.2 ≠ 1)).map (·.2) := by
      have : shape = (dims.zip shape).map (·.2) := by
        rw [List.map_snd_zip (by omega)]
      conv_lhs => rw [this]
      rw [List.filter_map]
      rfl
    refine ⟨((dims.zip shape).filter (fun p => p.2 ≠ 1)).map (·.1),
      ((dims.zip shape).filter (fun p => p.2 ≠ 1)).map (·.2), ?_, by simp, ?_⟩
    · unfold squeeze squeezeShape
      simp only [bind, Except.bind]
      rw [hs]
      exact named_ok _ _ (by simp)
    · rw [List.zip_map_left, List.zip_map_right]
      simp [List.zip, List.zipWith_self, List.map_map, Function.comp_def]

example : mean [c!"t", c!"s", c!"r"] [4, 1, 3] 1 = .ok ([c!"t", c!"r"], [4, 3]) ∧
    squeeze [c!"t", c!"s", c!"r"] [4, 1, 3] none = .ok ([c!"t", c!"r"], [4, 3]) := by decide +kernel

/-! ## C46: neighbouring shells -/

theorem select_ok {α : Type _} (xs : List α) : ∀ (idx : List Int) (ys : List α), idx.length = ys.length →
    (∀ i (h : i < idx.length) (h' : i < ys.length), getItem xs idx[i] = .ok ys[i]) → select xs idx = .ok ys
  | [], [], _, _ => rfl
  | [], _ :: _, h, _ => by simp at h
  | _ :: _, [], h, _ => by simp at h
  | i :: idx, y :: ys, h, hg => by
    have h0 := hg 0 (by simp) (by simp)
    simp only [List.getElem_cons_zero] at h0
    have hr := select_ok xs idx ys (by simpa using h) (by
      intro j h1 h2
      have := hg (j + 1) (by simpa using h1) (by simpa using h2)
      rwa [List.getElem_cons_succ, List.getElem_cons_succ] at this)
    unfold select at hr ⊢
    rw [List.mapM_cons, h0, hr]
    rfl

theorem getElem_rangeUp_one (a b : Int) (i : Nat) (h : i < (rangeUp a b 1).length) :
    (rangeUp a b 1)[i] = a + i := by
  simp [rangeUp]

/-- **C46.** For at least one shell, the value ahead of shell `i` is the value at `i + 1`, and at the last
shell the last value; the value behind is the value at `i - 1`, and at the first shell the first value.
The number of shells is the same. -/
theorem c46_shift {α : Type _} (row : List α) (h : row ≠ []) :
    ∃ a b, ahead row = .ok a ∧ behind row = .ok b ∧ ∃ (ha : a.length = row.length)
      (hb : b.length = row.length), ∀ i (hi : i < row.length),
        (∀ hi' : i + 1 < row.length, a[i] = row[i + 1]) ∧ (i + 1 = row.length → a[i] = row[i]) ∧
        (0 < i → b[i] = row[i - 1]) ∧ (i = 0 → b[i] = row[0]) := by
  have hp : 0 < row.length := List.length_pos_of_ne_nil h
  refine ⟨(List.range row.length).pmap (fun i hi => row[min (i + 1) (row.length - 1)]'(by omega))
      (fun _ h => List.mem_range.1 h),
    (List.range row.length).pmap (fun i (hi : i < row.length) => row[i - 1]) (fun _ h => List.mem_range.1 h),
    ?_, ?_, by simp, by simp, ?_⟩
  · refine select_ok _ _ _ ?_ ?_
    · simp [length_rangeUp_one]; omega
    · intro i h1 h2
      simp only [List.length_pmap, List.length_range] at h2
      have hlen : (rangeUp 1 row.length 1).length = row.length - 1 := by
        rw [length_rangeUp_one]; omega
      rw [List.getElem_pmap]
      simp only [List.getElem_range]
      by_cases hi : i < row.length - 1
      · rw [List.getElem_append_left (by omega), getElem_rangeUp_one]
        have e : (1 : Int) + i = ((i + 1 : Nat) : Int) := by omega
        rw [e, getItem_nat row (i + 1) (by omega)]
        congr 1
        simp only [show min (i + 1) (row.length - 1) = i + 1 by omega]
      · rw [List.getElem_append_right (by omega)]
        simp only [hlen, List.getElem_singleton]
        have e : (row.length : Int) - 1 = ((row.length - 1 : Nat) : Int) := by omega
        rw [e, getItem_nat row (row.length - 1) (by omega)]
        congr 1
        simp only [show min (i + 1) (row.length - 1) = row.length - 1 by omega]
  · refine select_ok _ _ _ ?_ ?_
    · simp [length_rangeUp_one]; omega
    · intro i h1 h2
      simp only [List.length_pmap, List.length_range] at h2
      rw [List.getElem_pmap]
      simp only [List.getElem_range]
      cases i with
      | zero => exact getItem_nat row 0 hp
      | succ i =>
        rw [List.getElem_cons_succ, getElem_rangeUp_one]
        have e : (0 : Int) + i = ((i : Nat) : Int) := by omega
        rw [e, getItem_nat row i (by omega)]
        rfl
  · intro i hi
    refine ⟨?_, ?_, ?_, ?_⟩
    · intro hi'
      rw [List.getElem_pmap]
      simp only [List.getElem_range, show min (i + 1) (row.length - 1) = i + 1 by omega]
    · intro h'
      rw [List.getElem_pmap]
      simp only [List.getElem_range, show min (i + 1) (row.length - 1) = i by omega]
    · intro _
      rw [List.getElem_pmap]
      simp only [List.getElem_range]
    · rintro rfl
      rw [List.getElem_pmap]
      simp only [List.getElem_range]

example : ahead [10, 20, 30] = .ok [20, 30, 30] ∧ behind [10, 20, 30] = .ok [10, 10, 20] := by decide +kernel

/-! ## C47: the default axis indexer -/

/-- **C47, violated.** The targets `-1/2` and `5/2` are accepted, and become 0 and 2. -/
theorem c47_counterexample : indexer 3 [.num (-1 / 2), .num (5 / 2)] = .ok [0, 2] := by decide +kernel

theorem truncate_int (i : Int) : truncate (i : Rat) = i := by
  unfold truncate
  split
  · rw [show (-(i : Rat)) = ((-i : Int) : Rat) by push_cast; rfl]
    have : ((-i : Int) : Rat).floor = -i := Rat.floor_intCast (-i)
    rw [this]; omega
  · exact Rat.floor_intCast i

theorem mapM_toInt (is : List Int) :
    (is.map (fun i : Int => Target.num (i : Rat))).mapM Target.toInt = .ok is := by
  rw [List.mapM_map]
  induction is with
  | nil => rfl
  | cons i is ih =>
    rw [List.mapM_cons, ih]
    simp [Function.comp, Target.toInt, truncate_int, bind, Except.bind, pure, Except.pure]

theorem indexer_ints (n : Nat) (is : List Int) : indexer n (is.map (fun i : Int => .num (i : Rat)))
    = if ∀ i ∈ is, 0 ≤ i ∧ i < n then .ok is else .error .valueError := by
  unfold indexer
  rw [mapM_toInt]
  simp

/-- **C47.** Integer targets are returned as they are when all are in range, and `ValueError` is raised
otherwise, whether they are listed or come from a range; a target that is not a number raises
`IndexTypeError`; with no targets, every index is returned once, in order. Whatever the targets, the
indices returned are in range, one for each target. Missing: numbers that are not integers are not
rejected. -/
theorem c47_partial (n : Nat) :
    (∀ is : List Int, (∀ i ∈ is, 0 ≤ i ∧ i < n) →
      defaultIndex n (.targets (is.map (fun i : Int => .num (i : Rat)))) = .ok is ∧
      defaultIndex n (.range is) = .ok is) ∧
    (∀ is : List Int, (∃ i ∈ is, i < 0 ∨ n ≤ i) →
      defaultIndex n (.targets (is.map (fun i : Int => .num (i : Rat)))) = .error .valueError ∧
      defaultIndex n (.range is) = .error .valueError) ∧
    (∀ ts, .other ∈ ts → defaultIndex n (.targets ts) = .error (.named "IndexTypeError")) ∧
    defaultIndex n .nothing = .ok ((List.range n).map Int.ofNat) ∧
    (∀ ts is, defaultIndex n (.targets ts) = .ok is → is.length = ts.length ∧ ∀ i ∈ is, 0 ≤ i ∧ i < n) := by
  refine ⟨?_, ?_, ?_, ?_, ?_⟩
  · intro is h
    unfold defaultIndex
    simp only [indexer_ints, if_pos h, and_self]
  · intro is h
    have : ¬ ∀ i ∈ is, 0 ≤ i ∧ i < n := by
      obtain ⟨i, hi, h⟩ := h
      intro hall
      have := hall i hi
      omega
    unfold defaultIndex
    simp only [indexer_ints, if_neg this, and_self]
  · intro ts h
    unfold defaultIndex indexer
    have : ∀ ts : List Target, .other ∈ ts → ∃ e, ts.mapM Target.toInt = .error e := by
      intro ts
      induction ts with
      | nil => simp
      | cons t ts ih =>
        intro h
        rw [List.mapM_cons]
        cases t with
        | other => exact ⟨.typeError, rfl⟩
        | num q =>
          obtain ⟨e, he⟩ := ih (by simpa using h)
          rw [he]
          exact ⟨e, rfl⟩
    obtain ⟨e, he⟩ := this ts h
    rw [he]
  · unfold defaultIndex
    have hr : rangeUp 0 n 1 = (List.range n).map Int.ofNat := by simp [rangeUp]
    simp only [hr, indexer_ints]
    rw [if_pos]
    intro i hi
    obtain ⟨k, hk, rfl⟩ := List.mem_map.1 hi
    have := List.mem_range.1 hk
    simp; omega
  · intro ts is h
    unfold defaultIndex indexer at h
    simp only at h
    split at h
    · cases h
    · next js hjs =>
      split at h
      · next hall =>
        rw [Except.ok.injEq] at h
        subst h
        refine ⟨?_, ?_⟩
        · have : ∀ (ts : List Target) (is : List Int), ts.mapM Target.toInt = .ok is → is.length = ts.length := by
            intro ts
            induction ts with
            | nil => intro is h; simp [pure, Except.pure] at h; subst h; rfl
            | cons t ts ih =>
              intro is h
              rw [List.mapM_cons] at h
              cases ht : t.toInt with
              | error e => rw [ht] at h; cases h
              | ok x =>
                cases hts : ts.mapM Target.toInt with
                | error e => rw [ht, hts] at h; cases h
                | ok xs =>
                  rw [ht, hts] at h
                  simp [bind, Except.bind, pure, Except.pure] at h
                  subst h
                  simp [ih xs hts]
          exact this ts js hjs
        · intro i hi
          have := List.all_eq_true.1 hall i hi
          simpa using this
      · cases h

example : defaultIndex 4 (.targets [.num 3, .num 0]) = .ok [3, 0] ∧
    defaultIndex 4 (.range [1, 4]) = .error .valueError ∧ defaultIndex 3 .nothing = .ok [0, 1, 2] ∧
    defaultIndex 5 (.slice ⟨some 1, none, some 2⟩) = .ok [1, 3] := by decide +kernel

end Verif.Arrays
