import Verif.Arrays.Spec
import Verif.Numerical.Lemmas
import Verif.Iterables.Props
import Verif.Metadata.Props
import Mathlib.Data.List.Basic
import Mathlib.Algebra.BigOperators.Group.List.Basic

set_option linter.unusedSimpArgs false
set_option linter.unusedSectionVars false

namespace Verif.Arrays

open Verif.Py Verif.Metadata Verif.Numerical

/-! ## Slices -/

/-- The size along an axis, as the length of the list of positions. -/
def posSize (n : Nat) : Ix → Nat
  | .int _ => 1
  | .slice s => match positions s n with
    | .ok l => l.length
    | .error _ => 0
  | _ => n

/-- The sizes of a subarray, in terms of the lists of positions. -/
def posSizes : List Nat → List Ix → List Nat
  | n :: shape, x :: xs => posSize n x :: posSizes shape xs
  | shape, _ => shape

theorem rangeDown_eq (start stop step : Int) (h : step < 0) :
    (List.range ((start - stop - step - 1) / (-step)).toNat).map (fun k : Nat => start + k * step)
      = (rangeUp (-start) (-stop) (-step)).map (fun x => -x) := by
  rw [rangeUp, if_pos (by omega), List.map_map]
  have : -stop - -start + -step - 1 = start - stop - step - 1 := by ring
  rw [this]
  refine List.map_congr_left (fun k _ => ?_)
  simp only [Function.comp_apply]
  ring

/-- The positions of a slice are those that it selects. -/
theorem positions_selects (s : Slice) (n : Nat) (h : s.step ≠ some 0) :
    ∃ l, positions s n = .ok l ∧ l.Perm (((List.range n).filter (Spec.selects s n)).map Int.ofNat) := by
  have hstep : s.step.getD 1 ≠ 0 := by
    cases hs : s.step with
    | none => simp
    | some x => simpa [hs] using h
  have hnd : (((List.range n).filter (Spec.selects s n)).map Int.ofNat).Nodup :=
    (List.nodup_range.filter _).map (fun a b h => by simpa using h)
  unfold positions
  simp only
  rw [if_neg hstep]
  by_cases hp : 0 < s.step.getD 1
  · rw [if_pos hp]
    refine ⟨_, rfl, (List.perm_ext_iff_of_nodup ((Iterables.pairwise_rangeUp hp).imp (fun h => by omega)) hnd).2 ?_⟩
    intro x
    rw [Iterables.mem_rangeUp hp]
    simp only [List.mem_map, List.mem_filter, List.mem_range, Spec.selects]
    simp only [if_pos hp, decide_eq_true_eq]
    have hfirst : (∃ i, s.start = some i) ∨ s.start = none := by cases s.start <;> simp
    have hstop : (∃ i, s.stop = some i) ∨ s.stop = none := by cases s.stop <;> simp
    have key : ∀ lo lo' hi hi' : Int, (lo = max 0 (min (n : Int) lo')) → (hi = max 0 (min (n : Int) hi')) →
        ((lo ≤ x ∧ x < hi ∧ (x - lo) % s.step.getD 1 = 0) ↔
          ∃ a : Nat, (a < n ∧ max 0 lo' ≤ (a : Int) ∧ (a : Int) < hi' ∧
            ((a : Int) - max 0 lo') % s.step.getD 1 = 0) ∧ Int.ofNat a = x) := by
      intro lo lo' hi hi' e1 e2
      constructor
      · rintro ⟨h1, h2, h3⟩
        refine ⟨x.toNat, ⟨?_, ?_, ?_, ?_⟩, ?_⟩
        · omega
        · omega
        · omega
        · have : lo = max 0 lo' := by omega
          rw [← this]
          have : ((x.toNat : Nat) : Int) = x := by omega
          rw [this]; exact h3
        · simp only [Int.ofNat_eq_natCast]; omega
      · rintro ⟨a, ⟨h1, h2, h3, h4⟩, rfl⟩
        have : lo = max 0 lo' := by omega
        simp only [Int.ofNat_eq_natCast]
        refine ⟨by omega, by omega, ?_⟩
        rw [this]; exact h4
    rcases hfirst with ⟨i, hi⟩ | hi <;> rcases hstop with ⟨j, hj⟩ | hj <;>
      simp only [hi, hj, Option.map_some, Option.map_none, Option.getD_some, Option.getD_none]
    · exact key _ (Spec.fromStart n i) _ (Spec.fromStart n j) rfl rfl
    · exact key _ (Spec.fromStart n i) _ n rfl (by omega)
    · exact key _ 0 _ (Spec.fromStart n j) (by omega) rfl
    · exact key _ 0 _ n (by omega) (by omega)
  · have hn : s.step.getD 1 < 0 := by omega
    rw [if_neg hp, rangeDown_eq _ _ _ hn]
    have hp' : 0 < -(s.step.getD 1) := by omega
    have hnd' : ∀ a b : Int, ((rangeUp a b (-s.step.getD 1)).map (fun x => -x)).Nodup := fun a b =>
      List.Nodup.map (fun a b h => by simpa using h)
        ((Iterables.pairwise_rangeUp hp').imp (fun h => by omega))
    refine ⟨_, rfl, (List.perm_ext_iff_of_nodup (hnd' _ _) hnd).2 ?_⟩
    intro x
    rw [List.mem_map]
    have hex : (∃ a, a ∈ rangeUp (-(Option.map (clipDown n) s.start).getD (↑n - 1))
        (-(Option.map (clipDown n) s.stop).getD (-1)) (-s.step.getD 1) ∧ -a = x) ↔
        -x ∈ rangeUp (-(Option.map (clipDown n) s.start).getD (↑n - 1))
        (-(Option.map (clipDown n) s.stop).getD (-1)) (-s.step.getD 1) := by
      constructor
      · rintro ⟨a, ha, rfl⟩; simpa using ha
      · intro h; exact ⟨-x, h, by simp⟩
    rw [hex, Iterables.mem_rangeUp hp']
    simp only [List.mem_map, List.mem_filter, List.mem_range, Spec.selects]
    simp only [if_neg hp, if_pos hn, decide_eq_true_eq]
    have hfirst : (∃ i, s.start = some i) ∨ s.start = none := by cases s.start <;> simp
    have hstop : (∃ i, s.stop = some i) ∨ s.stop = none := by cases s.stop <;> simp
    have key : ∀ lo lo' hi hi' : Int, (lo = max (-1) (min ((n : Int) - 1) lo')) → (hi = max (-1) (min ((n : Int) - 1) hi')) →
        ((-lo ≤ -x ∧ -x < -hi ∧ (-x - -lo) % (-s.step.getD 1) = 0) ↔
          ∃ a : Nat, (a < n ∧ (a : Int) ≤ min ((n : Int) - 1) lo' ∧ hi' < (a : Int) ∧
            (min ((n : Int) - 1) lo' - (a : Int)) % (-s.step.getD 1) = 0) ∧ Int.ofNat a = x) := by
      intro lo lo' hi hi' e1 e2
      constructor
      · rintro ⟨h1, h2, h3⟩
        refine ⟨x.toNat, ⟨?_, ?_, ?_, ?_⟩, ?_⟩
        · omega
        · omega
        · omega
        · have e : min ((n : Int) - 1) lo' - ((x.toNat : Nat) : Int) = -x - -lo := by omega
          rw [e]; exact h3
        · simp only [Int.ofNat_eq_natCast]; omega
      · rintro ⟨a, ⟨h1, h2, h3, h4⟩, rfl⟩
        simp only [Int.ofNat_eq_natCast]
        refine ⟨by omega, by omega, ?_⟩
        have e0 : lo = min ((n : Int) - 1) lo' := by
          rw [e1]; exact max_eq_right (by omega)
        have e : -(a : Int) - -lo = min ((n : Int) - 1) lo' - (a : Int) := by rw [e0]; ring
        rw [e]; exact h4
    rcases hfirst with ⟨i, hi⟩ | hi <;> rcases hstop with ⟨j, hj⟩ | hj <;>
      simp only [hi, hj, Option.map_some, Option.map_none, Option.getD_some, Option.getD_none]
    · exact key _ (Spec.fromStart n i) _ (Spec.fromStart n j) rfl rfl
    · exact key _ (Spec.fromStart n i) _ (-1) rfl (by omega)
    · exact key _ (n - 1) _ (Spec.fromStart n j) (by omega) rfl
    · exact key _ (n - 1) _ (-1) (by omega) (by omega)

theorem posSize_eq (n : Nat) (x : Ix) : posSize n x = Spec.size n x := by
  cases x with
  | slice s =>
    by_cases h : s.step = some 0
    · have h1 : positions s n = .error .valueError := by simp [positions, h]
      have h2 : ∀ x, Spec.selects s n x = false := by intro x; simp [Spec.selects, h]
      simp only [posSize, Spec.size, h1]
      rw [List.filter_eq_nil_iff.2 (fun x _ => by simp [h2 x])]
      rfl
    · obtain ⟨l, hl, hperm⟩ := positions_selects s n h
      simp only [posSize, Spec.size, hl]
      rw [hperm.length_eq, List.length_map]
  | _ => rfl

theorem posSizes_eq (shape : List Nat) (idx : List Ix) : posSizes shape idx = Spec.sizes shape idx := by
  induction shape generalizing idx with
  | nil => cases idx <;> rfl
  | cons n shape ih =>
    cases idx with
    | nil => rfl
    | cons x xs => simp only [posSizes, Spec.sizes, posSize_eq, ih]

theorem length_rangeUp_one (a b : Int) : (rangeUp a b 1).length = (b - a).toNat := by
  simp [rangeUp]

theorem clipUp_of_mem (n : Nat) (x : Int) (h : 0 ≤ x) (h' : x ≤ n) : clipUp n x = x := by
  unfold clipUp
  rw [if_neg (by omega)]
  omega

theorem positions_plain (s : Slice) (n : Nat) (h : Spec.Plain n (.slice s)) :
    positions s n = .ok (rangeUp (s.start.getD 0) (s.stop.getD n) 1) := by
  obtain ⟨h1, h2, h3, h4, h5⟩ := h
  have hstep : s.step.getD 1 = 1 := by rcases h1 with h | h <;> simp [h]
  have e1 : (s.start.map (clipUp n)).getD 0 = s.start.getD 0 := by
    cases hs : s.start with
    | none => rfl
    | some x =>
      rw [hs] at h2 h3
      simp only [Option.getD_some] at h2 h3
      simp [clipUp_of_mem n x h2 (by omega)]
  have e2 : (s.stop.map (clipUp n)).getD n = s.stop.getD n := by
    cases hs : s.stop with
    | none => rfl
    | some x =>
      rw [hs] at h3 h4
      simp only [Option.getD_some] at h3 h4
      simp [clipUp_of_mem n x (by omega) h4]
  unfold positions
  simp only [hstep, e1, e2]
  simp

theorem size_plain (s : Slice) (n : Nat) (h : Spec.Plain n (.slice s)) :
    (posSize n (.slice s) : Int) = s.stop.getD n - s.start.getD 0 := by
  simp only [posSize, positions_plain s n h, length_rangeUp_one]
  obtain ⟨_, h2, h3, h4, _⟩ := h
  omega

theorem axisSize_plain (shape : List Nat) (i n : Nat) (hn : shape[i]? = some n) (x : Ix)
    (h : Spec.Plain n x) : axisSize shape i x = .ok (posSize n x : Int) := by
  cases x with
  | int i => rfl
  | slice s =>
    rw [size_plain s n h]
    obtain ⟨_, _, _, _, h5⟩ := h
    unfold axisSize
    cases hs : s.stop with
    | none =>
      cases hst : s.start <;> simp [hs, hst, axisSize.axisLen, hn, bind, Except.bind, pure, Except.pure]
    | some x =>
      have hx : x ≠ 0 := by rintro rfl; exact h5 hs
      cases hst : s.start <;> simp [hs, hst, hx, bind, Except.bind, pure, Except.pure]
  | ellipsis => exact absurd h (by simp [Spec.Plain])
  | list l => exact absurd h (by simp [Spec.Plain])

theorem selectAxis_plain (n : Nat) (x : Ix) (h : Spec.Plain n x) :
    ∃ l b, selectAxis n x = .ok (l, b) ∧ l.length = posSize n x ∧ (b = false → posSize n x = 1) := by
  cases x with
  | int i =>
    obtain ⟨h1, h2⟩ := h
    refine ⟨[if i < 0 then i + n else i], false, ?_, rfl, fun _ => rfl⟩
    simp only [selectAxis]
    rw [if_pos (by split <;> omega)]
  | slice s =>
    refine ⟨rangeUp (s.start.getD 0) (s.stop.getD n) 1, true, ?_, ?_, by simp⟩
    · simp only [selectAxis, positions_plain s n h, bind, Except.bind, pure, Except.pure]
    · simp only [posSize, positions_plain s n h]
  | ellipsis => exact absurd h (by simp [Spec.Plain])
  | list l => exact absurd h (by simp [Spec.Plain])

theorem selectAxes_plain : ∀ (shape : List Nat) (idx : List Ix), List.Forall₂ Spec.Plain shape idx →
    ∃ sel, selectAxes shape idx = .ok sel ∧ (numpyShape sel).prod = (posSizes shape idx).prod ∧
      (numpyShape sel).length ≤ shape.length ∧
      ((numpyShape sel).length = shape.length → numpyShape sel = posSizes shape idx) := by
  intro shape idx h
  induction h with
  | nil => exact ⟨[], rfl, rfl, by simp [numpyShape], by simp [numpyShape, posSizes]⟩
  | @cons n x shape idx hx _ ih =>
    obtain ⟨sel, e, hp, hl, hs⟩ := ih
    obtain ⟨l, b, e', hlen, hb⟩ := selectAxis_plain n x hx
    refine ⟨(l, b) :: sel, ?_, ?_, ?_, ?_⟩
    · simp only [selectAxes, e, e', bind, Except.bind, pure, Except.pure]
    · cases b with
      | false =>
        have := hb rfl
        simp only [posSizes, List.prod_cons, this, one_mul]
        rw [← hp]; simp [numpyShape]
      | true =>
        simp only [posSizes, List.prod_cons]
        rw [← hp, ← hlen]; simp [numpyShape]
    · cases b <;> simp [numpyShape] at hl ⊢ <;> omega
    · intro hh
      cases b with
      | false => simp [numpyShape] at hl hh; omega
      | true =>
        have : (numpyShape sel).length = shape.length := by simp [numpyShape] at hh ⊢; exact hh
        rw [posSizes, ← hs this, ← hlen]; simp [numpyShape]

theorem axisSizes_plain : ∀ (pre shape : List Nat) (idx : List Ix), List.Forall₂ Spec.Plain shape idx →
    (idx.zipIdx pre.length).mapM (fun p => axisSize (pre ++ shape) p.2 p.1)
      = .ok ((posSizes shape idx).map (fun n : Nat => (n : Int))) := by
  intro pre shape idx h
  induction h generalizing pre with
  | nil => rfl
  | @cons n x shape idx hx _ ih =>
    have hn : (pre ++ n :: shape)[pre.length]? = some n := by simp
    have := ih (pre ++ [n])
    simp only [List.append_assoc, List.singleton_append, List.length_append, List.length_singleton] at this
    rw [List.zipIdx_cons, List.mapM_cons, axisSize_plain _ _ n hn x hx, this]
    rfl

theorem reshape_sizes (ns : List Nat) :
    reshape ns.prod (ns.map (fun n : Nat => (n : Int))) = .ok ns := by
  have h1 : (ns.map (fun n : Nat => (n : Int))).filter (· < 0) = [] := by
    rw [List.filter_eq_nil_iff]
    intro x hx
    obtain ⟨n, _, rfl⟩ := List.mem_map.1 hx
    simp
  have h2 : (ns.map (fun n : Nat => (n : Int))).prod = ((ns.prod : Nat) : Int) := by
    induction ns with
    | nil => rfl
    | cons a l ih =>
      have := ih (by
        rw [List.filter_eq_nil_iff]
        intro x hx
        obtain ⟨n, _, rfl⟩ := List.mem_map.1 hx
        simp)
      simp only [List.map_cons, List.prod_cons, this, Nat.cast_mul]
  unfold reshape
  rw [h1]
  simp only [h2, if_true, List.map_map]
  congr 1
  conv_rhs => rw [← List.map_id ns]
  exact List.map_congr_left (fun n _ => by simp)

theorem no_ellipsis_of_plain {shape : List Nat} {idx : List Ix} (h : List.Forall₂ Spec.Plain shape idx) :
    idx.count .ellipsis = 0 := by
  rw [List.count_eq_zero]
  intro hm
  obtain ⟨i, hi, e⟩ := List.mem_iff_getElem.1 hm
  have := (List.forall₂_iff_get.1 h).2 i (by have := h.length_eq; omega) hi
  simp only [List.get_eq_getElem, e, Spec.Plain] at this

/-- Slices without integers. -/
def isSlice : Ix → Bool
  | .slice s => s.step ≠ some 0
  | _ => false

theorem positions_ok (s : Slice) (n : Nat) (h : s.step ≠ some 0) : ∃ l, positions s n = .ok l := by
  unfold positions
  have : s.step.getD 1 ≠ 0 := by
    cases hs : s.step with
    | none => simp
    | some x => simp; rintro rfl; exact h hs
  simp only [this, if_false]
  split <;> exact ⟨_, rfl⟩

theorem selectAxes_slices : ∀ (shape : List Nat) (idx : List Ix), idx.length ≤ shape.length →
    (∀ x ∈ idx, isSlice x = true) →
    ∃ sel, selectAxes shape idx = .ok sel ∧ numpyShape sel = posSizes shape idx ∧
      (numpyShape sel).length = shape.length
  | shape, [], _, _ => by
    refine ⟨_, by rw [selectAxes], ?_, ?_⟩
    · have : posSizes shape [] = shape := by cases shape <;> rfl
      rw [this]
      simp only [numpyShape, List.filter_map]
      conv_rhs => rw [← List.map_id shape]
      rw [List.filter_eq_self.2 (by simp), List.map_map]
      exact List.map_congr_left (by simp)
    · simp only [numpyShape, List.filter_map]
      rw [List.filter_eq_self.2 (by simp)]
      simp
  | [], x :: xs, h, _ => by simp at h
  | n :: shape, x :: xs, h, hx => by
    obtain ⟨sel, e, hs, hl⟩ := selectAxes_slices shape xs (by simpa using h)
      (fun y hy => hx y (List.mem_cons_of_mem _ hy))
    have h1 := hx x (by simp)
    cases x with
    | slice s =>
      obtain ⟨l, el⟩ := positions_ok s n (by simpa [isSlice] using h1)
      refine ⟨(l, true) :: sel, ?_, ?_, ?_⟩
      · simp only [selectAxes, selectAxis, el, e, bind, Except.bind, pure, Except.pure]
      · rw [posSizes, ← hs]; simp [numpyShape, posSize, el]
      · simp [numpyShape] at hl ⊢; exact hl
    | int i => simp [isSlice] at h1
    | ellipsis => simp [isSlice] at h1
    | list l => simp [isSlice] at h1

/-! ## Products -/

/-- The shape in which the axes `ks` have their sizes, and the others are singular. -/
def formShape (s ks : List Nat) : List Nat :=
  (List.range s.length).map (fun j => if j ∈ ks then s.getD j 0 else 1)

theorem bshape_map {L : List Nat} {f g h : Nat → Nat} (hd : ∀ j ∈ L, bdim (f j) (g j) = .ok (h j)) :
    bshape (L.map f) (L.map g) = .ok (L.map h) := by
  induction L with
  | nil => rfl
  | cons a L ih =>
    simp only [List.map_cons, bshape, hd a (by simp), ih (fun j hj => hd j (List.mem_cons_of_mem _ hj)),
      bind, Except.bind, pure, Except.pure]

theorem bshape_form (s ks ks' : List Nat) :
    bshape (formShape s ks) (formShape s ks') = .ok (formShape s (ks ++ ks')) := by
  refine bshape_map (fun j _ => ?_)
  by_cases h1 : j ∈ ks <;> by_cases h2 : j ∈ ks' <;> simp [h1, h2, bdim]
  by_cases h : s[j]?.getD 0 = 1 <;> simp [h]

theorem mesh_shape (s : List Nat) (k : Nat) : (mesh s k).shape = formShape s [k] := by
  simp [mesh, formShape]

theorem formShape_nil (s : List Nat) : formShape s [] = List.replicate s.length 1 := by
  simp [formShape]

theorem foldlM_form (s : List Nat) : ∀ (ks acc : List Nat),
    (ks.map (fun k => (mesh s k).shape)).foldlM bshape (formShape s acc) = .ok (formShape s (acc ++ ks))
  | [], acc => by simp [pure, Except.pure]
  | k :: ks, acc => by
    have := foldlM_form s ks (acc ++ [k])
    simp only [List.map_cons, List.foldlM_cons, mesh_shape, bshape_form, bind, Except.bind] at this ⊢
    rw [this]
    simp

theorem bshapes_form (s ks : List Nat) :
    bshapes s.length (ks.map (fun k => (mesh s k).shape)) = .ok (formShape s ks) := by
  unfold bshapes
  rw [← formShape_nil, foldlM_form]
  simp

theorem mem_grid : ∀ {s p : List Nat}, p ∈ grid s →
    p.length = s.length ∧ ∀ k < s.length, p.getD k 0 < s.getD k 0
  | [], p, h => by simp [grid] at h; subst h; simp
  | n :: s, p, h => by
    simp only [grid, List.mem_flatMap, List.mem_map, List.mem_range] at h
    obtain ⟨i, hi, q, hq, rfl⟩ := h
    obtain ⟨h1, h2⟩ := mem_grid hq
    refine ⟨by simp [h1], fun k hk => ?_⟩
    cases k with
    | zero => simpa using hi
    | succ k => simpa using h2 k (by simpa using hk)

theorem getD_clamp (s ks p : List Nat) (k : Nat) (hp : p.length = s.length) (hk : k < s.length)
    (hm : k ∈ ks) :
    (List.zipWith (fun n i => if n = 1 then 0 else i) (formShape s ks) p).getD k 0
      = if s.getD k 0 = 1 then 0 else p.getD k 0 := by
  have h1 : k < p.length := by omega
  simp [formShape, List.getD_eq_getElem?_getD, List.getElem?_zipWith, hk, h1, hm]

theorem bget_mesh (s p : List Nat) (k : Nat) (hp : p.length = s.length) (hk : k < s.length) :
    (mesh s k).bget p = if s.getD k 0 = 1 then 0 else p.getD k 0 := by
  unfold Arr.bget
  rw [mesh_shape]
  exact getD_clamp s [k] p k hp hk (by simp)

theorem fancy_within {K : Type _} (size bound : Str → Nat) (dims ds : List Str) (a : Arr K)
    (hsub : ∀ d ∈ ds, d ∈ dims) (ha : a.shape = ds.map bound) (hle : ∀ d ∈ ds, size d ≤ bound d) :
    ∃ r : Arr K, a.fancy dims.length (ds.map (fun d => mesh (dims.map size) (dims.idxOf d))) = .ok r ∧
      r.shape = formShape (dims.map size) (ds.map dims.idxOf) ∧
      ∀ σ : Str → Nat, (∀ d ∈ dims, σ d < size d) → r.bget (dims.map σ) = a.get (ds.map σ) := by
  have hlen : dims.length = (dims.map size).length := by simp
  have hb : bshapes dims.length ((ds.map (fun d => mesh (dims.map size) (dims.idxOf d))).map (·.shape))
      = .ok (formShape (dims.map size) (ds.map dims.idxOf)) := by
    have := bshapes_form (dims.map size) (ds.map dims.idxOf)
    rw [List.map_map] at this
    rw [List.map_map, hlen]
    exact this
  have hget : ∀ {f : Str → Nat} {d : Str}, d ∈ dims → (dims.map f).getD (dims.idxOf d) 0 = f d := by
    intro f d hd
    have := List.idxOf_lt_length_of_mem hd
    rw [List.getD_eq_getElem?_getD, List.getElem?_map, List.getElem?_eq_getElem this]
    simp
  refine ⟨⟨formShape (dims.map size) (ds.map dims.idxOf), fun p => a.get ((ds.map (fun d => mesh (dims.map size) (dims.idxOf d))).map (·.bget p))⟩,
    ?_, rfl, ?_⟩
  · unfold Arr.fancy
    rw [hb]
    simp only [bind, Except.bind]
    rw [if_pos]
    · rfl
    · rw [List.all_eq_true]
      intro p hp
      obtain ⟨hpl, hpk⟩ := mem_grid hp
      rw [ha, List.zipWith_map, List.zipWith_self, List.all_map, List.all_eq_true]
      intro d hd
      have hdm := hsub d hd
      have hi := List.idxOf_lt_length_of_mem hdm
      have hl' : (formShape (dims.map size) (ds.map dims.idxOf)).length = dims.length := by
        simp [formShape]
      simp only [Function.comp_apply, id_eq, decide_eq_true_eq]
      rw [bget_mesh _ _ _ (by rw [hpl]; simp [formShape]) (by simpa using hi), hget hdm]
      have h3 := hpk (dims.idxOf d) (by omega)
      have hmem : dims.idxOf d ∈ ds.map dims.idxOf := List.mem_map.2 ⟨d, hd, rfl⟩
      have h4 : (formShape (dims.map size) (ds.map dims.idxOf)).getD (dims.idxOf d) 0 = size d := by
        rw [← hget (f := size) hdm]
        simp only [formShape, List.getD_eq_getElem?_getD, List.getElem?_map]
        rw [List.getElem?_range (by simpa using hi)]
        simp only [Option.map_some, Option.getD_some, if_pos hmem, List.getElem?_map]
      rw [h4] at h3
      have h6 := hle d hd
      split <;> omega
  · intro σ hσ
    unfold Arr.bget
    simp only
    congr 1
    rw [List.map_map]
    refine List.map_congr_left (fun d hd => ?_)
    have hdm := hsub d hd
    have hi := List.idxOf_lt_length_of_mem hdm
    simp only [Function.comp_apply]
    have h5 := bget_mesh (dims.map size)
      (List.zipWith (fun n i => if n = 1 then 0 else i)
        (formShape (dims.map size) (ds.map dims.idxOf)) (dims.map σ)) (dims.idxOf d)
      (by simp [formShape]) (by simpa using hi)
    unfold Arr.bget at h5
    rw [h5, hget hdm, getD_clamp _ _ _ _ (by simp) (by simpa using hi) (List.mem_map.2 ⟨d, hd, rfl⟩),
      hget hdm, hget hdm]
    have := hσ d hdm
    split <;> omega

theorem fancy_spec {K : Type _} (size : Str → Nat) (dims ds : List Str) (a : Arr K)
    (hsub : ∀ d ∈ ds, d ∈ dims) (ha : a.shape = ds.map size) :
    ∃ r : Arr K, a.fancy dims.length (ds.map (fun d => mesh (dims.map size) (dims.idxOf d))) = .ok r ∧
      r.shape = formShape (dims.map size) (ds.map dims.idxOf) ∧
      ∀ σ : Str → Nat, (∀ d ∈ dims, σ d < size d) → r.bget (dims.map σ) = a.get (ds.map σ) :=
  fancy_within size size dims ds a hsub ha (fun _ _ => le_rfl)

theorem keys_ofPairs_zip {κ ν : Type _} [DecidableEq κ] : ∀ (ks : List κ) (vs : List ν) (d : Dict κ ν),
    ks.Nodup → ks.length = vs.length → (∀ k ∈ ks, k ∉ d.keys) →
    d.update (ks.zip vs) = d ++ ks.zip vs
  | [], vs, d, _, _, _ => by simp [Dict.update]
  | k :: ks, [], d, _, h, _ => by simp at h
  | k :: ks, v :: vs, d, hn, hl, hd => by
    have hk : k ∉ d.keys := hd k (by simp)
    have hset : ∀ (d : Dict κ ν), k ∉ d.keys → d.set k v = d ++ [(k, v)] := by
      intro d
      induction d with
      | nil => intro _; rfl
      | cons p d ih =>
        intro h
        obtain ⟨k', v'⟩ := p
        simp only [Dict.keys_cons, List.mem_cons, not_or] at h
        simp only [Dict.set, if_neg (Ne.symm h.1), ih h.2, List.cons_append]
    have := keys_ofPairs_zip ks vs (d.set k v) (List.nodup_cons.1 hn).2 (by simpa using hl) (by
      intro j hj
      rw [hset d hk]
      simp only [Dict.keys_append, List.mem_append, not_or]
      refine ⟨hd j (List.mem_cons_of_mem _ hj), ?_⟩
      simp [Dict.keys]
      rintro rfl
      exact (List.nodup_cons.1 hn).1 hj)
    simp only [Dict.update, List.zip_cons_cons, List.foldl_cons] at this ⊢
    rw [this, hset d hk]
    simp

theorem shapeDict_eq {K : Type _} (v : Var K) (size : Str → Nat) (hn : v.dims.Nodup)
    (h : v.array.shape = v.dims.map size) : v.shapeDict = v.dims.map (fun d => (d, size d)) := by
  unfold Var.shapeDict Dict.ofPairs
  rw [h, keys_ofPairs_zip _ _ _ hn (by simp) (by simp)]
  rw [List.nil_append, List.zip_map_right, List.zip, List.zipWith_self, List.map_map]
  rfl

theorem get?_update_map (size : Str → Nat) : ∀ (ds : List Str) (d : Dict Str Nat) (k : Str),
    (d.update (ds.map (fun x => (x, size x)))).get? k = if k ∈ ds then some (size k) else d.get? k
  | [], d, k => by simp [Dict.update]
  | x :: ds, d, k => by
    have := get?_update_map size ds (d.set x (size x)) k
    simp only [Dict.update, List.map_cons, List.foldl_cons] at this ⊢
    rw [this, Dict.get?_set]
    by_cases h1 : k ∈ ds
    · simp [h1]
    · by_cases h2 : x = k
      · subst h2; simp
      · simp [h1, h2, Ne.symm h2]

end Verif.Arrays
