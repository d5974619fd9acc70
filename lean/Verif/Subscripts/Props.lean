import Verif.Subscripts.Lemmas
import Verif.Arrays.Props
import Mathlib.Algebra.Group.Int.Defs
import Mathlib.Algebra.Group.Basic

/-!
# C225-C228: subscripts of arrays
-/

set_option linter.unusedSimpArgs false

namespace Verif.Subscripts

open Verif.Py Verif.Arrays

variable {K U N : Type}

/-! ## numpy -/

theorem get_valid {a : Nd K} {xs ys : List Item} (ha : Spec.Whole a) (hb : ∀ x ∈ xs, Spec.Basic x)
    (hs : Spec.Stands a.shape.length xs ys) (hv : Spec.Valid a.shape ys) :
    ∃ r, a.get xs = .ok r ∧ r.shape = Spec.shapeOf a.shape ys ∧ Spec.Whole r
      ∧ ∀ js, Spec.Inside js r.shape → Spec.entry r js = Spec.entry a (Spec.source a.shape ys js) := by
  obtain ⟨sel, h1, h2, h3, h4⟩ := axes_valid ys a.shape (stands_basic hs hb) hv
  refine ⟨⟨outShape sel, pick sel a.shape a.entries⟩, ?_, h3, ?_, ?_⟩
  · simp [Nd.get, spread_stands hs, h1, bind, Except.bind, pure, Except.pure]
  · show (pick sel a.shape a.entries).length = (outShape sel).prod
    rw [← prod_kept]
    exact pick_length sel a.shape a.entries h2 ha
  · intro js hj
    obtain ⟨i1, i2⟩ := fill_inside (sel := sel) hj
    simp only [Spec.entry]
    rw [← i2, pick_get sel a.shape _ a.entries h2 ha i1, h4 js hj]

theorem get_invalid {a : Nd K} {xs ys : List Item} (hb : ∀ x ∈ xs, Spec.Basic x)
    (hs : Spec.Stands a.shape.length xs ys) (hv : ¬ Spec.Valid a.shape ys) : ∃ e, a.get xs = .error e := by
  obtain ⟨e, he⟩ := axes_invalid ys a.shape (stands_basic hs hb) hv
  exact ⟨e, by simp [Nd.get, spread_stands hs, he, bind, Except.bind]⟩

theorem entry_smul [Mul K] (c : K) (a : Nd K) (js : List Nat) :
    Spec.entry (a.smul c) js = (Spec.entry a js).map (c * ·) := by
  simp [Spec.entry, Nd.smul]

theorem whole_smul [Mul K] {c : K} {a : Nd K} (h : Spec.Whole a) : Spec.Whole (a.smul c) := by
  simpa [Spec.Whole, Nd.smul] using h

theorem one_smul' [MulOneClass K] (a : Nd K) : a.smul 1 = a := by
  simp [Nd.smul]

theorem wrap_facts [MulOneClass K] {r : Nd K} (h : Spec.Whole r) (u : U) (n : N) :
    (wrap r u n).values = r ∧ (wrap r u n).unit = u ∧ (wrap r u n).name = n
    ∧ ((∃ x, wrap r u n = .scalar x u n) ↔ r.shape = []) := by
  obtain ⟨shape, entries⟩ := r
  cases shape with
  | cons k shape =>
    refine ⟨one_smul' _, rfl, rfl, ⟨?_, ?_⟩⟩
    · rintro ⟨x, hx⟩; exact absurd hx (by simp [wrap])
    · intro h; exact absurd h (by simp)
  | nil =>
    match entries, h with
    | [x], _ => exact ⟨rfl, rfl, rfl, ⟨fun _ => rfl, fun _ => ⟨x, rfl⟩⟩⟩

/-! ## C225 -/

/-- `a[None]` is the whole array; numpy would insert an axis. -/
theorem c225_counterexample [MulOneClass K] (a : Arr K U N) (s : Sub) (h : Spec.Written [.newaxis] s) :
    a.get s = .ok (wrap a.values a.unit a.name)
    ∧ Spec.shapeOf a.base.shape [.newaxis] = 1 :: a.base.shape := by
  refine ⟨?_, by cases hs : a.base.shape <;> simp [Spec.shapeOf]⟩
  rcases h with rfl | ⟨x, hx, rfl⟩
  · rfl
  · injection hx with hx; subst hx; rfl

theorem written_get [Mul K] [One K] {a : Arr K U N} {xs : List Item} {s : Sub} (hw : Spec.Written xs s)
    (hb : ∀ x ∈ xs, Spec.Basic x) (hn : xs ≠ [.newaxis]) (hne : xs ≠ []) :
    a.get s = (a.base.get xs).map (fun r => wrap (r.smul a.scale) a.unit a.name) := by
  have key : ∀ u : Sub, u.standard = true → u.missing = false → u.items = xs → unwrap s = u →
      a.get s = (a.base.get xs).map (fun r => wrap (r.smul a.scale) a.unit a.name) := by
    intro u h1 h2 h3 h4
    unfold Arr.get
    simp only [h4, h1, if_true, Arr.load, h2, h3]
    cases h : a.base.get xs with
    | error e => simp [h, bind, Except.bind, Except.map]
    | ok r => simp [h, bind, Except.bind, Except.map, pure, Except.pure]
  have hbi : ∀ x, Spec.Basic x → x.builtin = true ∧ unwrapItem x = x := by
    intro x hx; cases x <;> first | exact absurd hx id | exact ⟨rfl, rfl⟩
  rcases xs with _ | ⟨x, _ | ⟨y, l⟩⟩
  · exact absurd rfl hne
  · have hx := hbi x (hb x (by simp))
    have hu : unwrap s = .one x := by
      rcases hw with rfl | ⟨y, hy, rfl⟩
      · show Sub.one (unwrapItem x) = _
        rw [hx.2]
      · injection hy with hy
        subst hy
        show Sub.one (unwrapItem x) = _
        rw [hx.2]
    refine key (.one x) hx.1 ?_ rfl hu
    cases x <;> first | rfl | exact absurd rfl hn
  · have hs : s = .many (x :: y :: l) := by
      rcases hw with rfl | ⟨z, hz, _⟩
      · rfl
      · simp at hz
    subst hs
    refine key (.many (x :: y :: l)) ?_ rfl rfl rfl
    simp only [Sub.standard, List.all_eq_true]
    exact fun z hz => (hbi z (hb z hz)).1

/-- **C225.** Subscripting a physical array with integers, slices, `...` and `None` selects the entries that Python's rules name:
the shape is that of the rules, each entry is that of the array at the named positions, unit and name are kept, and the result is
a scalar exactly if no axes remain. A subscript with a position outside of its axis, a step of zero or too many entries is
refused. Missing: `None` on its own (`c225_counterexample`). -/
theorem c225_partial [MulOneClass K] (a : Arr K U N) (ha : Spec.Whole a.base) (xs ys : List Item) (s : Sub)
    (hw : Spec.Written xs s) (hb : ∀ x ∈ xs, Spec.Basic x) (hn : xs ≠ [.newaxis])
    (hs : Spec.Stands a.base.shape.length xs ys) :
    (Spec.Valid a.base.shape ys → ∃ g, a.get s = .ok g
      ∧ g.values.shape = Spec.shapeOf a.base.shape ys ∧ Spec.Whole g.values
      ∧ (∀ js, Spec.Inside js g.values.shape →
          Spec.entry g.values js = Spec.entry a.values (Spec.source a.base.shape ys js))
      ∧ g.unit = a.unit ∧ g.name = a.name
      ∧ ((∃ x, g = .scalar x a.unit a.name) ↔ Spec.shapeOf a.base.shape ys = []))
    ∧ (¬ Spec.Valid a.base.shape ys → ∃ e, a.get s = .error e) := by
  by_cases hne : xs = []
  · subst hne
    have hy : ys = [] := by
      rcases hs with ⟨_, h⟩ | ⟨pre, post, k, h, _⟩
      · exact h
      · simp at h
    subst hy
    have hs' : s = .many [] := by
      rcases hw with h | ⟨x, hx, _⟩
      · exact h
      · simp at hx
    subst hs'
    refine ⟨fun _ => ?_, fun h => absurd (by cases a.base.shape <;> trivial) h⟩
    have hwv : Spec.Whole a.values := whole_smul ha
    obtain ⟨w1, w2, w3, w4⟩ := wrap_facts hwv a.unit a.name
    have hsh : Spec.shapeOf a.base.shape [] = a.base.shape := by cases a.base.shape <;> rfl
    have hso : ∀ js, Spec.source a.base.shape [] js = js := by intro js; cases a.base.shape <;> rfl
    refine ⟨wrap a.values a.unit a.name, rfl, by rw [w1, hsh]; rfl, by rw [w1]; exact hwv, ?_, w2, w3, ?_⟩
    · intro js _; rw [w1, hso]
    · rw [w4, hsh]; rfl
  rw [written_get hw hb hn hne]
  constructor
  · intro hv
    obtain ⟨r, h1, h2, h3, h4⟩ := get_valid ha hb hs hv
    have hr : Spec.Whole (r.smul a.scale) := whole_smul h3
    obtain ⟨w1, w2, w3, w4⟩ := wrap_facts hr a.unit a.name
    refine ⟨wrap (r.smul a.scale) a.unit a.name, by rw [h1]; rfl, by rw [w1]; exact h2, by rw [w1]; exact hr,
      ?_, w2, w3, by rw [w4, ← h2]; rfl⟩
    intro js hj
    rw [w1] at hj ⊢
    rw [entry_smul, h4 js hj, Arr.values, entry_smul]
  · intro hv
    obtain ⟨e, he⟩ := get_invalid hb hs hv
    exact ⟨e, by rw [he]; rfl⟩

/-- An array of two rows and three columns, in kilometres say. -/
def sample : Arr Int String String := ⟨⟨[2, 3], [1, 2, 3, 4, 5, 6]⟩, 10, "m", "r"⟩

/-- `a[..., ::-2]` is the pair of columns `[[30, 10], [60, 40]]`, `a[1, -1]` is the scalar 60, and `a[None, 1]` has the shape
(1, 3). -/
example : sample.get (.many [.ellipsis, .slice ⟨none, none, some (-2)⟩])
      = .ok (.array ⟨⟨[2, 2], [30, 10, 60, 40]⟩, 1, "m", "r"⟩)
    ∧ sample.get (.many [.int 1, .int (-1)]) = .ok (.scalar 60 "m" "r")
    ∧ sample.get (.many [.newaxis, .int 1]) = .ok (.array ⟨⟨[1, 3], [40, 50, 60]⟩, 1, "m", "r"⟩)
    ∧ sample.get (.many [.int 2, .int 0]) = .error .indexError := by decide +kernel

example : Spec.Whole sample.base
    ∧ Spec.Stands 2 [.ellipsis, .slice ⟨none, none, some (-2)⟩] [Item.full, .slice ⟨none, none, some (-2)⟩]
    ∧ Spec.shapeOf [2, 3] [Item.full, .slice ⟨none, none, some (-2)⟩] = [2, 2]
    ∧ Spec.source [2, 3] [Item.full, .slice ⟨none, none, some (-2)⟩] [1, 0] = [1, 2]
    ∧ Spec.entry sample.values [1, 2] = some 60 :=
  ⟨rfl, Or.inr ⟨[], [.slice ⟨none, none, some (-2)⟩], 1, rfl, by simp, by decide, rfl, by decide⟩, by decide,
    by decide, by decide⟩

/-! ## C226 -/

/-- A list of two or more positions on its own is refused, whatever the array and the positions are; a list of no positions gives
the whole array; a list of one position drops the axis; an integer of a numpy type is refused. -/
theorem c226_counterexample [Mul K] [One K] (a : Arr K U N) (i j : Int) (is : List Int) :
    a.get (.one (.list (i :: j :: is))) = .error .valueError
    ∧ a.get (.one (.list [])) = .ok (.array ⟨a.values, 1, a.unit, a.name⟩)
    ∧ a.get (.one (.list [i])) = a.get (.one (.int i))
    ∧ a.get (.one (.numpy i)) = .error .valueError := by
  have hno : ∀ l : List Int, (l.map Item.int).all (· ≠ .ellipsis) = true := by
    intro l; simp [List.all_eq_true]
  refine ⟨?_, ?_, rfl, ?_⟩
  · have hr : ∀ (l : List Int) (k : Nat),
        ((l.map Item.int).zipIdx k).mapM (fun p => toRange a.base.shape p.2 p.1) = .ok (l.map Item.int) := by
      intro l
      induction l with
      | nil => intro k; rfl
      | cons x l ih =>
        intro k
        rw [List.map_cons, List.zipIdx_cons, List.mapM_cons, ih]
        rfl
    have hc : customIndex a.base.shape (.one (.list (i :: j :: is))) = .error .valueError := by
      unfold customIndex
      simp only [customItems, expand, hno, if_true]
      rw [show (((i :: j :: is).map Item.int).zipIdx.mapM (fun p => toRange a.base.shape p.2 p.1))
        = .ok ((i :: j :: is).map Item.int) from hr _ 0]
      rfl
    unfold Arr.get
    simp only [unwrap, unwrapItem, Sub.standard, Item.builtin, hc]
    rfl
  · rfl
  · rfl

/-- Lists of positions and full slices. -/
def Orthogonal : Item → Prop
  | .list _ => True
  | .slice s => s = ⟨none, none, none⟩
  | _ => False

/-- The positions along the axes. -/
def crossLists : List Nat → List Item → List (List Int)
  | _ :: shape, .list is :: xs => is :: crossLists shape xs
  | n :: shape, .slice _ :: xs => ((List.range n).map Int.ofNat) :: crossLists shape xs
  | _, _ => []

theorem custom_lists : ∀ (xs : List Item) (shape : List Nat) (pre : List Nat), (∀ x ∈ xs, Orthogonal x) →
    Spec.Valid shape xs → ∃ zs, (xs.zipIdx pre.length).mapM (fun p => toRange (pre ++ shape) p.2 p.1) = .ok zs
      ∧ zs.mapM crossItem = .ok (crossLists shape xs) := by
  intro xs
  induction xs with
  | nil => intro shape pre _ _; exact ⟨[], rfl, by cases shape <;> rfl⟩
  | cons x xs ih =>
    intro shape pre ho hv
    have hx := ho x (by simp)
    have ho' : ∀ y ∈ xs, Orthogonal y := fun y hy => ho y (List.mem_cons_of_mem _ hy)
    cases shape with
    | nil => cases x <;> first | exact absurd hx id | exact absurd hv id
    | cons n shape =>
      have hv' : Spec.Valid shape xs := by
        cases x <;> first | exact absurd hx id | exact hv.2
      obtain ⟨zs, z1, z2⟩ := ih shape (pre ++ [n]) ho' hv'
      rw [List.append_assoc, List.singleton_append, List.length_append, List.length_singleton] at z1
      cases x with
      | list is =>
        refine ⟨.list is :: zs, ?_, ?_⟩
        · rw [List.zipIdx_cons, List.mapM_cons, z1]; rfl
        · simp only [List.mapM_cons, crossItem, z2, crossLists]; rfl
      | slice s =>
        refine ⟨.list ((List.range n).map Int.ofNat) :: zs, ?_, ?_⟩
        · have ht : toRange (pre ++ n :: shape) pre.length (.slice s)
              = .ok (.list ((List.range n).map Int.ofNat)) := by
            unfold toRange
            simp only [List.getElem?_append_right (Nat.le_refl _), Nat.sub_self, List.getElem?_cons_zero]
          rw [List.zipIdx_cons, List.mapM_cons, z1, ht]
          rfl
        · simp only [List.mapM_cons, crossItem, z2, crossLists]; rfl
      | _ => exact absurd hx id

theorem cross_valid : ∀ (xs : List Item) (shape : List Nat), (∀ x ∈ xs, Orthogonal x) → Spec.Valid shape xs →
    ∃ sel, crossAxes shape (crossLists shape xs) = .ok sel ∧ Match sel shape
      ∧ outShape sel = Spec.shapeOf shape xs
      ∧ ∀ js, Spec.Inside js (outShape sel) → origin sel (fill sel js) = Spec.source shape xs js := by
  intro xs
  induction xs with
  | nil =>
    intro shape _ _
    obtain ⟨h1, h2, h3, h4⟩ := match_rest shape
    refine ⟨_, by cases shape <;> simp only [crossLists, crossAxes], h1, by cases shape <;> simp only [Spec.shapeOf, h2], fun js hj => ?_⟩
    rw [h2] at hj
    rw [(h4 js hj).2, (h4 js hj).1]
    cases shape <;> rfl
  | cons x xs ih =>
    intro shape ho hv
    have hx := ho x (by simp)
    have ho' : ∀ y ∈ xs, Orthogonal y := fun y hy => ho y (List.mem_cons_of_mem _ hy)
    cases shape with
    | nil => cases x <;> first | exact absurd hx id | exact absurd hv id
    | cons n shape =>
      cases x with
      | list is =>
        obtain ⟨sel, h1, h2, h3, h4⟩ := ih shape ho' hv.2
        refine ⟨.keep (is.map (fun i => (Arrays.Spec.fromStart n i).toNat)) :: sel, ?_, ⟨?_, h2⟩, ?_, ?_⟩
        · simp only [crossLists, crossAxes, mapM_position hv.1, h1]; rfl
        · intro p hp
          obtain ⟨i, hi, rfl⟩ := List.mem_map.1 hp
          exact (position_ok (hv.1 i hi)).2
        · simp [outShape, Spec.shapeOf, h3]
        · intro js hj
          cases hj with
          | @cons j _ js _ hj hjs =>
            simp only [fill, origin, Spec.source, h4 _ hjs]
            have hj' : j < is.length := by simpa using hj
            simp only [List.getD_eq_getElem?_getD, List.getElem?_map, List.getElem?_eq_getElem hj']
            rfl
      | slice s =>
        have hs : s = ⟨none, none, none⟩ := hx
        subst hs
        obtain ⟨sel, h1, h2, h3, h4⟩ := ih shape ho' hv.2
        have hp : ((List.range n).map Int.ofNat).mapM (position n) = .ok (List.range n) := by
          rw [mapM_position (by intro i hi; obtain ⟨k, hk, rfl⟩ := List.mem_map.1 hi; simp at hk ⊢; omega),
            List.map_map]
          congr 1
          conv_rhs => rw [← List.map_id (List.range n)]
          apply List.map_congr_left
          intro k hk
          simp [Arrays.Spec.fromStart]
          omega
        refine ⟨.keep (List.range n) :: sel, ?_, ⟨fun p hp => List.mem_range.1 hp, h2⟩, ?_, ?_⟩
        · simp only [crossLists, crossAxes, hp, h1]; rfl
        · simp [outShape, Spec.shapeOf, h3, chosen_full]
        · intro js hj
          cases hj with
          | cons hj hjs => simp only [fill, origin, Spec.source, h4 _ hjs, chosen_full]
      | _ => exact absurd hx id

theorem custom_ok {xs : List Item} {shape : List Nat} (ho : ∀ x ∈ xs, Orthogonal x) (hv : Spec.Valid shape xs) :
    customIndex shape (.many xs) = .ok (crossLists shape xs) := by
  have he : expand shape.length xs = xs := by
    unfold expand
    rw [if_pos]
    rw [List.all_eq_true]
    intro x hx
    have := ho x hx
    cases x <;> first | exact absurd this id | simp
  obtain ⟨zs, z1, z2⟩ := custom_lists xs shape [] ho hv
  unfold customIndex
  simp only [customItems, he]
  rw [show (xs.zipIdx.mapM (fun p => toRange shape p.2 p.1)) = .ok zs from z1]
  exact z2

theorem orthogonal_load [Mul K] {a : Arr K U N} (ha : Spec.Whole a.base) {x y : Item} {l : List Item}
    (ho : ∀ z ∈ x :: y :: l, Orthogonal z) (hv : Spec.Valid a.base.shape (x :: y :: l)) :
    ∃ r, (do a.loadCross (← customIndex a.base.shape (.many (x :: y :: l)))) = .ok r
      ∧ r.shape = Spec.shapeOf a.base.shape (x :: y :: l) ∧ Spec.Whole r
      ∧ ∀ js, Spec.Inside js r.shape →
        Spec.entry r js = Spec.entry a.values (Spec.source a.base.shape (x :: y :: l) js) := by
  obtain ⟨sel, h1, h2, h3, h4⟩ := cross_valid _ _ ho hv
  have hne : crossLists a.base.shape (x :: y :: l) ≠ [] := by
    have := ho x (by simp)
    cases hsh : a.base.shape with
    | nil => rw [hsh] at hv; cases x <;> first | exact absurd this id | exact absurd hv id
    | cons n shape => cases x <;> first | exact absurd this id | simp [crossLists]
  refine ⟨(⟨outShape sel, pick sel a.base.shape a.base.entries⟩ : Nd K).smul a.scale, ?_, h3, ?_, ?_⟩
  · simp [custom_ok ho hv, Arr.loadCross, hne, Nd.cross, h1, bind, Except.bind, pure, Except.pure]
  · apply whole_smul
    show (pick sel a.base.shape a.base.entries).length = (outShape sel).prod
    rw [← prod_kept]
    exact pick_length sel a.base.shape a.base.entries h2 ha
  · intro js hj
    have hj' : Spec.Inside js (outShape sel) := hj
    obtain ⟨i1, i2⟩ := fill_inside hj'
    rw [entry_smul, Arr.values, entry_smul]
    simp only [Spec.entry]
    rw [← i2, pick_get sel a.base.shape _ a.base.entries h2 ha i1, h4 js hj']

/-- **C226.** Subscripting an array with a tuple of two or more entries, each a list of positions or a full slice and at least one
a list, takes the positions along each axis independently, in the order of the lists; axes that are not mentioned are kept; unit
and name are kept. The same is true of variables. Missing: a list on its own, and integers of numpy types (`c226_counterexample`);
together with lists, other slices, integers and ellipses (C39, C94). -/
theorem c226_partial [MulOneClass K] (a : Arr K U N) (ha : Spec.Whole a.base) (x y : Item) (l : List Item)
    (ho : ∀ z ∈ x :: y :: l, Orthogonal z) (hl : ∃ is, .list is ∈ x :: y :: l)
    (hv : Spec.Valid a.base.shape (x :: y :: l)) :
    ∃ g, a.get (.many (x :: y :: l)) = .ok (.array g) ∧ a.getVarLists (.many (x :: y :: l)) = .ok g
      ∧ g.values.shape = Spec.shapeOf a.base.shape (x :: y :: l) ∧ Spec.Whole g.values
      ∧ (∀ js, Spec.Inside js g.values.shape →
          Spec.entry g.values js = Spec.entry a.values (Spec.source a.base.shape (x :: y :: l) js))
      ∧ g.unit = a.unit ∧ g.name = a.name := by
  obtain ⟨r, h1, h2, h3, h4⟩ := orthogonal_load ha ho hv
  have hst : Sub.standard (.many (x :: y :: l)) = false := by
    obtain ⟨is, his⟩ := hl
    simp only [Sub.standard, List.all_eq_false]
    exact ⟨_, his, by simp [Item.builtin]⟩
  have hc := custom_ok ho hv
  rw [hc] at h1
  have h1' : a.loadCross (crossLists a.base.shape (x :: y :: l)) = .ok r := h1
  have hval : (⟨r, 1, a.unit, a.name⟩ : Arr K U N).values = r := one_smul' r
  refine ⟨⟨r, 1, a.unit, a.name⟩, ?_, ?_, by rw [hval]; exact h2, by rw [hval]; exact h3, ?_, rfl, rfl⟩
  · unfold Arr.get
    simp only [unwrap, hst, hc, bind, Except.bind, h1', pure, Except.pure]
    rfl
  · unfold Arr.getVarLists
    simp only [unwrap, hc, bind, Except.bind, h1', pure, Except.pure]
  · intro js hj
    rw [hval] at hj ⊢
    exact h4 js hj

theorem custom_expanded {user zs : List Item} {shape : List Nat} (he : expand shape.length user = zs)
    (ho : ∀ x ∈ zs, Orthogonal x) (hv : Spec.Valid shape zs) :
    customIndex shape (.many user) = .ok (crossLists shape zs) := by
  obtain ⟨ws, z1, z2⟩ := custom_lists zs shape [] ho hv
  unfold customIndex
  simp only [customItems, he]
  rw [show (zs.zipIdx.mapM (fun p => toRange shape p.2 p.1)) = .ok ws from z1]
  exact z2

theorem cross_load [Mul K] {a : Arr K U N} (ha : Spec.Whole a.base) {xs : List Item} (hx : xs ≠ [])
    (ho : ∀ z ∈ xs, Orthogonal z) (hv : Spec.Valid a.base.shape xs) :
    ∃ r, a.loadCross (crossLists a.base.shape xs) = .ok r
      ∧ r.shape = Spec.shapeOf a.base.shape xs ∧ Spec.Whole r
      ∧ ∀ js, Spec.Inside js r.shape →
        Spec.entry r js = Spec.entry a.values (Spec.source a.base.shape xs js) := by
  obtain ⟨sel, h1, h2, h3, h4⟩ := cross_valid _ _ ho hv
  have hne : crossLists a.base.shape xs ≠ [] := by
    cases xs with
    | nil => exact absurd rfl hx
    | cons x l =>
      have := ho x (by simp)
      cases hsh : a.base.shape with
      | nil => rw [hsh] at hv; cases x <;> first | exact absurd this id | exact absurd hv id
      | cons n shape => cases x <;> first | exact absurd this id | simp [crossLists]
  refine ⟨(⟨outShape sel, pick sel a.base.shape a.base.entries⟩ : Nd K).smul a.scale, ?_, h3, ?_, ?_⟩
  · simp [Arr.loadCross, hne, Nd.cross, h1, bind, Except.bind, pure, Except.pure]
  · apply whole_smul
    show (pick sel a.base.shape a.base.entries).length = (outShape sel).prod
    rw [← prod_kept]
    exact pick_length sel a.base.shape a.base.entries h2 ha
  · intro js hj
    have hj' : Spec.Inside js (outShape sel) := hj
    obtain ⟨i1, i2⟩ := fill_inside hj'
    rw [entry_smul, Arr.values, entry_smul]
    simp only [Spec.entry]
    rw [← i2, pick_get sel a.base.shape _ a.base.entries h2 ha i1, h4 js hj']

theorem orthogonal_no_ellipsis {xs : List Item} (ho : ∀ x ∈ xs, Orthogonal x) : Item.ellipsis ∉ xs :=
  fun h => ho _ h

/-- What `...` stands for: of the entries behind it, as many are lost as it stands for axes, but for one. -/
theorem expand_ellipsis {pre post : List Item} (hp : Item.ellipsis ∉ pre) (ndim k : Nat)
    (hk : pre.length + post.length + k = ndim) (h : 1 ≤ k ∨ post = []) :
    expand ndim (pre ++ .ellipsis :: post)
      = pre ++ List.replicate k Item.full ++ post.drop (k - 1) := by
  have hall : (pre ++ Item.ellipsis :: post).all (· ≠ .ellipsis) = false := by
    rw [List.all_eq_false]
    exact ⟨.ellipsis, by simp, by simp⟩
  have hidx : (pre ++ Item.ellipsis :: post).idxOf .ellipsis = pre.length := by
    rw [List.idxOf_append_of_notMem hp]
    simp
  have hlen : ((ndim : Int) - ((pre ++ Item.ellipsis :: post).length : Nat) + 1) = k := by
    simp only [List.length_append, List.length_cons]
    omega
  unfold expand
  simp only [hall, Bool.false_eq_true, if_false, hidx, hlen, Int.toNat_natCast]
  rw [List.take_left' rfl]
  congr 1
  have hc : ∀ (n m : Nat), (Arrays.clipUp n (m : Int)).toNat = min m n := by
    intro n m
    unfold Arrays.clipUp
    split_ifs <;> omega
  unfold Arrays.between
  simp only [← Int.natCast_add, hc]
  have hL : (pre ++ Item.ellipsis :: post).length = pre.length + post.length + 1 := by
    simp only [List.length_append, List.length_cons]; omega
  rw [hL]
  rcases h with h | rfl
  · obtain ⟨m, rfl⟩ : ∃ m, k = m + 1 := ⟨k - 1, by omega⟩
    by_cases hm : m ≤ post.length
    · rw [Nat.min_eq_left (by omega : pre.length + (m + 1) ≤ _), Nat.min_eq_right (by omega)]
      rw [List.take_of_length_le (by rw [List.length_drop, hL]), List.drop_append,
        List.drop_eq_nil_of_le (by omega), show pre.length + (m + 1) - pre.length = m + 1 by omega]
      simp
    · rw [List.drop_eq_nil_of_le (by rw [hL]; omega), List.drop_eq_nil_of_le (by omega)]
      simp
  · simp only [List.drop_nil, List.take_eq_nil_iff]
    left
    simp only [List.length_nil] at hk ⊢
    omega

/-- **C226, `...`.** Lists of positions together with `...` are as without it if nothing is behind the `...`, or if it stands for
one axis: it stands for full slices. -/
theorem c226_ellipsis_partial [MulOneClass K] (a : Arr K U N) (ha : Spec.Whole a.base) (pre post zs : List Item) (k : Nat)
    (ho : ∀ z ∈ pre ++ post, Orthogonal z) (hl : ∃ is, .list is ∈ pre ++ post)
    (hk : pre.length + post.length + k = a.base.shape.length) (h : k = 1 ∨ post = [])
    (hz : zs = pre ++ List.replicate k Item.full ++ post) (hv : Spec.Valid a.base.shape zs) :
    ∃ g, a.get (.many (pre ++ .ellipsis :: post)) = .ok (.array g)
      ∧ g.values.shape = Spec.shapeOf a.base.shape zs ∧ Spec.Whole g.values
      ∧ (∀ js, Spec.Inside js g.values.shape →
          Spec.entry g.values js = Spec.entry a.values (Spec.source a.base.shape zs js))
      ∧ g.unit = a.unit ∧ g.name = a.name := by
  obtain ⟨is, his⟩ := hl
  have hpre : Item.ellipsis ∉ pre := orthogonal_no_ellipsis (fun x hx => ho x (List.mem_append_left _ hx))
  have he : expand a.base.shape.length (pre ++ .ellipsis :: post) = zs := by
    rw [expand_ellipsis hpre _ k hk (by rcases h with rfl | h; exacts [.inl le_rfl, .inr h]), hz]
    rcases h with rfl | rfl <;> simp
  have hzo : ∀ z ∈ zs, Orthogonal z := by
    intro z hzm
    rw [hz, List.mem_append, List.mem_append] at hzm
    rcases hzm with (h' | h') | h'
    · exact ho z (List.mem_append_left _ h')
    · rw [List.eq_of_mem_replicate h']; rfl
    · exact ho z (List.mem_append_right _ h')
  have hzne : zs ≠ [] := by
    rintro rfl
    simp only [List.nil_eq, List.append_eq_nil_iff] at hz
    rw [hz.1.1, hz.2] at his
    cases his
  obtain ⟨r, h1, h2, h3, h4⟩ := cross_load ha hzne hzo hv
  have hc := custom_expanded he hzo hv
  have hu : unwrap (.many (pre ++ .ellipsis :: post)) = .many (pre ++ .ellipsis :: post) := by
    match pre, post, his with
    | [], [], his => cases his
    | [], _ :: _, _ => rfl
    | [_], _, _ => rfl
    | _ :: _ :: _, _, _ => rfl
  have hst : Sub.standard (.many (pre ++ .ellipsis :: post)) = false := by
    simp only [Sub.standard, List.all_eq_false]
    refine ⟨.list is, ?_, by simp [Item.builtin]⟩
    rcases List.mem_append.1 his with h' | h'
    · exact List.mem_append_left _ h'
    · exact List.mem_append_right _ (List.mem_cons_of_mem _ h')
  have hval : (⟨r, 1, a.unit, a.name⟩ : Arr K U N).values = r := one_smul' r
  refine ⟨⟨r, 1, a.unit, a.name⟩, ?_, by rw [hval]; exact h2, by rw [hval]; exact h3, ?_, rfl, rfl⟩
  · unfold Arr.get
    simp only [hu, hst, hc, bind, Except.bind, h1, pure, Except.pure]
    rfl
  · intro js hj
    rw [hval] at hj ⊢
    exact h4 js hj

theorem valid_full : ∀ (k : Nat) (shape : List Nat), k ≤ shape.length →
    Spec.Valid shape (List.replicate k Item.full) ∧ Spec.shapeOf shape (List.replicate k Item.full) = shape
      ∧ ∀ js, Spec.Inside js shape → Spec.source shape (List.replicate k Item.full) js = js := by
  intro k
  induction k with
  | zero =>
    intro shape _
    refine ⟨by cases shape <;> trivial, by cases shape <;> rfl, fun js _ => by cases shape <;> rfl⟩
  | succ k ih =>
    intro shape h
    cases shape with
    | nil => simp at h
    | cons n shape =>
      obtain ⟨h1, h2, h3⟩ := ih shape (by simpa using h)
      rw [List.replicate_succ]
      refine ⟨⟨?_, h1⟩, ?_, ?_⟩
      · show (none : Option Int) ≠ some 0
        simp
      · show (Spec.chosen n ⟨none, none, none⟩).length :: _ = _
        rw [h2, chosen_full, List.length_range]
      · intro js hj
        cases hj with
        | @cons j _ js _ hj hjs =>
          show (Spec.chosen n ⟨none, none, none⟩).getD j 0 :: _ = _
          rw [h3 _ hjs, chosen_full]
          simp [List.getD_eq_getElem?_getD, hj]

/-- **C226 fails in the code for `a[..., [i, j, …]]`** whenever the array has three axes or more: the positions are ignored, even those
that do not exist, and the result is the whole array. -/
theorem c226_ellipsis_counterexample [MulOneClass K] (a : Arr K U N) (ha : Spec.Whole a.base) (h3 : 3 ≤ a.base.shape.length)
    (is : List Int) :
    ∃ g, a.get (.many [.ellipsis, .list is]) = .ok (.array g) ∧ g.values.shape = a.base.shape
      ∧ ∀ js, Spec.Inside js a.base.shape → Spec.entry g.values js = Spec.entry a.values js := by
  obtain ⟨k, hk⟩ : ∃ k, a.base.shape.length = k + 1 := ⟨a.base.shape.length - 1, by omega⟩
  have he : expand a.base.shape.length [.ellipsis, .list is] = List.replicate k Item.full := by
    have := expand_ellipsis (pre := []) (post := [.list is]) (by simp) a.base.shape.length k
      (by simp; omega) (.inl (by omega))
    rw [List.nil_append] at this
    rw [this, List.drop_eq_nil_of_le (by simp; omega)]
    simp
  obtain ⟨v1, v2, v3⟩ := valid_full k a.base.shape (by omega)
  have hzo : ∀ z ∈ List.replicate k Item.full, Orthogonal z := by
    intro z hz
    rw [List.eq_of_mem_replicate hz]; rfl
  obtain ⟨r, h1, h2, _, h4⟩ := cross_load ha (by
    intro h
    have := congrArg List.length h
    simp at this; omega) hzo v1
  have hc := custom_expanded he hzo v1
  have hval : (⟨r, 1, a.unit, a.name⟩ : Arr K U N).values = r := one_smul' r
  rw [v2] at h2
  refine ⟨⟨r, 1, a.unit, a.name⟩, ?_, by rw [hval]; exact h2, ?_⟩
  · unfold Arr.get
    have hst : Sub.standard (unwrap (.many [.ellipsis, .list is])) = false := rfl
    simp only [hst, show unwrap (.many [Item.ellipsis, .list is]) = .many [.ellipsis, .list is] from rfl, hc,
      bind, Except.bind, h1, pure, Except.pure]
    rfl
  · intro js hj
    rw [hval, h4 js (by rw [h2]; exact hj), v3 js hj]

/-- `a[..., [1, 0]]` and `a[[1], ...]` of a matrix; `a[..., [9]]` of an array of three axes. -/
example : sample.get (.many [.ellipsis, .list [1, 0]]) = .ok (.array ⟨⟨[2, 2], [20, 10, 50, 40]⟩, 1, "m", "r"⟩)
    ∧ sample.get (.many [.list [1], .ellipsis]) = .ok (.array ⟨⟨[1, 3], [40, 50, 60]⟩, 1, "m", "r"⟩)
    ∧ (⟨⟨[1, 1, 2], [7, 8]⟩, 1, "m", "r"⟩ : Arr Rat String String).get (.many [.ellipsis, .list [9]])
      = .ok (.array ⟨⟨[1, 1, 2], [7, 8]⟩, 1, "m", "r"⟩) := by decide +kernel

/-- `a[[1, 0, -1], [2, 0]]` is `[[60, 40], [30, 10], [60, 40]]`, `a[:, [1]]` is `[[20], [50]]`. -/
example : sample.get (.many [.list [1, 0, -1], .list [2, 0]])
      = .ok (.array ⟨⟨[3, 2], [60, 40, 30, 10, 60, 40]⟩, 1, "m", "r"⟩)
    ∧ sample.get (.many [Item.full, .list [1]]) = .ok (.array ⟨⟨[2, 1], [20, 50]⟩, 1, "m", "r"⟩)
    ∧ sample.get (.one (.list [0, 1])) = .error .valueError := by decide +kernel

example : (∀ z ∈ [Item.list [1, 0, -1], .list [2, 0]], Orthogonal z)
    ∧ Spec.Valid [2, 3] [Item.list [1, 0, -1], .list [2, 0]]
    ∧ Spec.source [2, 3] [Item.list [1, 0, -1], .list [2, 0]] [2, 1] = [1, 0] := by
  refine ⟨by intro z hz; simp at hz; rcases hz with rfl | rfl <;> trivial, ?_, by decide⟩
  simp [Spec.Valid, Spec.Fits]

/-! ## C227 -/

/-- The shape and the positions of a subscript of a variable, in which integers keep an axis. -/
theorem kept_valid : ∀ (idx : List Ix) (shape : List Nat), (∀ x ∈ idx, x ≠ .ellipsis) →
    Spec.Valid shape (idx.map Item.ofIx) → (∀ x ∈ idx, Spec.Basic (Item.ofIx x)) →
    ∃ sel, axes shape (idx.map Item.ofIx) = .ok sel ∧ Match sel shape
      ∧ keptShape sel = Arrays.Spec.sizes shape idx
      ∧ ∀ js, Spec.Inside js (keptShape sel) → origin sel js = Spec.sourceKept shape idx js := by
  intro idx
  induction idx with
  | nil =>
    intro shape _ _ _
    obtain ⟨h1, h2, h3, h4⟩ := match_rest shape
    refine ⟨_, by simp only [List.map_nil, axes], h1, by cases shape <;> simp [Arrays.Spec.sizes, h3] <;> exact h3, fun js hj => ?_⟩
    rw [h3] at hj
    rw [(h4 js hj).1]
    cases shape <;> rfl
  | cons x idx ih =>
    intro shape he hv hb
    have he' : ∀ y ∈ idx, y ≠ .ellipsis := fun y hy => he y (List.mem_cons_of_mem _ hy)
    have hb' : ∀ y ∈ idx, Spec.Basic (Item.ofIx y) := fun y hy => hb y (List.mem_cons_of_mem _ hy)
    cases x with
    | ellipsis => exact absurd rfl (he _ (by simp))
    | list is => exact absurd (hb (.list is) (by simp)) id
    | int i =>
      cases shape with
      | nil => exact absurd hv id
      | cons n shape =>
        obtain ⟨sel, h1, h2, h3, h4⟩ := ih shape he' hv.2 hb'
        obtain ⟨p1, p2⟩ := position_ok hv.1
        refine ⟨.at (Arrays.Spec.fromStart n i).toNat :: sel, ?_, ⟨p2, h2⟩, ?_, ?_⟩
        · simp [Item.ofIx, axes, p1, h1, bind, Except.bind, pure, Except.pure]
        · simp [keptShape, Arrays.Spec.sizes, Arrays.Spec.size, h3]
        · intro js hj
          cases hj with
          | cons hj hjs => simp only [origin, Spec.sourceKept, h4 _ hjs]
    | slice s =>
      cases shape with
      | nil => exact absurd hv id
      | cons n shape =>
        obtain ⟨sel, h1, h2, h3, h4⟩ := ih shape he' hv.2 hb'
        refine ⟨.keep (Spec.chosen n s) :: sel, ?_, ⟨chosen_lt, h2⟩, ?_, ?_⟩
        · simp [Item.ofIx, axes, positions_chosen hv.1, h1, bind, Except.bind, pure, Except.pure]
        · simp only [keptShape, Arrays.Spec.sizes, Arrays.Spec.size, h3, Spec.chosen]
          congr 1
          split <;> simp
        · intro js hj
          cases hj with
          | cons hj hjs => simp only [origin, Spec.sourceKept, h4 _ hjs]

/-- What C227 says of a subscript of a variable. -/
def Spec.Kept [Mul K] [One K] (a : Arr K U N) (idx : List Ix) : Prop :=
  ∃ g, a.getVar idx = .ok g ∧ g.values.shape = Arrays.Spec.sizes a.base.shape idx ∧ Spec.Whole g.values
    ∧ (∀ js, Spec.Inside js g.values.shape →
        Spec.entry g.values js = Spec.entry a.values (Spec.sourceKept a.base.shape idx js))
    ∧ g.unit = a.unit ∧ g.name = a.name

theorem kept [MulOneClass K] {a : Arr K U N} (ha : Spec.Whole a.base) {idx : List Ix}
    (he : ∀ x ∈ idx, x ≠ .ellipsis) (hv : Spec.Valid a.base.shape (idx.map Item.ofIx))
    (hb : ∀ x ∈ idx, Spec.Basic (Item.ofIx x))
    (hs : varShape a.base.shape idx = .ok (Arrays.Spec.sizes a.base.shape idx)) : Spec.Kept a idx := by
  obtain ⟨sel, h1, h2, h3, h4⟩ := kept_valid idx a.base.shape he hv hb
  have hno : .ellipsis ∉ idx.map Item.ofIx := by
    intro hm
    obtain ⟨x, hx, e⟩ := List.mem_map.1 hm
    have := he x hx
    cases x <;> simp [Item.ofIx] at e this
  have hg : a.base.get (idx.map Item.ofIx) = .ok ⟨outShape sel, pick sel a.base.shape a.base.entries⟩ := by
    simp [Nd.get, spread_none hno, h1, bind, Except.bind, pure, Except.pure]
  have hval : ∀ r : Nd K, (⟨r, 1, a.unit, a.name⟩ : Arr K U N).values = r := one_smul'
  refine ⟨⟨⟨Arrays.Spec.sizes a.base.shape idx, (pick sel a.base.shape a.base.entries).map (a.scale * ·)⟩, 1,
    a.unit, a.name⟩, ?_, by rw [hval], ?_, ?_, rfl, rfl⟩
  · unfold Arr.getVar
    rw [hg, hs]
    rfl
  · rw [hval]
    show ((pick sel a.base.shape a.base.entries).map (a.scale * ·)).length = _
    rw [List.length_map, pick_length sel a.base.shape a.base.entries h2 ha, h3]
  · intro js hj
    rw [hval] at hj ⊢
    have hj' : Spec.Inside js (keptShape sel) := by rw [h3]; exact hj
    rw [Arr.values, entry_smul]
    simp only [Spec.entry]
    rw [← h3, List.getElem?_map, pick_get sel a.base.shape js a.base.entries h2 ha hj', h4 js hj']

/-- A subscript of a variable with integers and slices that names existing positions. -/
theorem plain_valid : ∀ {shape : List Nat} {idx : List Ix}, List.Forall₂ Arrays.Spec.Plain shape idx →
    (∀ x ∈ idx, x ≠ .ellipsis) ∧ Spec.Valid shape (idx.map Item.ofIx) ∧ ∀ x ∈ idx, Spec.Basic (Item.ofIx x) := by
  intro shape idx h
  induction h with
  | nil => exact ⟨by simp, trivial, by simp⟩
  | @cons n x shape idx hx _ ih =>
    obtain ⟨h1, h2, h3⟩ := ih
    cases x with
    | ellipsis => exact absurd hx id
    | list is => exact absurd hx id
    | int i =>
      refine ⟨by simpa using h1, ⟨hx, h2⟩, ?_⟩
      intro y hy
      rcases List.mem_cons.1 hy with rfl | hy
      · trivial
      · exact h3 y hy
    | slice s =>
      refine ⟨by simpa using h1, ⟨?_, h2⟩, ?_⟩
      · show s.step ≠ some 0
        rcases hx.1 with h | h <;> simp [h]
      · intro y hy
        rcases List.mem_cons.1 hy with rfl | hy
        · trivial
        · exact h3 y hy

/-- A step together with an integer, and an integer with a trailing axis: refused, though numpy has the entries. -/
theorem c227_counterexample :
    let a : Arr Int String String := ⟨⟨[2, 3], [1, 2, 3, 4, 5, 6]⟩, 10, "m", "r"⟩
    let b : Arr Int String String := ⟨⟨[1, 2, 2], [1, 2, 3, 4]⟩, 10, "m", "r"⟩
    a.getVar [.int 0, .slice ⟨none, none, some 2⟩] = .error .valueError
    ∧ a.base.get [.int 0, .slice ⟨none, none, some 2⟩] = .ok ⟨[2], [1, 3]⟩
    ∧ b.getVar [.int 0, .int 1] = .error .valueError
    ∧ b.base.get [.int 0, .int 1] = .ok ⟨[2], [3, 4]⟩ := by decide +kernel

/-- **C227.** The entries of a subarray of a variable are those of the variable at the positions that the subscript names, where an
integer keeps an axis of one position; unit and name are kept: for a tuple with one entry per axis, of integers and slices from a
lower to an upper position; for a tuple of slices; and for a single integer or slice. Missing: integers together with other slices,
with trailing axes, or with an ellipsis (C40). -/
theorem c227_partial [MulOneClass K] (a : Arr K U N) (ha : Spec.Whole a.base) :
    (∀ idx, idx.length ≠ 1 → List.Forall₂ Arrays.Spec.Plain a.base.shape idx → Spec.Kept a idx) ∧
    (∀ idx, idx.length ≤ a.base.shape.length → (∀ x ∈ idx, ∃ s, x = .slice s ∧ s.step ≠ some 0) →
      Spec.Kept a idx) ∧
    (∀ n rest i, a.base.shape = n :: rest → -(n : Int) ≤ i → i < n → Spec.Kept a [.int i]) := by
  obtain ⟨c1, c2, c3, c4⟩ := c40_partial a.base.shape
  refine ⟨?_, ?_, ?_⟩
  · intro idx hl h
    obtain ⟨h1, h2, h3⟩ := plain_valid h
    refine kept ha h1 h2 h3 ?_
    match idx, hl with
    | [], _ => exact c1 _ h
    | x :: y :: l, _ => exact c1 _ h
  · intro idx hl h
    have hv : ∀ (idx : List Ix) (shape : List Nat), idx.length ≤ shape.length →
        (∀ x ∈ idx, ∃ s, x = .slice s ∧ s.step ≠ some 0) → Spec.Valid shape (idx.map Item.ofIx) := by
      intro idx
      induction idx with
      | nil => intro shape _ _; cases shape <;> trivial
      | cons x idx ih =>
        intro shape hl h
        cases shape with
        | nil => simp at hl
        | cons n shape =>
          obtain ⟨s, rfl, hs⟩ := h x (by simp)
          exact ⟨hs, ih shape (by simpa using hl) (fun y hy => h y (List.mem_cons_of_mem _ hy))⟩
    refine kept ha ?_ (hv idx _ hl h) ?_ ?_
    · intro x hx; obtain ⟨s, rfl, _⟩ := h x hx; simp
    · intro x hx; obtain ⟨s, rfl, _⟩ := h x hx; trivial
    · match idx with
      | [] => exact c2 _ hl h
      | [x] =>
        obtain ⟨s, rfl, hs⟩ := h x (by simp)
        cases hsh : a.base.shape with
        | nil => rw [hsh] at hl; simp at hl
        | cons n rest => rw [← hsh]; exact c4 n rest s hsh hs
      | x :: y :: l => exact c2 _ hl h
  · intro n rest i hsh h1 h2
    refine kept ha (by simp) ?_ (by simp [Item.ofIx, Spec.Basic]) (c3 n rest i hsh h1 h2)
    rw [hsh]
    exact ⟨⟨h1, h2⟩, by cases rest <;> trivial⟩

/-- `v[1, 0:2]` is `[[40, 50]]`, `v[:, ::-1]` has its columns in reverse order, `v[1]` is `[[40, 50, 60]]`. -/
example : sample.getVar [.int 1, .slice ⟨some 0, some 2, none⟩] = .ok ⟨⟨[1, 2], [40, 50]⟩, 1, "m", "r"⟩
    ∧ sample.getVar [.slice ⟨none, none, none⟩, .slice ⟨none, none, some (-1)⟩]
      = .ok ⟨⟨[2, 3], [30, 20, 10, 60, 50, 40]⟩, 1, "m", "r"⟩
    ∧ sample.getVar [.int 1] = .ok ⟨⟨[1, 3], [40, 50, 60]⟩, 1, "m", "r"⟩ := by decide +kernel

example : List.Forall₂ Arrays.Spec.Plain [2, 3] [.int 1, .slice ⟨some 0, some 2, none⟩] :=
  .cons (by simp [Arrays.Spec.Plain]) (.cons (by simp [Arrays.Spec.Plain]) .nil)

/-! ## C228 -/

theorem get_smul [Mul K] (c : K) (a : Nd K) (xs : List Item) : (a.smul c).get xs = (a.get xs).map (Nd.smul c) := by
  unfold Nd.get
  simp only [Nd.smul]
  cases h1 : spread a.shape.length xs with
  | error e => rfl
  | ok ys =>
    cases h2 : axes a.shape ys with
    | error e => simp [h2, bind, Except.bind, Except.map]
    | ok sel => simp [h2, bind, Except.bind, Except.map, pure, Except.pure, pick_map, Nd.smul]

theorem cross_smul [Mul K] (c : K) (a : Nd K) (ls : List (List Int)) :
    (a.smul c).cross ls = (a.cross ls).map (Nd.smul c) := by
  unfold Nd.cross
  simp only [Nd.smul]
  cases h2 : crossAxes a.shape ls with
  | error e => rfl
  | ok sel => simp [bind, Except.bind, Except.map, pure, Except.pure, pick_map, Nd.smul]

theorem smul_smul' [CommSemigroup K] (c f : K) (r : Nd K) : r.smul (c * f) = (r.smul c).smul f := by
  simp only [Nd.smul, List.map_map]
  congr 1
  apply List.map_congr_left
  intro x _
  simp only [Function.comp]
  rw [mul_comm c f, mul_assoc]

/-- **C228.** Converting an array to another unit and subscripting it gives the same values and the same unit as subscripting it
and converting the result, for every subscript; if one is refused, so is the other, for the same reason. (`nameless` is the name
of a converted scalar, C178.) -/
theorem c228_commute [CommMonoid K] (a : Arr K U N) (s : Sub) (unit : U) (factor : K) (nameless : N) :
    ((a.convert unit factor).get s).map (fun g => (g.values, g.unit))
      = (a.get s).map (fun g => ((g.convert nameless unit factor).values, (g.convert nameless unit factor).unit)) := by
  have hw : ∀ r : Nd K, ((wrap (r.smul factor) unit a.name : Got K U N).values, (wrap (r.smul factor) unit a.name : Got K U N).unit)
      = (((wrap r a.unit a.name).convert nameless unit factor).values,
        ((wrap r a.unit a.name).convert nameless unit factor).unit) := by
    intro r
    obtain ⟨shape, entries⟩ := r
    have harr : ∀ r : Nd K, (⟨r.smul factor, 1, unit, a.name⟩ : Arr K U N).values
        = (⟨r, 1 * factor, unit, a.name⟩ : Arr K U N).values := by
      intro r
      simp [Arr.values, one_smul', one_mul]
    match shape, entries with
    | [], [x] => simp [wrap, Nd.smul, Got.convert, Got.values, Got.unit, mul_comm]
    | [], [] => exact Prod.ext (harr _) rfl
    | [], x :: y :: l => exact Prod.ext (harr _) rfl
    | n :: shape, es => exact Prod.ext (harr _) rfl
  have hb : (a.convert unit factor).base = a.base := rfl
  have hv : (a.convert unit factor).values = a.values.smul factor := smul_smul' _ _ _
  unfold Arr.get
  simp only [hb]
  by_cases hst : (unwrap s).standard = true
  · simp only [hst, if_true, Arr.load]
    by_cases hm : (unwrap s).missing = true
    · simp only [hm, if_true, hv, bind, Except.bind, pure, Except.pure, Except.map]
      exact congrArg Except.ok (hw a.values)
    · simp only [hm, hb, bind, Except.bind, pure, Except.pure, Except.map]
      cases h : a.base.get (unwrap s).items with
      | error e => rfl
      | ok r =>
        refine congrArg Except.ok ?_
        have := hw (r.smul a.scale)
        rw [← smul_smul'] at this
        exact this
  · simp only [hst, bind, Except.bind, pure, Except.pure, Except.map]
    cases hc : customIndex a.base.shape (unwrap s) with
    | error e => rfl
    | ok ls =>
      have harr : ∀ r : Nd K, (⟨r.smul factor, 1, unit, a.name⟩ : Arr K U N).values
          = (⟨r, 1 * factor, unit, a.name⟩ : Arr K U N).values := by
        intro r
        simp [Arr.values, one_smul', one_mul]
      by_cases hl : ls = []
      · simp only [Arr.loadCross, hl, if_true, hv, bind, Except.bind, pure, Except.pure, Except.map]
        exact congrArg Except.ok (Prod.ext (harr _) rfl)
      · simp only [Arr.loadCross, hl, if_false, hb, bind, Except.bind, pure, Except.pure, Except.map]
        cases h : a.base.cross ls with
        | error e => rfl
        | ok r =>
          refine congrArg Except.ok (Prod.ext ?_ rfl)
          have := harr (r.smul a.scale)
          rw [← smul_smul'] at this
          exact this

/-- `a["cm"][1, :2]` and `a[1, :2]["cm"]` are both `[4000, 5000]` cm. -/
example : ((sample.convert "cm" 100).get (.many [.int 1, .slice ⟨none, some 2, none⟩])).map (fun g => (g.values, g.unit))
    = .ok (⟨[2], [4000, 5000]⟩, "cm") := by decide +kernel

end Verif.Subscripts
