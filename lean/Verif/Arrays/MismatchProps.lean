import Verif.Arrays.AxisProps

/-!
# Products of variables whose sizes differ along common axes (C93)
-/

set_option linter.unusedSimpArgs false
set_option linter.unusedSectionVars false

namespace Verif.Arrays

open Verif.Py Verif.Metadata Verif.Numerical

/-- The size along each axis when the second operand's sizes prevail. -/
def mergedSize (ds : List Str) (sizeU sizeV : Str → Nat) (d : Str) : Nat := if d ∈ ds then sizeV d else sizeU d

theorem merged_sizes {K : Type} (u v : Var K) (sizeU sizeV : Str → Nat) (hv : v.dims.Nodup)
    (su : u.array.shape = u.dims.map sizeU) (sv : v.array.shape = v.dims.map sizeV) (dims : List Str)
    (hmem : ∀ d, d ∈ dims ↔ d ∈ u.dims ∨ d ∈ v.dims) :
    dims.map (fun d => ((u.shapeDict.update v.shapeDict).get? d).getD 0)
      = dims.map (mergedSize v.dims sizeU sizeV) := by
  refine List.map_congr_left (fun d hdm => ?_)
  rw [shapeDict_eq v sizeV hv sv, get?_update_map, mergedSize]
  split
  · rfl
  · next h =>
    have hu' : d ∈ u.dims := by rcases (hmem d).1 hdm with h' | h'; exact h'; exact absurd h' h
    have := get?_update_map sizeU u.dims [] d
    rw [if_pos hu'] at this
    have e : Dict.update [] (u.dims.map (fun x => (x, sizeU x))) = u.shapeDict := by
      have hz : u.dims.map (fun x => (x, sizeU x)) = u.dims.zip u.array.shape := by
        rw [su, List.zip_map_right, List.zip, List.zipWith_self, List.map_map]; rfl
      rw [hz]; rfl
    rw [e] at this
    rw [this]; rfl

theorem keys_shapeDict {K : Type} (w : Var K) (size : Str → Nat) (hn : w.dims.Nodup)
    (h : w.array.shape = w.dims.map size) : w.shapeDict.keys = w.dims := by
  rw [shapeDict_eq w size hn h]
  simp [Dict.keys, Function.comp_def]

theorem mem_grid_of : ∀ {s p : List Nat}, p.length = s.length → (∀ k < s.length, p.getD k 0 < s.getD k 0) →
    p ∈ grid s
  | [], p, h, _ => by simp at h; subst h; simp [grid]
  | n :: s, [], h, _ => by simp at h
  | n :: s, i :: p, h, hk => by
    simp only [grid, List.mem_flatMap, List.mem_map, List.mem_range]
    refine ⟨i, by simpa using hk 0 (by simp), p, mem_grid_of (by simpa using h) (fun k hk' => ?_), rfl⟩
    simpa using hk (k + 1) (by simpa using hk')

/-- Whatever the first operand, if it is too short along a common axis and the merged sizes along its axes are
positive, indexing it raises. -/
theorem fancy_short {K : Type _} (size bound : Str → Nat) (dims ds : List Str) (a : Arr K) (hn : dims.Nodup)
    (hsub : ∀ d ∈ ds, d ∈ dims) (ha : a.shape = ds.map bound) (hpos : ∀ d ∈ ds, 0 < size d)
    (d : Str) (hd : d ∈ ds) (hlt : bound d < size d) :
    a.fancy dims.length (ds.map (fun d => mesh (dims.map size) (dims.idxOf d))) = .error .indexError := by
  have hlen : dims.length = (dims.map size).length := by simp
  have hb : bshapes dims.length ((ds.map (fun d => mesh (dims.map size) (dims.idxOf d))).map (·.shape))
      = .ok (formShape (dims.map size) (ds.map dims.idxOf)) := by
    have := bshapes_form (dims.map size) (ds.map dims.idxOf)
    rw [List.map_map] at this
    rw [List.map_map, hlen]
    exact this
  have hget : ∀ {f : Str → Nat} {d : Str}, d ∈ dims → (dims.map f).getD (dims.idxOf d) 0 = f d := by
    intro f d hd
    have := List.idxOf_lt_length_of_mem hd
    rw [List.getD_eq_getElem?_getD, List.getElem?_map, List.getElem?_eq_getElem this]
    simp
  obtain ⟨i, hi, rfl⟩ := List.mem_iff_getElem.1 hd
  refine fancy_error a _ _ _ hb (dims.map (fun e => if e = ds[i] then bound ds[i] else 0)) ?_ i
    (by simpa using hi) (by rw [ha]; simpa using hi) ?_
  · refine mem_grid_of (by simp [formShape]) (fun k hk => ?_)
    have hk' : k < dims.length := by simpa [formShape] using hk
    have e1 : (formShape (dims.map size) (ds.map dims.idxOf)).getD k 0
        = if k ∈ ds.map dims.idxOf then size dims[k] else 1 := by
      simp only [formShape, List.getD_eq_getElem?_getD, List.getElem?_map]
      rw [List.getElem?_range (by simpa using hk')]
      simp [hk']
    rw [e1, List.getD_eq_getElem?_getD, List.getElem?_map, List.getElem?_eq_getElem hk']
    simp only [Option.map_some, Option.getD_some]
    have hidx : dims.idxOf dims[k] = k := hn.idxOf_getElem k hk'
    by_cases hk2 : k ∈ ds.map dims.idxOf
    · rw [if_pos hk2]
      obtain ⟨e, he, hek⟩ := List.mem_map.1 hk2
      have hee : dims[k] = e := by
        have := List.idxOf_lt_length_of_mem (hsub e he)
        simp only [← hek]
        simp
      split
      · next h => rw [h]; exact hlt
      · rw [hee]; exact hpos e he
    · rw [if_neg hk2, if_neg]
      · omega
      · intro h
        exact hk2 (List.mem_map.2 ⟨ds[i], hd, by rw [← h, hidx]⟩)
  · have hdm := hsub _ hd
    have hix := List.idxOf_lt_length_of_mem hdm
    simp only [ha, List.getElem_map]
    rw [bget_mesh _ _ _ (by simp) (by simpa using hix), hget hdm, hget hdm, if_pos rfl]
    have := hlt
    split <;> omega

/-- **C93, all axes.** Two variables along any axes, with sizes `sizeU` and `sizeV`. If none of the sizes along
the axes of the first is zero and the first operand is shorter than the second along some common axis, the product
raises `IndexError`. Otherwise, if it is nowhere shorter, the product is that of the entries at the same named
positions; it is as large as the second operand along the second operand's axes, hence without loss exactly if the
sizes agree.

Missing: a longer first operand does not raise (`c93_counterexample`, and the second part here). -/
theorem c93_axes_partial {K : Type} (op : K → K → K) (u v : Var K) (sizeU sizeV : Str → Nat)
    (hu : u.dims.Nodup) (hv : v.dims.Nodup)
    (su : u.array.shape = u.dims.map sizeU) (sv : v.array.shape = v.dims.map sizeV) :
    ((∃ d, d ∈ u.dims ∧ d ∈ v.dims ∧ sizeU d < sizeV d) →
      (∀ d ∈ u.dims, 0 < if d ∈ v.dims then sizeV d else sizeU d) →
      u.combine op v = .error .indexError) ∧
    ((∀ d, d ∈ u.dims → d ∈ v.dims → sizeV d ≤ sizeU d) →
      ∃ r : Var K, u.combine op v = .ok r ∧ r.dims.Nodup ∧ (∀ d, d ∈ r.dims ↔ d ∈ u.dims ∨ d ∈ v.dims) ∧
        r.array.shape = r.dims.map (fun d => if d ∈ v.dims then sizeV d else sizeU d) ∧
        ∀ σ : Str → Nat, (∀ d ∈ r.dims, σ d < if d ∈ v.dims then sizeV d else sizeU d) →
          r.array.get (r.dims.map σ) = op (u.array.get (u.dims.map σ)) (v.array.get (v.dims.map σ))) := by
  have hm := mergeAll_eq u.dims [.dims u.dims, .dims v.dims]
  simp only [List.map_cons, List.map_nil, namesOf, List.flatten_cons, List.flatten_nil,
    List.append_nil] at hm
  generalize hd : Iterables.unique (u.dims ++ (u.dims ++ v.dims)) = dims at hm
  have hmem : ∀ d, d ∈ dims ↔ d ∈ u.dims ∨ d ∈ v.dims := by
    intro d
    rw [← hd, Iterables.mem_unique]
    simp only [List.mem_append]
    tauto
  have hn : dims.Nodup := by rw [← hd]; exact Iterables.nodup_unique _
  have hsize := merged_sizes u v sizeU sizeV hv su sv dims hmem
  have ku := keys_shapeDict u sizeU hu su
  have kv := keys_shapeDict v sizeV hv sv
  have hsub : ∀ d ∈ u.dims, d ∈ dims := fun d h => (hmem d).2 (Or.inl h)
  constructor
  · rintro ⟨d, h1, h2, h3⟩ hpos
    have ea := fancy_short (mergedSize v.dims sizeU sizeV) sizeU dims u.dims u.array hn hsub su hpos d h1
      (by rw [mergedSize, if_pos h2]; exact h3)
    unfold Var.combine alignAxes
    simp only [hm, hsize, ku, kv, ea, bind, Except.bind]
  · intro hle
    obtain ⟨a, ea, sa, ga⟩ := fancy_within (mergedSize v.dims sizeU sizeV) sizeU dims u.dims u.array hsub su (by
      intro d h
      rw [mergedSize]
      split
      · next h' => exact hle d h h'
      · exact le_rfl)
    obtain ⟨b, eb, sb, gb⟩ := fancy_within (mergedSize v.dims sizeU sizeV) sizeV dims v.dims v.array
      (fun d h => (hmem d).2 (Or.inr h)) sv (by intro d h; rw [mergedSize, if_pos h])
    have hb : bshape a.shape b.shape = .ok (dims.map (mergedSize v.dims sizeU sizeV)) := by
      rw [sa, sb]
      refine bshape_ok_form _ _ _ (fun j hj => ?_)
      have hj' : j < dims.length := by simpa using hj
      have hidx : dims.idxOf dims[j] = j := hn.idxOf_getElem j hj'
      rcases (hmem dims[j]).1 (List.getElem_mem hj') with h | h
      · exact Or.inl (List.mem_map.2 ⟨_, h, hidx⟩)
      · exact Or.inr (List.mem_map.2 ⟨_, h, hidx⟩)
    refine ⟨⟨dims, ⟨dims.map (mergedSize v.dims sizeU sizeV), fun p => op (a.bget p) (b.bget p)⟩⟩, ?_, hn, hmem,
      rfl, ?_⟩
    · unfold Var.combine alignAxes
      simp only [hm, hsize, ku, kv, ea, eb, hb, bind, Except.bind, pure, Except.pure]
    · intro σ hσ
      simp only
      rw [ga σ hσ, gb σ hσ]

/-- A matrix of two rows and three columns times a vector of four along the columns. -/
example : Var.combine (K := Nat) (· * ·) ⟨[c!"x", c!"y"], ⟨[2, 3], fun _ => 1⟩⟩ ⟨[c!"y"], ⟨[4], fun _ => 1⟩⟩
    = .error .indexError :=
  (c93_axes_partial _ _ _ (fun d => if d = c!"x" then 2 else 3) (fun _ => 4) (by decide) (by decide)
    (by decide) (by decide)).1 ⟨c!"y", by decide, by decide, by decide⟩ (by decide)

/-- The same with a vector of two: the third column is dropped. -/
example : ∃ r, Var.combine (K := Nat) (· * ·) ⟨[c!"x", c!"y"], ⟨[2, 3], fun _ => 1⟩⟩
    ⟨[c!"y"], ⟨[2], fun _ => 1⟩⟩ = .ok r := by
  obtain ⟨r, h, _⟩ := (c93_axes_partial (K := Nat) (· * ·) ⟨[c!"x", c!"y"], ⟨[2, 3], fun _ => 1⟩⟩
    ⟨[c!"y"], ⟨[2], fun _ => 1⟩⟩ (fun d => if d = c!"x" then 2 else 3) (fun _ => 2) (by decide) (by decide)
    (by decide) (by decide)).2 (by intro d h1 h2; simp at h2; subst h2; decide)
  exact ⟨r, h⟩

end Verif.Arrays
