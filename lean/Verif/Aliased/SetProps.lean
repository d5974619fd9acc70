import Verif.Aliased.Sets
import Verif.Aliased.Props
import Mathlib.Data.List.Perm.Subperm
import Mathlib.Data.Finset.Basic
import Mathlib.Data.Finset.Dedup

/-!
# Collections of groups as sets: property C249
-/

set_option linter.unusedSimpArgs false

namespace Verif.Aliased

open Verif.Py

variable {α : Type _} [DecidableEq α]

namespace Spec

/-- Each group of one collection has the members of some group of the other. -/
def Within (gs hs : List (Group α)) : Prop := ∀ g ∈ gs, ∃ h ∈ hs, ∀ x, x ∈ g ↔ x ∈ h

/-- The same groups, in any order. -/
def SameGroups (gs hs : List (Group α)) : Prop := Within gs hs ∧ Within hs gs

/-- The text of no group is a name. -/
def TextFree (text : Group α → α) (gs : List (Group α)) : Prop := ∀ x, ∀ g ∈ gs, text x ∉ g

end Spec

theorem holdsGroup_iff (text : Group α → α) (gs : List (Group α)) (hf : Spec.TextFree text gs) (x : Group α) :
    holdsGroup text gs x = true ↔ ∃ h ∈ gs, ∀ y, y ∈ x ↔ y ∈ h := by
  unfold holdsGroup findGroup
  rw [List.find?_isSome]
  constructor
  · rintro ⟨h, hm, hd⟩
    simp only [Bool.or_eq_true, decide_eq_true_eq] at hd
    rcases hd with hd | hd
    · exact absurd hd (hf x h hm)
    · exact ⟨h, hm, (Group.same_iff _ _).1 hd⟩
  · rintro ⟨h, hm, hs⟩
    exact ⟨h, hm, by simp only [Bool.or_eq_true]; exact Or.inr ((Group.same_iff _ _).2 hs)⟩

/-- The groups as finite sets are distinct if no name is shared and no group is empty. -/
theorem nodup_sets (gs : List (Group α)) (hd : NoSharedName gs) (hne : ∀ g ∈ gs, g ≠ []) :
    (gs.map List.toFinset).Nodup := by
  rw [List.nodup_iff_injective_getElem]
  rintro ⟨i, hi⟩ ⟨j, hj⟩ h
  simp only [List.length_map] at hi hj
  simp only [List.getElem_map] at h
  obtain ⟨x, hx⟩ := List.exists_mem_of_ne_nil _ (hne gs[i] (List.getElem_mem hi))
  have hx' : x ∈ gs[j] := by
    have : x ∈ gs[i].toFinset := List.mem_toFinset.2 hx
    rw [h] at this
    exact List.mem_toFinset.1 this
  simp only [Fin.mk.injEq]
  exact hd i j gs[i] gs[j] x (List.getElem?_eq_getElem hi) (List.getElem?_eq_getElem hj) hx hx'

theorem within_iff (gs hs : List (Group α)) :
    Spec.Within gs hs ↔ gs.map List.toFinset ⊆ hs.map List.toFinset := by
  constructor
  · intro h s hs'
    obtain ⟨g, hg, rfl⟩ := List.mem_map.1 hs'
    obtain ⟨k, hk, he⟩ := h g hg
    exact List.mem_map.2 ⟨k, hk, by ext x; simp [he x]⟩
  · intro h g hg
    obtain ⟨k, hk, he⟩ := List.mem_map.1 (h (List.mem_map.2 ⟨g, hg, rfl⟩))
    refine ⟨k, hk, fun x => ?_⟩
    rw [← List.mem_toFinset (l := g), ← he, List.mem_toFinset]

/-- **C249 (partial), inclusion and equality.** For all collections in which no name is shared and no group is empty:
one is included in another iff each of its groups has the members of a group of the other, and they are equal iff
they have the same groups, in any order. -/
theorem c249_compare_partial (text : Group α → α) (gs hs : List (Group α)) (hf : Spec.TextFree text hs)
    (hd : NoSharedName gs) (hne : ∀ g ∈ gs, g ≠ []) (hd' : NoSharedName hs) (hne' : ∀ g ∈ hs, g ≠ []) :
    (setLe text gs hs = true ↔ Spec.Within gs hs) ∧ (setEq text gs hs = true ↔ Spec.SameGroups gs hs) := by
  have hall : gs.all (holdsGroup text hs) = true ↔ Spec.Within gs hs := by
    simp only [List.all_eq_true, holdsGroup_iff text hs hf]
    exact Iff.rfl
  have hlen : Spec.Within gs hs → gs.length ≤ hs.length := by
    intro h
    have := (List.subperm_of_subset (nodup_sets gs hd hne) ((within_iff gs hs).1 h)).length_le
    simpa using this
  have hle : setLe text gs hs = true ↔ Spec.Within gs hs := by
    unfold setLe
    rw [Bool.and_eq_true, hall, decide_eq_true_eq]
    exact ⟨fun h => h.2, fun h => ⟨hlen h, h⟩⟩
  refine ⟨hle, ?_⟩
  unfold setEq
  rw [Bool.and_eq_true, hle, decide_eq_true_eq]
  constructor
  · rintro ⟨he, h⟩
    refine ⟨h, ?_⟩
    have hp := (List.subperm_of_subset (nodup_sets gs hd hne) ((within_iff gs hs).1 h)).perm_of_length_le (by simp [he])
    exact (within_iff hs gs).2 hp.symm.subset
  · rintro ⟨h1, h2⟩
    refine ⟨le_antisymm (hlen h1) ?_, h1⟩
    have := (List.subperm_of_subset (nodup_sets hs hd' hne') ((within_iff hs gs).1 h2)).length_le
    simpa using this

/-- **C249 (partial), disjointness.** Two collections are disjoint iff no group of one has the members of a group of the
other. -/
theorem c249_disjoint_partial (text : Group α → α) (gs hs : List (Group α)) (hf : Spec.TextFree text gs) :
    setDisjoint text gs hs = true ↔ ¬ ∃ h ∈ hs, ∃ g ∈ gs, ∀ x, x ∈ h ↔ x ∈ g := by
  unfold setDisjoint
  simp only [List.all_eq_true, Bool.not_eq_true', ← Bool.not_eq_true, holdsGroup_iff text gs hf]
  push Not
  exact Iff.rfl

theorem same_self (g : Group α) : Group.same g g = true := (Group.same_iff _ _).2 (fun _ => Iff.rfl)

theorem pop_cons (text : Group α → α) (y : α) (g : Group α) (gs : List (Group α)) :
    pop text ((y :: g) :: gs) = .ok (y :: g, gs) := by
  have hf : findGroup text ((y :: g) :: gs) (y :: g) = some (y :: g) := by
    unfold findGroup
    rw [List.find?_cons_of_pos]
    simp only [Bool.or_eq_true]
    exact Or.inr (same_self _)
  unfold pop discardGroup
  simp only [hf]
  simp only [removeGroup, same_self, if_true, Except.map]

/-- **C249 (partial), removal.** If no group is empty, `pop` gives the first group and leaves the others, and `clear` ends with no
groups after as many rounds as there are groups and one. -/
theorem c249_clear_partial (text : Group α → α) (gs : List (Group α)) (hne : ∀ g ∈ gs, g ≠ []) :
    (∀ g rest, gs = g :: rest → pop text gs = .ok (g, rest)) ∧ clear text (gs.length + 1) gs = .ok ([], true) := by
  constructor
  · rintro g rest rfl
    obtain ⟨y, l, rfl⟩ := List.exists_cons_of_ne_nil (hne g (by simp))
    exact pop_cons text y l rest
  · induction gs with
    | nil => rfl
    | cons g gs ih =>
      obtain ⟨y, l, rfl⟩ := List.exists_cons_of_ne_nil (hne g (by simp))
      rw [List.length_cons, clear, pop_cons]
      exact ih (fun g hg => hne g (by simp [hg]))

theorem removeGroup_of_mem (f : Group α) (gs : List (Group α)) (hd : NoSharedName gs) (hf : f ∈ gs) (x : α)
    (hx : x ∈ f) : ∃ r, removeGroup gs f = .ok r ∧ ∀ g, g ∈ r ↔ g ∈ gs ∧ x ∉ g := by
  rw [noSharedName_iff] at hd
  induction gs with
  | nil => cases hf
  | cons g gs ih =>
    unfold removeGroup
    have hd2 := List.pairwise_cons.1 hd
    by_cases hs : g.same f = true
    · rw [if_pos hs]
      have hxg : x ∈ g := ((Group.same_iff _ _).1 hs x).2 hx
      refine ⟨gs, rfl, fun k => ⟨fun hk => ⟨by simp [hk], ?_⟩, ?_⟩⟩
      · intro hxk
        exact (hd2.1 k hk) x hxg hxk
      · rintro ⟨hk, hxk⟩
        rcases List.mem_cons.1 hk with rfl | hk
        · exact absurd hxg hxk
        · exact hk
    · rw [if_neg hs]
      have hfg : f ∈ gs := by
        rcases List.mem_cons.1 hf with rfl | h
        · exact absurd (same_self _) hs
        · exact h
      obtain ⟨r, hr, hmem⟩ := ih hd2.2 hfg
      refine ⟨g :: r, by rw [hr]; rfl, fun k => ?_⟩
      have hxg : x ∉ g := fun hxg => (hd2.1 f hfg) x hxg hx
      simp only [List.mem_cons, hmem]
      constructor
      · rintro (rfl | ⟨h1, h2⟩)
        · exact ⟨Or.inl rfl, hxg⟩
        · exact ⟨Or.inr h1, h2⟩
      · rintro ⟨rfl | h1, h2⟩
        · exact Or.inl rfl
        · exact Or.inr ⟨h1, h2⟩

/-- **C249 (partial), `remove`.** If no name is shared: removing a name of some group leaves exactly the groups without the
name, and removing another name raises `KeyError`. -/
theorem c249_remove_partial (gs : List (Group α)) (hd : NoSharedName gs) (x : α) :
    ((∃ g ∈ gs, x ∈ g) → ∃ r, remove gs x = .ok r ∧ ∀ g, g ∈ r ↔ g ∈ gs ∧ x ∉ g) ∧
    ((∀ g ∈ gs, x ∉ g) → remove gs x = .error .keyError) := by
  constructor
  · rintro ⟨g, hg, hx⟩
    have hf := (c13_find gs hd x g).2 ⟨hg, hx⟩
    unfold remove discard
    rw [hf]
    simp only [Option.isSome_some, if_true]
    cases g with
    | nil => cases hx
    | cons y g => exact removeGroup_of_mem _ gs hd hg x hx
  · intro h
    unfold remove
    have : find gs x = none := by
      unfold find; rw [List.find?_eq_none]
      intro g hg; simpa using h g hg
    rw [this]; rfl

theorem clear_empty (text : Group α → α) (gs : List (Group α)) (n : Nat) :
    clear text n ([] :: gs) = .ok ([] :: gs, false) := by
  have hp : pop text ([] :: gs) = .ok ([], [] :: gs) := by
    have hf : findGroup text ([] :: gs) [] = some [] := by
      unfold findGroup
      rw [List.find?_cons_of_pos]
      simp only [Bool.or_eq_true]
      exact Or.inr (same_self _)
    unfold pop discardGroup
    simp only [hf]
    rfl
  induction n with
  | zero => rfl
  | succ n ih => rw [clear, hp]; exact ih

/-- **C249 fails.** Every union, intersection or difference has exactly one group, whose members are groups, even if the
collections have no groups; if a group occurs twice, equality is not symmetric; if the first group is empty, `clear` never ends. -/
theorem c249_counterexample (text : Group Nat → Nat) (ht : ∀ g, 9 < text g) :
    (∀ gs hs : List (Group Nat), (setOr gs hs).length = 1 ∧ (setAnd text gs hs).length = 1 ∧ (setSub text gs hs).length = 1) ∧
    setOr [[1]] [[2]] = [[[1], [2]]] ∧
    (setEq text [[1], [1]] [[1], [2]] = true ∧ setEq text [[1], [2]] [[1], [1]] = false) ∧
    ∀ n, clear text n [[], [1]] = .ok ([[], [1]], false) := by
  have h1 : ∀ g, text g ≠ 1 := fun g => by have := ht g; omega
  have h2 : ∀ g, text g ≠ 2 := fun g => by have := ht g; omega
  refine ⟨fun _ _ => ⟨rfl, rfl, rfl⟩, by decide, ⟨?_, ?_⟩, fun n => clear_empty text _ n⟩
  · simp [setEq, setLe, holdsGroup, findGroup, Group.same, h1, h2]
  · simp [setEq, setLe, holdsGroup, findGroup, Group.same, h1, h2]

/-! ## Cases meeting the hypotheses -/

example : setEq (fun _ => 9) [[1, 2], [3]] [[3], [2, 1]] = true := by decide
example : setEq (fun _ => 9) [[1, 2], [3]] [[3], [2]] = false := by decide
example : setLe (fun _ => 9) [[3]] [[1, 2], [3]] = true := by decide
example : remove [[1, 2], [3]] 2 = .ok [[3]] ∧ remove [[1, 2], [3]] 4 = .error .keyError := by decide
example : clear (fun _ => 9) 3 [[1, 2], [3]] = .ok ([], true) := by decide

end Verif.Aliased
