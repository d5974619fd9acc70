import Verif.Axes.Whole
import Mathlib.Tactic.NormNum

/-!
# The axes that an observer shows: property C247
-/

set_option linter.unusedSimpArgs false

namespace Verif.Axes

open Verif.Py Verif.Iterables Verif.Measurable
open Verif.Metric (Str)

variable {U V : Type}

namespace Spec

/-- An object shows the values `vs`: as a numpy array, by its length, and by position (`none` for an exception). -/
structure Shows (vs : List V) (numpy : List V) (len : Nat) (item : Nat → Option V) : Prop where
  array : numpy = vs
  length : len = vs.length
  items : ∀ k, item k = vs[k]?

/-- The positions of an axis of `n` values. -/
def positions (n : Nat) : List Int := (List.range n).map (fun i : Nat => (i : Int))

end Spec

theorem normalize_nothing (n : Nat) : normalize n .nothing = (List.range n).map (fun i : Nat => Item.int i) := rfl

theorem all_isInt (n : Nat) : ((List.range n).map (fun i : Nat => Item.int i)).all Item.isInt = true := by
  simp [Item.isInt]

theorem positions_of (n : Nat) :
    ((List.range n).map (fun i : Nat => Item.int i)).filterMap Item.position = Spec.positions n := by
  rw [List.filterMap_map]
  unfold Spec.positions
  rw [← List.filterMap_eq_map]
  rfl

theorem rescale_same (M : Units U) (hs : ∀ u, M.same u u = true) (vs : List Rat) (u : U) : rescale M vs u u = .ok vs := by
  unfold rescale; rw [if_pos (hs u)]

theorem coordinate_whole (M : Units U) (hs : ∀ u, M.same u u = true) (text : Arg → Str) (depth : Nat) (axis : List Rat) (u : U) :
    coordinateIndex M text depth axis u .nothing u = .ok ⟨Spec.positions axis.length, axis⟩ := by
  unfold coordinateIndex coordinate
  rw [rescale_same M hs, normalize_nothing]
  simp only
  split
  · congr 1
  · rw [if_pos (all_isInt _), positions_of]

theorem reference_ok (points : List Int) (values : List V) (unit : Option U) (h : values ≠ []) :
    reference (.ok ⟨points, values⟩) unit = .ok ⟨points, values, unit⟩ := by
  cases values with
  | nil => exact absurd rfl h
  | cons a l => rfl

/-- **C247 (partial), numpy arrays.** For every dataset: the times and pitch angles that an observer shows are, as a numpy
array, all values of the variable in their order and unit, and their number is that of the values. -/
theorem c247_partial (M : Units U) (hs : ∀ u, M.same u u = true) (text : Arg → Str) (depth : Nat) (axis : List Rat) (u : U)
    (h : axis ≠ []) :
    ∃ a, shownCoordinate M text depth axis u = .ok a ∧ a.numpy = axis ∧ a.len = axis.length ∧ a.unit = some u := by
  refine ⟨⟨Spec.positions axis.length, axis, some u⟩, ?_, rfl, ?_, rfl⟩
  · unfold shownCoordinate
    rw [coordinate_whole M hs, reference_ok _ _ _ h]
  · simp [Shown.len, Spec.positions]

theorem mapM_points (symbols : List Str) (l : List Nat) :
    (l.map (fun i : Nat => Species.number i)).mapM (Species.point symbols) = .ok (l.map (fun i : Nat => (i : Int))) := by
  induction l with
  | nil => rfl
  | cons i l ih =>
    simp only [List.map_cons, List.mapM_cons, ih]
    have : Species.point symbols (.number (i : Rat)) = .ok (i : Int) := by
      unfold Species.point truncate
      simp only
      rw [if_neg (by exact_mod_cast (Nat.not_lt_zero i))]
      congr 1
    rw [this]
    rfl

/-- **C247 (partial), species and shells.** The species are, as a numpy array, all symbols in their order; the shells are the
positions from zero. -/
theorem c247_labels_partial (symbols : List Str) (n : Nat) (unit : U) (h : symbols ≠ []) (hn : 0 < n) :
    (∃ a : Shown U Str, shownSpecies symbols = .ok a ∧ a.numpy = symbols ∧ a.len = symbols.length) ∧
    ∃ a, shownShell n unit = .ok a ∧ Spec.Shows (Spec.positions n) a.numpy a.len (fun k => (a.at k).toOption) := by
  constructor
  · refine ⟨⟨Spec.positions symbols.length, symbols, none⟩, ?_, rfl, ?_⟩
    · unfold shownSpecies speciesIndex
      rw [if_pos rfl, mapM_points]
      exact reference_ok _ _ _ h
    · simp [Shown.len, Spec.positions]
  · have hp : Spec.positions n ≠ [] := by
      obtain ⟨m, rfl⟩ : ∃ m, n = m + 1 := ⟨n - 1, by omega⟩
      simp [Spec.positions, List.range_succ]
    have hsh : shellIndex n .nothing = .ok ⟨Spec.positions n, Spec.positions n⟩ := by
      unfold shellIndex
      rw [normalize_nothing, if_pos (all_isInt _), positions_of]
      cases hq : Spec.positions n with
      | nil => exact absurd hq hp
      | cons i is => rfl
    refine ⟨⟨Spec.positions n, Spec.positions n, some unit⟩, ?_, rfl, rfl, ?_⟩
    · unfold shownShell; rw [hsh, reference_ok _ _ _ hp]
    · intro k
      unfold Shown.at getItem
      simp only [show ¬ ((k : Int) < 0) by omega, if_false, Int.toNat_natCast]
      cases (Spec.positions n)[k]? <;> rfl

/-- **C247 (partial), energies.** The energies are those of the first species. -/
theorem c247_energy_partial (M : Units U) (hs : ∀ u, M.same u u = true) (text : Arg → Str) (depth : Nat) (row : List Rat)
    (rows : List (List Rat)) (u : U) (h : row ≠ []) :
    ∃ a, shownEnergy M text depth (row :: rows) u = .ok a ∧ a.numpy = row ∧ a.unit = some u := by
  refine ⟨⟨Spec.positions row.length, row, some u⟩, ?_, rfl, rfl⟩
  unfold shownEnergy energyIndex
  have : getItem (row :: rows) 0 = .ok row := rfl
  rw [this]
  simp only
  rw [coordinate_whole M hs, reference_ok _ _ _ h]

/-- **C247 fails.** By position and in a loop, the times are the positions themselves, whatever the times are; energies
of species other than the first are not shown; without times there is an exception. -/
theorem c247_counterexample (M : Units U) (hs : ∀ u, M.same u u = true) (text : Arg → Str) (depth : Nat) (u : U) :
    (∀ axis a, shownCoordinate M text depth axis u = .ok a →
      a.members = Spec.positions axis.length ∧ ∀ k < axis.length, a.at k = .ok (k : Int)) ∧
    (∃ a, shownCoordinate M text depth [1/2, 3/2] u = .ok a ∧
      ¬ Spec.Shows [1/2, 3/2] a.numpy a.len (fun k => (a.at k).toOption.map (fun i : Int => (i : Rat)))) ∧
    (∀ row rows rows', shownEnergy M text depth (row :: rows) u = shownEnergy M text depth (row :: rows') u) ∧
    shownCoordinate M text depth [] u = .error .indexError := by
  have key : ∀ axis a, shownCoordinate M text depth axis u = .ok a → a = ⟨Spec.positions axis.length, axis, some u⟩ := by
    intro axis a h
    unfold shownCoordinate at h
    rw [coordinate_whole M hs] at h
    cases axis with
    | nil => cases h
    | cons x l =>
      rw [reference_ok _ _ _ (by simp)] at h
      injection h with h
      exact h.symm
  refine ⟨?_, ?_, fun _ _ _ => rfl, ?_⟩
  · intro axis a h
    rw [key axis a h]
    refine ⟨rfl, ?_⟩
    intro k hk
    unfold Shown.at getItem
    simp only [show ¬ ((k : Int) < 0) by omega, if_false, Int.toNat_natCast]
    rw [show (Spec.positions axis.length)[k]? = some (k : Int) by simp [Spec.positions, hk]]
  · obtain ⟨a, h1, h2, -, -⟩ := c247_partial M hs text depth [1/2, 3/2] u (by simp)
    refine ⟨a, h1, fun h => ?_⟩
    have h0 := h.items 0
    rw [key _ a h1] at h0
    have h0' : some (((0 : Int)) : Rat) = some (1/2 : Rat) := h0
    norm_num at h0'
  · unfold shownCoordinate
    rw [coordinate_whole M hs]
    rfl

/-! ## Cases meeting the hypotheses -/

/-- Units that are names; only a name is the same as itself and nothing is converted. -/
def unitsExample : Units Nat where
  one := 0
  read := fun _ => .error .valueError
  same := fun a b => a == b
  factor := fun _ _ => .error .valueError
  consistent := fun _ _ => true

example : (shownCoordinate unitsExample (fun _ => []) 3 [1/2, 3/2, 4] 7).map Shown.numpy = .ok [1/2, 3/2, 4] := by decide +kernel
example : (shownCoordinate unitsExample (fun _ => []) 3 [1/2, 3/2, 4] 7).map Shown.members = .ok [0, 1, 2] := by decide +kernel
example : ∀ u, unitsExample.same u u = true := fun u => by simp [unitsExample]

end Verif.Axes
