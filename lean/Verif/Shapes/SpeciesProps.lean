import Verif.Shapes.Lemmas
import Verif.Physics.FieldProps

/-!
# Quantities that depend on the mass and charge of the species
-/

set_option linter.unusedSimpArgs false

namespace Verif.Shapes

open Verif.Py Real
open Verif.Physics (mks)

theorem broadcast_last_one (S E : Nat) : broadcastShape [S, E] [1] = some [S, E] := by
  by_cases h : E = 1
  · subst h; exact broadcast_21 S 1
  · simp [broadcastShape, joinRev, joinDim, h]

theorem broadcast_one_one : broadcastShape [1] [1] = some [1] := rfl

theorem locate_last_one (i j : Nat) : locate [1] [i, j] = [0] := by simp [locate]

theorem locate_pair_one {E e : Nat} (he : e < E) (i : Nat) : locate [1, E] [i, e] = [0, e] := by
  simp [locate, keep he]

theorem broadcast_mismatch {S E : Nat} (hS : 2 ≤ S) (hE : 2 ≤ E) (h : S ≠ E) : broadcastShape [S, E] [S] = none := by
  have : joinDim E S = none := by
    unfold joinDim
    rw [if_neg (fun hh => h hh.symm), if_neg (by omega), if_neg (by omega)]
  simp [broadcastShape, joinRev, this]

theorem rigidity_one {E : Nat} (energy mass charge : Arr ℝ) (h1 : energy.shape = [1, E]) (h2 : mass.shape = [1])
    (h3 : charge.shape = [1]) :
    ∃ a, rigidityArr energy mass charge = .ok a ∧ a.shape = [1, E] ∧ ∀ e < E,
      a.entry [0, e] = Physics.rigidity (energy.entry [0, e]) (mass.entry [0]) (charge.entry [0]) := by
  obtain ⟨s1, f1⟩ := energy
  obtain ⟨s2, f2⟩ := mass
  obtain ⟨s3, f3⟩ := charge
  simp only at h1 h2 h3
  subst h1 h2 h3
  have h : atleast1 (⟨[1, E], f1⟩ : Arr ℝ) = ⟨[1, E], f1⟩ := by simp [atleast1]
  simp only [rigidityArr, h, add, sub, div, Arr.map2, Arr.map, broadcast_last_one, bind, Except.bind]
  refine ⟨_, rfl, rfl, ?_⟩
  intro e he
  simp only [locate_pair_one he, locate_last_one, Physics.rigidity, Physics.rigidityAt]

theorem rigidity_scalar (x : ℝ) (mass charge : Arr ℝ) (h2 : mass.shape = [1]) (h3 : charge.shape = [1]) :
    ∃ a, rigidityArr (scalar x) mass charge = .ok a ∧ a.shape = [1] ∧
      a.entry [0] = Physics.rigidity x (mass.entry [0]) (charge.entry [0]) := by
  obtain ⟨s2, f2⟩ := mass
  obtain ⟨s3, f3⟩ := charge
  simp only at h2 h3
  subst h2 h3
  have h : atleast1 (scalar x) = ⟨[1], fun _ => x⟩ := by simp [atleast1, scalar]
  simp only [rigidityArr, h, add, sub, div, Arr.map2, Arr.map, broadcast_one_one, bind, Except.bind]
  refine ⟨_, rfl, rfl, ?_⟩
  have hl : locate [1] [0] = [0] := rfl
  simp only [hl, Physics.rigidity, Physics.rigidityAt]

/-- **C150 (partial).** For one species, rigidity and mean free path hold at each position the value for the energy, mass
and charge of that species. -/
theorem c150_partial {T N E : Nat} (r energy mass charge : Arr ℝ) (a b l : ℝ) (h0 : r.shape = [T, N])
    (h1 : energy.shape = [1, E]) (h2 : mass.shape = [1]) (h3 : charge.shape = [1]) :
    (∃ rg, rigidityArr energy mass charge = .ok rg ∧ rg.shape = [1, E] ∧ ∀ e < E,
      rg.entry [0, e] = Physics.rigidity (energy.entry [0, e]) (mass.entry [0]) (charge.entry [0])) ∧
    ∃ mfp, meanFreePathArr r energy mass charge a b l = .ok mfp ∧ mfp.shape = [T, N, 1, E] ∧
      ∀ t < T, ∀ n < N, ∀ e < E, mfp.entry [t, n, 0, e]
        = Physics.meanFreePath (r.entry [t, n]) (energy.entry [0, e]) (mass.entry [0]) (charge.entry [0]) a b l := by
  refine ⟨rigidity_one energy mass charge h1 h2 h3, ?_⟩
  obtain ⟨rg, g1, g2, g3⟩ := rigidity_one energy mass charge h1 h2 h3
  obtain ⟨rg0, k1, k2, k3⟩ := rigidity_scalar (10 ^ 6 * ((mks c!"eV" : ℚ) : ℝ)) mass charge h2 h3
  obtain ⟨sr, fr⟩ := r
  simp only at h0
  subst h0
  simp only [meanFreePathArr, g1, k1, bind, Except.bind, div, Arr.map2, g2, k2, broadcast_last_one, Arr.map, outer, pure,
    Except.pure]
  refine ⟨_, rfl, rfl, ?_⟩
  intro t ht n hn e he
  have e5 : ∀ (a b c d : Nat), [a, b, c, d].take [T, N].length = [a, b] := fun _ _ _ _ => rfl
  have e6 : ∀ (a b c d : Nat), [a, b, c, d].drop [T, N].length = [c, d] := fun _ _ _ _ => rfl
  simp only [e5, e6, locate_pair_one he, locate_last_one, g3 e he, k3, Physics.meanFreePath]

/-- For several species and a different number of energies, more than one, neither can be computed: the masses are aligned
with the energies instead of the species, and numpy raises `ValueError`. -/
theorem c150_error {T N S E : Nat} (r energy mass charge : Arr ℝ) (a b l : ℝ) (_h0 : r.shape = [T, N])
    (h1 : energy.shape = [S, E]) (h2 : mass.shape = [S]) (hS : 2 ≤ S) (hE : 2 ≤ E) (h : S ≠ E) :
    rigidityArr energy mass charge = .error .valueError ∧
    meanFreePathArr r energy mass charge a b l = .error .valueError := by
  have key : rigidityArr energy mass charge = .error .valueError := by
    have ha : atleast1 energy = energy := by simp [atleast1, h1]
    simp only [rigidityArr, ha, add, Arr.map2, Arr.map, h1, h2, broadcast_mismatch hS hE h, bind, Except.bind]
  exact ⟨key, by simp only [meanFreePathArr, key, bind, Except.bind]⟩

/-- As many species as energies: the result uses the mass and charge at the position of the energy. -/
theorem rigidity_square {S : Nat} (energy mass charge : Arr ℝ) (h1 : energy.shape = [S, S]) (h2 : mass.shape = [S])
    (h3 : charge.shape = [S]) :
    ∃ a, rigidityArr energy mass charge = .ok a ∧ a.shape = [S, S] ∧ ∀ s < S, ∀ e < S,
      a.entry [s, e] = Physics.rigidity (energy.entry [s, e]) (mass.entry [e]) (charge.entry [e]) := by
  obtain ⟨s1, f1⟩ := energy
  obtain ⟨s2, f2⟩ := mass
  obtain ⟨s3, f3⟩ := charge
  simp only at h1 h2 h3
  subst h1 h2 h3
  have h : atleast1 (⟨[S, S], f1⟩ : Arr ℝ) = ⟨[S, S], f1⟩ := by simp [atleast1]
  simp only [rigidityArr, h, add, sub, div, Arr.map2, Arr.map, broadcast_21, bind, Except.bind]
  refine ⟨_, rfl, rfl, ?_⟩
  intro s hs e he
  simp only [locate_two hs he, locate_12 _ he, Physics.rigidity, Physics.rigidityAt]

/-- **C150 fails for several species.** Two species, of charges 1 and 2 (and mass 0, for simplicity): with three energies
there is no result; with two energies, the rigidity of the first species at the second energy is that of the second
species. -/
theorem c150_counterexample :
    let mass : Arr ℝ := ⟨[2], fun _ => 0⟩
    let charge : Arr ℝ := ⟨[2], fun i => if i = [0] then 1 else 2⟩
    rigidityArr ⟨[2, 3], fun _ => 1⟩ mass charge = .error .valueError ∧
    ∃ a, rigidityArr ⟨[2, 2], fun _ => 1⟩ mass charge = .ok a ∧
      a.entry [0, 1] ≠ Physics.rigidity 1 (mass.entry [0]) (charge.entry [0]) := by
  refine ⟨(c150_error (T := 0) (N := 0) ⟨[0, 0], fun _ => 0⟩ _ _ _ 0 0 0 rfl rfl rfl (by omega) (by omega)
    (by omega)).1, ?_⟩
  obtain ⟨a, h1, _, h3⟩ := rigidity_square (S := 2) ⟨[2, 2], fun _ => 1⟩ ⟨[2], fun _ => 0⟩
    ⟨[2], fun i => if i = [0] then 1 else 2⟩ rfl rfl rfl
  refine ⟨a, h1, ?_⟩
  rw [h3 0 (by omega) 1 (by omega)]
  have hc := Physics.c_pos
  simp [Physics.rigidity, Physics.rigidityAt]
  have hi := inv_pos.2 hc
  intro h
  linarith

/-- The hypotheses of `c150_partial` and of `c150_error` are met. -/
example : (∃ r energy mass charge : Arr ℝ, r.shape = [2, 3] ∧ energy.shape = [1, 4] ∧ mass.shape = [1] ∧ charge.shape = [1])
    ∧ ∃ energy mass : Arr ℝ, energy.shape = [2, 20] ∧ mass.shape = [2] :=
  ⟨⟨⟨[2, 3], fun _ => 1⟩, ⟨[1, 4], fun _ => 1⟩, ⟨[1], fun _ => 1⟩, ⟨[1], fun _ => 1⟩, rfl, rfl, rfl, rfl⟩,
    ⟨[2, 20], fun _ => 1⟩, ⟨[2], fun _ => 1⟩, rfl, rfl⟩

end Verif.Shapes
