import Verif.Shapes.Lemmas
import Verif.Physics.SumProps
import Verif.Iterables.Lemmas
import Verif.Numerical.Props

/-!
# Integral flux of several species
-/

set_option linter.unusedSimpArgs false

namespace Verif.Shapes

open Verif.Py Real
open Verif.Physics (mks)

theorem series_length (a : Arr ℝ) (i : List Nat) (n : Nat) : (series a i n).length = n := by simp [series]

theorem range_mapM {β : Type} {n : Nat} {f : Nat → Res β} {r : List β} (h : (List.range n).mapM f = .ok r) {i : Nat}
    (hi : i < n) : ∃ y, f i = .ok y := by
  obtain ⟨h1, h2⟩ := (Iterables.mapM_ok_iff _ _ _).1 h
  rw [List.length_range] at h1
  have := h2 i (by simpa using hi) (by omega)
  rw [List.getElem_range] at this
  exact ⟨_, this⟩

/-- **C149, integral flux.** Where there is a result, each entry is the integral flux of its own series. -/
theorem c149_integral {T N S S' E : Nat} (energies flux a : Arr ℝ) (bounds : List ℝ) (h1 : energies.shape = [S, E])
    (h2 : flux.shape = [T, N, S', E]) (h : integralFluxArr energies flux bounds = .ok a) :
    S ≤ S' ∧ a.shape = [T, N, S', bounds.length] ∧ ∀ t < T, ∀ n < N, ∀ s < S, ∀ i < bounds.length,
      Physics.integralFlux (series energies [s] E) (series flux [t, n, s] E) (lowest energies S E) (bounds.getD i 0)
        = .ok (a.entry [t, n, s, i]) := by
  unfold integralFluxArr at h
  rw [h1, h2] at h
  simp only at h
  split at h
  · contradiction
  split at h
  · contradiction
  next hs =>
  cases hm : (List.range bounds.length).mapM (fun i => (List.range S).mapM (fun j =>
        (List.range T).mapM (fun a => (List.range N).mapM (fun b => integralEntry energies flux S E bounds a b j i)))) with
  | error e => rw [hm] at h; simp [bind, Except.bind] at h
  | ok v =>
    rw [hm] at h
    simp only [bind, Except.bind, pure, Except.pure, Except.ok.injEq] at h
    subst h
    refine ⟨by omega, rfl, ?_⟩
    intro t ht n hn s hs i hi
    simp only [hs, if_true]
    obtain ⟨_, q1⟩ := range_mapM hm hi
    obtain ⟨_, q2⟩ := range_mapM q1 hs
    obtain ⟨_, q3⟩ := range_mapM q2 ht
    obtain ⟨y, q4⟩ := range_mapM q3 hn
    rw [q4]
    exact q4

/-! ## Several species -/

theorem foldl_min_le (l : List ℝ) (x : ℝ) : l.foldl min x ≤ x ∧ ∀ y ∈ l, l.foldl min x ≤ y := by
  induction l generalizing x with
  | nil => simp
  | cons a l ih =>
    obtain ⟨h1, h2⟩ := ih (min x a)
    refine ⟨le_trans h1 (min_le_left _ _), ?_⟩
    intro y hy
    rcases List.mem_cons.1 hy with rfl | hy
    · exact le_trans h1 (min_le_right _ _)
    · exact h2 y hy

theorem foldl_min_mem (l : List ℝ) (x : ℝ) : l.foldl min x = x ∨ l.foldl min x ∈ l := by
  induction l generalizing x with
  | nil => simp
  | cons a l ih =>
    rcases ih (min x a) with h | h
    · rcases le_total x a with h' | h'
      · left; rw [List.foldl_cons, h, min_eq_left h']
      · right; rw [List.foldl_cons, h, min_eq_right h']; simp
    · right; exact List.mem_cons_of_mem _ h

theorem lowest_le (energies : Arr ℝ) (S E s e : Nat) (hs : s < S) (he : e < E) :
    lowest energies S E ≤ energies.entry [s, e] := by
  refine (foldl_min_le _ _).2 _ ?_
  rw [List.mem_flatMap]
  exact ⟨s, List.mem_range.2 hs, List.mem_map.2 ⟨e, List.mem_range.2 he, rfl⟩⟩

theorem lowest_mem (energies : Arr ℝ) (S E : Nat) (hS : 0 < S) (hE : 0 < E) :
    ∃ s < S, ∃ e < E, lowest energies S E = energies.entry [s, e] := by
  rcases foldl_min_mem ((List.range S).flatMap (fun k => series energies [k] E)) (energies.entry [0, 0]) with h | h
  · exact ⟨0, hS, 0, hE, h⟩
  · rw [List.mem_flatMap] at h
    obtain ⟨s, hs, h⟩ := h
    obtain ⟨e, he, h⟩ := List.mem_map.1 h
    exact ⟨s, List.mem_range.1 hs, e, List.mem_range.1 he, h.symm⟩

/-- The species axis of an array of energies or of fluxes, restricted to one species. -/
def onlyEnergies (s : Nat) (a : Arr ℝ) : Arr ℝ := ⟨a.shape.set 0 1, fun i => a.entry (i.set 0 s)⟩
def onlyFlux (s : Nat) (a : Arr ℝ) : Arr ℝ := ⟨a.shape.set 2 1, fun i => a.entry (i.set 2 s)⟩

theorem series_onlyEnergies (s : Nat) (a : Arr ℝ) (n : Nat) : series (onlyEnergies s a) [0] n = series a [s] n := rfl

theorem series_onlyFlux (s : Nat) (a : Arr ℝ) (t k n : Nat) : series (onlyFlux s a) [t, k, 0] n = series a [t, k, s] n := rfl

/-- **C151 (partial).** For all energies and fluxes, every number of species and every minimum energy that is below all
energies of all species, or not below the energies of the species in question: the integral flux of a species in a dataset
with others is the one in a dataset with this species alone. Missing: minimum energies below the energies of one species
but not of another. -/
theorem c151_partial (energies flux : Arr ℝ) (S E : Nat) (bounds : List ℝ) (t n s i : Nat) (hs : s < S) (hE : 0 < E)
    (h : (∀ s' < S, ∀ e < E, max (bounds.getD i 0) Physics.floatMin < energies.entry [s', e]) ∨
      ∃ e < E, energies.entry [s, e] ≤ max (bounds.getD i 0) Physics.floatMin) :
    integralEntry energies flux S E bounds t n s i
      = integralEntry (onlyEnergies s energies) (onlyFlux s flux) 1 E bounds t n 0 i := by
  unfold integralEntry Physics.integralFlux
  simp only [series_onlyEnergies, series_onlyFlux]
  rcases h with h | ⟨e, he, h⟩
  · obtain ⟨s1, hs1, e1, he1, h1⟩ := lowest_mem energies S E (by omega) hE
    obtain ⟨s2, hs2, e2, he2, h2⟩ := lowest_mem (onlyEnergies s energies) 1 E (by omega) hE
    have hs2 : s2 = 0 := by omega
    subst hs2
    have h2' : lowest (onlyEnergies s energies) 1 E = energies.entry [s, e2] := h2
    rw [h1, h2', if_pos (h s1 hs1 e1 he1), if_pos (h s hs e2 he2)]
  · have h1 := lowest_le energies S E s e hs he
    have h2 : lowest (onlyEnergies s energies) 1 E ≤ energies.entry [s, e] :=
      lowest_le (onlyEnergies s energies) 1 E 0 e (by omega) he
    rw [if_neg (not_lt.2 (le_trans h1 h)), if_neg (not_lt.2 (le_trans h2 h))]

/-- Two species with energies 1/2, 1, 3/2 and 2, 3, 4. -/
noncomputable def twoEnergies : Arr ℝ := ⟨[2, 3], fun i =>
  if i.getD 0 0 = 0 then ((i.getD 1 0 : Nat) + 1) / 2 else (i.getD 1 0 : Nat) + 2⟩

theorem lowest_two : lowest twoEnergies 2 3 = 1 / 2 := by
  simp [lowest, series, twoEnergies, List.range_succ]
  norm_num

theorem lowest_only : lowest (onlyEnergies 1 twoEnergies) 1 3 = 2 := by
  simp [lowest, series, twoEnergies, onlyEnergies, List.range_succ]

theorem series_two : series twoEnergies [1] 3 = [2, 3, 4] := by
  simp [series, twoEnergies, List.range_succ]
  norm_num

/-- **C151 fails.** The integral flux of the second species above 1, for a constant differential flux of 1: alone, it is the
integral 2 over the energies from 2 to 4. Together with a species that has energies below 1 it is 3: the flux is
extrapolated to energies from 1 to 2. -/
theorem c151_counterexample :
    let flux : Arr ℝ := ⟨[1, 1, 2, 3], fun _ => 1⟩
    integralEntry twoEnergies flux 2 3 [1] 0 0 1 0 = .ok 3 ∧
    integralEntry (onlyEnergies 1 twoEnergies) (onlyFlux 1 flux) 1 3 [1] 0 0 0 0 = .ok 2 := by
  have hm : max (1 : ℝ) Physics.floatMin = 1 := max_eq_left (le_trans Physics.floatMin_le_half (by norm_num))
  have hf : series (⟨[1, 1, 2, 3], fun _ => 1⟩ : Arr ℝ) [0, 0, 1] 3 = [1, 1, 1] := by
    simp [series, List.range_succ]
  constructor
  · have hn : Numerical.findNearest [(2 : ℝ), 3, 4] 1 .upper = .ok (0, 2) :=
      (Numerical.c36_bounded [(2 : ℝ), 3, 4] (by simp) (by simp; norm_num) 1).2.2.2 (by simp)
    unfold integralEntry
    rw [lowest_two, series_two, hf]
    simp only [List.getD_cons_zero, Physics.integralFlux, hm]
    rw [if_neg (by norm_num)]
    simp only [Physics.interpolate, hn]
    simp [Physics.simpsonList, Physics.simpson, Physics.panels, Physics.panel]
    norm_num
  · unfold integralEntry
    rw [series_onlyEnergies, series_onlyFlux, lowest_only, series_two, hf]
    simp only [List.getD_cons_zero, Physics.integralFlux, hm]
    rw [if_pos (by norm_num)]
    simp [Physics.simpsonList, Physics.simpson, Physics.panels, Physics.panel]
    norm_num

/-- `c151_partial` applies to the same data for a minimum energy of 3. -/
example (flux : Arr ℝ) : integralEntry twoEnergies flux 2 3 [3] 0 0 1 0
    = integralEntry (onlyEnergies 1 twoEnergies) (onlyFlux 1 flux) 1 3 [3] 0 0 0 0 := by
  refine c151_partial _ _ _ _ _ _ _ _ _ (by omega) (by omega) (Or.inr ⟨0, by omega, ?_⟩)
  refine le_trans ?_ (le_max_left _ _)
  simp [twoEnergies]
  norm_num

end Verif.Shapes
