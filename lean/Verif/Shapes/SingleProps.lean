import Verif.Shapes.IntegralProps

/-!
# Integral flux for energies without an axis of species: property C246
-/

set_option linter.unusedSimpArgs false

namespace Verif.Shapes

open Verif.Py Real

/-- `energies[None, :]` (computed.py 358). -/
def newFirst (a : Arr ℝ) : Arr ℝ := ⟨1 :: a.shape, fun i => a.entry i.tail⟩

/-- `flux[:, :, None, :]` (computed.py 366) for an array of three axes. -/
def newThird (a : Arr ℝ) : Arr ℝ :=
  ⟨a.shape.take 2 ++ 1 :: a.shape.drop 2, fun i => a.entry (i.take 2 ++ i.drop 3)⟩

/-- `integral_flux` (computed.py 352-378) with the axes that it inserts (357-366). -/
noncomputable def integralFluxAny (energies flux : Arr ℝ) (bounds : List ℝ) : Res (Arr ℝ) :=
  if energies.shape.length = 1 then
    integralFluxArr (newFirst energies) (if flux.shape.length = 3 then newThird flux else flux) bounds
  else integralFluxArr energies flux bounds

theorem series_newFirst (a : Arr ℝ) (n : Nat) : series (newFirst a) [0] n = series a [] n := rfl

theorem series_newThird (a : Arr ℝ) (t k n : Nat) : series (newThird a) [t, k, 0] n = series a [t, k] n := rfl

theorem lowest_newFirst (a : Arr ℝ) (n : Nat) : lowest (newFirst a) 1 n = (series a [] n).foldl min (a.entry [0]) := by
  unfold lowest
  simp only [List.range_one, List.flatMap_cons, List.flatMap_nil, List.append_nil, series_newFirst]
  rfl

/-- **C246, no species.** For all sizes and data: the integral flux of energies and fluxes without an axis of species has
an axis for one species, and each entry is the integral flux of its own series. -/
theorem c246_single {T N E : Nat} (energies flux a : Arr ℝ) (bounds : List ℝ) (h1 : energies.shape = [E])
    (h2 : flux.shape = [T, N, E]) (h : integralFluxAny energies flux bounds = .ok a) :
    a.shape = [T, N, 1, bounds.length] ∧ ∀ t < T, ∀ n < N, ∀ i < bounds.length,
      Physics.integralFlux (series energies [] E) (series flux [t, n] E)
        ((series energies [] E).foldl min (energies.entry [0])) (bounds.getD i 0) = .ok (a.entry [t, n, 0, i]) := by
  unfold integralFluxAny at h
  rw [if_pos (by rw [h1]; rfl), if_pos (by rw [h2]; rfl)] at h
  obtain ⟨_, h3, h4⟩ := c149_integral (T := T) (N := N) (S := 1) (S' := 1) (E := E) (newFirst energies) (newThird flux) a bounds
    (by simp [newFirst, h1]) (by simp [newThird, h2]) h
  refine ⟨h3, ?_⟩
  intro t ht n hn i hi
  have := h4 t ht n hn 0 (by omega) i hi
  rw [series_newFirst, series_newThird, lowest_newFirst] at this
  exact this

/-- **C246, first species (partial).** For energies without an axis of species and fluxes with one, the entries of the
first species are the integral fluxes of its series. Missing: the other species. -/
theorem c246_partial {T N S E : Nat} (energies flux a : Arr ℝ) (bounds : List ℝ) (h1 : energies.shape = [E])
    (h2 : flux.shape = [T, N, S, E]) (h : integralFluxAny energies flux bounds = .ok a) :
    1 ≤ S ∧ a.shape = [T, N, S, bounds.length] ∧ ∀ t < T, ∀ n < N, ∀ i < bounds.length,
      Physics.integralFlux (series energies [] E) (series flux [t, n, 0] E)
        ((series energies [] E).foldl min (energies.entry [0])) (bounds.getD i 0) = .ok (a.entry [t, n, 0, i]) := by
  unfold integralFluxAny at h
  rw [if_pos (by rw [h1]; rfl), if_neg (by rw [h2]; simp)] at h
  obtain ⟨h5, h3, h4⟩ := c149_integral (T := T) (N := N) (S := 1) (S' := S) (E := E) (newFirst energies) flux a bounds
    (by simp [newFirst, h1]) h2 h
  refine ⟨h5, h3, ?_⟩
  intro t ht n hn i hi
  have := h4 t ht n hn 0 (by omega) i hi
  rw [series_newFirst, lowest_newFirst] at this
  exact this

/-- **C246 fails.** For energies without an axis of species, the integral fluxes of all species but the first are zero,
whatever their fluxes. -/
theorem c246_counterexample {T N S E : Nat} (energies flux a : Arr ℝ) (bounds : List ℝ) (h1 : energies.shape = [E])
    (h2 : flux.shape = [T, N, S, E]) (h : integralFluxAny energies flux bounds = .ok a) (t n s i : Nat) (hs : 0 < s) :
    a.entry [t, n, s, i] = 0 := by
  unfold integralFluxAny at h
  rw [if_pos (by rw [h1]; rfl), if_neg (by rw [h2]; simp)] at h
  unfold integralFluxArr at h
  simp only [newFirst, h1, h2] at h
  split at h
  · cases h
  split at h
  · cases h
  cases hm : (List.range bounds.length).mapM (fun i => (List.range 1).mapM (fun j =>
        (List.range T).mapM (fun a => (List.range N).mapM (fun b =>
          integralEntry ⟨1 :: [E], fun i => energies.entry i.tail⟩ flux 1 E bounds a b j i)))) with
  | error e => rw [hm] at h; simp [bind, Except.bind] at h
  | ok v =>
    rw [hm] at h
    simp only [bind, Except.bind, pure, Except.pure, Except.ok.injEq] at h
    subst h
    simp only [show ¬ s < 1 by omega, if_false]

/-- Energies 1, 2, 3 of two species with a flux of one: 2 for the first species, 0 for the second. -/
example : ∃ a, integralFluxAny ⟨[3], fun i => (i.getD 0 0 : Nat) + 1⟩ ⟨[1, 1, 2, 3], fun _ => 1⟩ [1 / 2] = .ok a ∧
    a.entry [0, 0, 0, 0] = 2 ∧ a.entry [0, 0, 1, 0] = 0 := by
  have hs : series (newFirst ⟨[3], fun i => ((i.getD 0 0 : Nat) : ℝ) + 1⟩) [0] 3 = [1, 2, 3] := by
    simp [series, newFirst, List.range_succ]; norm_num
  have hl : lowest (newFirst ⟨[3], fun i => ((i.getD 0 0 : Nat) : ℝ) + 1⟩) 1 3 = 1 := by
    simp [lowest, series, newFirst, List.range_succ]
  have hf : series (⟨[1, 1, 2, 3], fun _ => 1⟩ : Arr ℝ) [0, 0, 0] 3 = [1, 1, 1] := by
    simp [series, List.range_succ]
  have he : integralEntry (newFirst ⟨[3], fun i => ((i.getD 0 0 : Nat) : ℝ) + 1⟩) ⟨[1, 1, 2, 3], fun _ => 1⟩ 1 3 [1 / 2] 0 0 0 0
      = .ok 2 := by
    unfold integralEntry
    rw [hs, hl, hf]
    simp only [List.getD_cons_zero, Physics.integralFlux, max_eq_left Physics.floatMin_le_half]
    rw [if_pos (by norm_num)]
    simp [Physics.simpsonList, Physics.simpson, Physics.panels, Physics.panel]
    norm_num
  unfold integralFluxAny
  simp only [List.length_cons, List.length_nil, Nat.zero_add, if_true, show ¬ (0 + 1 + 1 + 1 + 1 = 3) by omega,
    show ¬ (1 + 1 + 1 + 1 = 3) by omega, if_false]
  unfold integralFluxArr
  simp only [newFirst] at he ⊢
  simp only [List.length_cons, List.length_nil, List.range_succ, List.range_zero, List.nil_append, List.mapM_cons,
    List.mapM_nil, Nat.zero_add, he, bind, Except.bind, pure, Except.pure]
  refine ⟨_, rfl, ?_, ?_⟩
  · simp only [he]; rfl
  · rfl

end Verif.Shapes
