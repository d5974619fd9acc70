import Verif.Shapes.Props
import Verif.Physics.SumProps
import Verif.Physics.FieldProps

/-!
# C253: energies and fluxes of every species are those of particles of its mass
-/

set_option linter.unusedSimpArgs false

namespace Verif.Shapes

open Verif.Py Real
open Verif.Physics (mks)

/-- The mass of protons in MKS units, as tabulated. -/
noncomputable def protonMass : ℝ := 16726 / 10 ^ 31

theorem mks_mp : ((mks c!"mp" : ℚ) : ℝ) = protonMass := by
  have h : mks c!"mp" = 16726 / 10 ^ 31 := by decide +kernel
  rw [h, protonMass]
  norm_num

theorem protonMass_pos : 0 < protonMass := by unfold protonMass; norm_num

/-- **C253, average energy of protons.** The average energy at any time, shell and species lies between the kinetic energies that
protons have at the least and the greatest speed of the species. -/
theorem c253_protons_partial {T N S E : Nat} (speed iso : Arr ℝ) (hE : 2 ≤ E) (h1 : speed.shape = [S, E])
    (h2 : iso.shape = [T, N, S, E]) (h0 : ∀ s < S, 0 ≤ speed.entry [s, 0])
    (hv : ∀ s < S, ∀ e, e + 1 < E → speed.entry [s, e] < speed.entry [s, e + 1])
    (hf : ∀ t < T, ∀ n < N, ∀ s < S, ∀ e < E, 0 ≤ iso.entry [t, n, s, e])
    (hsome : ∀ t < T, ∀ n < N, ∀ s < S, ∃ e < E, speed.entry [s, e] ≠ 0 ∧ iso.entry [t, n, s, e] ≠ 0) :
    ∃ b, averageEnergyArr speed iso = .ok b ∧ b.shape = [T, N, S] ∧ ∀ t < T, ∀ n < N, ∀ s < S,
      protonMass * speed.entry [s, 0] ^ 2 / 2 ≤ b.entry [t, n, s] ∧
        b.entry [t, n, s] ≤ protonMass * speed.entry [s, E - 1] ^ 2 / 2 := by
  obtain ⟨a, b, -, hb, -, hs, h⟩ := c149_energy speed iso hE h1 h2
  refine ⟨b, hb, hs, fun t ht n hn s hs => ?_⟩
  obtain ⟨-, he⟩ := h t ht n hn s hs
  obtain ⟨e, he', hlo, hhi⟩ := Physics.c119_average_energy protonMass E (fun e => speed.entry [s, e])
    (fun e => iso.entry [t, n, s, e]) protonMass_pos.le hE (h0 s hs) (hv s hs) (hf t ht n hn s hs) (hsome t ht n hn s hs)
  rw [mks_mp] at he
  rw [he] at he'
  cases he'
  exact ⟨hlo, hhi⟩

/-- **C253, violated for heavy particles.** If particles of mass `m` have a greater kinetic energy at the least speed than protons
have at the greatest speed, then the average energy is below the kinetic energies of all the particles, for all distributions. -/
theorem c253_heavy {T N S E : Nat} (m : ℝ) (speed iso : Arr ℝ) (hE : 2 ≤ E) (h1 : speed.shape = [S, E])
    (h2 : iso.shape = [T, N, S, E]) (h0 : ∀ s < S, 0 ≤ speed.entry [s, 0])
    (hv : ∀ s < S, ∀ e, e + 1 < E → speed.entry [s, e] < speed.entry [s, e + 1])
    (hf : ∀ t < T, ∀ n < N, ∀ s < S, ∀ e < E, 0 ≤ iso.entry [t, n, s, e])
    (hsome : ∀ t < T, ∀ n < N, ∀ s < S, ∃ e < E, speed.entry [s, e] ≠ 0 ∧ iso.entry [t, n, s, e] ≠ 0)
    (hm : ∀ s < S, protonMass * speed.entry [s, E - 1] ^ 2 < m * speed.entry [s, 0] ^ 2) :
    ∃ b, averageEnergyArr speed iso = .ok b ∧ ∀ t < T, ∀ n < N, ∀ s < S, ∀ e < E,
      b.entry [t, n, s] < m * speed.entry [s, e] ^ 2 / 2 := by
  obtain ⟨b, hb, -, h⟩ := c253_protons_partial speed iso hE h1 h2 h0 hv hf hsome
  refine ⟨b, hb, fun t ht n hn s hs e he => ?_⟩
  have hhi := (h t ht n hn s hs).2
  have hms := hm s hs
  have hle : speed.entry [s, 0] ≤ speed.entry [s, e] := by
    rcases Nat.eq_zero_or_pos e with h | h
    · rw [h]
    · exact (Physics.strict_of_steps (v := fun e => speed.entry [s, e]) (hv s hs) 0 e h he).le
  have hsq : speed.entry [s, 0] ^ 2 ≤ speed.entry [s, e] ^ 2 := pow_le_pow_left₀ (h0 s hs) hle 2
  have hmpos : 0 ≤ m := by
    by_contra hneg
    push Not at hneg
    have a1 : m * speed.entry [s, 0] ^ 2 ≤ 0 := mul_nonpos_of_nonpos_of_nonneg hneg.le (sq_nonneg _)
    have a2 : 0 ≤ protonMass * speed.entry [s, E - 1] ^ 2 := mul_nonneg protonMass_pos.le (sq_nonneg _)
    linarith
  have := mul_le_mul_of_nonneg_left hsq hmpos
  linarith

/-- **C253, flux.** Where `energy` is the kinetic energy of particles of mass `m` and speed `v`, the flux is `(m / mp)²` times the
flux `v² / m` times the distribution; where it is the energy per nucleon of nuclei of `A` nucleons, each with the mass of a
proton, the flux is that per unit of energy per nucleon, which is `A` times as great. -/
theorem c253_flux_partial {T N S E : Nat} (energy iso : Arr ℝ) (h1 : energy.shape = [S, E]) (h2 : iso.shape = [T, N, S, E])
    (v : Nat → Nat → ℝ) :
    ∃ a, fluxArr energy iso = .ok a ∧ a.shape = [T, N, S, E] ∧ ∀ t < T, ∀ n < N, ∀ s < S, ∀ e < E,
      (∀ m : ℝ, m ≠ 0 → energy.entry [s, e] = m * v s e ^ 2 / 2 →
        a.entry [t, n, s, e] = (m / protonMass) ^ 2 * (v s e ^ 2 / m * iso.entry [t, n, s, e])) ∧
      (∀ A : ℝ, A ≠ 0 → energy.entry [s, e] = A * protonMass * v s e ^ 2 / 2 / A →
        a.entry [t, n, s, e] = A * (v s e ^ 2 / (A * protonMass) * iso.entry [t, n, s, e])) := by
  obtain ⟨a, ha, hs, h⟩ := c149_flux energy iso h1 h2
  have hp : protonMass ≠ 0 := protonMass_pos.ne'
  refine ⟨a, ha, hs, fun t ht n hn s hs e he => ⟨fun m hm hen => ?_, fun A hA hen => ?_⟩⟩
  · rw [h t ht n hn s hs e he, Physics.flux, mks_mp, hen]
    field_simp
  · rw [h t ht n hn s hs e he, Physics.flux, mks_mp, hen]
    field_simp

/-- **C253, flux.** So the flux of particles of mass `m` is right exactly for `m` equal to the mass of a proton, wherever speed and
distribution are positive. -/
theorem c253_flux_mass {T N S E : Nat} (energy iso : Arr ℝ) (h1 : energy.shape = [S, E]) (h2 : iso.shape = [T, N, S, E])
    (v : Nat → Nat → ℝ) (m : ℝ) (hm : 0 < m) (hen : ∀ s < S, ∀ e < E, energy.entry [s, e] = m * v s e ^ 2 / 2) :
    ∃ a, fluxArr energy iso = .ok a ∧ ∀ t < T, ∀ n < N, ∀ s < S, ∀ e < E, 0 < v s e → 0 < iso.entry [t, n, s, e] →
      (a.entry [t, n, s, e] = v s e ^ 2 / m * iso.entry [t, n, s, e] ↔ m = protonMass) := by
  obtain ⟨a, ha, -, h⟩ := c253_flux_partial (T := T) (N := N) energy iso h1 h2 v
  refine ⟨a, ha, fun t ht n hn s hs e he hv hf => ?_⟩
  rw [(h t ht n hn s hs e he).1 m hm.ne' (hen s hs e he)]
  have hx : v s e ^ 2 / m * iso.entry [t, n, s, e] ≠ 0 := by positivity
  have hp := protonMass_pos
  constructor
  · intro hq
    have h1 : (m / protonMass) ^ 2 = 1 := by
      have : ((m / protonMass) ^ 2 - 1) * (v s e ^ 2 / m * iso.entry [t, n, s, e]) = 0 := by linarith
      rcases mul_eq_zero.mp this with h | h
      · linarith
      · exact absurd h hx
    have h2 : m / protonMass = 1 := (pow_eq_one_iff_of_nonneg (div_pos hm hp).le two_ne_zero).mp h1
    rw [div_eq_one_iff_eq hp.ne'] at h2
    exact h2
  · intro hq
    rw [hq, div_self hp.ne']
    ring

/-- Two energies of one species, with four times the mass of a proton and speeds 2 and 3. -/
example : ∃ b, averageEnergyArr ⟨[1, 2], fun i => if i = [0, 0] then 2 else 3⟩ ⟨[1, 1, 1, 2], fun _ => 1⟩ = .ok b ∧
    ∀ e < 2, b.entry [0, 0, 0] < 4 * protonMass * (if e = 0 then 2 else 3 : ℝ) ^ 2 / 2 := by
  have hp := protonMass_pos
  obtain ⟨b, hb, h⟩ := c253_heavy (T := 1) (N := 1) (S := 1) (E := 2) (4 * protonMass)
    ⟨[1, 2], fun i => if i = [0, 0] then 2 else 3⟩ ⟨[1, 1, 1, 2], fun _ => 1⟩ (by omega) rfl rfl
    (fun s hs => by obtain rfl : s = 0 := by omega
                    norm_num)
    (fun s hs e he => by obtain rfl : s = 0 := by omega
                         obtain rfl : e = 0 := by omega
                         norm_num)
    (fun t ht n hn s hs e he => by norm_num)
    (fun t ht n hn s hs => ⟨0, by omega, by simp only; split_ifs <;> norm_num, by norm_num⟩)
    (fun s hs => by obtain rfl : s = 0 := by omega
                    norm_num
                    linarith)
  refine ⟨b, hb, fun e he => ?_⟩
  have := h 0 (by omega) 0 (by omega) 0 (by omega) e he
  rcases (by omega : e = 0 ∨ e = 1) with rfl | rfl
  · simpa using this
  · simpa using this

end Verif.Shapes
