import Verif.Shapes.Registry
import Verif.Shapes.Props
import Verif.Shapes.SpeciesProps
import Verif.Shapes.IntegralProps

/-!
# Declared dimensions of computed arrays
-/

set_option linter.unusedSimpArgs false

namespace Verif.Shapes

open Verif.Py Real
open Verif.Metric (Str)

/-- The declared dimensions, evaluated. -/
def expected : List (Str × List Str) :=
  let plane := [c!"time", c!"shell"]
  let full := [c!"time", c!"shell", c!"species", c!"energy"]
  [(c!"x", plane), (c!"y", plane), (c!"z", plane), (c!"b_mag", plane), (c!"v_mag", plane), (c!"bv_mag", plane),
   (c!"flow_angle", plane), (c!"v_para", plane), (c!"v_perp", plane), (c!"div_v", plane), (c!"density_ratio", plane),
   (c!"rigidity", [c!"species", c!"energy"]), (c!"mean_free_path", full), (c!"acceleration_rate", full),
   (c!"energy_density", [c!"time", c!"shell", c!"species"]), (c!"average_energy", [c!"time", c!"shell", c!"species"]),
   (c!"isotropic_distribution", full), (c!"flux", full), (c!"fluence", [c!"shell", c!"species", c!"energy"]),
   (c!"integral_flux", [c!"time", c!"shell", c!"species", c!"minimum energy"])]

theorem declared_usual : ∀ more ∈ [[distribution], [distribution, fluxVariable]],
    ∀ e ∈ expected, declared usualAxes more e.1 = .ok e.2 := by
  decide +kernel

/-- The array has one axis for each dimension declared for `key`, in the declared order and of the given size. -/
def Labelled (axes : List Str) (more : Dict Str (List Str)) (size : Str → Nat) (key : Str) (result : Res (Arr ℝ)) : Prop :=
  ∃ a dims, result = .ok a ∧ declared axes more key = .ok dims ∧ a.shape = dims.map size

/-- **C153 (partial).** For every EPREM dataset of one species with the particle distribution, with or without flux, whose
dimensions are listed in the usual order, of all sizes (two times or more, shells, two energies or more), and for all
data: every array that a registered function computes has one axis for each declared dimension, in that order, of the size
of that dimension. Missing: several species (C150), and datasets that list their dimensions in another order. -/
theorem c153_partial (more : Dict Str (List Str)) (hm : more ∈ [[distribution], [distribution, fluxVariable]])
    (size : Str → Nat) (hT : 2 ≤ size c!"time") (hN : 0 < size c!"shell")
    (hS : size c!"species" = 1) (hE : 2 ≤ size c!"energy") (var : Str → Arr ℝ)
    (hv : ∀ e ∈ baseVariables ++ more, (var e.1).shape = e.2.map size)
    (radialPower rigidityPower lambda0 kper : ℝ) (bounds : List ℝ) (hb : bounds.length = size c!"minimum energy") :
    let L := Labelled usualAxes more size
    L c!"x" (planeArr cos (var c!"radius") (var c!"theta") (var c!"phi")) ∧
    L c!"y" (planeArr sin (var c!"radius") (var c!"theta") (var c!"phi")) ∧
    L c!"z" (zArr (var c!"radius") (var c!"theta")) ∧
    L c!"b_mag" (magArr (var c!"Br") (var c!"Bt") (var c!"Bp")) ∧
    L c!"v_mag" (magArr (var c!"Vr") (var c!"Vt") (var c!"Vp")) ∧
    L c!"bv_mag" (bvMagArr (var c!"Br") (var c!"Bt") (var c!"Bp") (var c!"Vr") (var c!"Vt") (var c!"Vp")) ∧
    L c!"flow_angle" (flowAngleArr (var c!"Br") (var c!"Bt") (var c!"Bp") (var c!"Vr") (var c!"Vt") (var c!"Vp")) ∧
    L c!"v_para" (vParaArr (var c!"Vr") (var c!"Vt") (var c!"Vp") (var c!"Br") (var c!"Bt") (var c!"Bp")) ∧
    L c!"v_perp" (vPerpArr (var c!"Vr") (var c!"Vt") (var c!"Vp") (var c!"Br") (var c!"Bt") (var c!"Bp")) ∧
    L c!"div_v" (divVArr (var c!"rho") (var c!"time")) ∧
    L c!"density_ratio" (densityRatioArr (var c!"rho")) ∧
    L c!"rigidity" (rigidityArr (var c!"energy") (var c!"mass") (var c!"charge")) ∧
    L c!"isotropic_distribution" (isotropicArr (var c!"dist")) ∧
    L c!"mean_free_path"
      (meanFreePathArr (var c!"radius") (var c!"energy") (var c!"mass") (var c!"charge") radialPower rigidityPower lambda0) ∧
    (∀ angle mfp, flowAngleArr (var c!"Br") (var c!"Bt") (var c!"Bp") (var c!"Vr") (var c!"Vt") (var c!"Vp") = .ok angle →
      meanFreePathArr (var c!"radius") (var c!"energy") (var c!"mass") (var c!"charge") radialPower rigidityPower lambda0
        = .ok mfp →
      L c!"acceleration_rate" (accelerationArr (var c!"Vr") (var c!"Vt") (var c!"Vp") (var c!"speed") angle mfp kper)) ∧
    (∀ iso, isotropicArr (var c!"dist") = .ok iso →
      L c!"flux" (fluxArr (var c!"energy") iso) ∧ L c!"energy_density" (energyDensityArr (var c!"speed") iso) ∧
      L c!"average_energy" (averageEnergyArr (var c!"speed") iso)) ∧
    (∀ flux, flux.shape = [c!"time", c!"shell", c!"species", c!"energy"].map size →
      L c!"fluence" (fluenceArr flux (var c!"time")) ∧
      (∀ a, integralFluxArr (var c!"energy") flux bounds = .ok a → L c!"integral_flux" (.ok a))) := by
  have hd := declared_usual more hm
  have hb' : ∀ e ∈ baseVariables, (var e.1).shape = e.2.map size := fun e he => hv e (List.mem_append_left _ he)
  have hdist : (var c!"dist").shape = [size c!"time", size c!"shell", size c!"species", size c!"energy", size c!"mu"] := by
    have : distribution ∈ more := by
      rcases List.mem_cons.1 hm with rfl | hm
      · simp
      · simp only [List.mem_cons, List.not_mem_nil, or_false] at hm
        rw [hm]; simp
    exact hv _ (List.mem_append_right _ this)
  obtain ⟨h_time, _, _, h_mass, h_charge, h_energy, h_speed, h_r, h_theta, h_phi, h_br, h_bt, h_bp, h_vr, h_vt, h_vp, h_rho⟩ :
      (var c!"time").shape = [size c!"time"] ∧ (var c!"shell").shape = [size c!"shell"] ∧ (var c!"mu").shape = [size c!"mu"] ∧
      (var c!"mass").shape = [size c!"species"] ∧ (var c!"charge").shape = [size c!"species"] ∧
      (var c!"energy").shape = [size c!"species", size c!"energy"] ∧
      (var c!"speed").shape = [size c!"species", size c!"energy"] ∧
      (var c!"radius").shape = [size c!"time", size c!"shell"] ∧ (var c!"theta").shape = [size c!"time", size c!"shell"] ∧
      (var c!"phi").shape = [size c!"time", size c!"shell"] ∧ (var c!"Br").shape = [size c!"time", size c!"shell"] ∧
      (var c!"Bt").shape = [size c!"time", size c!"shell"] ∧ (var c!"Bp").shape = [size c!"time", size c!"shell"] ∧
      (var c!"Vr").shape = [size c!"time", size c!"shell"] ∧ (var c!"Vt").shape = [size c!"time", size c!"shell"] ∧
      (var c!"Vp").shape = [size c!"time", size c!"shell"] ∧ (var c!"rho").shape = [size c!"time", size c!"shell"] := by
    simpa [baseVariables] using hb'
  have hdd : ∀ key dims, (key, dims) ∈ expected → declared usualAxes more key = .ok dims := fun key dims h => hd _ h
  have lab : ∀ (key : Str) (dims : List Str) (a : Arr ℝ) (r : Res (Arr ℝ)), (key, dims) ∈ expected → r = .ok a →
      a.shape = dims.map size → Labelled usualAxes more size key r :=
    fun key dims a r h1 h2 h3 => ⟨a, dims, h2, hdd key dims h1, h3⟩
  obtain ⟨ax, ay, az, p1, p2, p3, q1, q2, q3, _⟩ := c149_positions _ _ _ h_r h_theta h_phi
  obtain ⟨b, v, bv, para, perp, angle, f1, f2, f3, f4, f5, f6, fs, _⟩ := c149_fields _ _ _ _ _ _ h_br h_bt h_bp h_vr h_vt h_vp
  obtain ⟨dv, d1, d2, _⟩ := c149_divergence _ _ (by omega) h_rho h_time
  obtain ⟨dr, d3, d4, _⟩ := c149_density_ratio _ (by omega) h_rho
  obtain ⟨iso0, i1, i2, _⟩ := c149_isotropic _ hdist
  rw [hS] at h_energy h_mass h_charge
  obtain ⟨⟨rg, r1, r2, _⟩, mfp0, m1, m2, _⟩ :=
    c150_partial _ _ _ _ radialPower rigidityPower lambda0 h_r h_energy h_mass h_charge
  have pl : ∀ (key : Str) (a : Arr ℝ) (r : Res (Arr ℝ)), (key, [c!"time", c!"shell"]) ∈ expected → r = .ok a →
      a.shape = [size c!"time", size c!"shell"] → Labelled usualAxes more size key r :=
    fun key a r h1 h2 h3 => lab key _ a r h1 h2 h3
  have fl : ∀ (key : Str) (a : Arr ℝ) (r : Res (Arr ℝ)),
      (key, [c!"time", c!"shell", c!"species", c!"energy"]) ∈ expected → r = .ok a →
      a.shape = [size c!"time", size c!"shell", size c!"species", size c!"energy"] → Labelled usualAxes more size key r :=
    fun key a r h1 h2 h3 => lab key _ a r h1 h2 h3
  refine ⟨pl _ _ _ ?_ p1 q1, pl _ _ _ ?_ p2 q2, pl _ _ _ ?_ p3 q3, pl _ _ _ ?_ f1 (fs b (by simp)),
    pl _ _ _ ?_ f2 (fs v (by simp)), pl _ _ _ ?_ f3 (fs bv (by simp)), pl _ _ _ ?_ f6 (fs angle (by simp)),
    pl _ _ _ ?_ f4 (fs para (by simp)), pl _ _ _ ?_ f5 (fs perp (by simp)), pl _ _ _ ?_ d1 d2,
    pl _ _ _ ?_ d3 d4, lab c!"rigidity" [c!"species", c!"energy"] _ _ ?_ r1 (by simp [r2, hS]),
    fl _ _ _ ?_ i1 i2, fl _ _ _ ?_ m1 (by rw [m2, hS]), ?_, ?_, ?_⟩
  all_goals try decide +kernel
  · intro angle' mfp' ha hmf
    rw [f6] at ha
    rw [m1] at hmf
    cases ha
    cases hmf
    obtain ⟨a, g1, g2, _⟩ := c149_acceleration _ _ _ _ angle mfp0 kper hN h_vr h_vt h_vp h_speed (fs angle (by simp))
      (by rw [m2, hS])
    exact fl _ _ _ (by decide +kernel) g1 g2
  · intro iso hi
    rw [i1] at hi
    cases hi
    rw [← hS] at h_energy
    obtain ⟨a, g1, g2, _⟩ := c149_flux _ _ h_energy i2
    obtain ⟨e1, e2, k1, k2, k3, k4, _⟩ := c149_energy _ _ hE h_speed i2
    exact ⟨fl _ _ _ (by decide +kernel) g1 g2,
      lab c!"energy_density" [c!"time", c!"shell", c!"species"] _ _ (by decide +kernel) k1 k3,
      lab c!"average_energy" [c!"time", c!"shell", c!"species"] _ _ (by decide +kernel) k2 k4⟩
  · intro flux hf
    have hf' : flux.shape = [size c!"time", size c!"shell", size c!"species", size c!"energy"] := hf
    obtain ⟨a, g1, g2, _⟩ := c149_fluence _ _ (by omega) hf' h_time
    refine ⟨lab c!"fluence" [c!"shell", c!"species", c!"energy"] _ _ (by decide +kernel) g1 g2, ?_⟩
    intro a' ha
    obtain ⟨_, k2, _⟩ := c149_integral _ _ _ _ h_energy hf' ha
    refine lab c!"integral_flux" [c!"time", c!"shell", c!"species", c!"minimum energy"] _ _ (by decide +kernel) rfl ?_
    rw [k2, hb]; rfl

/-- Sizes to which `c153_partial` applies: four times, two shells, one species, four energies. -/
example : ∃ size : Str → Nat, 2 ≤ size c!"time" ∧ 0 < size c!"shell" ∧ size c!"species" = 1 ∧
    2 ≤ size c!"energy" ∧ ∃ var : Str → Arr ℝ, ∀ e ∈ baseVariables ++ [distribution], (var e.1).shape = e.2.map size := by
  let size : Str → Nat := fun n =>
    if n = c!"time" then 4 else if n = c!"shell" then 2 else if n = c!"species" then 1 else 4
  refine ⟨size, by decide, by decide, by decide, by decide, fun n =>
    ⟨((Dict.get? (baseVariables ++ [distribution]) n).getD []).map size, fun _ => 0⟩, ?_⟩
  decide +kernel

/-- The dimensions of a file in the opposite order. -/
def otherAxes : List Str := [c!"mu", c!"energy", c!"species", c!"shell", c!"time"]

/-- **C153 fails for datasets that list their dimensions in another order.** The variables have the same dimensions as
before, but the axes are listed from the last: the array of `x` has two rows (the times) of three entries (the shells) and is
labelled as having shells as its first dimension and times as its second. -/
theorem c153_counterexample (r theta phi : Arr ℝ) (h1 : r.shape = [2, 3]) (h2 : theta.shape = [2, 3]) (h3 : phi.shape = [2, 3]) :
    declared otherAxes [distribution] c!"x" = .ok [c!"shell", c!"time"] ∧
    ¬ Labelled otherAxes [distribution] (fun n => if n = c!"time" then 2 else 3) c!"x" (planeArr cos r theta phi) := by
  have hd : declared otherAxes [distribution] c!"x" = .ok [c!"shell", c!"time"] := by decide +kernel
  refine ⟨hd, ?_⟩
  rintro ⟨a, dims, e1, e2, e3⟩
  rw [hd] at e2
  cases e2
  obtain ⟨x, _, _, p1, _, _, q1, _⟩ := c149_positions r theta phi h1 h2 h3
  rw [p1] at e1
  cases e1
  rw [q1] at e3
  exact absurd e3 (by decide)

end Verif.Shapes
