import Verif.Shapes.Registry
import Verif.Metric.ConversionProps
import Verif.Metric.DimProps

/-!
# Units of the quantities that can be observed
-/

set_option linter.unusedSimpArgs false

namespace Verif.Shapes

open Verif.Py Verif.Metric
open Verif.Defaults (referenceBase)

/-- The metric quantities in `reference.py`, with their unit in each metric system and the factor between the two. -/
def referenceUnits : List (Str × Str × Str × Rat) :=
  [(c!"time", c!"s", c!"s", 1),
   (c!"ratio", c!"1", c!"1", 1),
   (c!"mass", c!"kg", c!"g", 1000),
   (c!"charge", c!"C", c!"statC", 299792458000),
   (c!"number density", c!"m^-3", c!"cm^-3", 1 / 10 ^ 6),
   (c!"number / (area * solid_angle * time * energy / mass_number)", c!"J^-1 s^-1 sr^-1 m^-2",
     c!"erg^-1 s^-1 sr^-1 cm^-2", 1 / 10 ^ 11),
   (c!"magnetic field", c!"T", c!"G", 10 ^ 4),
   (c!"velocity * magnetic field", c!"T m s^-1", c!"G cm s^-1", 10 ^ 6),
   (c!"velocity", c!"m s^-1", c!"cm s^-1", 100),
   (c!"plane angle", c!"rad", c!"rad", 1),
   (c!"number", c!"1", c!"1", 1),
   (c!"momentum / charge", c!"kg m C^-1 s^-1", c!"cm g s^-1 statC^-1", 10 ^ 5 / 299792458000),
   (c!"length", c!"m", c!"cm", 100),
   (c!"1 / time", c!"s^-1", c!"s^-1", 1),
   (c!"energy / volume", c!"J m^-3", c!"erg cm^-3", 10),
   (c!"energy", c!"J", c!"erg", 10 ^ 7),
   (c!"particle distribution", c!"s^3 m^-6", c!"s^3 cm^-6", 1 / 10 ^ 12),
   (c!"number / (area * solid_angle * energy / mass_number)", c!"J^-1 sr^-1 m^-2", c!"erg^-1 sr^-1 cm^-2", 1 / 10 ^ 11),
   (c!"number / (area * solid_angle * time)", c!"s^-1 sr^-1 m^-2", c!"s^-1 sr^-1 cm^-2", 1 / 10 ^ 4)]

theorem reference_covered : ∀ e ∈ referenceBase, e.2 ∈ referenceUnits.map (·.1) := by decide +kernel

theorem registry_covered : ∀ e ∈ registry, ∃ g ∈ referenceBase, e.1 ∈ g.1 := by decide +kernel

theorem reference_units : referenceUnits.map (fun e => getProperty quantities .units 12 e.1)
    = referenceUnits.map (fun e => .ok ⟨e.2.1, e.2.2.1⟩) := by decide +kernel

theorem reference_forth : referenceUnits.map (fun e => conversion fastBook (fastEnv numpyPi tableOrder) powInt e.2.1 e.2.2.1)
    = referenceUnits.map (fun e => .ok e.2.2.2) := by decide +kernel

theorem reference_back : referenceUnits.map (fun e => conversion fastBook (fastEnv numpyPi tableOrder) powInt e.2.2.1 e.2.1)
    = referenceUnits.map (fun e => .ok e.2.2.2⁻¹) := by decide +kernel

theorem map_eq_mem {α β : Type} {f g : α → β} {l : List α} (h : l.map f = l.map g) {a : α} (ha : a ∈ l) : f a = g a :=
  (List.map_inj_left.1 h) a ha

/-- What a CGS unit of a mechanical dimension amounts to: the number of CGS units in the MKS unit of the dimension `s`. -/
def cgsFactor (s : Str) : Res Rat :=
  (Symbolic.ofString s).map (fun ts =>
    (ts.map (fun t => (if t.base = c!"L" then (100 : Rat) else if t.base = c!"M" then 1000 else 1) ^ t.exp.num)).prod)

/-- Quantities of electromagnetism. -/
def electromagnetic : List Str :=
  [c!"charge", c!"magnetic field", c!"velocity * magnetic field", c!"momentum / charge"]

theorem reference_factors : ∀ e ∈ referenceUnits, e.1 ∉ electromagnetic →
    ((getProperty quantities .dimensions 12 e.1).bind (fun d => cgsFactor d.mks)) = .ok e.2.2.2 := by decide +kernel

theorem reference_pos : ∀ e ∈ referenceUnits, 0 < e.2.2.2 := by decide +kernel

/-- **C154 (partial).** Every registered function is among the quantities that can be observed. Each of these (the whole
table is checked) has a unit in both metric systems; values convert from the one to the other and back by reciprocal
factors; and except for quantities of electromagnetism, the factor is the one that belongs to the dimension of the quantity:
100 for every length and 1000 for every mass in it. (The recursion limit of the interpreter is any number from 12.) -/
theorem c154_partial (more : Nat) :
    (∀ e ∈ registry, ∃ g ∈ referenceBase, e.1 ∈ g.1) ∧
    ∀ g ∈ referenceBase, ∃ mks cgs factor,
      getProperty quantities .units (12 + more) g.2 = .ok ⟨mks, cgs⟩ ∧ 0 < factor ∧
      actualConversion tableOrder mks cgs = .ok factor ∧ actualConversion tableOrder cgs mks = .ok factor⁻¹ ∧
      (g.2 ∉ electromagnetic → ∃ dims, getProperty quantities .dimensions (12 + more) g.2 = .ok dims ∧
        cgsFactor dims.mks = .ok factor) := by
  refine ⟨registry_covered, fun g hg => ?_⟩
  obtain ⟨e, he, heq⟩ := List.mem_map.1 (reference_covered g hg)
  have hu := map_eq_mem reference_units he
  have hf := map_eq_mem reference_forth he
  have hb := map_eq_mem reference_back he
  rw [heq] at hu
  refine ⟨e.2.1, e.2.2.1, e.2.2.2, getProperty_mono _ _ _ more _ _ hu, reference_pos e he, ?_, ?_, ?_⟩
  · rw [actualConversion_eq]; exact hf
  · rw [actualConversion_eq]; exact hb
  · intro hn
    have h := reference_factors e he (by rw [heq]; exact hn)
    rw [heq] at h
    cases hd : getProperty quantities .dimensions 12 g.2 with
    | error x => rw [hd] at h; cases h
    | ok d => rw [hd] at h; exact ⟨d, getProperty_mono _ _ _ more _ _ hd, h⟩

/-- **C154 fails for charge** (and rigidity, which contains it): one coulomb is a tenth of the speed of light in centimetres
per second, 2997924580 statcoulomb, but is converted to a hundred times as many. -/
theorem c154_counterexample :
    getProperty quantities .units 12 c!"charge" = .ok ⟨c!"C", c!"statC"⟩ ∧
    actualConversion tableOrder c!"C" c!"statC" = .ok (100 * 2997924580) := by
  constructor
  · decide +kernel
  · rw [actualConversion_eq]
    have := map_eq_mem reference_forth (a := (c!"charge", c!"C", c!"statC", 299792458000)) (by decide +kernel)
    rw [show (100 : Rat) * 2997924580 = 299792458000 by norm_num]
    exact this

/-- `flux` is among the quantities, and not one of electromagnetism. -/
example : ∃ g ∈ referenceBase, c!"flux" ∈ g.1 ∧ g.2 ∉ electromagnetic := by decide +kernel

end Verif.Shapes
