import Verif.Metric.UnitProps

/-!
# C107: the declared electromagnetic factors and the laws that define the units
-/

namespace Verif.Metric

open Verif.Py

section
variable {K : Type _} [Field K]

/-- Specification: two charges of one coulomb (`x` statcoulomb each) at a distance of one meter
(100 cm) repel with `1e-7 c²` newton (`c` = 299792458 in m/s, by the definition of the meter; `1e5` dyn
each), and in Gaussian units with the product of the charges divided by the square of the distance. -/
def CoulombLaw (x : K) : Prop := x * x / 100 ^ 2 = 299792458 ^ 2 / 10 ^ 7 * 10 ^ 5

/-- Specification: one coulomb and one volt (`v` statvolt) make one joule (`1e7` erg). -/
def Work (x v : K) : Prop := v * x = 10 ^ 7

end

/-- C107, partial. Let a coulomb be `x` statcoulomb and a volt `v` statvolt, as required by Coulomb's law
and the definition of work.  The declared factor of the farad is the one that follows.  Those of
the coulomb, ampere, volt, siemens, ohm and henry would follow if they were corrected by powers of
100, because they were written for a speed of light in m/s while the value used is in cm/s.  The
magnetic ones (weber, tesla, ampere per meter, ampere per weber) follow from maxwell, gauss and gilbert.

Missing: the six uncorrected factors and those of H/m and F/m, which are wrong
(`c107_counterexample`). -/
theorem c107_partial {K : Type _} [Field K] [CharZero K] (pi x v : K) (hx : CoulombLaw x)
    (hv : Work x v) :
    declaredFactor pi c!"F" c!"cm" = some (x / v)
    ∧ (∃ C, declaredFactor pi c!"C" c!"statC" = some C ∧ (C / 100 = x ∨ C / 100 = -x))
    ∧ (∃ A, declaredFactor pi c!"A" c!"statA" = some A ∧ (A / 100 = x ∨ A / 100 = -x))
    ∧ (∃ V, declaredFactor pi c!"V" c!"statV" = some V ∧ (V * 100 = v ∨ V * 100 = -v))
    ∧ (∃ S, declaredFactor pi c!"S" c!"cm / s" = some S ∧ S / 100 ^ 2 = x / v)
    ∧ (∃ R, declaredFactor pi c!"ohm" c!"s / cm" = some R ∧ R * 100 ^ 2 = v / x)
    ∧ (∃ L, declaredFactor pi c!"H" c!"s^2 / cm" = some L ∧ L * 100 ^ 2 = v / x)
    ∧ (∃ B M H R, declaredFactor pi c!"T" c!"G" = some B ∧ declaredFactor pi c!"Wb" c!"Mx" = some M
        ∧ declaredFactor pi c!"A / m" c!"Oe" = some H ∧ declaredFactor pi c!"A / Wb" c!"1 / cm" = some R
        ∧ B * 100 ^ 2 = M ∧ R * M = 4 * pi / 10 ∧ H * 100 = 4 * pi / 10) := by
  have hc : (lightSpeed : K) ≠ 0 := by unfold lightSpeed; norm_num
  have hcl : (lightSpeed : K) / 100 = 299792458 := by unfold lightSpeed; norm_num
  have hx2 : x * x = lightSpeed ^ 2 / 100 := by
    unfold CoulombLaw at hx
    rw [← hcl] at hx
    field_simp at hx ⊢
    linear_combination hx
  have hx0 : x ≠ 0 := by
    rintro rfl
    rw [mul_zero, eq_comm, div_eq_zero_iff] at hx2
    rcases hx2 with h | h
    · exact hc (pow_eq_zero_iff (by norm_num) |>.1 h)
    · norm_num at h
  have hv' : v = 10 ^ 7 / x := by unfold Work at hv; field_simp; exact hv
  have hv0 : v ≠ 0 := by rw [hv']; exact div_ne_zero (by norm_num) hx0
  have hxv : x / v = lightSpeed ^ 2 * (1 / 1000000000) := by
    rw [hv', div_div_eq_mul_div, hx2]; ring
  have hvx : v / x = 1000000000 / lightSpeed ^ 2 := by
    rw [← inv_div, hxv]; field_simp
  have hpm : (10 * lightSpeed) / 100 = x ∨ (10 * lightSpeed) / 100 = -x := by
    apply mul_self_eq_mul_self_iff.1
    rw [hx2]; ring
  refine ⟨?_, ⟨_, rfl, hpm⟩, ⟨_, rfl, hpm⟩, ⟨_, rfl, ?_⟩, ⟨_, rfl, ?_⟩, ⟨_, rfl, ?_⟩, ⟨_, rfl, ?_⟩,
    ⟨_, _, _, _, rfl, rfl, rfl, rfl, ?_, ?_, ?_⟩⟩
  · rw [hxv]; rfl
  · have h1 : (1000000 / lightSpeed * 100 : K) = 10 ^ 7 / ((10 * lightSpeed) / 100) := by
      field_simp; norm_num
    rcases hpm with h | h
    · left; rw [h1, h, hv']
    · right; rw [h1, h, hv', div_neg]
  · rw [hxv]; ring
  · rw [hvx]; ring
  · rw [hvx]; ring
  · norm_num
  · ring
  · ring

/-- C107: the declared factor of the coulomb does not obey Coulomb's law; nor does that of the volt fit
the true one. The factor of H/m is not that for which the vacuum has permeability one, nor
is that of F/m the one that fits the speed of light. -/
theorem c107_counterexample :
    (∃ C : ℝ, declaredFactor Real.pi c!"C" c!"statC" = some C ∧ ¬ CoulombLaw C)
    ∧ (∃ V : ℝ, declaredFactor Real.pi c!"V" c!"statV" = some V
        ∧ ∀ x, CoulombLaw x → ¬ Work x V)
    ∧ (∃ m : ℝ, declaredFactor Real.pi c!"H / m" c!"1" = some m
        ∧ 4 * Real.pi / 10 ^ 7 * m ≠ 1)
    ∧ (∃ f : ℝ, declaredFactor Real.pi c!"F / m" c!"1" = some f
        ∧ 1 / (4 * Real.pi / 10 ^ 7 * 299792458 ^ 2) * f ≠ 1) := by
  have hpi := Real.pi_gt_three
  have hpi0 : Real.pi ≠ 0 := by linarith
  refine ⟨⟨_, rfl, ?_⟩, ⟨_, rfl, ?_⟩, ⟨_, rfl, ?_⟩, ⟨_, rfl, ?_⟩⟩
  · unfold CoulombLaw lightSpeed; norm_num
  · intro x hx hw
    unfold lightSpeed CoulombLaw Work at *
    have : x = 299792458000 := by linarith
    rw [this] at hx
    norm_num at hx
  · intro h
    have h2 : 4 * Real.pi / 10 ^ 7 * (10000000 / 4 * Real.pi) = Real.pi ^ 2 := by ring
    rw [h2] at h
    nlinarith
  · intro h
    field_simp at h
    norm_num at h

end Verif.Metric
