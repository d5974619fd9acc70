import Verif.Metric.Props

/-!
# Property C286: further declarations of conversions
-/

set_option linter.unusedSimpArgs false

namespace Verif.Metric

open Verif.Py

variable {U B K : Type _} [DecidableEq U] [DecidableEq B] [DecidableEq K] [Field K]

/-- **C286, more declarations.** If all declarations agree with magnitudes of the units, units that are joined by declared conversions keep
their factor when further conversions are declared, in whatever order declarations and units are listed. -/
theorem c286_more (base base' : List ((U × U) × K)) (hsub : ∀ p ∈ base, p ∈ base') (units units' : List U)
    (named : U → Option (Named U B K)) (mag : U → K) (h : Consistent base' named mag) (hb : ∀ p ∈ base', p.2 ≠ 0) (u0 u1 : U)
    (hc : Relation.ReflTransGen (Declared base) u0 u1) :
    ∃ f, convertStrings ⟨mkConns base, units, named⟩ u0 u1 = some (some f) ∧
      convertStrings ⟨mkConns base', units', named⟩ u0 u1 = some (some f) := by
  have h' : Consistent base named mag := ⟨h.1, fun u v w hw => h.2.1 u v w (hsub _ hw), h.2.2⟩
  have hc' : Relation.ReflTransGen (Declared base') u0 u1 := by
    refine Relation.ReflTransGen.mono (r := Declared base) ?_ u0 u1 hc
    rintro a b ⟨w, hw⟩
    exact ⟨w, hw.imp (hsub _) (hsub _)⟩
  obtain ⟨f, hf⟩ := c30_complete base (fun p hp => hb p (hsub p hp)) units named u0 u1 hc
  obtain ⟨f', hf'⟩ := c30_complete base' hb units' named u0 u1 hc'
  refine ⟨f, hf, ?_⟩
  rw [hf', c29_magnitude base units named mag h' u0 u1 f hf, c29_magnitude base' units' named mag h u0 u1 f' hf']

/-- **C286, chains.** Under the same conditions the factor of a chain is the product of the factors of its parts. -/
theorem c286_chain (base : List ((U × U) × K)) (units units' : List U) (named : U → Option (Named U B K)) (mag : U → K)
    (h : Consistent base named mag) (hb : ∀ p ∈ base, p.2 ≠ 0) (u v w : U) (h1 : Relation.ReflTransGen (Declared base) u v)
    (h2 : Relation.ReflTransGen (Declared base) v w) :
    ∃ f g, convertStrings ⟨mkConns base, units, named⟩ u v = some (some f) ∧
      convertStrings ⟨mkConns base, units, named⟩ v w = some (some g) ∧
      convertStrings ⟨mkConns base, units', named⟩ u w = some (some (f * g)) := by
  obtain ⟨f, hf⟩ := c30_complete base hb units named u v h1
  obtain ⟨g, hg⟩ := c30_complete base hb units named v w h2
  obtain ⟨k, hk⟩ := c30_complete base hb units' named u w (h1.trans h2)
  refine ⟨f, g, hf, hg, ?_⟩
  rw [hk, c29_magnitude base units named mag h u v f hf, c29_magnitude base units named mag h v w g hg,
    c29_magnitude base units' named mag h u w k hk, div_mul_div_cancel₀ (h.1 v)]

example : ∃ f, convertStrings (B := Unit) ⟨mkConns smallGraph, [], fun _ => none⟩ "eV" "erg" = some (some f) ∧
    convertStrings (B := Unit) ⟨mkConns ((("cal", "J"), 4) :: (("erg", "eV"), 1 / 1500000) :: smallGraph), ["J"], fun _ => none⟩ "eV" "erg"
      = some (some f) := by
  refine c286_more smallGraph _ (by decide +kernel) _ _ _
    (fun u => if u = "J" then 10000000 else if u = "eV" then 1500000 else if u = "cal" then 40000000 else 1) ?_ (by decide +kernel) _ _ ?_
  · refine ⟨?_, ?_, by simp, by simp⟩
    · intro u; dsimp only; split_ifs <;> norm_num
    · intro u v w h
      simp only [smallGraph, List.mem_cons, List.not_mem_nil, or_false, Prod.mk.injEq] at h
      rcases h with ⟨⟨rfl, rfl⟩, rfl⟩ | ⟨⟨rfl, rfl⟩, rfl⟩ | ⟨⟨rfl, rfl⟩, rfl⟩ | ⟨⟨rfl, rfl⟩, rfl⟩ <;> decide +kernel
  · have h1 : Declared smallGraph "J" "erg" := ⟨10000000, Or.inl (by decide +kernel)⟩
    have h2 : Declared smallGraph "eV" "J" := ⟨3 / 20, Or.inl (by decide +kernel)⟩
    exact .tail (.tail .refl h2) h1

/-- Declarations that contradict earlier ones do change the factor. -/
example : convertStrings (B := Unit) ⟨mkConns ((("eV", "erg"), 7) :: smallGraph), [], fun _ => none⟩ "eV" "erg" = some (some (7 : Rat)) := by
  decide +kernel

end Verif.Metric
