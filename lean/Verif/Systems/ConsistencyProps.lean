import Verif.Systems.Model
import Verif.Systems.Spec

/-!
# C161-C162: consistent units, and changing a unit
-/

set_option linter.unusedSimpArgs false

namespace Verif.Systems

open Verif.Py Verif.Symbolic Verif.Metric

attribute [local irreducible] units allUnits prefixes identify canonicalUnits canonicalDimensions quantities

/-! ## C161: `Unit.__or__` -/

/-- Specification: two units have a common dimension when the dimension of one in some system is that of the other in some
system, up to the order of its factors. -/
def CommonDimension (d e : PerSystem (Option (List Term))) : Prop :=
  ∃ s t x y, d.get s = some x ∧ e.get t = some y ∧ x.Perm y

/-- Specification: the first unit is dimensionless in a system and the second is undefined in a system. -/
def OneAgainstNone (d e : PerSystem (Option (List Term))) : Prop :=
  ∃ s t, d.get s = some [⟨1, one, 1⟩] ∧ e.get t = none

theorem ofString_one : ofString one = .ok [⟨1, one, 1⟩] := by decide +kernel

theorem looseEq_ok (d : Option (List Term)) (x : List Term) : ∃ r, looseEq d x = .ok r ∧
    (r = true ↔ (∃ y, d = some y ∧ x.Perm y) ∨ (d = none ∧ x = [⟨1, one, 1⟩])) := by
  cases d with
  | some y =>
    refine ⟨_, rfl, ?_⟩
    rw [exprEq_iff_perm]
    constructor
    · intro h; exact Or.inl ⟨y, rfl, h.symm⟩
    · rintro (⟨z, hz, h⟩ | ⟨h, _⟩)
      · injection hz with hz; subst hz; exact h.symm
      · contradiction
  | none =>
    refine ⟨exprEq x [⟨1, one, 1⟩], by simp only [looseEq, ofString_one]; rfl, ?_⟩
    rw [exprEq_iff_perm, List.perm_singleton]
    constructor
    · intro h; exact Or.inr ⟨rfl, h⟩
    · rintro (⟨z, hz, _⟩ | ⟨_, h⟩)
      · contradiction
      · exact h

theorem matchesAny_ok (e : PerSystem (Option (List Term))) (d : Option (List Term)) : ∃ r, matchesAny e d = .ok r ∧
    (r = true ↔ ∃ x, d = some x ∧ ∃ t, (∃ y, e.get t = some y ∧ x.Perm y) ∨ (e.get t = none ∧ x = [⟨1, one, 1⟩])) := by
  cases d with
  | none => exact ⟨false, rfl, by simp⟩
  | some x =>
    obtain ⟨r, h1, h2⟩ := looseEq_ok e.mks x
    obtain ⟨q, h3, h4⟩ := looseEq_ok e.cgs x
    refine ⟨if r then true else q, ?_, ?_⟩
    · unfold matchesAny
      simp only [h1, h3, bind, Except.bind, pure, Except.pure]
      cases r <;> rfl
    · constructor
      · intro h
        refine ⟨x, rfl, ?_⟩
        cases r with
        | true => exact ⟨.mks, h2.1 rfl⟩
        | false => exact ⟨.cgs, h4.1 (by simpa using h)⟩
      · rintro ⟨z, hz, t, ht⟩
        injection hz with hz
        subst hz
        cases t with
        | mks => rw [h2.2 ht]; rfl
        | cgs => rw [h4.2 ht]; cases r <;> rfl

/-- What decides consistency before a factor is looked for. -/
theorem unitOr_eq (b : Book) (conv : Str → Str → Res Rat) {u v qu qv : List Term} {du dv : PerSystem (Option (List Term))}
    (hdu : unitDimensions b u = .ok du) (hdv : unitDimensions b v = .ok dv) (hqu : unitQuantity b u = .ok qu)
    (hqv : unitQuantity b v = .ok qv) :
    (CommonDimension du dv ∨ OneAgainstNone du dv ∨ qu.Perm qv → unitOr b conv u v = .ok true) ∧
    (¬ (CommonDimension du dv ∨ OneAgainstNone du dv ∨ qu.Perm qv) →
      unitOr b conv u v = factorExists (conv (exprStr v) (exprStr u))) := by
  obtain ⟨r, h1, h2⟩ := matchesAny_ok dv du.mks
  obtain ⟨q, h3, h4⟩ := matchesAny_ok dv du.cgs
  have hval : unitOr b conv u v = if r then .ok true else if q then .ok true else if exprEq qu qv then .ok true
      else factorExists (conv (exprStr v) (exprStr u)) := by
    unfold unitOr
    simp only [hdu, hdv, hqu, hqv, h1, h3, bind, Except.bind, pure, Except.pure]
  have hrq : (r = true ∨ q = true) ↔ (CommonDimension du dv ∨ OneAgainstNone du dv) := by
    rw [h2, h4]
    constructor
    · rintro (⟨x, hx, t, ⟨y, hy, hp⟩ | ⟨hn, h1⟩⟩ | ⟨x, hx, t, ⟨y, hy, hp⟩ | ⟨hn, h1⟩⟩)
      · exact Or.inl ⟨.mks, t, x, y, hx, hy, hp⟩
      · exact Or.inr ⟨.mks, t, by rw [← h1]; exact hx, hn⟩
      · exact Or.inl ⟨.cgs, t, x, y, hx, hy, hp⟩
      · exact Or.inr ⟨.cgs, t, by rw [← h1]; exact hx, hn⟩
    · rintro (⟨s, t, x, y, hx, hy, hp⟩ | ⟨s, t, hx, hn⟩)
      · cases s
        · exact Or.inl ⟨x, hx, t, Or.inl ⟨y, hy, hp⟩⟩
        · exact Or.inr ⟨x, hx, t, Or.inl ⟨y, hy, hp⟩⟩
      · cases s
        · exact Or.inl ⟨_, hx, t, Or.inr ⟨hn, rfl⟩⟩
        · exact Or.inr ⟨_, hx, t, Or.inr ⟨hn, rfl⟩⟩
  have hq : exprEq qu qv = true ↔ qu.Perm qv := by rw [exprEq_iff_perm]
  constructor
  · intro h
    rw [hval]
    rw [← or_assoc, ← hrq, ← hq] at h
    rcases h with (rfl | rfl) | h
    · rfl
    · cases r <;> rfl
    · rw [h]; cases r <;> cases q <;> rfl
  · intro h
    rw [hval]
    rw [← or_assoc, ← hrq, ← hq] at h
    push Not at h
    obtain ⟨⟨hr, hq⟩, he⟩ := h
    simp only [Bool.not_eq_true] at hr hq he
    rw [hr, hq, he]
    rfl

/-- **C161.** For units whose dimensions and quantities can be computed: `u | v` is true exactly when the units have a
common dimension, or measure the same quantity, or `v` has a factor to `u`, or `u` is dimensionless in a system and `v` is not
defined in a system. -/
theorem c161_consistent_partial (b : Book) (conv : Str → Str → Res Rat) {u v qu qv : List Term}
    {du dv : PerSystem (Option (List Term))}
    (hdu : unitDimensions b u = .ok du) (hdv : unitDimensions b v = .ok dv) (hqu : unitQuantity b u = .ok qu)
    (hqv : unitQuantity b v = .ok qv) :
    unitOr b conv u v = .ok true ↔
      CommonDimension du dv ∨ qu.Perm qv ∨ (∃ f, conv (exprStr v) (exprStr u) = .ok f) ∨ OneAgainstNone du dv := by
  obtain ⟨h1, h2⟩ := unitOr_eq b conv hdu hdv hqu hqv
  by_cases h : CommonDimension du dv ∨ OneAgainstNone du dv ∨ qu.Perm qv
  · rw [h1 h]
    simp only [true_iff]
    rcases h with h | h | h
    · exact Or.inl h
    · exact Or.inr (Or.inr (Or.inr h))
    · exact Or.inr (Or.inl h)
  · rw [h2 h]
    push Not at h
    obtain ⟨ha, hb, hc⟩ := h
    simp only [ha, hb, hc, false_or, or_false]
    cases conv (exprStr v) (exprStr u) with
    | ok f => simp [factorExists]
    | error e =>
      simp only [factorExists]
      constructor
      · intro h
        split at h <;> simp_all
      · rintro ⟨f, hf⟩; contradiction

/-- **C161, reflexive.** A unit is consistent with itself. -/
theorem c161_reflexive (b : Book) (conv : Str → Str → Res Rat) {u q : List Term} {d : PerSystem (Option (List Term))}
    (hd : unitDimensions b u = .ok d) (hq : unitQuantity b u = .ok q) : unitOr b conv u u = .ok true :=
  (c161_consistent_partial b conv hd hd hq hq).2 (Or.inr (Or.inl (List.Perm.refl _)))

/-- **C161, symmetric for units defined in both systems.** When each unit has a dimension in both systems, the order of the
two matters at most for whether a factor exists: whenever they have a common dimension or the same quantity, both orders are
true. -/
theorem c161_symmetric_partial (b : Book) (conv : Str → Str → Res Rat) {u v qu qv : List Term}
    {du dv : PerSystem (Option (List Term))}
    (hdu : unitDimensions b u = .ok du) (hdv : unitDimensions b v = .ok dv) (hqu : unitQuantity b u = .ok qu)
    (hqv : unitQuantity b v = .ok qv) (hu : ∀ s, du.get s ≠ none) (hv : ∀ s, dv.get s ≠ none)
    (hf : (∃ f, conv (exprStr v) (exprStr u) = .ok f) ↔ ∃ f, conv (exprStr u) (exprStr v) = .ok f) :
    unitOr b conv u v = .ok true ↔ unitOr b conv v u = .ok true := by
  rw [c161_consistent_partial b conv hdu hdv hqu hqv, c161_consistent_partial b conv hdv hdu hqv hqu, hf]
  have h1 : CommonDimension du dv ↔ CommonDimension dv du :=
    ⟨fun ⟨s, t, x, y, a, b, c⟩ => ⟨t, s, y, x, b, a, c.symm⟩, fun ⟨s, t, x, y, a, b, c⟩ => ⟨t, s, y, x, b, a, c.symm⟩⟩
  have h2 : qu.Perm qv ↔ qv.Perm qu := List.perm_comm
  have h3 : ¬ OneAgainstNone du dv := fun ⟨_, t, _, h⟩ => hv t h
  have h4 : ¬ OneAgainstNone dv du := fun ⟨_, t, _, h⟩ => hu t h
  simp only [h1, h2, h3, h4, or_false]

/-- **C161, symmetric, violated.** `Unit('rad') | Unit('J')` is true, because the joule has no dimension in the `cgs` system,
and a missing dimension equals the dimension `1`; `Unit('J') | Unit('rad')` is false. There is no factor in either
direction. -/
theorem c161_symmetric_counterexample :
    actualOr c!"rad" c!"J" = .ok true ∧ actualOr c!"J" c!"rad" = .ok false ∧
    actualConversion tableOrder c!"rad" c!"J" = .error (.named "UnitConversionError") ∧
    actualConversion tableOrder c!"J" c!"rad" = .error (.named "UnitConversionError") := by
  have h1 : actualConversion tableOrder = conversion fastBook (fastEnv numpyPi tableOrder) powInt :=
    funext fun a => funext fun b => actualConversion_eq _ a b
  unfold actualOr
  rw [h1, actualBook_eq]
  refine ⟨?_, ?_, ?_, ?_⟩ <;> decide +kernel

/-! ## C162: changing a unit -/

/-- **C162.** A change of unit either is refused with `ValueError`, because the units are not consistent, or raises what
computing a factor raises, or multiplies by the factor between the units. In particular no value is changed by a factor other
than the factor between the units, and a change that is refused has no factor backwards. -/
theorem c162_change (b : Book) (conv : Str → Str → Res Rat) (u v : List Term) {f : Rat}
    (h : changeUnit b conv u v = .ok f) :
    conv (exprStr u) (exprStr v) = .ok f ∧ unitOr b conv u v = .ok true := by
  unfold changeUnit at h
  cases ho : unitOr b conv u v with
  | error e => rw [ho] at h; contradiction
  | ok r =>
    rw [ho] at h
    cases r with
    | true => exact ⟨h, rfl⟩
    | false => contradiction

/-- **C162, refused.** For units whose dimensions and quantities can be computed, a change that fails with `ValueError` when
no factor does is one between units without a common dimension, of different quantities, and without a factor back. -/
theorem c162_refused_partial (b : Book) (conv : Str → Str → Res Rat) {u v qu qv : List Term}
    {du dv : PerSystem (Option (List Term))}
    (hdu : unitDimensions b u = .ok du) (hdv : unitDimensions b v = .ok dv) (hqu : unitQuantity b u = .ok qu)
    (hqv : unitQuantity b v = .ok qv) (hc : conv (exprStr u) (exprStr v) ≠ .error .valueError)
    (h : changeUnit b conv u v = .error .valueError) :
    ¬ CommonDimension du dv ∧ ¬ qu.Perm qv ∧ ¬ ∃ f, conv (exprStr v) (exprStr u) = .ok f := by
  have hn : unitOr b conv u v ≠ .ok true := by
    intro ho
    unfold changeUnit at h
    rw [ho] at h
    exact hc h
  rw [Ne, c161_consistent_partial b conv hdu hdv hqu hqv] at hn
  push Not at hn
  exact ⟨hn.1, hn.2.1, fun ⟨f, hf⟩ => hn.2.2.1 f hf⟩

/-- **C162, violated.** The test of consistency does not protect against changes that make no sense or fail: a value in
volts may be given the unit ohm, with the factor 1, because the table lists the dimension of the resistance as that of the
potential; a value in nanotesla passes the test against milligauss, but the conversion raises `SystemAmbiguityError`. (By
C161, an angle in radians also passes the test against joules, and then there is no factor.) -/
theorem c162_counterexample :
    actualChange c!"V" c!"ohm" = .ok 1 ∧
    actualOr c!"nT" c!"mG" = .ok true ∧ actualChange c!"nT" c!"mG" = .error (.named "SystemAmbiguityError") := by
  have h1 : actualConversion tableOrder = conversion fastBook (fastEnv numpyPi tableOrder) powInt :=
    funext fun a => funext fun b => actualConversion_eq _ a b
  unfold actualChange actualOr
  rw [h1, actualBook_eq]
  refine ⟨?_, ?_, ?_⟩ <;> decide +kernel

/-- Changes that are made and changes that are refused. -/
example : actualChange c!"m" c!"cm" = .ok 100 ∧ actualChange c!"m" c!"s" = .error .valueError := by
  have h1 : actualConversion tableOrder = conversion fastBook (fastEnv numpyPi tableOrder) powInt :=
    funext fun a => funext fun b => actualConversion_eq _ a b
  unfold actualChange
  rw [h1, actualBook_eq]
  refine ⟨?_, ?_⟩ <;> decide +kernel

end Verif.Systems
