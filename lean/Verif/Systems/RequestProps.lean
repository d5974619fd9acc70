import Verif.Systems.Request
import Verif.Systems.ConsistencyProps
import Verif.Systems.NormProps

/-!
# C165-C166: changing a unit by subscription
-/

set_option linter.unusedSimpArgs false

namespace Verif.Systems

open Verif.Py Verif.Symbolic Verif.Metric

attribute [local irreducible] units allUnits prefixes identify canonicalUnits canonicalDimensions quantities

/-! ## C165: the name of a system for a unit -/

/-- Specification: the unit that the name of a metric system stands for. -/
def stands (n : PerSystem Str) : System → Str
  | .mks => n.mks
  | .cgs => n.cgs

/-- The name of a system. -/
def systemName : System → Str
  | .mks => c!"mks"
  | .cgs => c!"cgs"

theorem requested_system (R : Rules) (unit : Str) (s : System) {n : PerSystem Str} (hn : R.norm unit = .ok n) :
    requested R unit (systemName s) = .ok (stands n s) := by
  have h : lower (systemName s) = c!"mks" ∨ lower (systemName s) = c!"cgs" := by cases s <;> decide
  unfold requested
  rw [if_pos h, hn]
  cases s
  · simp only [bind, Except.bind, systemName, if_true, stands]
  · have : ¬ (c!"cgs" = c!"mks") := by decide
    simp only [bind, Except.bind, systemName, this, if_false, if_true, stands]

theorem requested_other (R : Rules) (unit arg : Str) (h : lower arg ≠ c!"mks") (h' : lower arg ≠ c!"cgs") :
    requested R unit arg = .ok arg := by
  unfold requested
  rw [if_neg (by rintro (a | a) <;> contradiction)]

/-- **C165, in lower case.** For each kind of object, the name of a metric system in lower case is short for the norm of the
unit in that system. -/
theorem c165_system_partial (R : Rules) (h : Held) (s : System) {n : PerSystem Str} (hn : R.norm h.unit = .ok n)
    (hs : lower (stands n s) ≠ c!"mks" ∧ lower (stands n s) ≠ c!"cgs") :
    measurableGet R h (systemName s) = measurableGet R h (stands n s) ∧
    variableGet R h (systemName s) = variableGet R h (stands n s) ∧
    indexGet R h (systemName s) = indexGet R h (stands n s) ∧
    axisGet R h.unit (systemName s) = axisGet R h.unit (stands n s) ∧
    observableGet R h.unit (systemName s) = observableGet R h.unit (stands n s) := by
  have e : requested R h.unit (systemName s) = requested R h.unit (stands n s) := by
    rw [requested_system R _ s hn, requested_other R _ _ hs.1 hs.2]
  refine ⟨?_, ?_, ?_, ?_, ?_⟩
  · unfold measurableGet; rw [e]
  · unfold variableGet; rw [e]
  · unfold indexGet; rw [e]
  · unfold axisGet; rw [e]
  · unfold observableGet; rw [e]

/-- **C165, violated in upper case.** The test for the name of a system ignores the case, but the lookup does not: for every
object whose unit has a norm and every spelling of the name that is not in lower case, such as `'MKS'`, there is a `KeyError`. -/
theorem c165_system_counterexample (R : Rules) (h : Held) (arg : Str) {n : PerSystem Str} (hn : R.norm h.unit = .ok n)
    (s : System) (ha : lower arg = systemName s) (hne : arg ≠ systemName s) :
    measurableGet R h arg = .error .keyError ∧ variableGet R h arg = .error .keyError ∧
    indexGet R h arg = .error .keyError ∧ axisGet R h.unit arg = .error .keyError ∧
    observableGet R h.unit arg = .error .keyError := by
  have hl : lower arg = c!"mks" ∨ lower arg = c!"cgs" := by
    cases s
    · exact Or.inl ha
    · exact Or.inr ha
  have h1 : arg ≠ c!"mks" := by
    rintro rfl
    cases s
    · exact hne rfl
    · have : lower c!"mks" ≠ systemName .cgs := by decide
      exact this ha
  have h2 : arg ≠ c!"cgs" := by
    rintro rfl
    cases s
    · have : lower c!"cgs" ≠ systemName .mks := by decide
      exact this ha
    · exact hne rfl
  have e : requested R h.unit arg = .error .keyError := by
    unfold requested
    rw [if_pos hl, hn]
    simp only [bind, Except.bind, h1, h2, if_false]
  refine ⟨?_, ?_, ?_, ?_, ?_⟩
  · unfold measurableGet; rw [e]; rfl
  · unfold variableGet; rw [e]; rfl
  · unfold indexGet; rw [e]; rfl
  · unfold axisGet; rw [e]; rfl
  · unfold observableGet; rw [e]; rfl

theorem actualRules_same (limit : Nat) : (actualRules limit).same = actualUnitEq := by rw [actualRules]
theorem actualRules_consistent (limit : Nat) : (actualRules limit).consistent = actualOr := by rw [actualRules]
theorem actualRules_factor (limit : Nat) : (actualRules limit).factor = actualConversion tableOrder := by rw [actualRules]

theorem actualRules_norm (limit : Nat) {u : Str} {e q m c : List Term} (he : ofString u = .ok e)
    (hq : unitQuantity actualBook e = .ok q) (hm : normIn (lookupUnits limit) q .mks = .ok m)
    (hc : normIn (lookupUnits limit) q .cgs = .ok c) :
    (actualRules limit).norm u = .ok ⟨exprStr m, exprStr c⟩ := by
  unfold actualRules
  simp only [he, norm, hq, hm, hc, bind, Except.bind, pure, Except.pure]

theorem normIn_single (get : Str → Res (PerSystem Str)) (s : System) {q : Name} {w : PerSystem Str} {e p r : List Term}
    (hl : get q = .ok w) (he : ofString (w.get s) = .ok e) (hp : exprPow e 1 = .ok p)
    (hr : ofString (standardExprs [p]) = .ok r) : normIn get [⟨1, q, 1⟩] s = .ok r := by
  simp only [normIn, List.mapM_cons, List.mapM_nil, normTerm, hl, he, hp, bind, Except.bind, pure, Except.pure, hr]

/-- A value in kilometres, in the `cgs` system: `CGS` is refused. -/
example (limit : Nat) (h8 : 8 ≤ limit) (vs : List Rat) :
    (∃ n, (actualRules limit).norm c!"km" = .ok n ∧ stands n .cgs = c!"cm") ∧
    variableGet (actualRules limit) ⟨c!"km", vs, true⟩ c!"CGS" = .error .keyError := by
  have hn : (actualRules limit).norm c!"km" = .ok ⟨c!"m", c!"cm"⟩ := by
    obtain ⟨more, rfl⟩ := Nat.exists_eq_add_of_le h8
    have hl : lookupUnits (8 + more) c!"length" = .ok ⟨c!"m", c!"cm"⟩ :=
      lookupUnits_mono (by omega) (by decide +kernel)
    have hk : ofString c!"km" = .ok [⟨1, c!"km", 1⟩] := by decide +kernel
    have hq : unitQuantity actualBook [⟨1, c!"km", 1⟩] = .ok [⟨1, c!"length", 1⟩] := by
      rw [actualBook_eq]; decide +kernel
    exact actualRules_norm (8 + more) hk hq
      (normIn_single _ .mks hl (e := [⟨1, c!"m", 1⟩]) (p := [⟨1, c!"m", 1⟩]) (r := [⟨1, c!"m", 1⟩]) (by decide +kernel)
        (by decide +kernel) (by decide +kernel))
      (normIn_single _ .cgs hl (e := [⟨1, c!"cm", 1⟩]) (p := [⟨1, c!"cm", 1⟩]) (r := [⟨1, c!"cm", 1⟩]) (by decide +kernel)
        (by decide +kernel) (by decide +kernel))
  refine ⟨⟨_, hn, rfl⟩, ?_⟩
  exact (c165_system_counterexample (actualRules limit) ⟨c!"km", vs, true⟩ c!"CGS" hn .cgs (by decide) (by decide)).2.1

/-! ## C166: the copies agree -/

/-- **C166.** Whenever a variable takes a new unit, the same request to a measurable quantity and to an array of index values
gives the same values in the same unit, and an axis and an observable quantity take the same unit. The values of a variable
are either left alone, because the requested unit equals the unit, or multiplied by the factor between the units. -/
theorem c166_agree_partial (R : Rules) (h r : Held) (arg : Str) (hr : variableGet R h arg = .ok r) :
    measurableGet R h arg = .ok r ∧ indexGet R h arg = .ok r ∧ axisGet R h.unit arg = .ok r.unit ∧
    observableGet R h.unit arg = .ok r.unit ∧
    ∃ u, requested R h.unit arg = .ok u ∧
      ((R.same u h.unit = .ok true ∧ r = h) ∨
       (r.unit = u ∧ ∃ f, R.factor h.unit u = .ok f ∧ r.values = h.values.map (· * f))) := by
  unfold variableGet at hr
  unfold measurableGet indexGet axisGet observableGet
  cases hu : requested R h.unit arg with
  | error e => rw [hu] at hr; contradiction
  | ok u =>
    rw [hu] at hr
    simp only [bind, Except.bind] at hr ⊢
    cases hs : R.same u h.unit with
    | error e => rw [hs] at hr; contradiction
    | ok s =>
      rw [hs] at hr
      cases s with
      | true =>
        simp only [if_true, pure, Except.pure] at hr ⊢
        injection hr with hr
        subst hr
        exact ⟨rfl, rfl, rfl, rfl, u, rfl, Or.inl ⟨hs, rfl⟩⟩
      | false =>
        simp only [Bool.false_eq_true, if_false] at hr ⊢
        cases hc : R.consistent h.unit u with
        | error e => rw [hc] at hr; contradiction
        | ok c =>
          rw [hc] at hr
          cases c with
          | false => simp at hr
          | true =>
            simp only [not_true_eq_false, if_false, if_true] at hr ⊢
            cases hf : R.factor h.unit u with
            | error e => rw [hf] at hr; contradiction
            | ok f =>
              rw [hf] at hr
              simp only at hr ⊢
              cases ht : h.times f with
              | error e => rw [ht] at hr; contradiction
              | ok vs =>
                rw [ht] at hr
                simp only [pure, Except.pure] at hr ⊢
                injection hr with hr
                subst hr
                refine ⟨rfl, rfl, rfl, rfl, u, rfl, Or.inr ⟨rfl, f, hf, ?_⟩⟩
                unfold Held.times at ht
                split at ht
                · injection ht with ht; exact ht.symm
                · contradiction

/-- **C166, refused.** Measurable quantities, variables and axes refuse an inconsistent unit with `ValueError`, as their
documentation says. -/
theorem c166_refused_partial (R : Rules) (h : Held) (arg u : Str) (hu : requested R h.unit arg = .ok u)
    (hs : R.same u h.unit = .ok false) (hc : R.consistent h.unit u = .ok false) :
    measurableGet R h arg = .error .valueError ∧ variableGet R h arg = .error .valueError ∧
    axisGet R h.unit arg = .error .valueError := by
  unfold measurableGet variableGet axisGet
  simp only [hu, hs, hc, bind, Except.bind]
  exact ⟨rfl, rfl, rfl⟩

/-- Arrays of index values: what computing the factor raises comes first. -/
theorem indexGet_first (R : Rules) (h : Held) (arg u : Str) (hu : requested R h.unit arg = .ok u)
    (hs : R.same u h.unit = .ok false) {e : Err} (hf : R.factor h.unit u = .error e) : indexGet R h arg = .error e := by
  unfold indexGet
  simp only [hu, hs, hf, bind, Except.bind]
  rfl

/-- Observable quantities: any unit is accepted. -/
theorem observableGet_any (R : Rules) (unit arg u : Str) (hu : requested R unit arg = .ok u)
    (hs : R.same u unit = .ok false) : observableGet R unit arg = .ok u := by
  unfold observableGet
  simp only [hu, hs, bind, Except.bind]
  rfl

/-- **C166, violated.** Arrays of index values do not raise the documented `ValueError`: they compute the factor first, which
raises `UnitConversionError`. Observable quantities accept any unit: lengths may be given the unit of time. -/
theorem c166_refused_counterexample (limit : Nat) (vs : List Rat) :
    variableGet (actualRules limit) ⟨c!"m", vs, true⟩ c!"s" = .error .valueError ∧
    indexGet (actualRules limit) ⟨c!"m", vs, true⟩ c!"s" = .error (.named "UnitConversionError") ∧
    observableGet (actualRules limit) c!"m" c!"s" = .ok c!"s" := by
  have hr : requested (actualRules limit) c!"m" c!"s" = .ok c!"s" := requested_other _ _ _ (by decide) (by decide)
  have hs : (actualRules limit).same c!"s" c!"m" = .ok false := by
    rw [actualRules_same, actualUnitEq_eq]; decide +kernel
  have h1 : actualConversion tableOrder = conversion fastBook (fastEnv numpyPi tableOrder) powInt :=
    funext fun a => funext fun b => actualConversion_eq _ a b
  have hf : (actualRules limit).factor c!"m" c!"s" = .error (.named "UnitConversionError") := by
    rw [actualRules_factor, h1]; decide +kernel
  have hc : (actualRules limit).consistent c!"m" c!"s" = .ok false := by
    rw [actualRules_consistent, actualOr, h1, actualBook_eq]; decide +kernel
  refine ⟨?_, ?_, ?_⟩
  · exact (c166_refused_partial _ ⟨c!"m", vs, true⟩ _ _ hr hs hc).2.1
  · exact indexGet_first _ ⟨c!"m", vs, true⟩ _ _ hr hs hf
  · exact observableGet_any _ _ _ _ hr hs

end Verif.Systems
