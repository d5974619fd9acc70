import Verif.Metric.DimProps

/-!
# Properties of conversions of compound units

C73-C77, C82-C84.
-/

set_option linter.unusedSimpArgs false
set_option linter.unusedSectionVars false

namespace Verif.Metric

open Verif.Py Verif.Symbolic

/-- The order of the declared units in the table. -/
def tableOrder : List Str := declaredUnits (K := Rat) numpyPi

/-! ## C73: metric prefixes do not affect whether units can be converted -/

/-- **C73, violated.** Tesla can be converted to gauss, but nanotesla cannot be converted to
milligauss. -/
theorem c73_counterexample :
    actualConversion tableOrder c!"T" c!"G" = .ok 10000 ∧
    actualConversion tableOrder c!"nT" c!"G" = .ok (1 / 100000) ∧
    actualConversion tableOrder c!"nT" c!"mG" = .error (.named "SystemAmbiguityError") := by
  simp only [actualConversion_eq]
  refine ⟨?_, ?_, ?_⟩ <;> decide +kernel

section
variable {U B K : Type _} [DecidableEq U] [DecidableEq B] [DecidableEq K] [Field K]

theorem truthy_ne {f : K} (h : f ≠ 0) : truthy (some f) = some f := by
  unfold truthy; simp [Option.filter, h]

theorem search_declared {base : List ((U × U) × K)} (hb : ∀ p ∈ base, p.2 ≠ 0) {e : Env U B K}
    (hc : e.conns = mkConns base) {x y : U} (h : Declared base x y) :
    ∃ w, search e x y = some w ∧ w ≠ 0 := by
  obtain ⟨w, hw⟩ := declared_conns e (base := base) hc h
  unfold search
  have hk : (x, y) ∈ e.conns.keys := List.mem_map_of_mem (f := Prod.fst) hw
  cases hg : e.conns.get? (x, y) with
  | none => exact absurd hk ((Dict.get?_eq_none_iff _ _).1 hg)
  | some v =>
    refine ⟨v, rfl, ?_⟩
    have hv : ((x, y), v) ∈ e.conns := Dict.mem_of_get? hg
    rw [hc] at hv
    rcases mem_mkConns hv with h' | ⟨s, t, z, h', hp⟩
    · exact hb _ h'
    · injection hp with _ h2
      rw [h2]
      have := hb _ h'
      unfold recip
      split <;> simp_all

/-- **C73.** On every graph: a unit that is not itself an end of a declared conversion, but has the
same base unit as the end `x` of a declared conversion between `x` and `y`, can be converted to `y`,
and `y` to it. All scales are non-zero. -/
theorem c73_partial (base : List ((U × U) × K)) (hb : ∀ p ∈ base, p.2 ≠ 0) (units : List U)
    (named : U → Option (Named U B K)) (hn : ∀ u n, u ∈ units → named u = some n → n.scale ≠ 0)
    (x y u : U) (nx nu : Named U B K) (hx : x ∈ units) (h : Declared base x y)
    (hu : u ∉ units) (hnu : named u = some nu) (hnx : named x = some nx) (hbase : nx.base = nu.base)
    (hs : nu.scale ≠ 0) :
    (∃ f, convertStrings ⟨mkConns base, units, named⟩ u y = some (some f)) ∧
    (∃ f, convertStrings ⟨mkConns base, units, named⟩ y u = some (some f)) := by
  let e : Env U B K := ⟨mkConns base, units, named⟩
  obtain ⟨w, hw, hw0⟩ := search_declared (e := e) hb rfl h
  have hresc : ∃ f, rescale e u y = some f ∧ f ≠ 0 := by
    unfold rescale
    rw [show e.named u = some nu from hnu]
    simp only
    have hvia : (rescaleVia e u y x).isSome := by
      unfold rescaleVia ratio?
      rw [show e.named u = some nu from hnu, show e.named x = some nx from hnx]
      simp only [hbase, if_true, hw, truthy_ne hw0]
      rfl
    cases hf : e.units.findSome? (rescaleVia e u y) with
    | none =>
      rw [List.findSome?_eq_none_iff] at hf
      rw [hf x hx] at hvia
      cases hvia
    | some f =>
      refine ⟨f, rfl, ?_⟩
      obtain ⟨z, hz, hzf⟩ := List.exists_of_findSome?_eq_some hf
      unfold rescaleVia at hzf
      split at hzf
      · next r hr =>
        unfold ratio? at hr
        rw [show e.named u = some nu from hnu] at hr
        split at hr
        · next n0 n1 h0 h1 =>
          injection h0 with h0; subst h0
          split at hr
          · injection hr with hr
            cases ht : truthy (search e z y) with
            | none => rw [ht] at hzf; cases hzf
            | some v =>
              rw [ht] at hzf
              injection hzf with hzf
              rw [← hzf, ← hr]
              exact mul_ne_zero (div_ne_zero hs (hn z n1 hz h1)) (truthy_some ht).2
          · cases hr
        · cases hr
      · cases hzf
  obtain ⟨f, hf, hf0⟩ := hresc
  have hd : ∀ a b : U, (∃ g, direct e a b = some g) → ∃ g, convertStrings e a b = some (some g) := by
    rintro a b ⟨g, hg⟩
    exact ⟨g, by unfold convertStrings enough convert; rw [hg]; rfl⟩
  constructor
  · apply hd
    unfold direct
    cases ht : truthy (simple e u y) with
    | some g => exact ⟨g, rfl⟩
    | none =>
      refine ⟨f, ?_⟩
      unfold rescaled
      rw [if_pos (show u ∉ e.units from hu), hf, truthy_ne hf0]
      exact truthy_ne hf0
  · apply hd
    unfold direct
    cases ht : truthy (simple e y u) with
    | some g => exact ⟨g, rfl⟩
    | none =>
      unfold rescaled
      cases h1 : (if y ∉ e.units then truthy (rescale e y u) else none) with
      | some g =>
        have hg0 : g ≠ 0 := by
          split at h1
          · exact (truthy_some h1).2
          · cases h1
        exact ⟨g, truthy_ne hg0⟩
      | none =>
        rw [if_pos (show u ∉ e.units from hu), hf, truthy_ne hf0]
        exact ⟨1 / f, truthy_ne (one_div_ne_zero hf0)⟩

end

/-- Nanotesla and gauss, in the tables of the module. -/
example : ((c!"T", c!"G"), (10000 : Rat)) ∈ declaredConversions numpyPi ∧
    c!"nT" ∉ tableOrder ∧ c!"T" ∈ tableOrder ∧
    (toNamed? (orUnknown (lookupFast c!"nT"))).map (fun n : Named Str BaseUnit Rat => (n.base, n.scale))
      = some (⟨c!"T", c!"tesla", c!"induction"⟩, 1 / 1000000000) := by
  refine ⟨?_, ?_, ?_, ?_⟩ <;> decide +kernel

/-! ## C74: conversion factors are ratios of magnitudes -/

/-- **C74.** With the declared conversions and the named units of the module, over every field of
characteristic zero and every non-zero value of pi: the factors found by the string-level search do
not depend on the order in which units are tried, converting through an intermediate unit gives the
factor of the direct conversion, and the factors in opposite directions are reciprocal. -/
theorem c74_factors {K : Type _} [Field K] [CharZero K] [DecidableEq K] (pi : K) (hpi : pi ≠ 0)
    (o1 o2 o3 : List Str) (u v w : Str) (f g h : K)
    (h1 : convertStrings (env pi o1) u v = some (some f))
    (h2 : convertStrings (env pi o2) v w = some (some g))
    (h3 : convertStrings (env pi o3) u w = some (some h)) :
    f * g = h ∧ (w = u → f * g = 1) ∧ (w = v → f = h) := by
  have hc := actual_consistent (K := K) hpi
  have e1 := c29_magnitude _ _ _ _ hc _ _ _ h1
  have e2 := c29_magnitude _ _ _ _ hc _ _ _ h2
  have e3 := c29_magnitude _ _ _ _ hc _ _ _ h3
  have hu := magnitude_ne hpi u
  have hv := magnitude_ne hpi v
  have hw := magnitude_ne hpi w
  refine ⟨?_, ?_, ?_⟩
  · rw [e1, e2, e3]; field_simp
  · rintro rfl; rw [e1, e2]; field_simp
  · rintro rfl; rw [e1, e3]

example : convertStrings (fastEnv numpyPi tableOrder) c!"MeV" c!"J" = some (some (8011 / 50000000000000000)) ∧
    convertStrings (fastEnv numpyPi tableOrder) c!"J" c!"erg" = some (some 10000000) ∧
    convertStrings (fastEnv numpyPi tableOrder) c!"eV" c!"erg"
      = some (some (8011 / 5000000000000000)) := by
  refine ⟨?_, ?_, ?_⟩ <;> decide +kernel

/-! ## C75: conversions can be inverted -/

/-- **C75, violated.** `erg cm` can be converted to `eV m`, but not the other way round. -/
theorem c75_counterexample :
    actualConversion tableOrder c!"erg cm" c!"eV m" = .ok (50000000000000 / 8011) ∧
    actualConversion tableOrder c!"eV m" c!"erg cm" = .error (.named "UnitConversionError") := by
  simp only [actualConversion_eq]
  refine ⟨?_, ?_⟩ <;> decide +kernel

/-- **C75.** When the string-level search succeeds in both directions the factors are reciprocal. -/
theorem c75_partial {K : Type _} [Field K] [CharZero K] [DecidableEq K] (pi : K) (hpi : pi ≠ 0)
    (o1 o2 : List Str) (u v : Str) (f g : K)
    (h1 : convertStrings (env pi o1) u v = some (some f))
    (h2 : convertStrings (env pi o2) v u = some (some g)) : g = f⁻¹ ∧ f ≠ 0 := by
  have hc := actual_consistent (K := K) hpi
  have e1 := c29_magnitude _ _ _ _ hc _ _ _ h1
  have e2 := c29_magnitude _ _ _ _ hc _ _ _ h2
  rw [e1, e2, inv_div]
  exact ⟨rfl, div_ne_zero (magnitude_ne hpi u) (magnitude_ne hpi v)⟩

example : convertStrings (fastEnv numpyPi tableOrder) c!"J" c!"eV"
      = some (some (50000000000000000000000 / 8011)) ∧
    convertStrings (fastEnv numpyPi tableOrder) c!"eV" c!"J"
      = some (some (8011 / 50000000000000000000000)) := by
  refine ⟨?_, ?_⟩ <;> decide +kernel

/-! ## C76: units of different dimensions cannot be converted -/

/-- **C76, violated.** Astronomical units are "converted" to electronvolts, minutes to the
dimensionless unit and ohm to volt, with factor one. -/
theorem c76_counterexample :
    actualConversion tableOrder c!"au" c!"eV" = .ok 1 ∧
    actualConversion tableOrder c!"min" c!"1" = .ok 1 ∧
    actualConversion tableOrder c!"ohm" c!"V" = .ok 1 ∧
    dimensionText actualBook .mks c!"au" = .ok (some c!"L") ∧
    dimensionText actualBook .mks c!"eV" = .ok (some c!"L^2 M T^-2") := by
  simp only [actualConversion_eq, actualBook_eq]
  refine ⟨?_, ?_, ?_, ?_, ?_⟩ <;> decide +kernel

/-! ## C83: the factor between compatible units is the ratio of their magnitudes -/

/-- **C83, violated.** The factor from `kg km s^-2` to `N` is 1 instead of 1000: the metric prefix is
lost when the units are reduced to base units. -/
theorem c83_counterexample :
    actualConversion tableOrder c!"kg km s^-2" c!"N" = .ok 1 ∧
    actualConversion tableOrder c!"kg m s^-2" c!"N" = .ok 1 ∧
    actualConversion tableOrder c!"km" c!"m" = .ok 1000 := by
  simp only [actualConversion_eq]
  refine ⟨?_, ?_, ?_⟩ <;> decide +kernel

/-- The ratio of the magnitudes of two unit expressions. -/
noncomputable def magnitudeRatio (e0 e1 : List Term) : ℝ := value magnitudes e0 / value magnitudes e1

/-- **C83.** Take exact real arithmetic, and assign to every unit the magnitude that the declared
conversions determine (`Metric/Magnitudes.lean`). A factor that `Conversion` computes is the ratio of
the magnitudes of the two units, whenever it is found by the string-level search or by matching the
terms of the two expressions in pairs (with no dimensionless unit of magnitude other than one, such as
`deg`, left over). Not covered: factors found by reducing the units to base units. -/
theorem c83_partial (order : List Str) (u0 u1 : Str) (f : ℝ)
    (h : conversion actualBook (env Real.pi order) realPow u0 u1 = .ok f) :
    f = magnitude Real.pi u0 / magnitude Real.pi u1 ∨
    ∃ e0 e1, ofString u0 = .ok e0 ∧ ofString u1 = .ok e1 ∧ ∀ _ : UnitLike e0, ∀ _ : UnitLike e1,
      ∃ r, exprDiv e0 e1 = .ok r ∧
        ((∀ t ∈ r, dimensionless actualBook t.base = .ok true → magnitude Real.pi t.base = 1) →
          f = magnitudeRatio e0 e1 ∨
          ∃ o c, truthy o = none ∧
            resolveTerms (env Real.pi order) realPow (dimensionless actualBook)
              (r.filter (fun t => t.base ∉ unity)) [] = .ok (o, c) ∧
            convertByDimensions actualBook (env Real.pi order) realPow
              (r.filter (fun t => t.base ∉ unity)) c = .ok (some f)) := by
  have hcons := actual_consistent (K := ℝ) Real.pi_ne_zero
  unfold conversion at h
  split at h
  · next g hg =>
    left
    simp only [Except.ok.injEq] at h
    rw [← h]
    exact c29_magnitude _ _ _ _ hcons _ _ _ hg
  · right
    unfold convertAsExpressions at h
    cases h0 : ofString u0 with
    | error z => rw [h0] at h; simp [bind, Except.bind] at h
    | ok e0 =>
      cases h1 : ofString u1 with
      | error z => rw [h0, h1] at h; simp [bind, Except.bind] at h
      | ok e1 =>
        refine ⟨e0, e1, rfl, rfl, ?_⟩
        intro hu0 hu1
        obtain ⟨r, hr, hrc, hval⟩ := ratio_value hu0 hu1
        refine ⟨r, hr, ?_⟩
        intro hd
        rw [h0, h1] at h
        simp only [bind, Except.bind, pure, Except.pure, hr] at h
        split at h
        · next heq =>
          left
          simp only [Except.ok.injEq] at h
          rw [← h, magnitudeRatio, (c20_eq e0 e1 hu0.1 hu1.1).2.1 heq magnitudes, div_self]
          rw [value_eq_exp, hu1.totals.1]
          simp [Real.exp_ne_zero]
        · cases hres : resolveTerms (env Real.pi order) realPow (dimensionless actualBook)
              (r.filter (fun t => t.base ∉ unity)) [] with
          | error z => rw [hres] at h; simp at h
          | ok q =>
            obtain ⟨o, c⟩ := q
            rw [hres] at h
            simp only at h
            cases ht : truthy o with
            | some g =>
              rw [ht] at h
              simp only [Except.ok.injEq] at h
              left
              rw [← h, magnitudeRatio, ← hval]
              rw [(truthy_some ht).1] at hres
              exact resolveTerms_sound (mag := magnitudes.val) hcons magnitude_pos _ _
                (fun t ht' => hd t (List.mem_of_mem_filter ht')) _ _ _ hres
            | none =>
              rw [ht] at h
              right
              refine ⟨o, c, ht, rfl, ?_⟩
              simp only at h
              cases hby : convertByDimensions actualBook (env Real.pi order) realPow
                  (r.filter (fun t => t.base ∉ unity)) c with
              | error z => rw [hby] at h; simp at h
              | ok p =>
                rw [hby] at h
                simp only at h
                cases ht2 : truthy p with
                | none => rw [ht2] at h; simp at h
                | some g =>
                  rw [ht2] at h
                  simp only [Except.ok.injEq] at h
                  rw [← h, (truthy_some ht2).1]

/-- A compound conversion of this kind. -/
example : actualConversion tableOrder c!"J au^-2" c!"erg km^-2"
    = .ok (10000000 / 149597870700 ^ 2 * 1000000) := by
  rw [actualConversion_eq]; decide +kernel

/-! ## C77: products of convertible units can be converted -/

/-- **C77, violated.** `eV` can be converted to `erg` and `m` to `cm`, but not `eV m` to `erg cm`. -/
theorem c77_counterexample :
    actualConversion tableOrder c!"eV" c!"erg" = .ok (8011 / 5000000000000000) ∧
    actualConversion tableOrder c!"m" c!"cm" = .ok 100 ∧
    actualConversion tableOrder c!"eV m" c!"erg cm" = .error (.named "UnitConversionError") := by
  simp only [actualConversion_eq]
  refine ⟨?_, ?_, ?_⟩ <;> decide +kernel

/-- **C77.** Powers of convertible units can be converted: two terms with opposite exponents whose
bases the string-level search converts are resolved, whatever the tables. -/
theorem c77_partial {K : Type _} [DecidableEq K] [Field K] (e : Env Str BaseUnit K)
    (pow : K → Rat → K) (dimless : Name → Res Bool) (u v : Str) (q : Rat) (f : K) (huv : u ≠ v)
    (h : convertStrings e u v = some (some f)) :
    ∃ c, resolveTerms e pow dimless [⟨1, u, q⟩, ⟨1, v, -q⟩] [] = .ok (some (pow f q), c) := by
  obtain ⟨p, hp, hpf⟩ := Option.map_eq_some_iff.1 h
  obtain ⟨o, c⟩ := p
  simp only at hpf
  subst hpf
  have hne : (⟨1, v, -q⟩ : Term) ≠ ⟨1, u, q⟩ := by
    intro h'; injection h' with _ h2 _; exact huv h2.symm
  have htry : tryLike e pow ⟨1, u, q⟩ [⟨1, v, -q⟩] [] = (some (pow f q, ⟨1, v, -q⟩), c) := by
    simp [tryLike, hp]
  have hlike : likeTerms ⟨1, u, q⟩ [⟨1, u, q⟩, ⟨1, v, -q⟩] = [⟨1, v, -q⟩] := by
    unfold likeTerms
    rw [List.filter_cons_of_neg (by simp), List.filter_cons_of_pos (by simp [huv.symm])]
    rfl
  refine ⟨c, ?_⟩
  unfold resolveTerms
  rw [if_neg (by simp), List.foldlM_cons]
  have h1 : resolveStep e pow dimless ⟨1, [], [⟨1, u, q⟩, ⟨1, v, -q⟩], []⟩ ⟨1, u, q⟩
      = .ok ⟨1 * pow f q, [⟨1, u, q⟩, ⟨1, v, -q⟩], [], c⟩ := by
    unfold resolveStep matchTerms
    simp only [hlike, htry, List.not_mem_nil, if_false, bind, Except.bind, pure, Except.pure,
      List.nil_append]
    rw [if_pos hne]
    simp [List.erase_cons]
  rw [h1]
  simp [resolveStep, bind, Except.bind, pure, Except.pure]

example : convertStrings (fastEnv numpyPi tableOrder) c!"au" c!"m" = some (some 149597870700) := by
  decide +kernel

/-! ## C84: equal unit expressions convert alike -/

/-- **C84, violated.** `A / m` and `A m^-1` are the same expression, but only the former can be
converted to oersted. In particular `Unit` objects, whose strings have the latter form, cannot be. -/
theorem c84_counterexample :
    ofString c!"A / m" = ofString c!"A m^-1" ∧
    (ofString c!"A / m").map exprStr = .ok c!"A m^-1" ∧
    actualConversion tableOrder c!"A / m" c!"Oe" = .ok (4 * numpyPi / 1000) ∧
    actualConversion tableOrder c!"A m^-1" c!"Oe" = .error (.named "UnitConversionError") := by
  simp only [actualConversion_eq]
  refine ⟨?_, ?_, ?_, ?_⟩ <;> decide +kernel

/-- **C84.** When the string-level search fails for both spellings, equal expressions convert alike. -/
theorem c84_partial {K : Type _} [DecidableEq K] [Field K] (b : Book) (e : Env Str BaseUnit K)
    (pow : K → Rat → K) (u u' v v' : Str) (hu : ofString u = ofString u')
    (hv : ofString v = ofString v') (h : ∀ f, convertStrings e u v ≠ some (some f))
    (h' : ∀ f, convertStrings e u' v' ≠ some (some f)) :
    conversion b e pow u v = conversion b e pow u' v' := by
  unfold conversion
  split
  · next f hf => exact absurd hf (h f)
  · unfold convertAsExpressions; rw [hu, hv]

example : ofString c!"km / s" = ofString c!"s^-1 km" ∧
    actualConversion tableOrder c!"km / s" c!"cm / s" = .ok 100000 ∧
    actualConversion tableOrder c!"s^-1 km" c!"cm s^-1" = .ok 100000 := by
  simp only [actualConversion_eq]
  refine ⟨?_, ?_, ?_⟩ <;> decide +kernel

/-! ## C82: every unit can be used in an expression -/

/-- **C82, violated.** `Ω` is the symbol of a unit, and `μm` that of a unit with prefix, but neither is
a unit expression. -/
theorem c82_counterexample :
    (lookupFast c!"Ω").isSome ∧ (lookupFast c!"μm").isSome ∧
    (ofString c!"Ω").toOption = none ∧ (ofString c!"μm").toOption = none := by
  refine ⟨?_, ?_, ?_, ?_⟩ <;> decide +kernel

/-- **C82.** A unit symbol or name made of letters that does not start with `sqrt` is a unit
expression with that one term. -/
theorem c82_partial (s : Str) (h : ValidName s) : ofString s = .ok [⟨1, s, 1⟩] := by
  have hne : s ≠ one := h.ne_one
  have hx : IsExpr [⟨1, s, 1⟩] := by
    refine ⟨[⟨1, s, 1⟩], by simp, by simp [h.ne_nil], ?_⟩
    have hv : CanonVars [⟨1, s, 1⟩] := ⟨by simp [hne, h.ne_nil], by simp, by simp⟩
    exact reduce_assemble (c := 1) (by simp) hv
  have := c22_integers_partial [⟨1, s, 1⟩] hx
    (by intro t ht; simp at ht; subst ht; exact ⟨⟨rfl, by norm_num⟩, rfl, Or.inr h⟩)
  simpa [exprStr, join, termStr, coefStr, expStr, hne] using this

example : ValidName c!"kilometer" :=
  ⟨c!"kilometer", [], by simp, by decide, by decide, by decide, by decide⟩

end Verif.Metric
