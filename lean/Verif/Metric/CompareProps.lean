import Verif.Metric.Compare
import Verif.Metric.ProductProps

/-! C234-C237: comparing named units, `conversion`, coefficients of units, relative magnitudes -/

set_option linter.unusedSimpArgs false
set_option linter.unusedSectionVars false

namespace Verif.Metric

open Verif.Py Verif.Symbolic

/-! ## C234: named units are equal if they are the same unit -/

theorem eqTo_known {u v : NamedUnit} {t : Str} (h : identify t = .ok v) : u.eqTo (.text t) = u.eqTo (.unit v) := by
  rw [NamedUnit.eqTo, NamedUnit.eqTo, show Other.toUnit (.text t) = .ok v from h]; rfl

theorem eqTo_unknown {u : NamedUnit} {t : Str} {x : Err} (h : identify t = .error x) :
    u.eqTo (.text t) = .error x := by
  rw [NamedUnit.eqTo, show Other.toUnit (.text t) = .error x from h]; rfl

/-- **C234, violated.** Comparing a unit with text that is not a unit fails. A unit is equal to its symbol, but a
dictionary, which compares the hashes first, does not find the one in place of the other. -/
theorem c234_counterexample :
    NamedUnit.eqTo ⟨⟨c!"", c!"", 1⟩, ⟨c!"m", c!"meter", c!"length"⟩⟩ (.text c!"foo")
      = .error (.named "UnitParsingError") ∧
    NamedUnit.eqTo ⟨⟨c!"", c!"", 1⟩, ⟨c!"m", c!"meter", c!"length"⟩⟩ (.text c!"m") = .ok true ∧
    ∃ (hash : BaseUnit × Prefix → Int) (hashText : Str → Int),
      NamedUnit.hashBy hash ⟨⟨c!"", c!"", 1⟩, ⟨c!"m", c!"meter", c!"length"⟩⟩ ≠ hashText c!"m" := by
  have h1 : identify c!"foo" = .error (.named "UnitParsingError") := by
    rw [identify_eq, lookup_fast, show lookupFast c!"foo" = none by decide +kernel]; rfl
  refine ⟨?_, ?_, fun _ => 0, fun _ => 1, by decide⟩
  · exact eqTo_unknown h1
  · rw [eqTo_known (identify_fast fast_m)]; rfl

theorem prefix_factor_inj : ∀ p ∈ prefixes, ∀ q ∈ prefixes, p.factor = q.factor → p = q := by decide +kernel

theorem named_ext {u v : NamedUnit} (h1 : u.base = v.base) (h2 : u.pre = v.pre) : u = v := by
  cases u; cases v; simp_all

theorem known_prefix {s : Str} {u : NamedUnit} (hs : identify s = .ok u) : u.pre ∈ prefixes :=
  (mem_allUnits.1 (lookup_some (identify_ok hs)).1).1

theorem same_scale {s t : Str} {u v : NamedUnit} (hs : identify s = .ok u) (ht : identify t = .ok v) :
    u.base = v.base ∧ u.scale = v.scale ↔ u = v :=
  ⟨fun h => named_ext h.1 (prefix_factor_inj u.pre (known_prefix hs) v.pre (known_prefix ht) h.2),
    fun h => ⟨congrArg _ h, congrArg _ h⟩⟩

theorem eqTo_unit (u v : NamedUnit) : u.eqTo (.unit v) = .ok (decide (u = v)) := by
  obtain ⟨p, a⟩ := u
  obtain ⟨q, b⟩ := v
  simp only [NamedUnit.eqTo, Other.toUnit, bind, Except.bind, pure, Except.pure, NamedUnit.mk.injEq]
  by_cases h1 : p = q <;> by_cases h2 : a = b <;> simp [h1, h2]

/-- **C234.** A named unit is equal to another exactly if they have the same base unit and a ratio of one; it does
not matter how the other is written, or which comes first; equal units have equal hashes; and text that is not a
unit is rejected. -/
theorem c234_partial (s t : Str) (u v : NamedUnit) (hs : identify s = .ok u) (ht : identify t = .ok v) :
    (u.eqTo (.unit v) = .ok true ↔ ratio u v = .ok 1) ∧
    (u.eqTo (.unit v) = .ok true ↔ u.base = v.base ∧ u.scale = v.scale) ∧
    u.eqTo (.text t) = u.eqTo (.unit v) ∧ v.eqTo (.text s) = u.eqTo (.unit v) ∧
    (∃ b, u.eqTo (.unit v) = .ok b) ∧
    (u.eqTo (.unit v) = .ok true → ∀ hash, u.hashBy hash = v.hashBy hash) ∧
    (∀ x e, identify x = .error e → u.eqTo (.text x) = .error (.named "UnitParsingError")) := by
  have hsc := same_scale hs ht
  have hsymm : v.eqTo (.text s) = u.eqTo (.unit v) := by
    rw [eqTo_known hs, eqTo_unit, eqTo_unit,
      show decide (v = u) = decide (u = v) from decide_eq_decide.2 eq_comm]
  refine ⟨?_, ?_, ?_, hsymm, ⟨_, eqTo_unit u v⟩, ?_, ?_⟩
  · rw [eqTo_unit]
    constructor
    · intro h
      have : u = v := by simpa using h
      unfold ratio; rw [if_pos this.symm]
    · intro h
      have : u = v := by
        unfold ratio at h
        split at h
        · next h' => exact h'.symm
        · split at h
          · cases h
          · next hb =>
            split at h
            · cases h
            · next hz =>
              rw [Except.ok.injEq, div_eq_one_iff_eq hz] at h
              exact hsc.1 ⟨(not_not.1 hb).symm, h⟩
      simp [this]
  · rw [hsc, eqTo_unit]; simp
  · exact eqTo_known ht
  · rw [eqTo_unit]
    intro h hash
    have : u = v := by simpa using h
    rw [this]
  · intro x e hx
    apply eqTo_unknown
    rw [identify_eq] at hx ⊢
    cases hl : lookup x with
    | some w => rw [hl] at hx; cases hx
    | none => rfl

example : identify c!"kilometer" = .ok ⟨⟨c!"k", c!"kilo", 1000⟩, ⟨c!"m", c!"meter", c!"length"⟩⟩ ∧
    identify c!"km" = .ok ⟨⟨c!"k", c!"kilo", 1000⟩, ⟨c!"m", c!"meter", c!"length"⟩⟩ :=
  ⟨identify_fast (by decide +kernel), identify_fast fast_km⟩

/-! ## C235: a conversion that is not possible is no error, unless asked for -/

/-- **C235, violated.** Units of magnetic induction in two metric systems, the elementary charge and a length, the
lux and a length, and a length and something that is not a unit: there is an exception, rather than no result. -/
theorem c235_counterexample :
    orNone false (actualConversion tableOrder c!"nT" c!"mG") = .error (.named "SystemAmbiguityError") ∧
    orNone false (actualConversion tableOrder c!"e" c!"m") = .error (.named "SystemAmbiguityError") ∧
    orNone false (actualConversion tableOrder c!"lx" c!"m") = .error .keyError ∧
    orNone false (actualConversion tableOrder c!"m" c!"foo") = .error (.named "UnitParsingError") ∧
    orNone false (actualConversion tableOrder c!"m" c!"s") = .ok none := by
  simp only [actualConversion_eq]
  refine ⟨?_, ?_, ?_, ?_, ?_⟩ <;> decide +kernel

/-- **C235.** Whatever the conversion is computed by: a factor is returned in both modes; an undefined conversion is
no result in one and the exception in the other; other exceptions are passed on in both. Hence there is never no
result in the strict mode, and never the exception otherwise. -/
theorem c235_partial {K : Type _} (factor : Res K) :
    (∀ strict f, orNone strict factor = .ok (some f) ↔ factor = .ok f) ∧
    (orNone false factor = .ok none ↔ factor = .error (.named "UnitConversionError")) ∧
    orNone true factor ≠ .ok none ∧
    orNone false factor ≠ .error (.named "UnitConversionError") ∧
    (∀ strict e, e ≠ .named "UnitConversionError" → (orNone strict factor = .error e ↔ factor = .error e)) ∧
    (orNone true factor = .error (.named "UnitConversionError") ↔
      factor = .error (.named "UnitConversionError")) := by
  cases factor with
  | ok f => simp [orNone]
  | error e =>
    by_cases he : e = .named "UnitConversionError"
    · subst he
      refine ⟨by intro s; cases s <;> simp [orNone], by simp [orNone], by simp [orNone], by simp [orNone], ?_,
        by simp [orNone]⟩
      intro s x hx
      cases s <;> simp [orNone, hx.symm]
    · simp [orNone, he]

/-! ## C236: numbers in units -/

/-- **C236, violated.** A length of one metre is no length of one times two metres, and so on. -/
theorem c236_counterexample :
    actualConversion tableOrder c!"2 m" c!"m" = .ok 1 ∧
    actualConversion tableOrder c!"m" c!"2 m" = .ok 1 ∧
    actualConversion tableOrder c!"2 km" c!"m" = .ok 1000 ∧
    actualConversion tableOrder c!"min" c!"2 s" = .ok 60 := by
  simp only [actualConversion_eq]
  refine ⟨?_, ?_, ?_, ?_⟩ <;> decide +kernel

theorem filter_assemble {c : Rat} {vars : List Term} :
    (assemble c vars).filter (fun t => t.base ∉ unity) = vars.filter (fun t => t.base ∉ unity) := by
  have hone : one ∈ unity := by decide
  unfold assemble
  split
  · next h => subst h; simp [hone]
  · split
    · rfl
    · rw [List.filter_cons_of_neg (by simpa using hone)]

/-- Expressions with the same exponents have the same units. -/
theorem filter_exponents {a b : List Term} (ha : IsExpr a) (hb : IsExpr b)
    (h : ∀ x, x ≠ one → totalExp a x = totalExp b x) :
    a.filter (fun t => t.base ∉ unity) = b.filter (fun t => t.base ∉ unity) := by
  obtain ⟨c, v, rfl, hc, hv⟩ := isExpr_assemble ha
  obtain ⟨d, w, rfl, hd, hw⟩ := isExpr_assemble hb
  rw [filter_assemble, filter_assemble]
  congr 1
  apply canonVars_ext hv hw
  intro x
  by_cases hx : x = one
  · subst hx
    rw [totalExp_of_not_mem (fun t ht => (hv.1 t ht).2.1), totalExp_of_not_mem (fun t ht => (hw.1 t ht).2.1)]
  · have := h x hx
    rwa [totalExp_assemble hx, totalExp_assemble hx] at this

theorem convertByDimensions_nil {K : Type _} [Field K] [DecidableEq K] (b : Book) (e : Env Str BaseUnit K)
    (pow : K → Rat → K) (checked : List Str) : convertByDimensions b e pow [] checked = .ok (some 1) := by
  unfold convertByDimensions
  have h : exprEq [⟨1, one, 1⟩] [⟨1, one, 1⟩] = true := by decide +kernel
  have h1 : ofTerms [] = .ok [⟨1, one, 1⟩] := by decide +kernel
  have h2 : ofString one = .ok [⟨1, one, 1⟩] := by decide +kernel
  simp only [List.mapM_nil, pure, Except.pure, bind, Except.bind, List.flatten_nil, h1, h2, h, if_true]

/-- What `_convert_as_expressions` does with the units of the ratio. -/
def convertUnits {K : Type _} [Field K] [DecidableEq K] (b : Book) (e : Env Str BaseUnit K) (pow : K → Rat → K)
    (terms : List Term) : Res K := do
  let (first, checked) ← resolveTerms e pow (dimensionless b) terms []
  match truthy first with
  | some f => return f
  | none =>
    match truthy (← convertByDimensions b e pow terms checked) with
    | some f => return f
    | none => .error (.named "UnitConversionError")

theorem convertUnits_nil {K : Type _} [Field K] [DecidableEq K] (b : Book) (e : Env Str BaseUnit K)
    (pow : K → Rat → K) : convertUnits b e pow [] = .ok 1 := by
  unfold convertUnits resolveTerms
  rw [if_pos (by simp)]
  simp only [bind, Except.bind, convertByDimensions_nil, truthy, Option.filter]
  simp [pure, Except.pure]

theorem convertAsExpressions_units {K : Type _} [Field K] [DecidableEq K] (b : Book) (e : Env Str BaseUnit K)
    (pow : K → Rat → K) {u0 u1 : Str} {e0 e1 r : List Term} (h0 : ofString u0 = .ok e0) (h1 : ofString u1 = .ok e1)
    (hr : exprDiv e0 e1 = .ok r) (hrr : IsExpr r)
    (hx : ∀ x, x ≠ one → totalExp r x = totalExp e0 x - totalExp e1 x) :
    convertAsExpressions b e pow u0 u1 = convertUnits b e pow (r.filter (fun t => t.base ∉ unity)) := by
  unfold convertAsExpressions
  rw [h0, h1]
  simp only [bind, Except.bind]
  by_cases heq : exprEq e0 e1 = true
  · rw [if_pos heq]
    have hone : IsExpr [⟨1, one, 1⟩] := ⟨[⟨1, one, 1⟩], by simp, by decide, by decide +kernel⟩
    have hperm := (exprEq_iff_perm e0 e1).1 heq
    have : r.filter (fun t => t.base ∉ unity) = [⟨1, one, 1⟩].filter (fun t => t.base ∉ unity) := by
      apply filter_exponents hrr hone
      intro x hx'
      rw [hx x hx', totalExp_perm hperm, sub_self, totalExp_cons, if_neg (Ne.symm hx')]
      simp [totalExp]
    rw [this, show ([⟨1, one, 1⟩] : List Term).filter (fun t => t.base ∉ unity) = [] by decide +kernel,
      convertUnits_nil]
    rfl
  · rw [if_neg heq, hr]
    rfl

/-- **C236.** Numbers in units have no effect on conversions: whatever the tables, units that differ in numbers only
are converted to any other with the same factor, or the same exception, unless conversions of the texts themselves
are declared. -/
theorem c236_partial {K : Type _} [Field K] [DecidableEq K] (b : Book) (e : Env Str BaseUnit K)
    (pow : K → Rat → K) (u0 u0' u1 : Str) (e0 e0' e1 : List Term)
    (hs : ∀ f, convertStrings e u0 u1 ≠ some (some f)) (hs' : ∀ f, convertStrings e u0' u1 ≠ some (some f))
    (h0 : ofString u0 = .ok e0) (h0' : ofString u0' = .ok e0') (h1 : ofString u1 = .ok e1)
    (he0 : IsExpr e0) (he0' : IsExpr e0') (he1 : IsExpr e1)
    (hexp : ∀ x, x ≠ one → totalExp e0 x = totalExp e0' x)
    (hp : ∀ r, IsExpr r → (totalCoef r = totalCoef e0 / totalCoef e1 ∨ totalCoef r = totalCoef e0' / totalCoef e1) →
      (∀ x, x ≠ one → totalExp r x = totalExp e0 x - totalExp e1 x) → Printable r) :
    conversion b e pow u0 u1 = conversion b e pow u0' u1 := by
  have hconv : ∀ u, (∀ f, convertStrings e u u1 ≠ some (some f)) →
      conversion b e pow u u1 = convertAsExpressions b e pow u u1 := by
    intro u hu
    unfold conversion
    split
    · next f hf => exact absurd hf (hu f)
    · rfl
  rw [hconv u0 hs, hconv u0' hs']
  obtain ⟨r, a1, a2, a3, a4⟩ := exprDiv_spec he0 he1
  obtain ⟨r', b1, b2, b3, b4⟩ := exprDiv_spec he0' he1
  rw [convertAsExpressions_units b e pow h0 h1 (a4 (hp r a1 (Or.inl a2) a3)) a1 a3,
    convertAsExpressions_units b e pow h0' h1
      (b4 (hp r' b1 (Or.inr b2) (fun x hx => by rw [b3 x hx, hexp x hx]))) b1 b3,
    filter_exponents a1 b1 (fun x hx => by rw [a3 x hx, b3 x hx, hexp x hx])]

/-- `2 m`, `m` and `km` meet the hypotheses. -/
example : ofString c!"2 m" = .ok [⟨2, one, 1⟩, ⟨1, c!"m", 1⟩] ∧ ofString c!"m" = .ok [⟨1, c!"m", 1⟩] ∧
    ofString c!"km" = .ok [⟨1, c!"km", 1⟩] ∧ IsExpr [⟨2, one, 1⟩, ⟨1, c!"m", 1⟩] ∧
    (∀ x, x ≠ one → totalExp [⟨2, one, 1⟩, ⟨1, c!"m", 1⟩] x = totalExp [⟨1, c!"m", 1⟩] x) ∧
    convertStrings (fastEnv numpyPi tableOrder) c!"2 m" c!"km" = some none := by
  refine ⟨by decide +kernel, by decide +kernel, by decide +kernel,
    ⟨_, by simp, by decide, (by decide +kernel : reduce [⟨2, one, 1⟩, ⟨1, c!"m", 1⟩] = .ok _)⟩, ?_, by decide +kernel⟩
  intro x hx
  rw [totalExp_cons, if_neg (Ne.symm hx), zero_add]

/-! ## C237: relative magnitudes -/

/-- **C237.** For named units with the same base unit, the factor of `Conversion`, the ratio of the named units, and
both kinds of relative magnitude are the same number, or each other's inverse. -/
theorem c237_ratio (b : Book) (order : List Str) (s t : Str) (u v : NamedUnit) (hs : identify s = .ok u)
    (ht : identify t = .ok v) (hb : u.base = v.base) (hu : u.scale ≠ 0) (hv : v.scale ≠ 0) :
    ratioOf s t = .ok (u.scale / v.scale) ∧ v.floordiv u = .ok (u.scale / v.scale) ∧
    conversion b (env Real.pi order) realPow s t = .ok ((u.scale / v.scale : Rat) : ℝ) ∧
    unitFloordiv (conversion b (env Real.pi order) realPow) t s = .ok (some ((u.scale / v.scale : Rat) : ℝ)) ∧
    unitRFloordiv (conversion b (env Real.pi order) realPow) s t = .ok (some ((u.scale / v.scale : Rat) : ℝ)) ∧
    unitFloordiv (conversion b (env Real.pi order) realPow) s t = .ok (some ((u.scale / v.scale : Rat) : ℝ)⁻¹) := by
  have key : ∀ (s t : Str) (u v : NamedUnit), identify s = .ok u → identify t = .ok v → u.base = v.base →
      u.scale ≠ 0 → v.scale ≠ 0 → conversion b (env Real.pi order) realPow s t = .ok ((u.scale / v.scale : Rat) : ℝ) := by
    intro s t u v hs ht hb hu hv
    have hd := direct_near order (s := s) (t := t) (Or.inl ⟨u, v, hs, ht, hb, hu, hv⟩)
    unfold conversion convertStrings
    rw [convert_direct _ hd]
    simp only [Option.map_some]
    rw [magnitude_of (lookupFast_of_identify hs), magnitude_of (lookupFast_of_identify ht)]
    have hl := lookupOne_ne (baseMagnitudes_ne Real.pi_ne_zero) v.base.symbol
    simp only [magnitudeOf, prefixFactor]
    rw [if_neg (show u.pre.factor ≠ 0 from hu), if_neg (show v.pre.factor ≠ 0 from hv), hb, mul_div_mul_right _ _ hl]
    simp [NamedUnit.scale]
  have hr : ratio u v = .ok (u.scale / v.scale) := by
    unfold ratio
    split
    · next h => rw [h, div_self hu]
    · rw [if_neg (not_not.2 hb.symm)]
  refine ⟨?_, hr, key s t u v hs ht hb hu hv, ?_, ?_, ?_⟩
  · unfold ratioOf; rw [hs, ht]; exact hr
  · unfold unitFloordiv; rw [key s t u v hs ht hb hu hv]; rfl
  · unfold unitRFloordiv; rw [key s t u v hs ht hb hu hv]; rfl
  · unfold unitFloordiv
    rw [key t s v u ht hs hb.symm hv hu]
    simp [orNone]

example : ratioOf c!"m" c!"km" = .ok (1 / 1000) := by
  unfold ratioOf; rw [identify_fast fast_m, identify_fast fast_km]; decide +kernel

end Verif.Metric
