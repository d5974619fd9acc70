import Verif.Metric.DimProps

/-!
# Properties of the tables of units and of equality of units

C76 (string-level part), C79, C85, C86.
-/

set_option linter.unusedSimpArgs false
set_option linter.unusedSectionVars false

namespace Verif.Metric

open Verif.Py Verif.Symbolic

/-! ## C76: units of different quantities are not converted by the string-level search -/

/-- Specification: quantities that the declared conversions mix. The farad (capacitance) is converted
to centimeters, nucleons and atomic mass units (mass number) to kilograms, and `cd` denotes both the
candela and the centiday. -/
def mixed (q : Str) : Str :=
  if q = c!"mass number" then c!"mass"
  else if q = c!"capacitance" then c!"length"
  else if q = c!"luminous intensity" then c!"time"
  else q

/-- The quantities of the compound units in declared conversions. -/
def compoundQuantities : List (Str × Str) :=
  [(c!"cm / s", c!"conductance"), (c!"erg / g", c!"dosage"), (c!"s / cm", c!"resistance"),
   (c!"s^2 / cm", c!"inductance"), (c!"A / m", c!"magnetic intensity"), (c!"H / m", c!"identity"),
   (c!"F / m", c!"identity"), (c!"erg / s", c!"power"), (c!"dyn / cm^2", c!"pressure"),
   (c!"A / Wb", c!"reluctance"), (c!"1 / cm", c!"reluctance"), (c!"Wb / m", c!"vector potential"),
   (c!"G * cm", c!"vector potential"), (c!"kg / (m * s)", c!"viscosity")]

/-- The quantity of a string, up to the mixing above, given what it denotes. -/
def quantityClassOf (s : Str) : Option NamedUnit → Str
  | some u => mixed u.quantity
  | none => ((compoundQuantities.find? (fun p => p.1 = s)).map (·.2)).getD []

/-- The quantity of a string, up to the mixing above. -/
def quantityClass (s : Str) : Str := quantityClassOf s (lookupFast s)

theorem quantityClass_of {s : Str} {o : Option NamedUnit} (h : lookupFast s = o) :
    quantityClass s = quantityClassOf s o := by rw [quantityClass, h]

theorem declared_ends {K : Type _} [Field K] (pi : K) :
    (declaredConversions pi).map (·.1) = (declaredConversions (K := Rat) 0).map (·.1) := rfl

theorem declared_class : ((declaredConversions (K := Rat) 0).map (·.1)).all
    (fun p => quantityClass p.1 = quantityClass p.2) = true := by decide +kernel

theorem class_spelling {s : Str} {u : NamedUnit} (h : lookupFast s = some u) :
    quantityClass u.symbol = quantityClass s ∧ quantityClass u.name = quantityClass s := by
  have hl : lookup s = some u := by rw [lookup_fast, h]
  obtain ⟨h1, h2⟩ := lookup_some hl
  obtain ⟨hp, hu⟩ := mem_allUnits.1 h1
  rw [quantityClass_of h]
  constructor
  · by_cases hcd : u.symbol = c!"cd"
    · have hu' := symbol_cd u.pre hp u.base hu hcd
      have hm : quantityClassOf s (some u) = c!"time" := by
        rcases hu' with hu' | hu'
        · rw [show u = ⟨⟨c!"", c!"", 1⟩, ⟨c!"cd", c!"candela", c!"luminous intensity"⟩⟩ from hu']
          rfl
        · rw [show u = ⟨⟨c!"c", c!"centi", 1 / 100⟩, ⟨c!"d", c!"day", c!"time"⟩⟩ from hu']
          rfl
      rw [hm, hcd]
      decide +kernel
    · have := (c27_partial u.symbol hcd).2.1 u.pre hp u.base hu (Or.inr (Or.inl rfl))
      rw [quantityClass_of (lookupFast_of_identify this)]
      rfl
  · have := c27_names u.pre hp u.base hu
    rw [show u.name = u.pre.name ++ u.base.name from rfl,
      quantityClass_of (lookupFast_of_identify this)]
    rfl

theorem convertStrings_chain {U B K : Type _} [DecidableEq U] [DecidableEq B] [DecidableEq K] [Field K]
    (base : List ((U × U) × K)) (units : List U) (named : U → Option (Named U B K)) (u0 u1 : U) (f : K)
    (hf : convertStrings ⟨mkConns base, units, named⟩ u0 u1 = some (some f)) :
    Chain base named u0 u1 f := by
  obtain ⟨o, h1, h2⟩ := c29_search base units named u0 u1
  have := h1 0
  unfold convertStrings enough at hf
  rw [Nat.add_zero, hf] at this
  injection this with this
  exact (h2 f this.symm).2

theorem chain_class {K : Type _} [Field K] [CharZero K] [DecidableEq K] {pi : K} {u v : Str} {f : K}
    (h : Chain (declaredConversions pi) named u v f) : quantityClass u = quantityClass v := by
  have hdecl : ∀ u v w, ((u, v), w) ∈ declaredConversions pi → quantityClass u = quantityClass v := by
    intro u v w hd
    have hm : (u, v) ∈ (declaredConversions pi).map (·.1) :=
      List.mem_map_of_mem (f := Prod.fst) hd
    rw [declared_ends] at hm
    have := List.all_eq_true.1 declared_class _ hm
    simpa using this
  induction h with
  | nil => rfl
  | @cons u v t w f s _ ih =>
    rw [← ih]
    cases s with
    | declared hd => exact hdecl _ _ _ hd
    | inverse hd _ => exact (hdecl _ _ _ hd).symm
    | other hn hx =>
      obtain ⟨x, hx', rfl⟩ := named_some hn
      rcases hx with rfl | rfl
      · exact (class_spelling hx').1.symm
      · exact (class_spelling hx').2.symm
    | unother hn hx =>
      obtain ⟨x, hx', rfl⟩ := named_some hn
      rcases hx with rfl | rfl
      · exact (class_spelling hx').1
      · exact (class_spelling hx').2
    | @rescale _ _ m n hm hn hb =>
      obtain ⟨x, hx, rfl⟩ := named_some hm
      obtain ⟨y, hy, rfl⟩ := named_some hn
      rw [quantityClass_of hx, quantityClass_of hy]
      have hb' : x.base = y.base := hb
      show mixed x.base.quantity = mixed y.base.quantity
      rw [hb']

/-- **C76.** The string-level search finds a factor between two named units only if they are units of
the same quantity, up to the three coincidences in `mixed`. -/
theorem c76_partial {K : Type _} [Field K] [CharZero K] [DecidableEq K] (pi : K) (order : List Str)
    (s t : Str) (u v : NamedUnit) (hs : identify s = .ok u) (ht : identify t = .ok v) (f : K)
    (h : convertStrings (env pi order) s t = some (some f)) :
    mixed u.quantity = mixed v.quantity := by
  have := chain_class (convertStrings_chain (declaredConversions pi) order named s t f h)
  rwa [quantityClass_of (lookupFast_of_identify hs), quantityClass_of (lookupFast_of_identify ht)] at this

example : convertStrings (fastEnv numpyPi (declaredUnits numpyPi)) c!"MeV" c!"J"
      = some (some (8011 / 50000000000000000)) ∧
    convertStrings (fastEnv numpyPi (declaredUnits numpyPi)) c!"au" c!"eV" = some none := by
  refine ⟨?_, ?_⟩ <;> decide +kernel

/-! ## C79: equality of units -/

/-- `Unit.dimensionless` (metric.py 2040-2056). -/
def unitDimensionless (b : Book) (u : List Term) : Res Bool := do
  let unit ← ofString one
  let m ← unitDimension b u .mks
  let c ← unitDimension b u .cgs
  return (match m with | some d => exprEq d unit | none => false) &&
    (match c with | some d => exprEq d unit | none => false)

/-- The end of `Unit.__eq__` (metric.py 2244-2252): is the factor one? -/
def factorIsOne : Res Rat → Res Bool
  | .ok f => .ok (f = 1)
  | .error (.named "UnitConversionError") => .ok false
  | .error e => .error e

/-- `Unit.__eq__` (metric.py 2199-2252) for different objects; `conv` computes conversion factors from
strings. -/
def unitEq (b : Book) (conv : Str → Str → Res Rat) (u v : List Term) : Res Bool := do
  if exprEq u v then return true
  else if (difference u v ++ difference v u).all (fun t => termStr t ∈ unity) then return true
  else
    let du ← decompose b u
    let dv ← decompose b v
    if (du.all (· ∈ dv)) && (dv.all (· ∈ du)) then return true
    else if exprEq (← ofTerms du) (← ofTerms dv) then return true
    else if (← unitDimensionless b u) ≠ (← unitDimensionless b v) then return false
    else factorIsOne (conv (exprStr v) (exprStr u))

/-- `Unit(u) == Unit(v)` with the tables of the module. -/
def actualUnitEq (u v : Str) : Res Bool := do
  unitEq actualBook (actualConversion (declaredUnits numpyPi)) (← ofString u) (← ofString v)

theorem actualUnitEq_eq (u v : Str) : actualUnitEq u v = (do
    unitEq fastBook (conversion fastBook (fastEnv numpyPi (declaredUnits numpyPi)) powInt)
      (← ofString u) (← ofString v)) := by
  have : actualConversion (declaredUnits numpyPi)
      = conversion fastBook (fastEnv numpyPi (declaredUnits numpyPi)) powInt :=
    funext fun a => funext fun b => actualConversion_eq _ a b
  rw [actualUnitEq, this, actualBook_eq]

/-- **C79, violated.** Ohm equals volt, the astronomical unit equals the electronvolt, and `kg km s^-2`
equals the newton. -/
theorem c79_counterexample :
    actualUnitEq c!"ohm" c!"V" = .ok true ∧ actualUnitEq c!"au" c!"eV" = .ok true ∧
    actualUnitEq c!"kg km s^-2" c!"N" = .ok true := by
  simp only [actualUnitEq_eq]
  refine ⟨?_, ?_, ?_⟩ <;> decide +kernel

/-- **C79.** Units that are equal as expressions are equal, whatever the tables. For other units that
do not decompose to the same terms, equality means that the computed conversion factor is one. -/
theorem c79_partial (b : Book) (conv : Str → Str → Res Rat) (u v : List Term) :
    (exprEq u v = true → unitEq b conv u v = .ok true) ∧
    (unitEq b conv u v = .ok true →
      exprEq u v = true ∨ (∀ t ∈ difference u v ++ difference v u, termStr t ∈ unity) ∨
      (∃ du dv, decompose b u = .ok du ∧ decompose b v = .ok dv ∧
        ((∀ t, t ∈ du ↔ t ∈ dv) ∨ ∃ eu ev, ofTerms du = .ok eu ∧ ofTerms dv = .ok ev ∧ eu.Perm ev)) ∨
      conv (exprStr v) (exprStr u) = .ok 1) := by
  constructor
  · intro h; unfold unitEq; rw [if_pos h]; rfl
  · intro h
    unfold unitEq at h
    split at h
    · next he => exact Or.inl he
    · split at h
      · next hd =>
        right; left
        intro t ht
        simpa using List.all_eq_true.1 hd t ht
      · right; right
        cases hu : decompose b u with
        | error z => rw [hu] at h; simp [bind, Except.bind] at h
        | ok du =>
          cases hv : decompose b v with
          | error z => rw [hu, hv] at h; simp [bind, Except.bind] at h
          | ok dv =>
            rw [hu, hv] at h
            simp only [bind, Except.bind, pure, Except.pure] at h
            split at h
            · next hs =>
              left
              refine ⟨du, dv, rfl, rfl, Or.inl ?_⟩
              simp only [Bool.and_eq_true, List.all_eq_true, decide_eq_true_eq] at hs
              exact fun t => ⟨hs.1 t, hs.2 t⟩
            · cases hou : ofTerms du with
              | error z => rw [hou] at h; simp at h
              | ok eu =>
                cases hov : ofTerms dv with
                | error z => rw [hou, hov] at h; simp at h
                | ok ev =>
                  rw [hou, hov] at h
                  simp only at h
                  split at h
                  · next hp =>
                    left
                    exact ⟨du, dv, rfl, rfl, Or.inr ⟨eu, ev, hou, hov, (exprEq_iff_perm _ _).1 hp⟩⟩
                  · right
                    cases h1 : unitDimensionless b u with
                    | error z => rw [h1] at h; simp at h
                    | ok p =>
                      cases h2 : unitDimensionless b v with
                      | error z => rw [h1, h2] at h; simp at h
                      | ok q =>
                        rw [h1, h2] at h
                        simp only at h
                        split at h
                        · simp at h
                        · unfold factorIsOne at h
                          split at h
                          · next f hf =>
                            rw [hf]
                            simp only [Except.ok.injEq, decide_eq_true_eq] at h
                            rw [h]
                          · simp at h
                          · simp at h

example : actualUnitEq c!"N" c!"kg m / s^2" = .ok true ∧ actualUnitEq c!"N" c!"dyn" = .ok false := by
  simp only [actualUnitEq_eq]
  refine ⟨?_, ?_⟩ <;> decide +kernel

/-! ## C85: the declared conversions agree with the products of SI units -/

/-- The declared factor from `u` to `v`. -/
def declaredFactor {K : Type _} [Field K] (pi : K) (u v : Str) : Option K :=
  ((declaredConversions pi).find? (fun p => p.1 = (u, v))).map (·.2)

/-- **C85, violated.** The farad is one coulomb per volt, but its declared factor is not the quotient of
theirs; and the henry per meter is one tesla per (ampere per meter), but its declared factor is not the
quotient of theirs (`1e7 / 4*PI` is parsed as `(1e7 / 4) * PI`). -/
theorem c85_counterexample :
    (∃ f q p : ℝ, declaredFactor Real.pi c!"F" c!"cm" = some f ∧
      declaredFactor Real.pi c!"C" c!"statC" = some q ∧
      declaredFactor Real.pi c!"V" c!"statV" = some p ∧ f * p ≠ q) ∧
    (∃ m t h : ℝ, declaredFactor Real.pi c!"H / m" c!"1" = some m ∧
      declaredFactor Real.pi c!"T" c!"G" = some t ∧
      declaredFactor Real.pi c!"A / m" c!"Oe" = some h ∧ m * h ≠ t) := by
  refine ⟨⟨_, _, _, rfl, rfl, rfl, ?_⟩, ⟨_, _, _, rfl, rfl, rfl, ?_⟩⟩
  · unfold lightSpeed; norm_num
  · have := Real.pi_gt_three
    have h2 : (10000000 / 4 * Real.pi) * (4 * Real.pi * (1 / 1000)) = 10000 * Real.pi ^ 2 := by ring
    rw [h2]
    nlinarith

/-- **C85.** The other products of SI units that the table determines hold: ampere second = coulomb,
joule = volt coulomb, volt = ohm ampere, siemens = 1 / ohm, henry = ohm second, watt = joule / second,
pascal = newton / m^2, gray = joule / kilogram, tesla = weber / m^2, weber / meter and electronvolt =
elementary charge times volt. -/
theorem c85_partial {K : Type _} [Field K] [CharZero K] (pi : K) :
    ∃ C A J V ohm S H W Pa N Gy T Wb Wm e eV : K,
      declaredFactor pi c!"C" c!"statC" = some C ∧ declaredFactor pi c!"A" c!"statA" = some A ∧
      declaredFactor pi c!"J" c!"erg" = some J ∧ declaredFactor pi c!"V" c!"statV" = some V ∧
      declaredFactor pi c!"ohm" c!"s / cm" = some ohm ∧ declaredFactor pi c!"S" c!"cm / s" = some S ∧
      declaredFactor pi c!"H" c!"s^2 / cm" = some H ∧ declaredFactor pi c!"W" c!"erg / s" = some W ∧
      declaredFactor pi c!"Pa" c!"dyn / cm^2" = some Pa ∧ declaredFactor pi c!"N" c!"dyn" = some N ∧
      declaredFactor pi c!"Gy" c!"erg / g" = some Gy ∧ declaredFactor pi c!"T" c!"G" = some T ∧
      declaredFactor pi c!"Wb" c!"Mx" = some Wb ∧ declaredFactor pi c!"Wb / m" c!"G * cm" = some Wm ∧
      declaredFactor pi c!"e" c!"C" = some e ∧ declaredFactor pi c!"eV" c!"J" = some eV ∧
      A = C ∧ V * C = J ∧ ohm * A = V ∧ S * ohm = 1 ∧ H = ohm ∧ W = J ∧ Pa * 100 ^ 2 = N ∧
      Gy * 1000 = J ∧ T * 100 ^ 2 = Wb ∧ Wm * 100 = Wb ∧ e = eV := by
  refine ⟨_, _, _, _, _, _, _, _, _, _, _, _, _, _, _, _, rfl, rfl, rfl, rfl, rfl, rfl, rfl, rfl, rfl,
    rfl, rfl, rfl, rfl, rfl, rfl, rfl, rfl, ?_, ?_, ?_, rfl, rfl, ?_, ?_, ?_, ?_, rfl⟩ <;>
    first | (unfold lightSpeed; norm_num) | norm_num

/-! ## C86: the listed dimensions agree with the products of SI units -/

/-- Whether two unit expressions have the same dimension. -/
def sameDimension (b : Book) (s : System) (p : Str × Str) : Res Bool := do
  match ← unitDimension b (← ofString p.1) s, ← unitDimension b (← ofString p.2) s with
  | some x, some y => return exprEq x y
  | _, _ => return false

/-- **C86, violated.** Volt per ampere does not have the dimension of ohm. -/
theorem c86_counterexample : sameDimension actualBook .mks (c!"V / A", c!"ohm") = .ok false ∧
    dimensionText actualBook .mks c!"V / A" = .ok (some c!"L^2 M I^-2 T^-3") ∧
    dimensionText actualBook .mks c!"ohm" = .ok (some c!"L^2 M I^-1 T^-3") := by
  rw [actualBook_eq]
  refine ⟨?_, ?_, ?_⟩ <;> decide +kernel

/-- Definitions of derived units in the MKS system. -/
def derivedMks : List (Str × Str) :=
  [(c!"kg m / s^2", c!"N"), (c!"N m", c!"J"), (c!"J / s", c!"W"), (c!"A s", c!"C"), (c!"J / C", c!"V"),
   (c!"C / V", c!"F"), (c!"A / V", c!"S"), (c!"V s", c!"Wb"), (c!"Wb / A", c!"H"), (c!"Wb / m^2", c!"T"),
   (c!"N / m^2", c!"Pa"), (c!"1 / s", c!"Hz"), (c!"1 / s", c!"Bq"), (c!"J / kg", c!"Gy")]

/-- Definitions of derived units in the CGS system. -/
def derivedCgs : List (Str × Str) :=
  [(c!"g cm / s^2", c!"dyn"), (c!"dyn cm", c!"erg"), (c!"statA s", c!"statC"),
   (c!"erg / statC", c!"statV"), (c!"G cm^2", c!"Mx"), (c!"g / (cm s)", c!"P"), (c!"G", c!"Oe"),
   (c!"dyn^1/2 cm", c!"statC")]

/-- **C86.** All other defining products of derived units have the listed dimensions. -/
theorem c86_partial : (∀ p ∈ derivedMks, sameDimension actualBook .mks p = .ok true) ∧
    (∀ p ∈ derivedCgs, sameDimension actualBook .cgs p = .ok true) := by
  rw [actualBook_eq]
  have h1 : derivedMks.all (fun p => isTrue (sameDimension fastBook .mks p)) = true := by decide +kernel
  have h2 : derivedCgs.all (fun p => isTrue (sameDimension fastBook .cgs p)) = true := by decide +kernel
  exact ⟨fun p hp => isTrue_iff.1 (List.all_eq_true.1 h1 p hp),
    fun p hp => isTrue_iff.1 (List.all_eq_true.1 h2 p hp)⟩

end Verif.Metric
