import Verif.Defaults.DefaultProps
import Verif.Defaults.ShippedProps
import Verif.Metric.ConversionProps

/-!
# Units and bounds of the packaged defaults

Defaults are plausible in their units (C128), the packaged constants agree with the table of units
(C137), and defaults respect the declared bounds (C139).
-/

set_option linter.unusedSimpArgs false

namespace Verif.Defaults

open Verif.Py Verif.Runtime
open Verif.Metric (actualConversion tableOrder actualConversion_eq)

/-! ## C128: defaults in their units -/

/-- The unit of a parameter of `configuration.c` (runtime.py 1521-1524); those without metadata have
none. -/
def parameterUnit (n : Str) : Option Str :=
  match configMeta.get? n with
  | some (_, u) => u
  | none => none

/-- The numbers in a value. -/
def numbersOf : Val Rat → List Rat
  | .num x => [x]
  | .list xs => xs
  | _ => []

/-- Angles between zero and a full turn; positive energies and energies per nucleon. -/
def Plausible (u : Str) (x : Rat) : Prop :=
  (u = c!"rad" → 0 ≤ x ∧ x < 6.28) ∧ (u = c!"MeV" ∨ u = c!"MeV/nuc" → 0 < x)

instance (u : Str) (x : Rat) : Decidable (Plausible u x) := by unfold Plausible; infer_instance

/-- The whole table: angles and energies. -/
theorem defaults_plausible : ∀ e ∈ shippedReference, ∀ u, parameterUnit e.1 = some u →
    u = c!"rad" ∨ u = c!"MeV" ∨ u = c!"MeV/nuc" → e.1 ∉ derived ∧
    ∀ v, plainValue e.2.1 e.2.2 = some v → numbersOf v ≠ [] ∧ ∀ x ∈ numbersOf v, Plausible u x := by
  have h : ∀ e ∈ shippedReference,
      (match parameterUnit e.1, plainValue e.2.1 e.2.2 with
       | some u, some v => decide (u = c!"rad" ∨ u = c!"MeV" ∨ u = c!"MeV/nuc" →
          e.1 ∉ derived ∧ numbersOf v ≠ [] ∧ ∀ x ∈ numbersOf v, Plausible u x)
       | some u, none => decide (¬ (u = c!"rad" ∨ u = c!"MeV" ∨ u = c!"MeV/nuc"))
       | none, _ => true) = true := by decide +kernel
  intro e he u hu hk
  have := h e he
  cases hp : plainValue e.2.1 e.2.2 with
  | none => rw [hu, hp] at this; simp only [decide_eq_true_eq] at this; exact absurd hk this
  | some v =>
    rw [hu, hp] at this
    simp only [decide_eq_true_eq] at this
    obtain ⟨h1, h2, h3⟩ := this hk
    refine ⟨h1, fun v' hv' => ?_⟩
    cases hv'
    exact ⟨h2, h3⟩

section
variable (user : Dict Str Str) (base : Dict Str Rat) (τ m : Rat)
  (hτ : base.get? c!"TAU" = some τ) (hm : base.get? c!"MAS_TIME_NORM" = some m) (hm0 : m ≠ 0)
  (hnames : ∀ n x, base.get? n = some x → ∀ c ∈ n, isWord c = true) (hu : Readable user)

include hτ hm hm0 hnames hu

/-- **C128 (part).** Whatever else the user sets: every angle that they leave unset has a default
between zero and a full turn, and every energy a positive default. -/
theorem c128_partial (n d : Str) (t : Typ) (u : Str) (h : shippedReference.get? n = some (d, t))
    (hun : Unset user n) (hunit : parameterUnit n = some u)
    (hk : u = c!"rad" ∨ u = c!"MeV" ∨ u = c!"MeV/nuc") (f : Nat) :
    ∃ v, (rationalParams shippedReference user base).lookup (f + 5) n = .ok v ∧ numbersOf v ≠ [] ∧
      ∀ x ∈ numbersOf v, Plausible u x := by
  obtain ⟨_, _, _, _, hall⟩ := c127_defaults user base τ m hτ hm hm0 hnames hu
  obtain ⟨hd, hv⟩ := defaults_plausible _ (Dict.mem_of_get? h) u hunit hk
  obtain ⟨v, h1, h2⟩ := ((hall n d t f h).2 hun).2.2.2.2.2 hd
  exact ⟨v, h2, hv v h1⟩

/-- **C128, violated.** The unit of the speeds is `km/s`, but the defaults are in `cm/s`: every default
speed exceeds the speed of light. The rotation rate of the Sun is in radians per `TAU`, but its unit
stands for radians per second times `cm/au`; the Sun would take more than a billion years to turn. -/
theorem c128_counterexample (f : Nat) :
    (∀ n, n ∈ shippedReference.keys → parameterUnit n = some c!"km/s" → Unset user n →
      ∃ x factor, (rationalParams shippedReference user base).lookup (f + 5) n = .ok (.num x) ∧
        actualConversion tableOrder c!"km/s" c!"cm/s" = .ok factor ∧ x * factor > 2.99792458e10) ∧
    (parameterUnit c!"flowMag" = some c!"km/s" ∧ c!"flowMag" ∈ shippedReference.keys) ∧
    (Unset user c!"omegaSun" → 499 < τ → τ < 500 → 1445 < m → m < 1446 →
      ∃ x factor, (rationalParams shippedReference user base).lookup (f + 5) c!"omegaSun"
          = .ok (.num x) ∧ parameterUnit c!"omegaSun" = some c!"rad * cm / (au * s)" ∧
        actualConversion tableOrder c!"rad * cm / (au * s)" c!"rad / s" = .ok factor ∧
        0 < x * factor ∧ 6 / (x * factor) > 1000000000 * (365 * 24 * 3600)) := by
  obtain ⟨_, _, _, _, hall⟩ := c127_defaults user base τ m hτ hm hm0 hnames hu
  have hf : actualConversion tableOrder c!"km/s" c!"cm/s" = .ok 100000 := by
    rw [actualConversion_eq]; decide +kernel
  refine ⟨fun n hn hunit hun => ?_, ⟨by decide +kernel, by decide +kernel⟩, fun hun h1 h2 h3 h4 => ?_⟩
  · rw [← Dict.get?_isSome_iff] at hn
    obtain ⟨⟨d, t⟩, h⟩ := Option.isSome_iff_exists.1 hn
    have htab : ∀ e ∈ shippedReference, parameterUnit e.1 = some c!"km/s" →
        e.1 ∉ derived ∧ (plainValue e.2.1 e.2.2 = some (.num 40000000)
          ∨ plainValue e.2.1 e.2.2 = some (.num 150000000)) := by decide +kernel
    obtain ⟨hd, hv⟩ := htab _ (Dict.mem_of_get? h) hunit
    obtain ⟨v, hv', h2⟩ := ((hall n d t f h).2 hun).2.2.2.2.2 hd
    rcases hv with hv | hv
    · rw [hv] at hv'; cases hv'
      exact ⟨_, _, h2, hf, by norm_num⟩
    · rw [hv] at hv'; cases hv'
      exact ⟨_, _, h2, hf, by norm_num⟩
  · have hr : shippedReference.get? c!"omegaSun" = some (c!"(0.004144/MAS_TIME_NORM)*TAU", .float) := by
      decide +kernel
    obtain ⟨y, hy, hom⟩ := ((hall _ _ _ f hr).2 hun).2.2.2.1 rfl
    have hy' : toFloat 0.004144 = .ok (2388853357545387 / 576460752303423488) := by decide +kernel
    rw [hy'] at hy
    injection hy with hy
    have hy0 : 0 < y := by rw [← hy]; norm_num
    have hy1 : y < 0.0042 := by rw [← hy]; norm_num
    clear hy hy'
    have hc : actualConversion tableOrder c!"rad * cm / (au * s)" c!"rad / s"
        = .ok (1 / 14959787070000) := by
      rw [actualConversion_eq]; decide +kernel
    have hτ0 : (0:Rat) < τ := by linarith
    have hmm : (0:Rat) < m := by linarith
    refine ⟨_, _, hom, by decide +kernel, hc, by positivity, ?_⟩
    have hb : y / m * τ < 0.0015 := by
      rw [div_mul_eq_mul_div, div_lt_iff₀ hmm]
      calc y * τ < 0.0042 * 500 := mul_lt_mul'' hy1 h2 hy0.le hτ0.le
        _ ≤ 0.0015 * m := by norm_num; linarith
    have hp : (0:Rat) < y / m * τ := by positivity
    rw [gt_iff_lt, lt_div_iff₀ (by positivity)]
    nlinarith

end

example : let P := rationalParams shippedReference smallUser twoBases
    P.lookup 5 c!"idealShockTheta" = .ok (.num (3537118140137533 / 2251799813685248)) ∧ parameterUnit c!"idealShockTheta" = some c!"rad"
    ∧ P.lookup 5 c!"flowMag" = .ok (.num 40000000) := by decide +kernel

/-! ## C137: constants and units -/

/-- The result of looking up a packaged constant (runtime.py 188-196). -/
noncomputable def constant (n : Str) : Res ℝ := getConstant shippedBases 3 n

/-- **C137 (part).** The packaged constants agree with the library's own table of units and with each
other: `AU` is the number of centimetres in an astronomical unit, `EV`, `MEV` and `GEV` are the floats
nearest to the numbers of ergs in electron volts, light covers `AU` in `TAU`, `DAY` and `MAS_TIME_CONVERT` are times in days, and
`MZERO` is the rest energy of `MP`. -/
theorem c137_partial (ν : Str → ℝ) (H : Solution ν) :
    (∃ f : Rat, actualConversion tableOrder c!"au" c!"cm" = .ok f ∧ constant c!"AU" = .ok (f : ℝ)) ∧
    (∃ f g : Rat, actualConversion tableOrder c!"eV" c!"erg" = .ok f ∧ toFloat f = .ok g ∧ constant c!"EV" = .ok (g : ℝ)) ∧
    (∃ f g : Rat, actualConversion tableOrder c!"MeV" c!"erg" = .ok f ∧ toFloat f = .ok g ∧
      constant c!"MEV" = .ok (g : ℝ)) ∧
    (∃ f g : Rat, actualConversion tableOrder c!"GeV" c!"erg" = .ok f ∧ toFloat f = .ok g ∧
      constant c!"GEV" = .ok (g : ℝ)) ∧
    (∃ au c τ d m : ℝ, constant c!"AU" = .ok au ∧ constant c!"C" = .ok c ∧ constant c!"TAU" = .ok τ ∧
      constant c!"DAY" = .ok d ∧ constant c!"MAS_TIME_NORM" = .ok m ∧ c * τ = au ∧
      ∃ f : Rat, actualConversion tableOrder c!"day" c!"s" = .ok f ∧ d * f = τ ∧
        constant c!"MAS_TIME_CONVERT" = .ok (m / f)) ∧
    (∃ mp c gev z : ℝ, constant c!"MP" = .ok mp ∧ constant c!"C" = .ok c ∧ constant c!"GEV" = .ok gev ∧
      constant c!"MZERO" = .ok z ∧ z * gev = mp * c ^ 2) := by
  have key : ∀ n, n ∈ baseTexts.keys → n ≠ c!"MAS_B_CONVERT" → constant n = .ok (ν n) :=
    fun n h1 _ => c129_constants ν H n h1 0
  have q0 : actualConversion tableOrder c!"au" c!"cm" = .ok 14959787070000 := by
    rw [actualConversion_eq]; decide +kernel
  have q1 : actualConversion tableOrder c!"eV" c!"erg" = .ok (8011 / 5000000000000000) := by
    rw [actualConversion_eq]; decide +kernel
  have q2 : actualConversion tableOrder c!"MeV" c!"erg" = .ok (8011 / 5000000000) := by
    rw [actualConversion_eq]; decide +kernel
  have q3 : actualConversion tableOrder c!"GeV" c!"erg" = .ok (8011 / 5000000) := by
    rw [actualConversion_eq]; decide +kernel
  have q4 : actualConversion tableOrder c!"day" c!"s" = .ok 86400 := by
    rw [actualConversion_eq]; decide +kernel
  have k0 := key c!"AU" (by decide +kernel) (by decide)
  have k1 := key c!"EV" (by decide +kernel) (by decide)
  have k2 := key c!"MEV" (by decide +kernel) (by decide)
  have k3 := key c!"GEV" (by decide +kernel) (by decide)
  have k4 := key c!"C" (by decide +kernel) (by decide)
  have k5 := key c!"TAU" (by decide +kernel) (by decide)
  have k6 := key c!"DAY" (by decide +kernel) (by decide)
  have k7 := key c!"MAS_TIME_NORM" (by decide +kernel) (by decide)
  have k8 := key c!"MAS_TIME_CONVERT" (by decide +kernel) (by decide)
  have k9 := key c!"MP" (by decide +kernel) (by decide)
  have k10 := key c!"MZERO" (by decide +kernel) (by decide)
  have v0 := H c!"AU" _ (show shippedC.get? c!"AU" = some (.lit c!"1.495978707e13" 14959787070000) by
    decide +kernel)
  have v1 := H c!"EV" _ (show shippedC.get? c!"EV" = some (.lit c!"1.6022e-12" (7933710123772145 / 4951760157141521099596496896)) by
    decide +kernel)
  have v2 := H c!"MEV" _ (show shippedC.get? c!"MEV" = some (.lit c!"1.6022e-6" (3783087789426873 / 2361183241434822606848)) by
    decide +kernel)
  have v3 := H c!"GEV" _ (show shippedC.get? c!"GEV" = some (.lit c!"1.6022e-3" (7388843338724361 / 4611686018427387904)) by
    decide +kernel)
  have v4 := H c!"C" _ (show shippedC.get? c!"C" = some (.lit c!"2.99792458e10" 29979245800) by
    decide +kernel)
  have v5 := H c!"TAU" _ (show shippedC.get? c!"TAU"
    = some (.paren (.div (.name c!"AU") (.name c!"C"))) by decide +kernel)
  have v6 := H c!"DAY" _ (show shippedC.get? c!"DAY"
    = some (.paren (.div (.name c!"TAU") (.paren (.mul (.mul (.lit c!"24.0" 24) (.lit c!"60.0" 60))
        (.lit c!"60.0" 60))))) by decide +kernel)
  have v8 := H c!"MAS_TIME_CONVERT" _ (show shippedC.get? c!"MAS_TIME_CONVERT"
    = some (.div (.name c!"MAS_TIME_NORM") (.paren (.mul (.mul (.lit c!"24.0" 24) (.lit c!"60.0" 60))
        (.lit c!"60.0" 60)))) by decide +kernel)
  have v10 := H c!"MZERO" _ (show shippedC.get? c!"MZERO"
    = some (.paren (.div (.mul (.mul (.name c!"MP") (.name c!"C")) (.name c!"C")) (.name c!"GEV"))) by
    decide +kernel)
  simp only [CExpr.value] at v0 v1 v2 v3 v4 v5 v6 v8 v10
  refine ⟨⟨_, q0, by rw [k0, v0]⟩, ⟨_, 7933710123772145 / 4951760157141521099596496896, q1,
    by decide +kernel, by rw [k1, v1]⟩, ⟨_, 3783087789426873 / 2361183241434822606848, q2,
    by decide +kernel, by rw [k2, v2]⟩,
    ⟨_, 7388843338724361 / 4611686018427387904, q3,
    by decide +kernel, by rw [k3, v3]⟩, ⟨_, _, _, _, _, k0, k4, k5, k6, k7, ?_, _, q4, ?_, ?_⟩,
    ⟨_, _, _, _, k9, k4, k3, k10, ?_⟩⟩
  · rw [v5, v4, v0]; push_cast; norm_num
  · rw [v6]; push_cast; ring
  · rw [k8, v8]
    have : ((24:Rat):ℝ) * ((60:Rat):ℝ) * ((60:Rat):ℝ) = ((86400:Rat):ℝ) := by norm_num
    rw [this]
  · have hg : ν c!"GEV" ≠ 0 := by rw [v3]; norm_num
    rw [v10]; field_simp

/-- **C137, violated.** `RSAU` is described as the number of solar radii per astronomical unit, but is the
number of astronomical units per solar radius. -/
theorem c137_counterexample (ν : Str → ℝ) (H : Solution ν) :
    ∃ r s a : ℝ, constant c!"RSAU" = .ok r ∧ constant c!"RSUN" = .ok s ∧ constant c!"AU" = .ok a ∧
      r * a = s ∧ r * s ≠ a := by
  have key : ∀ n, n ∈ baseTexts.keys → n ≠ c!"MAS_B_CONVERT" → constant n = .ok (ν n) :=
    fun n h1 _ => c129_constants ν H n h1 0
  have v0 := H c!"AU" _ (show shippedC.get? c!"AU" = some (.lit c!"1.495978707e13" 14959787070000) by
    decide +kernel)
  have v1 := H c!"RSUN" _ (show shippedC.get? c!"RSUN" = some (.lit c!"6.96e10" 69600000000) by
    decide +kernel)
  have v2 := H c!"RSAU" _ (show shippedC.get? c!"RSAU"
    = some (.paren (.div (.name c!"RSUN") (.name c!"AU"))) by decide +kernel)
  simp only [CExpr.value] at v0 v1 v2
  refine ⟨_, _, _, key c!"RSAU" (by decide +kernel) (by decide), key c!"RSUN" (by decide +kernel) (by decide),
    key c!"AU" (by decide +kernel) (by decide), ?_, ?_⟩
  · rw [v2, v1, v0]; push_cast; norm_num
  · rw [v2, v1, v0]; push_cast; norm_num

/-! ## C139: declared bounds -/

/-- The number that a bound in `configuration.c` stands for: a numeral, a constant of `baseTypes.h`, or
one of the two products that occur.  References to other parameters are not numbers. -/
def boundValue (s : Str) : Option Rat :=
  match decimalFloat s with
  | some x => some x
  | none => if s = c!"2.0 * PI" then some (884279719003555 / 140737488355328)
    else if s = c!"-1.0 * BADVALUE" then some (-999999999999999945575230987042816)
    else match baseTexts.get? s with
      | some t => decimalFloat t
      | none => none

/-- The parameter respects its declared bounds. -/
def Within (e : Entry) (x : Rat) : Prop :=
  (∀ s b, e.minimum = some s → boundValue s = some b → b ≤ x) ∧
  (∀ s b, e.maximum = some s → boundValue s = some b → x ≤ b)

/-- `Within`, computed. -/
def within (e : Entry) (x : Rat) : Bool :=
  (match e.minimum.bind boundValue with | some b => decide (b ≤ x) | none => true) &&
  (match e.maximum.bind boundValue with | some b => decide (x ≤ b) | none => true)

theorem within_iff (e : Entry) (x : Rat) : within e x = true ↔ Within e x := by
  unfold within Within
  rw [Bool.and_eq_true]
  refine and_congr ?_ ?_
  · cases h : e.minimum with
    | none => simp
    | some s =>
      cases h' : boundValue s with
      | none =>
        simp only [Option.bind_some, h', Option.some.injEq, true_iff]
        rintro _ b rfl hb; rw [h'] at hb; cases hb
      | some v =>
        simp only [Option.bind_some, h', Option.some.injEq, decide_eq_true_eq]
        refine ⟨?_, fun k => k s v rfl h'⟩
        rintro k _ b rfl hb; rw [h'] at hb; cases hb; exact k
  · cases h : e.maximum with
    | none => simp
    | some s =>
      cases h' : boundValue s with
      | none =>
        simp only [Option.bind_some, h', Option.some.injEq, true_iff]
        rintro _ b rfl hb; rw [h'] at hb; cases hb
      | some v =>
        simp only [Option.bind_some, h', Option.some.injEq, decide_eq_true_eq]
        refine ⟨?_, fun k => k s v rfl h'⟩
        rintro k _ b rfl hb; rw [h'] at hb; cases hb; exact k

/-- The whole table: every bound is a number, or a reference to one of three names. -/
theorem bounds_known : ∀ e ∈ configEntries, ∀ s, e.2.minimum = some s ∨ e.2.maximum = some s →
    (boundValue s).isSome ∨ s = c!"config.eMin" ∨ s = c!"config.simStartTime" ∨ s = c!"N_PROCS" := by
  have h : ∀ e ∈ configEntries, ∀ s ∈ e.2.minimum.toList ++ e.2.maximum.toList,
    (boundValue s).isSome ∨ s = c!"config.eMin" ∨ s = c!"config.simStartTime" ∨ s = c!"N_PROCS" := by
    decide +kernel
  intro e he s hs
  exact h e he s (by rcases hs with hs | hs <;> simp [hs])

/-- The whole table: plain defaults are within their bounds. -/
theorem defaults_within : ∀ e ∈ configEntries, e.1 ∉ derived → ∀ x,
    plainValue e.2.default (modeType e.2.mode) = some (.num x) → Within e.2 x := by
  have h : ∀ e ∈ configEntries, (match plainValue e.2.default (modeType e.2.mode) with
      | some (.num x) => within e.2 x
      | _ => true) = true := by decide +kernel
  intro e he _ x hx
  have := h e he
  rw [hx] at this
  exact (within_iff _ _).1 this

theorem shipped_get {n : Str} {e : Entry} (h : configEntries.get? n = some e) :
    shippedReference.get? n = some (e.default, modeType e.mode) := by
  unfold shippedReference
  generalize configEntries = d at h
  induction d with
  | nil => cases h
  | cons p d ih =>
    obtain ⟨k, v⟩ := p
    simp only [List.map_cons, Dict.get?] at h ⊢
    by_cases hk : k = n
    · subst hk; simp at h; simp [h]
    · simp only [List.find?_cons, hk, decide_false] at h ⊢
      exact ih h

/-- **C139 (part).** Whatever else the user sets, a numerical parameter that they leave unset and whose
default does not refer to other parameters has a value within all its declared bounds that are numbers.
The default start of the shock is not before the start of the simulation, and the default end not
before it, unless the time step is negative. -/
theorem c139_partial (user : Dict Str Str) (base : Dict Str Rat) (τ m : Rat)
    (hτ : base.get? c!"TAU" = some τ) (hm : base.get? c!"MAS_TIME_NORM" = some m) (hm0 : m ≠ 0)
    (hnames : ∀ n x, base.get? n = some x → ∀ c ∈ n, isWord c = true) (hu : Readable user) (f : Nat) :
    let P := rationalParams shippedReference user base
    (∀ n e, configEntries.get? n = some e → n ∉ derived → Unset user n →
      ∀ x, P.lookup (f + 5) n = .ok (.num x) → Within e x) ∧
    (∀ s x, Unset user c!"idealShockInitTime" → P.lookup (f + 5) c!"simStartTime" = .ok (.num s) →
      P.lookup (f + 5) c!"idealShockInitTime" = .ok (.num x) → s ≤ x) ∧
    (∀ s t x, Unset user c!"simStopTime" → P.lookup (f + 5) c!"simStartTime" = .ok (.num s) →
      P.lookup (f + 5) c!"tDel" = .ok (.num t) → 0 ≤ t → s + t ≠ 0 →
      P.lookup (f + 5) c!"simStopTime" = .ok (.num x) → s ≤ x) := by
  obtain ⟨start, del, h1, h2, hall⟩ := c127_defaults user base τ m hτ hm hm0 hnames hu
  refine ⟨fun n e hn hd hun x hx => ?_, fun s x hun hs hx => ?_, fun s t x hun hs ht h0 hst hx => ?_⟩
  · obtain ⟨v, hv, hl⟩ := ((hall n _ _ f (shipped_get hn)).2 hun).2.2.2.2.2 hd
    rw [hl] at hx; cases hx
    exact defaults_within _ (Dict.mem_of_get? hn) hd x hv
  · have r : shippedReference.get? c!"idealShockInitTime" = some (c!"config.simStartTime", .float) := by
      decide +kernel
    have := ((hall _ _ _ f r).2 hun).1 (Or.inr rfl)
    rw [this] at hx; rw [h1] at hs
    cases hx; cases hs; exact le_rfl
  · have r : shippedReference.get? c!"simStopTime"
        = some (c!"config.simStartTime + config.tDel", .float) := by decide +kernel
    rw [h1] at hs; rw [h2] at ht; cases hs; cases ht
    have := ((hall _ _ _ f r).2 hun).2.1 rfl hst
    rw [this] at hx; cases hx
    linarith

/-- **C139, violated.** Values of the user are not checked: a flag may be two, and the default highest
energy is below a lowest energy given by the user. -/
theorem c139_counterexample :
    let user : Dict Str Str := [(c!"useDrift", c!"2"), (c!"eMin", c!"5000")]
    let P := rationalParams shippedReference user twoBases
    (configEntries.get? c!"useDrift" = some ⟨.readInt, c!"0", some c!"0", some c!"1"⟩) ∧
    P.lookup 5 c!"useDrift" = .ok (.num 2) ∧
    (configEntries.get? c!"eMax" = some ⟨.readDouble, c!"1000.0", some c!"config.eMin", some c!"BADVALUE"⟩) ∧
    P.lookup 5 c!"eMin" = .ok (.num 5000) ∧ P.lookup 5 c!"eMax" = .ok (.num 1000) := by
  refine ⟨by decide +kernel, by decide +kernel, by decide +kernel, by decide +kernel, by decide +kernel⟩

example : (rationalParams shippedReference smallUser twoBases).lookup 5 c!"idealShockPhi" = .ok (.num 0)
    ∧ boundValue c!"2.0 * PI" = some (884279719003555 / 140737488355328) := by decide +kernel

end Verif.Defaults
