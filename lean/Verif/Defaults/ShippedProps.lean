import Verif.Defaults.ConstProps

/-!
# The shipped constants: property C129
-/

set_option linter.unusedSimpArgs false
set_option linter.unusedSectionVars false

namespace Verif.Defaults

open Verif.Py Verif.Runtime

/-! ## C expressions -/

/-- A C expression built from literals, names, products, quotients, square roots and brackets. -/
inductive CExpr where
  | lit (s : Str) (x : Rat)
  | name (n : Str)
  | mul (a b : CExpr)
  | div (a b : CExpr)
  | sqrt (a : CExpr)
  | paren (a : CExpr)
  deriving DecidableEq

/-- The expression as written in C, without blanks. -/
def CExpr.text : CExpr → Str
  | .lit s _ => s
  | .name n => n
  | .mul a b => a.text ++ '*' :: b.text
  | .div a b => a.text ++ '/' :: b.text
  | .sqrt a => c!"sqrt(" ++ a.text ++ [')']
  | .paren a => '(' :: a.text ++ [')']

/-- Not a product or quotient. -/
def CExpr.isAtom : CExpr → Bool
  | .mul _ _ => false
  | .div _ _ => false
  | _ => true

/-- C reads products and quotients from the left, and literals are decimal numerals, which denote the nearest float. -/
def CExpr.grammatical : CExpr → Bool
  | .lit s x => decimalFloat s = some x
  | .name _ => true
  | .mul a b => a.grammatical && b.grammatical && b.isAtom
  | .div a b => a.grammatical && b.grammatical && b.isAtom
  | .sqrt a => a.grammatical
  | .paren a => a.grammatical

/-- The value of an expression, given the values of the names. -/
noncomputable def CExpr.value (ν : Str → ℝ) : CExpr → ℝ
  | .lit _ x => (x : ℝ)
  | .name n => ν n
  | .mul a b => a.value ν * b.value ν
  | .div a b => a.value ν / b.value ν
  | .sqrt a => Real.sqrt (a.value ν)
  | .paren a => a.value ν

/-- The shipped definitions, as C expressions. -/
def shippedC : Dict Str CExpr :=
  [(c!"AU", (.lit c!"1.495978707e13" 14959787070000)),
   (c!"BADINT", (.lit c!"2147483647" 2147483647)),
   (c!"BADVALUE", (.lit c!"1.0e33" 999999999999999945575230987042816)),
   (c!"C", (.lit c!"2.99792458e10" 29979245800)),
   (c!"DAY", (.paren (.div (.name c!"TAU") (.paren (.mul (.mul (.lit c!"24.0" 24) (.lit
      c!"60.0" 60)) (.lit c!"60.0" 60)))))),
   (c!"EV", (.lit c!"1.6022e-12" (7933710123772145 / 4951760157141521099596496896))),
   (c!"F", (.lit c!"0" 0)),
   (c!"FCONVERT", (.paren (.div (.lit c!"1.0e30" 1000000000000000019884624838656) (.paren (.mul
      (.mul (.mul (.name c!"C") (.name c!"C")) (.name c!"C")) (.name c!"C")))))),
   (c!"GEV", (.lit c!"1.6022e-3" (7388843338724361 / 4611686018427387904))),
   (c!"MAS_B_CONVERT", (.div (.div (.mul (.sqrt (.mul (.mul (.lit c!"4.0" 4) (.name c!"PI"))
      (.name c!"MAS_RHO_NORM"))) (.name c!"MAS_LENGTH_NORM")) (.name c!"MAS_TIME_NORM")) (.name
      c!"MHD_B_NORM"))),
   (c!"MAS_LENGTH_NORM", (.lit c!"6.96e10" 69600000000)),
   (c!"MAS_RHO_CONVERT", (.div (.paren (.div (.name c!"MAS_RHO_NORM") (.name c!"MP"))) (.name
      c!"MHD_DENSITY_NORM"))),
   (c!"MAS_RHO_NORM", (.lit c!"1.6726e-16" (6784871660613557 / 40564819207303340847894502572032))),
   (c!"MAS_TIME_CONVERT", (.div (.name c!"MAS_TIME_NORM") (.paren (.mul (.mul (.lit c!"24.0"
      24) (.lit c!"60.0" 60)) (.lit c!"60.0" 60))))),
   (c!"MAS_TIME_NORM", (.lit c!"1445.87003080685" (1589750911124975 / 1099511627776))),
   (c!"MAS_V_CONVERT", (.div (.paren (.div (.name c!"MAS_LENGTH_NORM") (.name
      c!"MAS_TIME_NORM"))) (.name c!"C"))),
   (c!"MAX_STRING_SIZE", (.lit c!"240" 240)),
   (c!"MEV", (.lit c!"1.6022e-6" (3783087789426873 / 2361183241434822606848))),
   (c!"MHD_BATSRUS", (.lit c!"3" 3)),
   (c!"MHD_B_NORM", (.paren (.mul (.sqrt (.mul (.name c!"MP") (.name c!"MHD_DENSITY_NORM")))
      (.name c!"C")))),
   (c!"MHD_DEFAULT", (.lit c!"0" 0)),
   (c!"MHD_DENSITY_NORM", (.lit c!"1.0" 1)),
   (c!"MHD_ENLIL", (.lit c!"1" 1)),
   (c!"MHD_LFMH", (.lit c!"2" 2)),
   (c!"MHD_MAS", (.lit c!"4" 4)),
   (c!"MP", (.lit c!"1.6726e-24" (4553250295295693 / 2722258935367507707706996859454145691648))),
   (c!"MZERO", (.paren (.div (.mul (.mul (.name c!"MP") (.name c!"C")) (.name c!"C")) (.name
      c!"GEV")))),
   (c!"NUM_MPI_BOUNDARY_FLDS", (.lit c!"2" 2)),
   (c!"OM", (.paren (.div (.mul (.mul (.name c!"MHD_B_NORM") (.name c!"Q")) (.name c!"AU"))
      (.paren (.mul (.mul (.name c!"MP") (.name c!"C")) (.name c!"C")))))),
   (c!"PI", (.lit c!"3.1415926535897932" (884279719003555 / 281474976710656))),
   (c!"Q", (.lit c!"4.80320425e-10" (145167940867693 / 302231454903657293676544))),
   (c!"RSAU", (.paren (.div (.name c!"RSUN") (.name c!"AU")))),
   (c!"RSUN", (.lit c!"6.96e10" 69600000000)),
   (c!"T", (.lit c!"1" 1)),
   (c!"TAU", (.paren (.div (.name c!"AU") (.name c!"C")))),
   (c!"THRESH", (.lit c!"0.025" (3602879701896397 / 144115188075855872))),
   (c!"TWO_PI", (.lit c!"6.283185307179586" (884279719003555 / 140737488355328))),
   (c!"VERYSMALL", (.lit c!"1.0e-33" (1461501637330903 / 1461501637330902918203684832716283019655932542976))),
   (c!"VOLT", (.lit c!"0.33333e-2" (3843033251306003 / 1152921504606846976)))]

/-- The listed expressions are what the packaged database holds, blanks apart. -/
theorem shippedC_text : shippedC.map (fun e => (e.1, e.2.text, e.2.grammatical))
    = baseTexts.map (fun e => (e.1, e.2.filter (· ≠ ' '), true)) := by decide +kernel

/-- `ν` gives every shipped constant the value of its C expression. -/
def Solution (ν : Str → ℝ) : Prop := ∀ n e, shippedC.get? n = some e → ν n = e.value ν

/-- The packaged constants over the reals, with readers of plain decimals. -/
noncomputable def shippedBases : Bases ℝ :=
  ⟨baseTexts, baseTypes, fun s => (decimalInt s).map (fun q => (q : ℝ)),
    fun s => (decimalFloat s).map (fun q => (q : ℝ)), fun x q => .ok (x ^ (q : ℝ))⟩

/-! ## Literals -/

/-- The check that a definition is a literal of its type. -/
def literalOk (n s : Str) (x : Rat) : Bool :=
  baseTexts.get? n = some s && !isExpression s
    && ((baseTypes.get? n = some .int && decimalInt s = some x)
      || (baseTypes.get? n = some .float && decimalFloat s = some x))

/-- The check on an entry: only literals are of interest. -/
def entryOk : Str × CExpr → Bool
  | (n, .lit s x) => literalOk n s x
  | _ => true

theorem literals_ok : shippedC.all entryOk = true := by decide +kernel

theorem compute_literal {n s : Str} {x : Rat} (h : shippedC.get? n = some (.lit s x)) (f : Nat) :
    compute shippedBases (f + 1) n = .ok (x : ℝ) := by
  have hm : (n, CExpr.lit s x) ∈ shippedC := Dict.mem_of_get? h
  have hk := List.all_eq_true.1 literals_ok _ hm
  simp only [entryOk, literalOk, Bool.and_eq_true, Bool.or_eq_true, Bool.not_eq_true',
    decide_eq_true_eq] at hk
  obtain ⟨⟨h1, h2⟩, h3⟩ := hk
  rw [compute]
  simp only [show shippedBases.definitions = baseTexts from rfl,
    show shippedBases.types = baseTypes from rfl, h1]
  rcases h3 with ⟨h3, h4⟩ | ⟨h3, h4⟩
  · simp [h3, h2, readAs, shippedBases, h4]
  · simp [h3, h2, readAs, shippedBases, h4]

/-- Whether an expression is a literal. -/
def isLit : Option CExpr → Bool
  | some (.lit _ _) => true
  | _ => false

/-! ## Products -/

/-- The assignment of values to names that agrees with `ν` where `ν` is positive. -/
noncomputable def assign (ν : Str → ℝ) : Symbolic.Assignment where
  val n := if n = Symbolic.one then 1 else if 0 < ν n then ν n else 1
  pos n := by
    by_cases h : n = Symbolic.one
    · simp [h]
    · by_cases h' : 0 < ν n <;> simp [h, h']
  one' := by simp

theorem assign_val {ν : Str → ℝ} {n : Str} (h : n ≠ Symbolic.one) (hp : 0 < ν n) :
    (assign ν).val n = ν n := by
  change (if n = Symbolic.one then (1 : ℝ) else if 0 < ν n then ν n else 1) = ν n
  rw [if_neg h, if_pos hp]

/-- A term over a shipped constant with a known positive value, or a pure number. -/
def TermOk (ν : Str → ℝ) (f : Nat) (u : Symbolic.Term) : Prop :=
  u.coef ≠ 0 ∧ ((u.base = Symbolic.one)
    ∨ (u.base ≠ Symbolic.one ∧ baseTexts.has u.base = true ∧ 0 < ν u.base
      ∧ compute shippedBases f u.base = .ok (ν u.base)))

theorem compute_product {ν : Str → ℝ} {f : Nat} {key target : Str} {r : List Symbolic.Term}
    (h1 : baseTexts.get? key = some target) (h2 : baseTypes.get? key = some .float)
    (h3 : isExpression target = true) (h4 : Symbolic.ofString target = .ok r)
    (h5 : ∀ u ∈ r, TermOk ν f u) :
    compute shippedBases (f + 1) key = .ok (Symbolic.value (assign ν) r) := by
  refine compute_terms (B := shippedBases) (t := .float) (assign ν) (fun x q _ => rfl) h1 h2 h3 h4 ?_
  intro u hu
  obtain ⟨hc, h⟩ := h5 u hu
  refine ⟨hc, ?_⟩
  rcases h with h | ⟨ha, hb, hp, hcomp⟩
  · exact Or.inl ⟨h, by rw [h]; change baseTexts.has Symbolic.one = false; decide +kernel⟩
  · exact Or.inr ⟨ha, hb, by rw [hcomp, assign_val ha hp]⟩

theorem termValue_one (v : Symbolic.Assignment) (c : Rat) :
    Symbolic.termValue v ⟨c, Symbolic.one, 1⟩ = (c : ℝ) := by
  simp [Symbolic.termValue, v.one']

theorem termValue_pow {ν : Str → ℝ} {n : Str} (c q : Rat) (h : n ≠ Symbolic.one) (hp : 0 < ν n) :
    Symbolic.termValue (assign ν) ⟨c, n, q⟩ = (c : ℝ) * ν n ^ (q : ℝ) := by
  rw [Symbolic.termValue, assign_val h hp]

section
variable {ν : Str → ℝ} (H : Solution ν)
include H

theorem pos_AU : 0 < ν c!"AU" := by
  rw [H c!"AU" (.lit c!"1.495978707e13" 14959787070000) (by decide +kernel)]
  norm_num [CExpr.value]

theorem comp_AU (f : Nat) : compute shippedBases (f + 1) c!"AU" = .ok (ν c!"AU") := by
  rw [H c!"AU" (.lit c!"1.495978707e13" 14959787070000) (by decide +kernel)]
  exact compute_literal (n := c!"AU") (s := c!"1.495978707e13") (x := 14959787070000) (by decide +kernel) f

theorem pos_C : 0 < ν c!"C" := by
  rw [H c!"C" (.lit c!"2.99792458e10" 29979245800) (by decide +kernel)]
  norm_num [CExpr.value]

theorem comp_C (f : Nat) : compute shippedBases (f + 1) c!"C" = .ok (ν c!"C") := by
  rw [H c!"C" (.lit c!"2.99792458e10" 29979245800) (by decide +kernel)]
  exact compute_literal (n := c!"C") (s := c!"2.99792458e10") (x := 29979245800) (by decide +kernel) f

theorem pos_GEV : 0 < ν c!"GEV" := by
  rw [H c!"GEV" (.lit c!"1.6022e-3" (7388843338724361 / 4611686018427387904)) (by decide +kernel)]
  norm_num [CExpr.value]

theorem comp_GEV (f : Nat) : compute shippedBases (f + 1) c!"GEV" = .ok (ν c!"GEV") := by
  rw [H c!"GEV" (.lit c!"1.6022e-3" (7388843338724361 / 4611686018427387904)) (by decide +kernel)]
  exact compute_literal (n := c!"GEV") (s := c!"1.6022e-3") (x := (7388843338724361 / 4611686018427387904)) (by decide +kernel) f

theorem pos_MAS_LENGTH_NORM : 0 < ν c!"MAS_LENGTH_NORM" := by
  rw [H c!"MAS_LENGTH_NORM" (.lit c!"6.96e10" 69600000000) (by decide +kernel)]
  norm_num [CExpr.value]

theorem comp_MAS_LENGTH_NORM (f : Nat) : compute shippedBases (f + 1) c!"MAS_LENGTH_NORM" = .ok (ν c!"MAS_LENGTH_NORM") := by
  rw [H c!"MAS_LENGTH_NORM" (.lit c!"6.96e10" 69600000000) (by decide +kernel)]
  exact compute_literal (n := c!"MAS_LENGTH_NORM") (s := c!"6.96e10") (x := 69600000000) (by decide +kernel) f

theorem pos_MAS_RHO_NORM : 0 < ν c!"MAS_RHO_NORM" := by
  rw [H c!"MAS_RHO_NORM" (.lit c!"1.6726e-16" (6784871660613557 / 40564819207303340847894502572032)) (by decide +kernel)]
  norm_num [CExpr.value]

theorem comp_MAS_RHO_NORM (f : Nat) : compute shippedBases (f + 1) c!"MAS_RHO_NORM" = .ok (ν c!"MAS_RHO_NORM") := by
  rw [H c!"MAS_RHO_NORM" (.lit c!"1.6726e-16" (6784871660613557 / 40564819207303340847894502572032)) (by decide +kernel)]
  exact compute_literal (n := c!"MAS_RHO_NORM") (s := c!"1.6726e-16") (x := (6784871660613557 / 40564819207303340847894502572032)) (by decide +kernel) f

theorem pos_MAS_TIME_NORM : 0 < ν c!"MAS_TIME_NORM" := by
  rw [H c!"MAS_TIME_NORM" (.lit c!"1445.87003080685" (1589750911124975 / 1099511627776)) (by decide +kernel)]
  norm_num [CExpr.value]

theorem comp_MAS_TIME_NORM (f : Nat) : compute shippedBases (f + 1) c!"MAS_TIME_NORM" = .ok (ν c!"MAS_TIME_NORM") := by
  rw [H c!"MAS_TIME_NORM" (.lit c!"1445.87003080685" (1589750911124975 / 1099511627776)) (by decide +kernel)]
  exact compute_literal (n := c!"MAS_TIME_NORM") (s := c!"1445.87003080685") (x := (1589750911124975 / 1099511627776)) (by decide +kernel) f

theorem pos_MHD_DENSITY_NORM : 0 < ν c!"MHD_DENSITY_NORM" := by
  rw [H c!"MHD_DENSITY_NORM" (.lit c!"1.0" 1) (by decide +kernel)]
  norm_num [CExpr.value]

theorem comp_MHD_DENSITY_NORM (f : Nat) : compute shippedBases (f + 1) c!"MHD_DENSITY_NORM" = .ok (ν c!"MHD_DENSITY_NORM") := by
  rw [H c!"MHD_DENSITY_NORM" (.lit c!"1.0" 1) (by decide +kernel)]
  exact compute_literal (n := c!"MHD_DENSITY_NORM") (s := c!"1.0") (x := 1) (by decide +kernel) f

theorem pos_MP : 0 < ν c!"MP" := by
  rw [H c!"MP" (.lit c!"1.6726e-24" (4553250295295693 / 2722258935367507707706996859454145691648)) (by decide +kernel)]
  norm_num [CExpr.value]

theorem comp_MP (f : Nat) : compute shippedBases (f + 1) c!"MP" = .ok (ν c!"MP") := by
  rw [H c!"MP" (.lit c!"1.6726e-24" (4553250295295693 / 2722258935367507707706996859454145691648)) (by decide +kernel)]
  exact compute_literal (n := c!"MP") (s := c!"1.6726e-24") (x := (4553250295295693 / 2722258935367507707706996859454145691648)) (by decide +kernel) f

theorem pos_Q : 0 < ν c!"Q" := by
  rw [H c!"Q" (.lit c!"4.80320425e-10" (145167940867693 / 302231454903657293676544)) (by decide +kernel)]
  norm_num [CExpr.value]

theorem comp_Q (f : Nat) : compute shippedBases (f + 1) c!"Q" = .ok (ν c!"Q") := by
  rw [H c!"Q" (.lit c!"4.80320425e-10" (145167940867693 / 302231454903657293676544)) (by decide +kernel)]
  exact compute_literal (n := c!"Q") (s := c!"4.80320425e-10") (x := (145167940867693 / 302231454903657293676544)) (by decide +kernel) f

theorem pos_RSUN : 0 < ν c!"RSUN" := by
  rw [H c!"RSUN" (.lit c!"6.96e10" 69600000000) (by decide +kernel)]
  norm_num [CExpr.value]

theorem comp_RSUN (f : Nat) : compute shippedBases (f + 1) c!"RSUN" = .ok (ν c!"RSUN") := by
  rw [H c!"RSUN" (.lit c!"6.96e10" 69600000000) (by decide +kernel)]
  exact compute_literal (n := c!"RSUN") (s := c!"6.96e10") (x := 69600000000) (by decide +kernel) f

theorem eq_TAU : ν c!"TAU" = ν c!"AU" / ν c!"C" := by
  rw [H c!"TAU" (.paren (.div (.name c!"AU") (.name c!"C"))) (by decide +kernel)]
  norm_num [CExpr.value]

theorem pos_TAU : 0 < ν c!"TAU" := by
  rw [eq_TAU H]
  have h0 := pos_AU H
  have h1 := pos_C H
  positivity

theorem comp_TAU (f : Nat) : compute shippedBases (f + 2) c!"TAU" = .ok (ν c!"TAU") := by
  have h0 := pos_AU H
  have h1 := pos_C H
  rw [compute_product (ν := ν) (f := f + 1) (r := [⟨1, c!"AU", 1⟩, ⟨1, c!"C", -1⟩])
    (h1 := (by decide +kernel : baseTexts.get? c!"TAU" = some c!"( AU / C )")) (by decide +kernel)
    (by decide +kernel) (by decide +kernel)]
  · rw [eq_TAU H]
    simp only [Symbolic.value_cons, Symbolic.value_nil, termValue_one]
    rw [termValue_pow _ _ (by decide) h0, termValue_pow _ _ (by decide) h1]
    norm_num [Real.rpow_neg_one]
    field_simp
  · intro u hu
    simp only [List.mem_cons, List.not_mem_nil, or_false] at hu
    rcases hu with rfl | rfl
    · exact ⟨by norm_num, Or.inr ⟨by decide, by decide +kernel, h0, comp_AU H _⟩⟩
    · exact ⟨by norm_num, Or.inr ⟨by decide, by decide +kernel, h1, comp_C H _⟩⟩

theorem eq_FCONVERT : ν c!"FCONVERT" = 1000000000000000019884624838656 / (ν c!"C" * ν c!"C" * ν c!"C" * ν c!"C") := by
  rw [H c!"FCONVERT" (.paren (.div (.lit c!"1.0e30" 1000000000000000019884624838656) (.paren (.mul (.mul (.mul (.name c!"C") (.name c!"C")) (.name c!"C")) (.name c!"C"))))) (by decide +kernel)]
  norm_num [CExpr.value]

theorem pos_FCONVERT : 0 < ν c!"FCONVERT" := by
  rw [eq_FCONVERT H]
  have h0 := pos_C H
  positivity

theorem comp_FCONVERT (f : Nat) : compute shippedBases (f + 2) c!"FCONVERT" = .ok (ν c!"FCONVERT") := by
  have h0 := pos_C H
  rw [compute_product (ν := ν) (f := f + 1) (r := [⟨1000000000000000019884624838656, Symbolic.one, 1⟩, ⟨1, c!"C", -4⟩])
    (h1 := (by decide +kernel : baseTexts.get? c!"FCONVERT" = some c!"( 1.0e30 / (C * C * C * C) )")) (by decide +kernel)
    (by decide +kernel) (by decide +kernel)]
  · rw [eq_FCONVERT H]
    simp only [Symbolic.value_cons, Symbolic.value_nil, termValue_one]
    rw [termValue_pow _ _ (by decide) h0]
    have e4 : ν c!"C" ^ (((-4 : Rat)) : ℝ) = (ν c!"C" ^ 4)⁻¹ := by
      push_cast
      rw [Real.rpow_neg h0.le, show (4 : ℝ) = ((4 : ℕ) : ℝ) by norm_num, Real.rpow_natCast]
    rw [e4]
    push_cast
    field_simp
  · intro u hu
    simp only [List.mem_cons, List.not_mem_nil, or_false] at hu
    rcases hu with rfl | rfl
    · exact ⟨by norm_num, Or.inl rfl⟩
    · exact ⟨by norm_num, Or.inr ⟨by decide, by decide +kernel, h0, comp_C H _⟩⟩

theorem eq_MAS_RHO_CONVERT : ν c!"MAS_RHO_CONVERT" = ν c!"MAS_RHO_NORM" / ν c!"MP" / ν c!"MHD_DENSITY_NORM" := by
  rw [H c!"MAS_RHO_CONVERT" (.div (.paren (.div (.name c!"MAS_RHO_NORM") (.name c!"MP"))) (.name c!"MHD_DENSITY_NORM")) (by decide +kernel)]
  norm_num [CExpr.value]

theorem pos_MAS_RHO_CONVERT : 0 < ν c!"MAS_RHO_CONVERT" := by
  rw [eq_MAS_RHO_CONVERT H]
  have h0 := pos_MAS_RHO_NORM H
  have h1 := pos_MHD_DENSITY_NORM H
  have h2 := pos_MP H
  positivity

theorem comp_MAS_RHO_CONVERT (f : Nat) : compute shippedBases (f + 2) c!"MAS_RHO_CONVERT" = .ok (ν c!"MAS_RHO_CONVERT") := by
  have h0 := pos_MAS_RHO_NORM H
  have h1 := pos_MHD_DENSITY_NORM H
  have h2 := pos_MP H
  rw [compute_product (ν := ν) (f := f + 1) (r := [⟨1, c!"MAS_RHO_NORM", 1⟩, ⟨1, c!"MHD_DENSITY_NORM", -1⟩, ⟨1, c!"MP", -1⟩])
    (h1 := (by decide +kernel : baseTexts.get? c!"MAS_RHO_CONVERT" = some c!"(MAS_RHO_NORM / MP) / MHD_DENSITY_NORM")) (by decide +kernel)
    (by decide +kernel) (by decide +kernel)]
  · rw [eq_MAS_RHO_CONVERT H]
    simp only [Symbolic.value_cons, Symbolic.value_nil, termValue_one]
    rw [termValue_pow _ _ (by decide) h0, termValue_pow _ _ (by decide) h1, termValue_pow _ _ (by decide) h2]
    norm_num [Real.rpow_neg_one]
    field_simp
  · intro u hu
    simp only [List.mem_cons, List.not_mem_nil, or_false] at hu
    rcases hu with rfl | rfl | rfl
    · exact ⟨by norm_num, Or.inr ⟨by decide, by decide +kernel, h0, comp_MAS_RHO_NORM H _⟩⟩
    · exact ⟨by norm_num, Or.inr ⟨by decide, by decide +kernel, h1, comp_MHD_DENSITY_NORM H _⟩⟩
    · exact ⟨by norm_num, Or.inr ⟨by decide, by decide +kernel, h2, comp_MP H _⟩⟩

theorem eq_MAS_TIME_CONVERT : ν c!"MAS_TIME_CONVERT" = ν c!"MAS_TIME_NORM" / (24 * 60 * 60) := by
  rw [H c!"MAS_TIME_CONVERT" (.div (.name c!"MAS_TIME_NORM") (.paren (.mul (.mul (.lit c!"24.0" 24) (.lit c!"60.0" 60)) (.lit c!"60.0" 60)))) (by decide +kernel)]
  norm_num [CExpr.value]

theorem pos_MAS_TIME_CONVERT : 0 < ν c!"MAS_TIME_CONVERT" := by
  rw [eq_MAS_TIME_CONVERT H]
  have h0 := pos_MAS_TIME_NORM H
  positivity

theorem comp_MAS_TIME_CONVERT (f : Nat) : compute shippedBases (f + 2) c!"MAS_TIME_CONVERT" = .ok (ν c!"MAS_TIME_CONVERT") := by
  have h0 := pos_MAS_TIME_NORM H
  rw [compute_product (ν := ν) (f := f + 1) (r := [⟨1/86400, Symbolic.one, 1⟩, ⟨1, c!"MAS_TIME_NORM", 1⟩])
    (h1 := (by decide +kernel : baseTexts.get? c!"MAS_TIME_CONVERT" = some c!"MAS_TIME_NORM / (24.0 * 60.0 * 60.0)")) (by decide +kernel)
    (by decide +kernel) (by decide +kernel)]
  · rw [eq_MAS_TIME_CONVERT H]
    simp only [Symbolic.value_cons, Symbolic.value_nil, termValue_one]
    rw [termValue_pow _ _ (by decide) h0]
    norm_num [Real.rpow_neg_one]
    field_simp
  · intro u hu
    simp only [List.mem_cons, List.not_mem_nil, or_false] at hu
    rcases hu with rfl | rfl
    · exact ⟨by norm_num, Or.inl rfl⟩
    · exact ⟨by norm_num, Or.inr ⟨by decide, by decide +kernel, h0, comp_MAS_TIME_NORM H _⟩⟩

theorem eq_MAS_V_CONVERT : ν c!"MAS_V_CONVERT" = ν c!"MAS_LENGTH_NORM" / ν c!"MAS_TIME_NORM" / ν c!"C" := by
  rw [H c!"MAS_V_CONVERT" (.div (.paren (.div (.name c!"MAS_LENGTH_NORM") (.name c!"MAS_TIME_NORM"))) (.name c!"C")) (by decide +kernel)]
  norm_num [CExpr.value]

theorem pos_MAS_V_CONVERT : 0 < ν c!"MAS_V_CONVERT" := by
  rw [eq_MAS_V_CONVERT H]
  have h0 := pos_MAS_LENGTH_NORM H
  have h1 := pos_C H
  have h2 := pos_MAS_TIME_NORM H
  positivity

theorem comp_MAS_V_CONVERT (f : Nat) : compute shippedBases (f + 2) c!"MAS_V_CONVERT" = .ok (ν c!"MAS_V_CONVERT") := by
  have h0 := pos_MAS_LENGTH_NORM H
  have h1 := pos_C H
  have h2 := pos_MAS_TIME_NORM H
  rw [compute_product (ν := ν) (f := f + 1) (r := [⟨1, c!"MAS_LENGTH_NORM", 1⟩, ⟨1, c!"C", -1⟩, ⟨1, c!"MAS_TIME_NORM", -1⟩])
    (h1 := (by decide +kernel : baseTexts.get? c!"MAS_V_CONVERT" = some c!"( MAS_LENGTH_NORM / MAS_TIME_NORM ) / C")) (by decide +kernel)
    (by decide +kernel) (by decide +kernel)]
  · rw [eq_MAS_V_CONVERT H]
    simp only [Symbolic.value_cons, Symbolic.value_nil, termValue_one]
    rw [termValue_pow _ _ (by decide) h0, termValue_pow _ _ (by decide) h1, termValue_pow _ _ (by decide) h2]
    norm_num [Real.rpow_neg_one]
    field_simp
  · intro u hu
    simp only [List.mem_cons, List.not_mem_nil, or_false] at hu
    rcases hu with rfl | rfl | rfl
    · exact ⟨by norm_num, Or.inr ⟨by decide, by decide +kernel, h0, comp_MAS_LENGTH_NORM H _⟩⟩
    · exact ⟨by norm_num, Or.inr ⟨by decide, by decide +kernel, h1, comp_C H _⟩⟩
    · exact ⟨by norm_num, Or.inr ⟨by decide, by decide +kernel, h2, comp_MAS_TIME_NORM H _⟩⟩

theorem eq_MHD_B_NORM : ν c!"MHD_B_NORM" = Real.sqrt (ν c!"MP" * ν c!"MHD_DENSITY_NORM") * ν c!"C" := by
  rw [H c!"MHD_B_NORM" (.paren (.mul (.sqrt (.mul (.name c!"MP") (.name c!"MHD_DENSITY_NORM"))) (.name c!"C"))) (by decide +kernel)]
  norm_num [CExpr.value]

theorem pos_MHD_B_NORM : 0 < ν c!"MHD_B_NORM" := by
  rw [eq_MHD_B_NORM H]
  have h0 := pos_C H
  have h1 := pos_MHD_DENSITY_NORM H
  have h2 := pos_MP H
  positivity

theorem comp_MHD_B_NORM (f : Nat) : compute shippedBases (f + 2) c!"MHD_B_NORM" = .ok (ν c!"MHD_B_NORM") := by
  have h0 := pos_C H
  have h1 := pos_MHD_DENSITY_NORM H
  have h2 := pos_MP H
  rw [compute_product (ν := ν) (f := f + 1) (r := [⟨1, c!"C", 1⟩, ⟨1, c!"MHD_DENSITY_NORM", 1/2⟩, ⟨1, c!"MP", 1/2⟩])
    (h1 := (by decide +kernel : baseTexts.get? c!"MHD_B_NORM" = some c!"( sqrt(MP*MHD_DENSITY_NORM) * C )")) (by decide +kernel)
    (by decide +kernel) (by decide +kernel)]
  · rw [eq_MHD_B_NORM H]
    simp only [Symbolic.value_cons, Symbolic.value_nil, termValue_one]
    rw [termValue_pow _ _ (by decide) h0, termValue_pow _ _ (by decide) h1, termValue_pow _ _ (by decide) h2]
    rw [Real.sqrt_eq_rpow, Real.mul_rpow h2.le h1.le]
    push_cast
    rw [Real.rpow_one]
    congr 1
    ring
  · intro u hu
    simp only [List.mem_cons, List.not_mem_nil, or_false] at hu
    rcases hu with rfl | rfl | rfl
    · exact ⟨by norm_num, Or.inr ⟨by decide, by decide +kernel, h0, comp_C H _⟩⟩
    · exact ⟨by norm_num, Or.inr ⟨by decide, by decide +kernel, h1, comp_MHD_DENSITY_NORM H _⟩⟩
    · exact ⟨by norm_num, Or.inr ⟨by decide, by decide +kernel, h2, comp_MP H _⟩⟩

theorem eq_MZERO : ν c!"MZERO" = ν c!"MP" * ν c!"C" * ν c!"C" / ν c!"GEV" := by
  rw [H c!"MZERO" (.paren (.div (.mul (.mul (.name c!"MP") (.name c!"C")) (.name c!"C")) (.name c!"GEV"))) (by decide +kernel)]
  norm_num [CExpr.value]

theorem pos_MZERO : 0 < ν c!"MZERO" := by
  rw [eq_MZERO H]
  have h0 := pos_C H
  have h1 := pos_MP H
  have h2 := pos_GEV H
  positivity

theorem comp_MZERO (f : Nat) : compute shippedBases (f + 2) c!"MZERO" = .ok (ν c!"MZERO") := by
  have h0 := pos_C H
  have h1 := pos_MP H
  have h2 := pos_GEV H
  rw [compute_product (ν := ν) (f := f + 1) (r := [⟨1, c!"C", 2⟩, ⟨1, c!"MP", 1⟩, ⟨1, c!"GEV", -1⟩])
    (h1 := (by decide +kernel : baseTexts.get? c!"MZERO" = some c!"(MP*C*C/GEV)")) (by decide +kernel)
    (by decide +kernel) (by decide +kernel)]
  · rw [eq_MZERO H]
    simp only [Symbolic.value_cons, Symbolic.value_nil, termValue_one]
    rw [termValue_pow _ _ (by decide) h0, termValue_pow _ _ (by decide) h1, termValue_pow _ _ (by decide) h2]
    have e2 : ν c!"C" ^ (((2 : Rat)) : ℝ) = ν c!"C" ^ 2 := by
      push_cast
      rw [show (2 : ℝ) = ((2 : ℕ) : ℝ) by norm_num, Real.rpow_natCast]
    rw [e2]
    norm_num [Real.rpow_neg_one]
    field_simp
  · intro u hu
    simp only [List.mem_cons, List.not_mem_nil, or_false] at hu
    rcases hu with rfl | rfl | rfl
    · exact ⟨by norm_num, Or.inr ⟨by decide, by decide +kernel, h0, comp_C H _⟩⟩
    · exact ⟨by norm_num, Or.inr ⟨by decide, by decide +kernel, h1, comp_MP H _⟩⟩
    · exact ⟨by norm_num, Or.inr ⟨by decide, by decide +kernel, h2, comp_GEV H _⟩⟩

theorem eq_RSAU : ν c!"RSAU" = ν c!"RSUN" / ν c!"AU" := by
  rw [H c!"RSAU" (.paren (.div (.name c!"RSUN") (.name c!"AU"))) (by decide +kernel)]
  norm_num [CExpr.value]

theorem pos_RSAU : 0 < ν c!"RSAU" := by
  rw [eq_RSAU H]
  have h0 := pos_RSUN H
  have h1 := pos_AU H
  positivity

theorem comp_RSAU (f : Nat) : compute shippedBases (f + 2) c!"RSAU" = .ok (ν c!"RSAU") := by
  have h0 := pos_RSUN H
  have h1 := pos_AU H
  rw [compute_product (ν := ν) (f := f + 1) (r := [⟨1, c!"RSUN", 1⟩, ⟨1, c!"AU", -1⟩])
    (h1 := (by decide +kernel : baseTexts.get? c!"RSAU" = some c!"(RSUN/AU)")) (by decide +kernel)
    (by decide +kernel) (by decide +kernel)]
  · rw [eq_RSAU H]
    simp only [Symbolic.value_cons, Symbolic.value_nil, termValue_one]
    rw [termValue_pow _ _ (by decide) h0, termValue_pow _ _ (by decide) h1]
    norm_num [Real.rpow_neg_one]
    field_simp
  · intro u hu
    simp only [List.mem_cons, List.not_mem_nil, or_false] at hu
    rcases hu with rfl | rfl
    · exact ⟨by norm_num, Or.inr ⟨by decide, by decide +kernel, h0, comp_RSUN H _⟩⟩
    · exact ⟨by norm_num, Or.inr ⟨by decide, by decide +kernel, h1, comp_AU H _⟩⟩

theorem eq_DAY : ν c!"DAY" = ν c!"TAU" / (24 * 60 * 60) := by
  rw [H c!"DAY" (.paren (.div (.name c!"TAU") (.paren (.mul (.mul (.lit c!"24.0" 24) (.lit c!"60.0" 60)) (.lit c!"60.0" 60))))) (by decide +kernel)]
  norm_num [CExpr.value]

theorem pos_DAY : 0 < ν c!"DAY" := by
  rw [eq_DAY H]
  have h0 := pos_TAU H
  positivity

theorem comp_DAY (f : Nat) : compute shippedBases (f + 3) c!"DAY" = .ok (ν c!"DAY") := by
  have h0 := pos_TAU H
  rw [compute_product (ν := ν) (f := f + 2) (r := [⟨1/86400, Symbolic.one, 1⟩, ⟨1, c!"TAU", 1⟩])
    (h1 := (by decide +kernel : baseTexts.get? c!"DAY" = some c!"( TAU / (24.0 * 60.0 * 60.0)  )")) (by decide +kernel)
    (by decide +kernel) (by decide +kernel)]
  · rw [eq_DAY H]
    simp only [Symbolic.value_cons, Symbolic.value_nil, termValue_one]
    rw [termValue_pow _ _ (by decide) h0]
    norm_num [Real.rpow_neg_one]
    field_simp
  · intro u hu
    simp only [List.mem_cons, List.not_mem_nil, or_false] at hu
    rcases hu with rfl | rfl
    · exact ⟨by norm_num, Or.inl rfl⟩
    · exact ⟨by norm_num, Or.inr ⟨by decide, by decide +kernel, h0, comp_TAU H _⟩⟩

theorem eq_OM : ν c!"OM" = ν c!"MHD_B_NORM" * ν c!"Q" * ν c!"AU" / (ν c!"MP" * ν c!"C" * ν c!"C") := by
  rw [H c!"OM" (.paren (.div (.mul (.mul (.name c!"MHD_B_NORM") (.name c!"Q")) (.name c!"AU")) (.paren (.mul (.mul (.name c!"MP") (.name c!"C")) (.name c!"C"))))) (by decide +kernel)]
  norm_num [CExpr.value]

theorem pos_OM : 0 < ν c!"OM" := by
  rw [eq_OM H]
  have h0 := pos_AU H
  have h1 := pos_MHD_B_NORM H
  have h2 := pos_Q H
  have h3 := pos_MP H
  have h4 := pos_C H
  positivity

theorem comp_OM (f : Nat) : compute shippedBases (f + 3) c!"OM" = .ok (ν c!"OM") := by
  have h0 := pos_AU H
  have h1 := pos_MHD_B_NORM H
  have h2 := pos_Q H
  have h3 := pos_MP H
  have h4 := pos_C H
  rw [compute_product (ν := ν) (f := f + 2) (r := [⟨1, c!"AU", 1⟩, ⟨1, c!"MHD_B_NORM", 1⟩, ⟨1, c!"Q", 1⟩, ⟨1, c!"MP", -1⟩, ⟨1, c!"C", -2⟩])
    (h1 := (by decide +kernel : baseTexts.get? c!"OM" = some c!"( MHD_B_NORM * Q * AU / (MP * C * C) )")) (by decide +kernel)
    (by decide +kernel) (by decide +kernel)]
  · rw [eq_OM H]
    simp only [Symbolic.value_cons, Symbolic.value_nil, termValue_one]
    rw [termValue_pow _ _ (by decide) h0, termValue_pow _ _ (by decide) h1, termValue_pow _ _ (by decide) h2, termValue_pow _ _ (by decide) h3, termValue_pow _ _ (by decide) h4]
    have e2 : ν c!"C" ^ (((-2 : Rat)) : ℝ) = (ν c!"C" ^ 2)⁻¹ := by
      push_cast
      rw [Real.rpow_neg h4.le, show (2 : ℝ) = ((2 : ℕ) : ℝ) by norm_num, Real.rpow_natCast]
    rw [e2]
    norm_num [Real.rpow_neg_one]
    field_simp
  · intro u hu
    simp only [List.mem_cons, List.not_mem_nil, or_false] at hu
    rcases hu with rfl | rfl | rfl | rfl | rfl
    · exact ⟨by norm_num, Or.inr ⟨by decide, by decide +kernel, h0, comp_AU H _⟩⟩
    · exact ⟨by norm_num, Or.inr ⟨by decide, by decide +kernel, h1, comp_MHD_B_NORM H _⟩⟩
    · exact ⟨by norm_num, Or.inr ⟨by decide, by decide +kernel, h2, comp_Q H _⟩⟩
    · exact ⟨by norm_num, Or.inr ⟨by decide, by decide +kernel, h3, comp_MP H _⟩⟩
    · exact ⟨by norm_num, Or.inr ⟨by decide, by decide +kernel, h4, comp_C H _⟩⟩

theorem pos_PI : 0 < ν c!"PI" := by
  rw [H c!"PI" (.lit c!"3.1415926535897932" (884279719003555 / 281474976710656)) (by decide +kernel)]
  norm_num [CExpr.value]

theorem comp_PI (f : Nat) : compute shippedBases (f + 1) c!"PI" = .ok (ν c!"PI") := by
  rw [H c!"PI" (.lit c!"3.1415926535897932" (884279719003555 / 281474976710656)) (by decide +kernel)]
  exact compute_literal (n := c!"PI") (s := c!"3.1415926535897932") (x := (884279719003555 / 281474976710656))
    (by decide +kernel) f

theorem eq_MAS_B_CONVERT : ν c!"MAS_B_CONVERT" = Real.sqrt (4 * ν c!"PI" * ν c!"MAS_RHO_NORM") * ν c!"MAS_LENGTH_NORM"
    / ν c!"MAS_TIME_NORM" / ν c!"MHD_B_NORM" := by
  rw [H c!"MAS_B_CONVERT" (.div (.div (.mul (.sqrt (.mul (.mul (.lit c!"4.0" 4) (.name c!"PI"))
      (.name c!"MAS_RHO_NORM"))) (.name c!"MAS_LENGTH_NORM")) (.name c!"MAS_TIME_NORM")) (.name
      c!"MHD_B_NORM")) (by decide +kernel)]
  simp only [CExpr.value]
  push_cast
  rfl

theorem comp_MAS_B_CONVERT (f : Nat) : compute shippedBases (f + 3) c!"MAS_B_CONVERT" = .ok (ν c!"MAS_B_CONVERT") := by
  have h0 := pos_MAS_LENGTH_NORM H
  have h1 := pos_MAS_RHO_NORM H
  have h2 := pos_PI H
  have h3 := pos_MAS_TIME_NORM H
  have h4 := pos_MHD_B_NORM H
  rw [compute_product (ν := ν) (f := f + 2) (r := [⟨2, Symbolic.one, 1⟩, ⟨1, c!"MAS_LENGTH_NORM", 1⟩,
      ⟨1, c!"MAS_RHO_NORM", 1/2⟩, ⟨1, c!"PI", 1/2⟩, ⟨1, c!"MAS_TIME_NORM", -1⟩, ⟨1, c!"MHD_B_NORM", -1⟩])
    (h1 := (by decide +kernel : baseTexts.get? c!"MAS_B_CONVERT"
      = some c!"sqrt(4.0*PI*MAS_RHO_NORM)*MAS_LENGTH_NORM / MAS_TIME_NORM / MHD_B_NORM")) (by decide +kernel)
    (by decide +kernel) (by decide +kernel)]
  · rw [eq_MAS_B_CONVERT H]
    simp only [Symbolic.value_cons, Symbolic.value_nil, termValue_one]
    rw [termValue_pow _ _ (by decide) h0, termValue_pow _ _ (by decide) h1, termValue_pow _ _ (by decide) h2,
      termValue_pow _ _ (by decide) h3, termValue_pow _ _ (by decide) h4]
    have e4 : Real.sqrt (4 * ν c!"PI" * ν c!"MAS_RHO_NORM")
        = 2 * (ν c!"PI" ^ (((1 / 2 : Rat)) : ℝ) * ν c!"MAS_RHO_NORM" ^ (((1 / 2 : Rat)) : ℝ)) := by
      push_cast
      rw [← Real.sqrt_eq_rpow, ← Real.sqrt_eq_rpow, mul_assoc, Real.sqrt_mul (by norm_num), Real.sqrt_mul h2.le,
        show (4 : ℝ) = 2 ^ 2 by norm_num, Real.sqrt_sq (by norm_num)]
    rw [e4]
    generalize ν c!"PI" ^ (((1 / 2 : Rat)) : ℝ) = a
    generalize ν c!"MAS_RHO_NORM" ^ (((1 / 2 : Rat)) : ℝ) = b
    norm_num [Real.rpow_neg_one]
    field_simp
  · intro u hu
    simp only [List.mem_cons, List.not_mem_nil, or_false] at hu
    rcases hu with rfl | rfl | rfl | rfl | rfl | rfl
    · exact ⟨by norm_num, Or.inl rfl⟩
    · exact ⟨by norm_num, Or.inr ⟨by decide, by decide +kernel, h0, comp_MAS_LENGTH_NORM H _⟩⟩
    · exact ⟨by norm_num, Or.inr ⟨by decide, by decide +kernel, h1, comp_MAS_RHO_NORM H _⟩⟩
    · exact ⟨by norm_num, Or.inr ⟨by decide, by decide +kernel, h2, comp_PI H _⟩⟩
    · exact ⟨by norm_num, Or.inr ⟨by decide, by decide +kernel, h3, comp_MAS_TIME_NORM H _⟩⟩
    · exact ⟨by norm_num, Or.inr ⟨by decide, by decide +kernel, h4, comp_MHD_B_NORM H _⟩⟩

end

/-- **C129.** Every packaged constant: however the C expressions of the constants are given consistent
values, looking up the constant gives the value of its own C expression, as a compiler would compute it
in exact arithmetic. -/
theorem c129_constants (ν : Str → ℝ) (H : Solution ν) (n : Str) (hn : n ∈ baseTexts.keys) (f : Nat) :
    getConstant shippedBases (f + 3) n = .ok (ν n) := by
  have hhas : shippedBases.definitions.has n = true := by
    change baseTexts.has n = true
    exact (Dict.has_iff_mem_keys _ _).2 hn
  rw [getConstant, if_pos hhas]
  have hk : ∀ n ∈ baseTexts.keys, n = c!"MAS_B_CONVERT"
      ∨ n ∈ [c!"TAU", c!"FCONVERT", c!"MAS_RHO_CONVERT", c!"MAS_TIME_CONVERT", c!"MAS_V_CONVERT", c!"MHD_B_NORM", c!"MZERO", c!"RSAU", c!"DAY", c!"OM"]
      ∨ ∃ s x, shippedC.get? n = some (.lit s x) := by
    intro n hn
    have : ∀ n ∈ baseTexts.keys, n = c!"MAS_B_CONVERT"
      ∨ n ∈ [c!"TAU", c!"FCONVERT", c!"MAS_RHO_CONVERT", c!"MAS_TIME_CONVERT", c!"MAS_V_CONVERT", c!"MHD_B_NORM", c!"MZERO", c!"RSAU", c!"DAY", c!"OM"]
      ∨ isLit (shippedC.get? n) = true := by decide +kernel
    rcases this n hn with h | h | h
    · exact Or.inl h
    · exact Or.inr (Or.inl h)
    · refine Or.inr (Or.inr ?_)
      generalize shippedC.get? n = o at h
      match o, h with
      | some (.lit s x), _ => exact ⟨s, x, rfl⟩
  rcases hk n hn with h | h | ⟨s, x, h⟩
  · subst h
    exact comp_MAS_B_CONVERT H _
  · simp only [List.mem_cons, List.not_mem_nil, or_false] at h
    rcases h with rfl | rfl | rfl | rfl | rfl | rfl | rfl | rfl | rfl | rfl
    · exact comp_TAU H _
    · exact comp_FCONVERT H _
    · exact comp_MAS_RHO_CONVERT H _
    · exact comp_MAS_TIME_CONVERT H _
    · exact comp_MAS_V_CONVERT H _
    · exact comp_MHD_B_NORM H _
    · exact comp_MZERO H _
    · exact comp_RSAU H _
    · exact comp_DAY H _
    · exact comp_OM H _
  · rw [H n _ h]
    exact compute_literal h (f + 2)

/-- The values obtained by unfolding the definitions a number of times. -/
noncomputable def unfolded : Nat → Str → ℝ
  | 0, _ => 0
  | k + 1, n => match shippedC.get? n with
    | some e => e.value (unfolded k)
    | none => 0

/-- The names in an expression. -/
def CExpr.names : CExpr → List Str
  | .lit _ _ => []
  | .name n => [n]
  | .mul a b => a.names ++ b.names
  | .div a b => a.names ++ b.names
  | .sqrt a => a.names
  | .paren a => a.names

theorem CExpr.value_congr {ν μ : Str → ℝ} : ∀ e : CExpr, (∀ n ∈ e.names, ν n = μ n) →
    e.value ν = e.value μ := by
  intro e
  induction e with
  | lit s x => intro _; rfl
  | name n => intro h; exact h n (by simp [names])
  | mul a b iha ihb =>
    intro h
    rw [value, value, iha (fun n hn => h n (by simp [names, hn])),
      ihb (fun n hn => h n (by simp [names, hn]))]
  | div a b iha ihb =>
    intro h
    rw [value, value, iha (fun n hn => h n (by simp [names, hn])),
      ihb (fun n hn => h n (by simp [names, hn]))]
  | sqrt a ih => intro h; rw [value, value, ih h]
  | paren a ih => intro h; rw [value, value, ih h]

/-- Whether a definition can be unfolded completely in a number of steps. -/
def settled : Nat → Str → Bool
  | 0, _ => false
  | k + 1, n => match shippedC.get? n with
    | some e => e.names.all (settled k)
    | none => false

theorem unfolded_settled : ∀ (k : Nat) (n : Str), settled k n = true →
    unfolded (k + 1) n = unfolded k n := by
  intro k
  induction k with
  | zero => intro n h; simp [settled] at h
  | succ k ih =>
    intro n h
    rw [unfolded]
    conv_rhs => rw [unfolded]
    rw [settled] at h
    cases hg : shippedC.get? n with
    | none => rfl
    | some e =>
      rw [hg] at h
      exact CExpr.value_congr e (fun m hm => ih m (List.all_eq_true.1 h m hm))

/-- The definitions can be solved: no shipped constant refers to itself. -/
theorem shipped_solution : Solution (unfolded 3) := by
  intro n e h
  have hs : settled 3 n = true := by
    have : shippedC.all (fun p => settled 3 p.1) = true := by decide +kernel
    exact List.all_eq_true.1 this _ (Dict.mem_of_get? h)
  rw [← unfolded_settled 3 n hs]
  conv_lhs => rw [unfolded]
  rw [h]

/-- The speed of light, in units of 1 cm/s, and the light travel time over one au. -/
example : getConstant shippedBases 3 c!"C" = .ok 29979245800
    ∧ getConstant shippedBases 3 c!"TAU" = .ok (14959787070000 / 29979245800) := by
  refine ⟨?_, ?_⟩
  · rw [c129_constants _ shipped_solution _ (by decide +kernel) 0,
      shipped_solution c!"C" (.lit c!"2.99792458e10" 29979245800) (by decide +kernel)]
    norm_num [CExpr.value]
  · rw [c129_constants _ shipped_solution _ (by decide +kernel) 0,
      eq_TAU shipped_solution,
      shipped_solution c!"C" (.lit c!"2.99792458e10" 29979245800) (by decide +kernel),
      shipped_solution c!"AU" (.lit c!"1.495978707e13" 14959787070000) (by decide +kernel)]
    norm_num [CExpr.value]

end Verif.Defaults
