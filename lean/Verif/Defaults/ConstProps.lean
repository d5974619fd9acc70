import Verif.Defaults.Model
import Verif.Runtime.EvalProps

/-!
# Constants of `baseTypes.h`: property C130
-/

set_option linter.unusedSimpArgs false
set_option linter.unusedSectionVars false

namespace Verif.Defaults

open Verif.Py Verif.Runtime

/-! ## Evaluation of a list of terms -/

theorem evaluateTerms_value {B : Bases ℝ} {comp : Str → Res ℝ} (v : Symbolic.Assignment)
    (hpow : ∀ (x : ℝ) (q : Rat), 0 < x → B.pow x q = .ok (x ^ (q : ℝ))) :
    ∀ (r : List Symbolic.Term) (a : ℝ), (∀ u ∈ r, u.coef ≠ 0 ∧
      ((u.base = Symbolic.one ∧ B.definitions.has u.base = false)
        ∨ (u.base ≠ Symbolic.one ∧ B.definitions.has u.base = true
          ∧ comp u.base = .ok (v.val u.base)))) →
      evaluateTerms B comp r a = .ok (a * Symbolic.value v r) := by
  intro r
  induction r with
  | nil => intro a _; simp [evaluateTerms, Symbolic.value_nil]
  | cons u us ih =>
    intro a h
    have hus : ∀ w ∈ us, _ := fun w hw => h w (List.mem_cons_of_mem _ hw)
    obtain ⟨hc, hu⟩ := h u (by simp)
    have hcr : (u.coef : ℝ) ≠ 0 := by exact_mod_cast hc
    rw [evaluateTerms]
    rcases hu with ⟨h1, h2⟩ | ⟨h1, h2, h3⟩
    · rw [h2, if_neg (by simp), if_pos h1, ih _ hus, Symbolic.value_cons, Symbolic.termValue, h1,
        v.one']
      simp [mul_assoc]
    · have hp := v.pos u.base
      have hne : (u.coef : ℝ) * v.val u.base ^ (u.exp : ℝ) ≠ 0 :=
        mul_ne_zero hcr (Real.rpow_pos_of_pos hp _).ne'
      rw [h2, if_pos rfl, h3]
      simp only [callTerm, if_neg h1, hpow _ _ hp, if_neg hne]
      rw [ih _ hus, Symbolic.value_cons, Symbolic.termValue, mul_assoc]

/-- The value of a constant whose definition parses into known terms. -/
theorem compute_terms {B : Bases ℝ} {fuel : Nat} {key target : Str} {t : Typ}
    {r : List Symbolic.Term} (v : Symbolic.Assignment)
    (hpow : ∀ (x : ℝ) (q : Rat), 0 < x → B.pow x q = .ok (x ^ (q : ℝ)))
    (h1 : B.definitions.get? key = some target) (h2 : B.types.get? key = some t)
    (h3 : isExpression target = true) (h4 : Symbolic.ofString target = .ok r)
    (h5 : ∀ u ∈ r, u.coef ≠ 0 ∧
      ((u.base = Symbolic.one ∧ B.definitions.has u.base = false)
        ∨ (u.base ≠ Symbolic.one ∧ B.definitions.has u.base = true
          ∧ compute B fuel u.base = .ok (v.val u.base)))) :
    compute B (fuel + 1) key = .ok (Symbolic.value v r) := by
  rw [compute, h1]
  simp only [h2, h3, h4, if_true]
  rw [evaluateTerms_value v hpow r 1 h5, one_mul]

theorem isExpression_of_mem {s : Str} (h : '*' ∈ s ∨ '/' ∈ s) : isExpression s = true := by
  have key : ∀ (c : Char) (s : Str), c ∈ s → contains [c] s = true := by
    intro c s
    induction s with
    | nil => intro h; simp at h
    | cons x s ih =>
      intro h
      rw [contains]
      rcases List.mem_cons.1 h with rfl | h
      · simp [List.isPrefixOf]
      · rw [ih h]; simp
  unfold isExpression
  rcases h with h | h
  · simp [key _ _ h]
  · simp [key _ _ h]

/-! ## C130: any table of products -/

/-- `ν` solves the definitions of the constants in `S`, which do not refer in circles: each constant
has a declared type, and its text is either a numeral that reads as `ν n`, or a written product or
quotient of positive constants of lower rank, with the value `ν n` under ordinary arithmetic. -/
def Solves (B : Bases ℝ) (ν : Str → ℝ) (rank : Str → Nat) (S : Str → Prop) : Prop :=
  ∀ n, S n → ∃ s t, B.definitions.get? n = some s ∧ B.types.get? n = some t
    ∧ ((isExpression s = false ∧ ((t = .int ∧ B.readInt s = some (ν n))
        ∨ (t = .float ∧ B.readFloat s = some (ν n))))
      ∨ ∃ (e : Symbolic.Tree) (v : Symbolic.Assignment), s = e.render ∧ e.Ok ∧ e.Exact 1
          ∧ e.Positive ∧ ('*' ∈ s ∨ '/' ∈ s) ∧ ν n = e.denote v
          ∧ ∀ m ∈ treeNames e, m ≠ Symbolic.one ∧ S m ∧ rank m < rank n ∧ v.val m = ν m)

/-- **C130 (part).** For every table of constants whose definitions are numerals and written products
and quotients without circular references, to any depth: looking up a constant terminates and gives
the value that its definition has under ordinary arithmetic. -/
theorem c130_partial (B : Bases ℝ) (ν : Str → ℝ) (rank : Str → Nat) (S : Str → Prop)
    (h : Solves B ν rank S) (h1 : B.definitions.has Symbolic.one = false)
    (hpow : ∀ (x : ℝ) (q : Rat), 0 < x → B.pow x q = .ok (x ^ (q : ℝ))) (n : Str) (hn : S n) :
    ∃ N, ∀ fuel, N ≤ fuel → getConstant B fuel n = .ok (ν n) := by
  have main : ∀ k n, rank n < k → S n → ∃ N, ∀ fuel, N ≤ fuel → compute B fuel n = .ok (ν n) := by
    intro k
    induction k with
    | zero => intro n hk; omega
    | succ k ih =>
      intro n hk hn
      obtain ⟨s, t, d1, d2, d3⟩ := h n hn
      rcases d3 with ⟨he, d3⟩ | ⟨e, v, rfl, hok, hex, hpos, hop, hv, hnames⟩
      · refine ⟨1, fun fuel hf => ?_⟩
        obtain ⟨f, rfl⟩ : ∃ f, fuel = f + 1 := ⟨fuel - 1, by omega⟩
        rw [compute, d1]
        simp only [d2, he]
        rcases d3 with ⟨rfl, d3⟩ | ⟨rfl, d3⟩ <;> simp [readAs, d3]
      · obtain ⟨r, hr, hne, hval, hbase⟩ := ofString_render hok hex hpos
        have hcoef : ∀ u ∈ r, u.coef ≠ 0 := by
          obtain ⟨ts, r', _, hr', hx, _⟩ := Symbolic.c71_parse_meaning_partial e hok hex hpos
          rw [hr] at hr'
          injection hr' with hr'
          subst hr'
          exact fun u hu => ((Symbolic.isExpr_wf hx).2 u hu).1
        obtain ⟨N, hN⟩ := eventually_all (Q := fun (u : Symbolic.Term) f =>
            u.base = Symbolic.one ∨ (u.base ≠ Symbolic.one ∧ B.definitions.has u.base = true
              ∧ compute B f u.base = .ok (v.val u.base))) r (by
          intro u hu
          rcases hbase u hu with hb | hb
          · exact ⟨0, fun _ _ => Or.inl hb⟩
          · obtain ⟨k0, k1, k2, k3⟩ := hnames _ hb
            obtain ⟨N, hN⟩ := ih u.base (by omega) k1
            refine ⟨N, fun f hf => Or.inr ⟨k0, ?_, ?_⟩⟩
            · obtain ⟨s, t, d, _⟩ := h _ k1
              rw [Dict.has_eq_isSome, d]; rfl
            · rw [k3]; exact hN f hf)
        refine ⟨N + 1, fun fuel hf => ?_⟩
        obtain ⟨f, rfl⟩ : ∃ f, fuel = f + 1 := ⟨fuel - 1, by omega⟩
        rw [compute_terms v hpow d1 d2 (isExpression_of_mem hop) hr, hval, hv]
        intro u hu
        refine ⟨hcoef u hu, ?_⟩
        rcases hN f (by omega) u hu with h | h
        · exact Or.inl ⟨h, by rw [h]; exact h1⟩
        · exact Or.inr h
  obtain ⟨N, hN⟩ := main (rank n + 1) n (by omega) hn
  refine ⟨N, fun fuel hf => ?_⟩
  obtain ⟨s, t, d, _⟩ := h n hn
  rw [getConstant, if_pos (by rw [Dict.has_eq_isSome, d]; rfl)]
  exact hN fuel hf

/-- Three constants, two of them defined by the others. -/
noncomputable def threeBases : Bases ℝ :=
  ⟨[(c!"AU", c!"6"), (c!"TAU", c!"AU / 2"), (c!"DAY", c!"(TAU * AU)^2 / 3")],
    [(c!"AU", .int), (c!"TAU", .float), (c!"DAY", .float)],
    fun s => (decimalInt s).map (fun q => (q : ℝ)), fun s => (decimalFloat s).map (fun q => (q : ℝ)),
    fun x q => .ok (x ^ (q : ℝ))⟩

/-- Their values. -/
noncomputable def threeValues (n : Str) : ℝ :=
  if n = c!"AU" then 6 else if n = c!"TAU" then 3 else if n = c!"DAY" then 108 else 1

theorem threeValues_pos (n : Str) : 0 < threeValues n := by
  unfold threeValues
  split_ifs <;> norm_num

theorem threeValues_AU : threeValues c!"AU" = 6 := if_pos rfl

theorem threeValues_TAU : threeValues c!"TAU" = 3 := by
  rw [threeValues, if_neg (by decide), if_pos rfl]

theorem threeValues_DAY : threeValues c!"DAY" = 108 := by
  rw [threeValues, if_neg (by decide), if_neg (by decide), if_pos rfl]

/-- The hypotheses of `c130_partial` hold for `threeBases`. -/
theorem threeBases_solves : Solves threeBases threeValues
    (fun n => if n = c!"AU" then 0 else if n = c!"TAU" then 1 else 2)
    (fun n => n ∈ [c!"AU", c!"TAU", c!"DAY"]) := by
  let v : Symbolic.Assignment := ⟨threeValues, threeValues_pos, by
    rw [threeValues, if_neg (by decide), if_neg (by decide), if_neg (by decide)]⟩
  have w1 : Symbolic.WritableNum 2 := ⟨by norm_num [Symbolic.Writable], by decide +kernel⟩
  have w2 : Symbolic.WritableNum 3 := ⟨by norm_num [Symbolic.Writable], by decide +kernel⟩
  have w3 : Symbolic.Writable 1 := by norm_num [Symbolic.Writable]
  have nAU : Symbolic.ValidName c!"AU" := ⟨c!"AU", [], rfl, by decide, by decide, by decide, by decide⟩
  have nTAU : Symbolic.ValidName c!"TAU" := ⟨c!"TAU", [], rfl, by decide, by decide, by decide, by decide⟩
  intro n hn
  simp only [List.mem_cons, List.not_mem_nil, or_false] at hn
  rcases hn with rfl | rfl | rfl
  · refine ⟨c!"6", .int, rfl, rfl, Or.inl ⟨by decide +kernel, Or.inl ⟨rfl, ?_⟩⟩⟩
    have : decimalInt c!"6" = some 6 := by decide +kernel
    simp [threeBases, this, threeValues_AU]
  · refine ⟨c!"AU / 2", .float, rfl, rfl, Or.inr
      ⟨.bin .slash (.var c!"AU" 1) (.num 2), v, by decide +kernel, ⟨⟨nAU, w3⟩, w1, trivial⟩, ?_, ?_,
        by decide, ?_, ?_⟩⟩
    · exact ⟨trivial, Or.inr (by decide)⟩
    · exact ⟨trivial, by norm_num [Symbolic.Tree.Positive]⟩
    · norm_num [Symbolic.Tree.denote, threeValues_AU, threeValues_TAU, threeValues_DAY, v]
    · intro m hm
      simp only [treeNames, List.append_nil, List.mem_singleton] at hm
      subst hm
      exact ⟨by decide, by decide, by decide, rfl⟩
  · refine ⟨c!"(TAU * AU)^2 / 3", .float, rfl, rfl, Or.inr
      ⟨.bin .slash (.group (.bin .star (.var c!"TAU" 1) (.var c!"AU" 1)) 2) (.num 3), v,
        by decide +kernel, ⟨⟨⟨⟨nTAU, w3⟩, ⟨nAU, w3⟩, trivial⟩, w1.1⟩, w2, trivial⟩, ?_, ?_,
        by decide, ?_, ?_⟩⟩
    · exact ⟨⟨trivial, trivial⟩, Or.inr (by decide)⟩
    · exact ⟨⟨trivial, trivial⟩, by norm_num [Symbolic.Tree.Positive]⟩
    · norm_num [Symbolic.Tree.denote, threeValues_AU, threeValues_TAU, threeValues_DAY, v]
    · intro m hm
      simp only [treeNames, List.append_nil, List.cons_append, List.nil_append, List.mem_cons,
        List.not_mem_nil, or_false] at hm
      rcases hm with rfl | rfl
      · exact ⟨by decide, by decide, by decide, rfl⟩
      · exact ⟨by decide, by decide, by decide, rfl⟩

example : ∃ N, ∀ fuel, N ≤ fuel → getConstant threeBases fuel c!"DAY" = .ok 108 := by
  have h := c130_partial _ _ _ _ threeBases_solves (by decide +kernel) (fun _ _ _ => rfl) c!"DAY"
    (by decide)
  simpa only [threeValues_DAY] using h

/-- Constants over the rationals with readers of plain decimals, all of type float. -/
def rationalBases (defs : Dict Str Str) : Bases Rat :=
  ⟨defs, defs.map (fun e => (e.1, .float)), decimalInt, decimalFloat, ratPow⟩

/-- **C130 fails in the code** for a definition that names an unknown constant: the name is passed
over.  Here `C` is not defined, and `TAU`, defined as `AU / C`, is given the value of `AU`. -/
theorem c130_unknown_counterexample :
    getConstant (rationalBases [(c!"AU", c!"6.0"), (c!"TAU", c!"AU / C")]) 3 c!"TAU" = .ok 6 := by
  decide +kernel

/-- **C130 fails in the code** for a product with a constant that is zero: the zero is taken as one. -/
theorem c130_zero_counterexample :
    let B := rationalBases [(c!"F", c!"0"), (c!"AU", c!"6.0"), (c!"DAY", c!"F * AU")]
    getConstant B 3 c!"F" = .ok 0 ∧ getConstant B 3 c!"DAY" = .ok 6 := by
  decide +kernel

/-- **C130 fails in the code** for a constant that the package's metadata does not list, such as one
added to a user's own `baseTypes.h`. -/
theorem c130_untyped_counterexample :
    let B : Bases Rat := ⟨[(c!"RMAX", c!"2.0")], baseTypes, decimalInt, decimalFloat, ratPow⟩
    B.readFloat c!"2.0" = some 2 ∧ ∀ fuel, getConstant B (fuel + 1) c!"RMAX" = .error .typeError := by
  refine ⟨by decide +kernel, fun fuel => ?_⟩
  have h : baseTypes.get? c!"RMAX" = none := by decide +kernel
  have h2 : (Dict.get? [(c!"RMAX", c!"2.0")] c!"RMAX" : Option Str) = some c!"2.0" := by decide +kernel
  rw [getConstant, if_pos (by decide +kernel), compute]
  simp only [h, h2]

end Verif.Defaults
