import Verif.Defaults.ConstProps
import Verif.Layout.Props

/-!
# Constants of `baseTypes.h`: property C130 for definitions in any layout, with square roots
-/

set_option linter.unusedSimpArgs false
set_option linter.unusedSectionVars false

namespace Verif.Defaults

open Verif.Py Verif.Runtime Verif.Layout

theorem contains_infix (p : Str) : ∀ s : Str, contains p s = true ↔ p <:+: s := by
  intro s
  induction s with
  | nil => simp [contains]
  | cons c s ih =>
    rw [contains, Bool.or_eq_true, ih, List.isPrefixOf_iff_prefix, List.infix_cons_iff]

/-- What makes a text count as an expression. -/
theorem isExpression_iff (s : Str) : isExpression s = true ↔ '*' ∈ s ∨ '/' ∈ s ∨ c!"sqrt" <:+: s := by
  have h1 : ∀ c : Char, [c] <:+: s ↔ c ∈ s := by
    intro c
    constructor
    · rintro ⟨a, b, rfl⟩; simp
    · intro h
      obtain ⟨a, b, rfl⟩ := List.append_of_mem h
      exact ⟨a, b, by simp⟩
  unfold isExpression
  rw [Bool.or_eq_true, Bool.or_eq_true, contains_infix, contains_infix, contains_infix, h1, h1, or_assoc]

/-- The names in a written expression. -/
def layNames : Lay → List Str
  | .num _ _ => []
  | .var _ n _ => [n]
  | .group _ t _ _ => layNames t
  | .root _ b => layNames b
  | .bin _ _ _ a b => layNames a ++ layNames b

theorem base_termsOf (t : Lay) : ∀ q, ∀ u ∈ Layout.termsOf t q, u.base = Symbolic.one ∨ u.base ∈ layNames t := by
  induction t with
  | num n x => intro q u hu; simp [Layout.termsOf] at hu; subst hu; exact Or.inl rfl
  | var k n x => intro q u hu; simp [Layout.termsOf] at hu; subst hu; exact Or.inr (by simp [layNames])
  | group l t r x ih =>
    intro q u hu
    rcases List.mem_append.1 hu with h | h
    · exact ih _ u h
    · simp at h; subst h; exact Or.inl rfl
  | root r b ih => intro q u hu; exact ih _ u hu
  | bin o l r a b iha ihb =>
    intro q u hu
    rcases List.mem_append.1 hu with h | h
    · rcases iha _ u h with h | h
      · exact Or.inl h
      · exact Or.inr (by simp [layNames, h])
    · rcases ihb _ u h with h | h
      · exact Or.inl h
      · exact Or.inr (by simp [layNames, h])

theorem ofString_layout {l r : List Char} (hl : Blank l) (hr : Blank r) {t : Lay} (hok : t.Ok) (he : t.Exact 1)
    (hp : t.Positive) :
    ∃ e, Symbolic.ofString (l ++ (t.render ++ r)) = .ok e ∧ (∀ u ∈ e, u.coef ≠ 0) ∧
      (∀ v, Symbolic.value v e = t.denote v) ∧ ∀ u ∈ e, u.base = Symbolic.one ∨ u.base ∈ layNames t := by
  obtain ⟨ts, e, h1, h2, h3, h4⟩ := c207_meaning_partial t l r hl hr hok he hp
  refine ⟨e, h2, fun u hu => ((Symbolic.isExpr_wf h3).2 u hu).1, fun v => (h4 v).2, ?_⟩
  rw [ofString_lay hl hr t hok he] at h2
  have hw := wf_all hok
  have hne : Layout.termsOf t 1 ++ [⟨1, Symbolic.one, 1⟩] ≠ [] := by simp
  intro u hu
  by_cases hb : u.base = Symbolic.one
  · exact Or.inl hb
  obtain ⟨vars, hr', hc, he'⟩ := Symbolic.reduce_eq _ hne hw
  rw [hr'] at h2
  injection h2 with h2
  have huv : u ∈ vars := by
    rw [← h2] at hu
    unfold Symbolic.assemble at hu
    split at hu
    · simp at hu; subst hu; exact absurd rfl hb
    · split at hu
      · exact hu
      · rcases List.mem_cons.1 hu with rfl | h
        · exact absurd rfl hb
        · exact h
  have hx : Symbolic.totalExp (Layout.termsOf t 1 ++ [⟨1, Symbolic.one, 1⟩]) u.base ≠ 0 := by
    rw [← he' _ hb, Symbolic.totalExp_of_mem hc.2.1 huv]
    exact (hc.1 u huv).2.2.2
  obtain ⟨w, hw', hwb⟩ := Symbolic.totalExp_ne_zero_mem hx
  rcases List.mem_append.1 hw' with h | h
  · rw [← hwb]; exact base_termsOf t 1 w h
  · simp at h; subst h; exact Or.inl hwb.symm

/-- `ν` solves the definitions of the constants in `S`, which do not refer in circles: each constant has a declared
type, and its text is either a numeral that reads as `ν n`, or an expression in any layout, with an operator, whose
value under ordinary arithmetic is `ν n`. -/
def SolvesText (B : Bases ℝ) (ν : Str → ℝ) (rank : Str → Nat) (S : Str → Prop) : Prop :=
  ∀ n, S n → ∃ s t, B.definitions.get? n = some s ∧ B.types.get? n = some t
    ∧ (((¬ ('*' ∈ s ∨ '/' ∈ s ∨ c!"sqrt" <:+: s)) ∧ ((t = .int ∧ B.readInt s = some (ν n))
        ∨ (t = .float ∧ B.readFloat s = some (ν n))))
      ∨ ∃ (l r : List Char) (e : Lay) (v : Symbolic.Assignment), s = l ++ (e.render ++ r) ∧ Blank l ∧ Blank r
          ∧ e.Ok ∧ e.Exact 1 ∧ e.Positive ∧ ('*' ∈ s ∨ '/' ∈ s ∨ c!"sqrt" <:+: s) ∧ ν n = e.denote v
          ∧ ∀ m ∈ layNames e, m ≠ Symbolic.one ∧ S m ∧ rank m < rank n ∧ v.val m = ν m)

/-- **C130, any layout.** As `c130_partial`, for definitions in any layout, with square roots. -/
theorem c130_layout_partial (B : Bases ℝ) (ν : Str → ℝ) (rank : Str → Nat) (S : Str → Prop)
    (h : SolvesText B ν rank S) (h1 : B.definitions.has Symbolic.one = false)
    (hpow : ∀ (x : ℝ) (q : Rat), 0 < x → B.pow x q = .ok (x ^ (q : ℝ))) (n : Str) (hn : S n) :
    ∃ N, ∀ fuel, N ≤ fuel → getConstant B fuel n = .ok (ν n) := by
  have main : ∀ k n, rank n < k → S n → ∃ N, ∀ fuel, N ≤ fuel → compute B fuel n = .ok (ν n) := by
    intro k
    induction k with
    | zero => intro n hk; omega
    | succ k ih =>
      intro n hk hn
      obtain ⟨s, t, d1, d2, d3⟩ := h n hn
      rcases d3 with ⟨he, d3⟩ | ⟨l, r, e, v, rfl, hl, hr, hok, hex, hpos, hop, hv, hnames⟩
      · refine ⟨1, fun fuel hf => ?_⟩
        obtain ⟨f, rfl⟩ : ∃ f, fuel = f + 1 := ⟨fuel - 1, by omega⟩
        have he' : isExpression s = false := by rw [← isExpression_iff] at he; simpa using he
        rw [compute, d1]
        simp only [d2, he']
        rcases d3 with ⟨rfl, d3⟩ | ⟨rfl, d3⟩ <;> simp [readAs, d3]
      · obtain ⟨ex, hr', hcoef, hval, hbase⟩ := ofString_layout hl hr hok hex hpos
        obtain ⟨N, hN⟩ := eventually_all (Q := fun (u : Symbolic.Term) f =>
            u.base = Symbolic.one ∨ (u.base ≠ Symbolic.one ∧ B.definitions.has u.base = true
              ∧ compute B f u.base = .ok (v.val u.base))) ex (by
          intro u hu
          rcases hbase u hu with hb | hb
          · exact ⟨0, fun _ _ => Or.inl hb⟩
          · obtain ⟨k0, k1, k2, k3⟩ := hnames _ hb
            obtain ⟨N, hN⟩ := ih u.base (by omega) k1
            refine ⟨N, fun f hf => Or.inr ⟨k0, ?_, ?_⟩⟩
            · obtain ⟨s, t, d, _⟩ := h _ k1
              rw [Dict.has_eq_isSome, d]; rfl
            · rw [k3]; exact hN f hf)
        refine ⟨N + 1, fun fuel hf => ?_⟩
        obtain ⟨f, rfl⟩ : ∃ f, fuel = f + 1 := ⟨fuel - 1, by omega⟩
        rw [compute_terms v hpow d1 d2 ((isExpression_iff _).2 hop) hr', hval, hv]
        intro u hu
        refine ⟨hcoef u hu, ?_⟩
        rcases hN f (by omega) u hu with h | h
        · exact Or.inl ⟨h, by rw [h]; exact h1⟩
        · exact Or.inr h
  obtain ⟨N, hN⟩ := main (rank n + 1) n (by omega) hn
  refine ⟨N, fun fuel hf => ?_⟩
  obtain ⟨s, t, d, _⟩ := h n hn
  rw [getConstant, if_pos (by rw [Dict.has_eq_isSome, d]; rfl)]
  exact hN fuel hf

/-- Two constants, one of which is a square root. -/
noncomputable def rootBases : Bases ℝ :=
  ⟨[(c!"AU", c!"9"), (c!"TAU", c!" sqrt( AU )")],
    [(c!"AU", .int), (c!"TAU", .float)],
    fun s => (decimalInt s).map (fun q => (q : ℝ)), fun s => (decimalFloat s).map (fun q => (q : ℝ)),
    fun x q => .ok (x ^ (q : ℝ))⟩

/-- Their values. -/
noncomputable def rootValues (n : Str) : ℝ := if n = c!"AU" then 9 else if n = c!"TAU" then 3 else 1

theorem rootValues_pos (n : Str) : 0 < rootValues n := by
  unfold rootValues
  split_ifs <;> norm_num

theorem rootValues_AU : rootValues c!"AU" = 9 := if_pos rfl

theorem rootValues_TAU : rootValues c!"TAU" = 3 := by
  rw [rootValues, if_neg (by decide), if_pos rfl]

theorem rootBases_solves : SolvesText rootBases rootValues (fun n => if n = c!"AU" then 0 else 1)
    (fun n => n ∈ [c!"AU", c!"TAU"]) := by
  let v : Symbolic.Assignment := ⟨rootValues, rootValues_pos, by
    rw [rootValues, if_neg (by decide), if_neg (by decide)]⟩
  have w3 : Symbolic.Writable 1 := by norm_num [Symbolic.Writable]
  have nAU : Symbolic.ValidName c!"AU" := ⟨c!"AU", [], rfl, by decide, by decide, by decide, by decide⟩
  intro n hn
  simp only [List.mem_cons, List.not_mem_nil, or_false] at hn
  rcases hn with rfl | rfl
  · refine ⟨c!"9", .int, rfl, rfl, Or.inl ⟨by decide +kernel, Or.inl ⟨rfl, ?_⟩⟩⟩
    have : decimalInt c!"9" = some 9 := by decide +kernel
    simp [rootBases, this, rootValues_AU]
  · refine ⟨c!" sqrt( AU )", .float, rfl, rfl, Or.inr
      ⟨[' '], [], .root [] (.group [' '] (.var 1 c!"AU" 1) [' '] 1), v, by decide +kernel, ?_, ?_,
        ⟨?_, ⟨?_, ⟨by norm_num, nAU, w3, Or.inl rfl⟩, ?_, w3⟩, trivial, Or.inr trivial⟩, ?_, ?_, ?_, ?_, ?_⟩⟩
    · intro c hc; simp at hc; subst hc; decide
    · intro c hc; simp at hc
    · intro c hc; simp at hc
    · intro c hc; simp at hc; subst hc; decide
    · intro c hc; simp at hc; subst hc; decide
    · exact ⟨trivial, Or.inl rfl⟩
    · norm_num [Lay.Positive]
    · exact Or.inr (Or.inr ⟨[' '], c!"( AU )", by decide +kernel⟩)
    · rw [rootValues_TAU]
      simp only [Lay.denote, v, rootValues_AU]
      norm_num
      rw [show (9 : ℝ) = 3 ^ 2 by norm_num, Real.sqrt_sq (by norm_num)]
    · intro m hm
      simp only [layNames, List.mem_singleton] at hm
      subst hm
      exact ⟨by decide, by decide, by decide, rfl⟩

example : ∃ N, ∀ fuel, N ≤ fuel → getConstant rootBases fuel c!"TAU" = .ok 3 := by
  have h := c130_layout_partial _ _ _ _ rootBases_solves (by decide +kernel) (fun _ _ _ => rfl) c!"TAU" (by decide)
  simpa only [rootValues_TAU] using h

end Verif.Defaults
