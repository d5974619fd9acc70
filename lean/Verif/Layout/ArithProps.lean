import Verif.Layout.Props

/-!
# Property C224: arithmetic of expressions and arithmetic in texts

Multiplying, dividing and raising expressions agrees with reading the product, ratio or power as it is
written.
-/

set_option linter.unusedSimpArgs false

namespace Verif.Layout

open Verif.Py Verif.Symbolic Verif.Terms

/-! ## The written operations (specification) -/

/-- `(t)*(u)` with any white space within the brackets and around the operator. -/
def written (o : Link) (w : List (List Char)) (t u : Lay) : Lay :=
  .bin o (w.getD 0 []) (w.getD 1 []) (.group (w.getD 2 []) t (w.getD 3 []) 1)
    (.group (w.getD 4 []) u (w.getD 5 []) 1)

/-- `(t)^n`. -/
def writtenPow (w : List (List Char)) (t : Lay) (n : Int) : Lay :=
  .group (w.getD 0 []) t (w.getD 1 []) n

/-! ## Powers of texts -/

theorem den_int_mul {q : Rat} (h : q.den = 1) (n : Int) : ((n : Rat) * q).den = 1 := by
  have : q = (q.num : Rat) := by
    conv_lhs => rw [← Rat.num_div_den q, h]
    simp
  rw [this, ← Int.cast_mul]
  exact Rat.den_intCast _

theorem Lay.exact_int (n : Int) : ∀ (t : Lay) (q : Rat), t.Exact q → t.Exact (n * q) := by
  intro t
  induction t with
  | num m x => intro q h; exact h.imp id (fun h => ⟨h.1, den_int_mul h.2 n⟩)
  | var k m x => intro q h; exact h.imp id (fun h => den_int_mul h n)
  | group l t r x ih =>
    intro q h
    have := ih (x * q) h
    show t.Exact (x * (n * q))
    rwa [show x * (n * q) = n * (x * q) by ring]
  | root r b ih =>
    intro q h
    refine ⟨h.1, ?_⟩
    rw [show (n : Rat) * q / 2 = n * (q / 2) by ring]
    exact ih _ h.2
  | bin o l r a b iha ihb =>
    intro q h
    refine ⟨iha q h.1, h.2.1, ?_⟩
    have := ihb _ h.2.2
    have e : o.power (n * q) = n * o.power q := by
      cases o <;> simp [Link.power]; ring
    rwa [e]

theorem ratPow_zpow {c : Rat} {q : Rat} (n : Int) (h : c = 1 ∨ q.den = 1) :
    ratPow c (n * q) = ratPow c q ^ n := by
  unfold ratPow
  split
  · simp
  · next hc =>
    have hq := h.resolve_left hc
    have : q = (q.num : Rat) := by
      conv_lhs => rw [← Rat.num_div_den q, hq]
      simp
    have hn : ((n : Rat) * q).num = q.num * n := by
      conv_lhs => rw [this, ← Int.cast_mul, mul_comm]
      exact Rat.num_intCast _
    rw [hn, zpow_mul]

/-- Raising a text to an integral power raises the product of its coefficients and multiplies the sums of
its exponents. -/
theorem totals_int (n : Int) : ∀ (t : Lay) (q : Rat), t.Exact q →
    totalCoef (termsOf t (n * q)) = totalCoef (termsOf t q) ^ n
    ∧ ∀ x, x ≠ one → totalExp (termsOf t (n * q)) x = totalExp (termsOf t q) x * n := by
  intro t
  induction t with
  | num m x =>
    intro q h
    refine ⟨?_, fun y hy => ?_⟩
    · simp only [termsOf, totalCoef_cons, totalCoef_nil, mul_one]
      apply ratPow_zpow
      rcases h with h | h
      · left; rw [h]; simp [ratPow]
      · exact Or.inr h.2
    · simp [termsOf, totalExp_cons, Ne.symm hy]
  | var k m x =>
    intro q h
    refine ⟨?_, fun y hy => ?_⟩
    · simp only [termsOf, totalCoef_cons, totalCoef_nil, mul_one]
      exact ratPow_zpow n h
    · simp only [termsOf, totalExp_cons, totalExp_nil, add_zero]
      split
      · ring
      · ring
  | group l t r x ih =>
    intro q h
    obtain ⟨h1, h2⟩ := ih (x * q) h
    have e : x * (n * q) = n * (x * q) := by ring
    refine ⟨?_, fun y hy => ?_⟩
    · simp only [termsOf, totalCoef_append, totalCoef_cons, totalCoef_nil, mul_one, e, h1]
    · simp only [termsOf, totalExp_append, e, h2 y hy]
      simp [totalExp_cons, Ne.symm hy]
  | root r b ih =>
    intro q h
    have e : (n : Rat) * q / 2 = n * (q / 2) := by ring
    simp only [termsOf, e]
    exact ih _ h.2
  | bin o l r a b iha ihb =>
    intro q h
    have e : o.power (n * q) = n * o.power q := by
      cases o <;> simp [Link.power]; ring
    obtain ⟨h1, h2⟩ := iha q h.1
    obtain ⟨h3, h4⟩ := ihb _ h.2.2
    refine ⟨?_, fun y hy => ?_⟩
    · simp only [termsOf, totalCoef_append, e, h1, h3, mul_zpow]
    · simp only [termsOf, totalExp_append, e, h2 y hy, h4 y hy]; ring

/-! ## Texts and expressions -/

/-- The expression of a text: it exists, and its totals are those of the terms of the text. -/
theorem expr_of_lay {l r : List Char} (hl : Blank l) (hr : Blank r) {t : Lay} (hok : t.Ok)
    (he : t.Exact 1) :
    ∃ a, ofString (l ++ (t.render ++ r)) = .ok a ∧ IsExpr a
      ∧ totalCoef a = totalCoef (termsOf t 1)
      ∧ ∀ x, x ≠ one → totalExp a x = totalExp (termsOf t 1) x := by
  have hne : termsOf t 1 ++ [⟨1, one, 1⟩] ≠ [] := by simp
  obtain ⟨a, ha⟩ := reduce_ok hne (wf_all hok)
  obtain ⟨h1, h2, h3⟩ := reduce_totals hne (wf_all hok) ha
  refine ⟨a, by rw [ofString_lay hl hr t hok he, ha], h1, ?_, fun x hx => ?_⟩
  · rw [h2, totalCoef_append]; simp [totalCoef]
  · rw [h3 x hx, totalExp_append]; simp [totalExp_cons, Ne.symm hx]

theorem getD_blank {w : List (List Char)} (hw : ∀ s ∈ w, Blank s) (i : Nat) : Blank (w.getD i []) := by
  rw [List.getD_eq_getElem?_getD]
  cases h : w[i]? with
  | none => exact blank_nil
  | some s => exact hw s (List.mem_of_getElem? h)

theorem writable_one : Writable 1 := ⟨one_ne_zero, by decide⟩

theorem written_ok {o : Link} (ho : o = .star ∨ o = .slash) {w : List (List Char)}
    (hw : ∀ s ∈ w, Blank s) {t u : Lay} (ht : t.Ok) (hu : u.Ok) : (written o w t u).Ok := by
  refine ⟨getD_blank hw 0, getD_blank hw 1, ⟨getD_blank hw 2, ht, getD_blank hw 3, writable_one⟩,
    ⟨getD_blank hw 4, hu, getD_blank hw 5, writable_one⟩, trivial, ?_⟩
  rcases ho with rfl | rfl
  · trivial
  · right; right; left; simp [Lay.EndsNum]

/-- **C224 (partial), products.** Multiplying the expressions of two texts gives the expression of the
text `(t)*(u)`, with any white space, when this expression can be read back after formatting. -/
theorem c224_mul_partial (t u : Lay) (w : List (List Char)) (hw : ∀ s ∈ w, Blank s) (ht : t.Ok)
    (hu : u.Ok) (het : t.Exact 1) (heu : u.Exact 1) :
    ∃ a b r, ofString t.render = .ok a ∧ ofString u.render = .ok b
      ∧ ofString (written .star w t u).render = .ok r
      ∧ (Printable r → exprMul a b = .ok r) := by
  obtain ⟨a, a1, a2, a3, a4⟩ := expr_of_lay blank_nil blank_nil ht het
  obtain ⟨b, b1, b2, b3, b4⟩ := expr_of_lay blank_nil blank_nil hu heu
  obtain ⟨r, r1, r2, r3, r4⟩ := expr_of_lay blank_nil blank_nil
    (written_ok (Or.inl rfl) hw ht hu)
    (show (written .star w t u).Exact 1 from ⟨by simpa [Lay.Exact] using het, by simp,
      by simpa [Lay.Exact, Link.power] using heu⟩)
  simp only [List.nil_append, List.append_nil] at a1 b1 r1
  obtain ⟨s, s1, _, s3, s4, s5⟩ := exprMul_spec a2 b2
  have : s = r := expr_ext s1 r2
    (by rw [s3, r3, a3, b3]
        simp [written, termsOf, Link.power, totalCoef_append, totalCoef_cons])
    (fun x hx => by
      rw [s4 x hx, r4 x hx, a4 x hx, b4 x hx]
      simp [written, termsOf, Link.power, totalExp_append, totalExp_cons, Ne.symm hx])
  exact ⟨a, b, r, a1, b1, r1, fun h => this ▸ s5 (this ▸ h)⟩

/-- **C224 (partial), ratios.** Likewise for `(t)/(u)`. -/
theorem c224_div_partial (t u : Lay) (w : List (List Char)) (hw : ∀ s ∈ w, Blank s) (ht : t.Ok)
    (hu : u.Ok) (het : t.Exact 1) (heu : u.Exact 1) :
    ∃ a b r, ofString t.render = .ok a ∧ ofString u.render = .ok b
      ∧ ofString (written .slash w t u).render = .ok r
      ∧ (Printable r → exprDiv a b = .ok r) := by
  obtain ⟨a, a1, a2, a3, a4⟩ := expr_of_lay blank_nil blank_nil ht het
  obtain ⟨b, b1, b2, b3, b4⟩ := expr_of_lay blank_nil blank_nil hu heu
  have hneg : u.Exact (-1) := by simpa using u.exact_int (-1) 1 heu
  obtain ⟨n1, n2⟩ := totals_int (-1) u 1 heu
  obtain ⟨r, r1, r2, r3, r4⟩ := expr_of_lay blank_nil blank_nil
    (written_ok (Or.inr rfl) hw ht hu)
    (show (written .slash w t u).Exact 1 from ⟨by simpa [Lay.Exact] using het, by simp,
      by simpa [Lay.Exact, Link.power] using hneg⟩)
  simp only [List.nil_append, List.append_nil] at a1 b1 r1
  simp only [Int.cast_neg, Int.cast_one, mul_one] at n1 n2
  obtain ⟨s, s1, s3, s4, s5⟩ := exprDiv_spec a2 b2
  have : s = r := expr_ext s1 r2
    (by rw [s3, r3, a3, b3]
        simp [written, termsOf, Link.power, totalCoef_append, totalCoef_cons, n1, div_eq_mul_inv])
    (fun x hx => by
      rw [s4 x hx, r4 x hx, a4 x hx, b4 x hx]
      simp [written, termsOf, Link.power, totalExp_append, totalExp_cons, Ne.symm hx, n2 x hx]
      ring)
  exact ⟨a, b, r, a1, b1, r1, fun h => this ▸ s5 (this ▸ h)⟩

/-- **C224 (partial), powers.** Likewise for `(t)^n` with an integer other than zero, when the numbers
involved are floats. -/
theorem c224_pow_partial (t : Lay) (n : Int) (hn : n ≠ 0) (w : List (List Char))
    (hw : ∀ s ∈ w, Blank s) (ht : t.Ok) (het : t.Exact 1) :
    ∃ a r, ofString t.render = .ok a ∧ ofString (writtenPow w t n).render = .ok r
      ∧ (FloatPow a n → Printable r → exprPow a n = .ok r) := by
  have hn' : (n : Rat) ≠ 0 := by exact_mod_cast hn
  obtain ⟨a, a1, a2, a3, a4⟩ := expr_of_lay blank_nil blank_nil ht het
  obtain ⟨n1, n2⟩ := totals_int n t 1 het
  have hex := t.exact_int n 1 het
  obtain ⟨r, r1, r2, r3, r4⟩ := expr_of_lay blank_nil blank_nil (t := writtenPow w t n)
    ⟨getD_blank hw 0, ht, getD_blank hw 1, hn', by rw [Rat.den_intCast]; decide⟩ hex
  simp only [List.nil_append, List.append_nil] at a1 r1
  refine ⟨a, r, a1, r1, fun hf hp => ?_⟩
  obtain ⟨s, s1, s3, s4, s5⟩ := exprPow_spec a2 hn' (Or.inl (Rat.den_intCast n)) hf
  have hz : ∀ z : Rat, ratPow z n = z ^ n := by
    intro z; unfold ratPow; split
    · next hz => subst hz; simp
    · rfl
  have : s = r := expr_ext s1 r2
    (by rw [s3, r3, a3, hz]
        simp only [writtenPow, termsOf, totalCoef_append, n1]
        simp [totalCoef_cons])
    (fun x hx => by
      rw [s4 x hx, r4 x hx, a4 x hx]
      simp only [writtenPow, termsOf, totalExp_append, n2 x hx]
      simp [totalExp_cons, Ne.symm hx])
  exact this ▸ s5 (this ▸ hp)

/-- **C224 (counterexample).** The text `(0.1 a)*(b)` has the coefficient 0.1 (as a float), the product
of `0.1 a` and `b` has a coefficient greater than `10 ^ 30`: the float is written as a fraction whose
denominator has many digits, of which the first is read. Likewise for a ratio and for a power. -/
theorem c224_counterexample :
    (∃ x, toFloat (1 / 10) = .ok x
      ∧ ofString "(0.1 a)*(b)".toList = .ok [⟨x, one, 1⟩, ⟨1, ['a'], 1⟩, ⟨1, ['b'], 1⟩])
    ∧ (do exprMul (← ofString "0.1 a".toList) (← ofString "b".toList))
      = .ok [⟨7240343468826262137274185760768, one, 1⟩, ⟨1, ['a'], 1⟩, ⟨1, ['b'], 1⟩]
    ∧ ofString "(a)/(16)".toList = .ok [⟨1 / 16, one, 1⟩, ⟨1, ['a'], 1⟩]
    ∧ (do exprDiv (← ofString "a".toList) (← ofString "16".toList))
      = .ok [⟨6, one, 1⟩, ⟨1, ['a'], 1⟩]
    ∧ ofString "(4 a)^-2".toList = .ok [⟨1 / 16, one, 1⟩, ⟨1, ['a'], -2⟩]
    ∧ (do exprPow (← ofString "4 a".toList) (-2)) = .ok [⟨6, one, 1⟩, ⟨1, ['a'], -2⟩] := by
  refine ⟨⟨3602879701896397 / 36028797018963968, by decide +kernel, by decide +kernel⟩,
    by decide +kernel, by decide +kernel, by decide +kernel, by decide +kernel, by decide +kernel⟩

example : (written .slash [[' '], [], [], ['\t']] (.var 2 ['a'] 1) (.num (.frac 4) 1)).render
      = "(2a\t) /(4)".toList
    ∧ ofString "(2a\t) /(4)".toList = .ok [⟨1 / 2, one, 1⟩, ⟨1, ['a'], 1⟩]
    ∧ (do exprDiv (← ofString "2a".toList) (← ofString "4".toList))
      = .ok [⟨1 / 2, one, 1⟩, ⟨1, ['a'], 1⟩]
    ∧ (do exprMul (← ofString "0.5 a".toList) (← ofString "b / 2".toList))
      = .ok [⟨1 / 4, one, 1⟩, ⟨1, ['a'], 1⟩, ⟨1, ['b'], 1⟩]
    ∧ (do exprPow (← ofString "0.5 a".toList) 2) = .ok [⟨1 / 4, one, 1⟩, ⟨1, ['a'], 2⟩] := by
  refine ⟨by decide +kernel, by decide +kernel, by decide +kernel, by decide +kernel, by decide +kernel⟩

end Verif.Layout
