import Verif.Symbolic.Props

/-!
# Property C273: the laws of exponents
-/

set_option linter.unusedSimpArgs false
set_option linter.unusedSectionVars false

namespace Verif.Symbolic

open Verif.Py

theorem abs_int_ge {n : Int} (hn : n ≠ 0) : (1 : Rat) ≤ |(n : Rat)| := by exact_mod_cast Int.one_le_abs hn

/-- The exponent of a term that a unit has. -/
theorem UnitLike.exp_ge {a : List Term} (h : UnitLike a) {t : Term} (ht : t ∈ a) : (1 : Rat) ≤ |t.exp| := by
  obtain ⟨m, hm⟩ := (den_one_iff _).1 (h.exp_den ht)
  rw [hm]
  refine abs_int_ge ?_
  rintro rfl
  exact ((isExpr_wf h.1).2 t ht).2.1 (by rw [hm]; rfl)

/-- A power of a unit. -/
theorem unit_pow {a : List Term} (ha : UnitLike a) {n : Int} (hn : n ≠ 0) (hs : ∀ t ∈ a, |t.exp * n| ≤ 2 ^ 53) :
    ∃ r, exprPow a n = .ok r ∧ UnitLike r ∧ totalCoef r = 1 ∧ ∀ x, x ≠ one → totalExp r x = totalExp a x * n := by
  have hn' : (n : Rat) ≠ 0 := by exact_mod_cast hn
  obtain ⟨r, f, cf, xf, pf⟩ := exprPow_spec ha.1 hn' (Or.inl rfl) (ha.floatPow hn hs)
  rw [ha.totals.1, ratPow_one] at cf
  have ur := unitLike_pow ha n f cf xf
  exact ⟨r, pf ur.printable, ur, cf, xf⟩

theorem unitLike_div {a b r : List Term} (ha : UnitLike a) (hb : UnitLike b) (hr : IsExpr r)
    (hc : totalCoef r = totalCoef a / totalCoef b) (he : ∀ x, x ≠ one → totalExp r x = totalExp a x - totalExp b x) : UnitLike r := by
  obtain ⟨a1, a2⟩ := ha.totals
  obtain ⟨b1, b2⟩ := hb.totals
  refine (unitLike_iff hr).2 ⟨by rw [hc, a1, b1, div_one], ?_⟩
  intro x hx hne
  rw [he x hx] at hne ⊢
  have hden : (-(totalExp b x)).den = 1 := by rw [Rat.neg_den]; exact (b2 x hx).1
  refine ⟨?_, by rw [sub_eq_add_neg]; exact den_add (a2 x hx).1 hden⟩
  by_cases hz : totalExp a x = 0
  · exact (b2 x hx).2 (fun hb => hne (by rw [hz, hb, sub_zero]))
  · exact (a2 x hx).2 hz

/-- A quotient of units. -/
theorem unit_div {a b : List Term} (ha : UnitLike a) (hb : UnitLike b) :
    ∃ r, exprDiv a b = .ok r ∧ UnitLike r ∧ totalCoef r = 1 ∧ ∀ x, x ≠ one → totalExp r x = totalExp a x - totalExp b x := by
  obtain ⟨r, e, c, x, p⟩ := exprDiv_spec ha.1 hb.1
  have ur := unitLike_div ha hb e c x
  exact ⟨r, p ur.printable, ur, ur.totals.1, x⟩

/-- A product of units. -/
theorem unit_mul {a b : List Term} (ha : UnitLike a) (hb : UnitLike b) :
    ∃ r, exprMul a b = .ok r ∧ UnitLike r ∧ totalCoef r = 1 ∧ ∀ x, x ≠ one → totalExp r x = totalExp a x + totalExp b x := by
  obtain ⟨r, e, -, c, x, p⟩ := exprMul_spec ha.1 hb.1
  have ur := unitLike_mul ha hb e c x
  exact ⟨r, p ur.printable, ur, ur.totals.1, x⟩

theorem unitLike_one : UnitLike [⟨1, one, 1⟩] :=
  ⟨isExpr_one, by simp, fun t ht hb => by simp at ht; subst ht; exact absurd rfl hb⟩

theorem totalExp_one {x : Name} (hx : x ≠ one) : totalExp [⟨1, one, 1⟩] x = 0 := by
  rw [totalExp_cons, if_neg (Ne.symm hx)]; simp

/-- Bounds on exponents, from those on the totals. -/
theorem bound_of_totals {r : List Term} (hr : UnitLike r) {n : Int} {B : Rat} (h1 : |(n : Rat)| ≤ B)
    (h : ∀ x, x ≠ one → |totalExp r x * n| ≤ B) : ∀ t ∈ r, |t.exp * n| ≤ B := by
  intro t ht
  by_cases hb : t.base = one
  · rw [(expr_term hr.1 ht).1 hb, one_mul]; exact h1
  · rw [← (expr_term hr.1 ht).2 hb]; exact h _ hb

theorem totals_bound {a : List Term} (ha : UnitLike a) {q B : Rat} (hB : 0 ≤ B) (h : ∀ t ∈ a, |t.exp * q| ≤ B) :
    ∀ x, x ≠ one → |totalExp a x * q| ≤ B := by
  intro x hx
  by_cases hz : totalExp a x = 0
  · rw [hz]; simpa using hB
  · obtain ⟨u, hm, hbase⟩ := totalExp_ne_zero_mem hz
    rw [← hbase, (expr_term ha.1 hm).2 (by rw [hbase]; exact hx)]
    exact h u hm

theorem int_bound {a : List Term} (ha : UnitLike a) {q B : Rat} (h : ∀ t ∈ a, |t.exp * q| ≤ B) : |q| ≤ B := by
  obtain ⟨t, ts, rfl⟩ := List.exists_cons_of_ne_nil (isExpr_wf ha.1).1
  have h1 := h t (by simp)
  have h2 := ha.exp_ge (t := t) (by simp)
  rw [abs_mul] at h1
  nlinarith [abs_nonneg q]

/-- **C273, powers of one unit.** For all units and integers other than 0 for which exponents stay within the integers that a float
represents: powers exist, the exponents of products of powers add up, those of quotients are subtracted, and those of powers of powers
are multiplied; the power 1 is the unit itself and the power -1 is its inverse. -/
theorem c273_partial (a : List Term) (ha : UnitLike a) (m n : Int) (hm : m ≠ 0) (hn : n ≠ 0)
    (hs : ∀ t ∈ a, |t.exp * (m * n)| ≤ 2 ^ 52) :
    ∃ am an, exprPow a m = .ok am ∧ exprPow a n = .ok an ∧
      (m + n ≠ 0 → exprMul am an = exprPow a ((m + n : Int) : Rat)) ∧ (m + n = 0 → exprMul am an = .ok [⟨1, one, 1⟩]) ∧
      (m ≠ n → exprDiv am an = exprPow a ((m - n : Int) : Rat)) ∧
      exprPow am n = exprPow a ((m * n : Int) : Rat) ∧
      exprPow a 1 = .ok a ∧ exprDiv [⟨1, one, 1⟩] a = exprPow a (-1) ∧
      ∃ s, exprMul am an = .ok s ∧ UnitLike s := by
  have hB : (0 : Rat) ≤ 2 ^ 52 := by norm_num
  have h52 : (2 : Rat) ^ 52 + 2 ^ 52 = 2 ^ 53 := by norm_num
  have gm := abs_int_ge hm
  have gn := abs_int_ge hn
  have bm : ∀ t ∈ a, |t.exp * (m : Rat)| ≤ 2 ^ 52 := fun t ht => by
    have := hs t ht
    rw [abs_mul, abs_mul] at this
    rw [abs_mul]
    have h0 : 0 ≤ |t.exp| * |(m : Rat)| := by positivity
    nlinarith
  have bn : ∀ t ∈ a, |t.exp * (n : Rat)| ≤ 2 ^ 52 := fun t ht => by
    have := hs t ht
    rw [abs_mul, abs_mul] at this
    rw [abs_mul]
    have h0 : 0 ≤ |t.exp| * |(n : Rat)| := by positivity
    nlinarith
  have b1 : ∀ t ∈ a, |t.exp| ≤ 2 ^ 52 := fun t ht => by
    have := bm t ht
    rw [abs_mul] at this
    nlinarith [abs_nonneg t.exp]
  obtain ⟨am, p1, u1, c1, x1⟩ := unit_pow ha hm (fun t ht => (bm t ht).trans (by norm_num))
  obtain ⟨an, p2, u2, c2, x2⟩ := unit_pow ha hn (fun t ht => (bn t ht).trans (by norm_num))
  obtain ⟨s, p3, u3, c3, x3⟩ := unit_mul u1 u2
  obtain ⟨d, p4, u4, c4, x4⟩ := unit_div u1 u2
  refine ⟨am, an, p1, p2, ?_, ?_, ?_, ?_, ?_, ?_, s, p3, u3⟩
  · intro h
    obtain ⟨r, p5, u5, c5, x5⟩ := unit_pow ha h (fun t ht => by
      have h1 := bm t ht
      have h2 := bn t ht
      push_cast
      rw [mul_add]
      exact (abs_add_le _ _).trans (by linarith))
    rw [p3, p5, expr_ext u3.1 u5.1 (by rw [c3, c5]) (fun x hx => by rw [x3 x hx, x5 x hx, x1 x hx, x2 x hx]; push_cast; ring)]
  · intro h
    rw [p3, expr_ext u3.1 isExpr_one (by rw [c3, unitLike_one.totals.1]) (fun x hx => by
      rw [x3 x hx, x1 x hx, x2 x hx, totalExp_one hx, ← mul_add]
      have : (m : Rat) + n = 0 := by exact_mod_cast h
      rw [this, mul_zero])]
  · intro h
    obtain ⟨r, p5, u5, c5, x5⟩ := unit_pow ha (n := m - n) (by omega) (fun t ht => by
      have h1 := bm t ht
      have h2 := bn t ht
      push_cast
      rw [mul_sub]
      exact (abs_sub _ _).trans (by linarith))
    rw [p4, p5, expr_ext u4.1 u5.1 (by rw [c4, c5]) (fun x hx => by rw [x4 x hx, x5 x hx, x1 x hx, x2 x hx]; push_cast; ring)]
  · have hmn : ∀ x, x ≠ one → |totalExp am x * (n : Rat)| ≤ 2 ^ 52 := fun x hx => by
      rw [x1 x hx, mul_assoc]
      exact totals_bound ha hB hs x hx
    obtain ⟨q, p5, u5, c5, x5⟩ := unit_pow u1 hn (fun t ht =>
      (bound_of_totals u1 (int_bound ha bn) hmn t ht).trans (by norm_num))
    obtain ⟨r, p6, u6, c6, x6⟩ := unit_pow ha (mul_ne_zero hm hn) (fun t ht => by
      push_cast
      exact (hs t ht).trans (by norm_num))
    rw [p5, p6, expr_ext u5.1 u6.1 (by rw [c5, c6]) (fun x hx => by rw [x5 x hx, x6 x hx, x1 x hx]; push_cast; ring)]
  · obtain ⟨r, p5, u5, c5, x5⟩ := unit_pow ha (n := 1) (by decide) (fun t ht => by
      push_cast
      rw [mul_one]
      exact (b1 t ht).trans (by norm_num))
    have hr : r = a := expr_ext u5.1 ha.1 (by rw [c5, ha.totals.1]) (fun x hx => by rw [x5 x hx]; push_cast; ring)
    rw [hr] at p5
    exact_mod_cast p5
  · obtain ⟨r, p5, u5, c5, x5⟩ := unit_pow ha (n := -1) (by decide) (fun t ht => by
      push_cast
      rw [mul_neg, mul_one, abs_neg]
      exact (b1 t ht).trans (by norm_num))
    obtain ⟨q, p6, u6, c6, x6⟩ := unit_div unitLike_one ha
    have p5' : exprPow a (-1) = .ok r := by exact_mod_cast p5
    rw [p6, p5', expr_ext u6.1 u5.1 (by rw [c6, c5]) (fun x hx => by rw [x6 x hx, x5 x hx, totalExp_one hx]; push_cast; ring)]

/-- **C273, powers of quotients.** The power of a quotient is the quotient of the powers. -/
theorem c273_partial_quotient (a b : List Term) (ha : UnitLike a) (hb : UnitLike b) (n : Int) (hn : n ≠ 0)
    (hs : ∀ t ∈ a ++ b, |t.exp * n| ≤ 2 ^ 52) :
    ∃ q an bn r, exprDiv a b = .ok q ∧ exprPow a n = .ok an ∧ exprPow b n = .ok bn ∧ exprPow q n = .ok r ∧ exprDiv an bn = .ok r := by
  have hB : (0 : Rat) ≤ 2 ^ 52 := by norm_num
  have h52 : (2 : Rat) ^ 52 + 2 ^ 52 = 2 ^ 53 := by norm_num
  have sa : ∀ t ∈ a, |t.exp * (n : Rat)| ≤ 2 ^ 52 := fun t ht => hs t (by simp [ht])
  have sb : ∀ t ∈ b, |t.exp * (n : Rat)| ≤ 2 ^ 52 := fun t ht => hs t (by simp [ht])
  obtain ⟨q, p1, u1, c1, x1⟩ := unit_div ha hb
  obtain ⟨an, p2, u2, c2, x2⟩ := unit_pow ha hn (fun t ht => (sa t ht).trans (by norm_num))
  obtain ⟨bn, p3, u3, c3, x3⟩ := unit_pow hb hn (fun t ht => (sb t ht).trans (by norm_num))
  obtain ⟨r, p4, u4, c4, x4⟩ := unit_pow u1 hn (bound_of_totals u1 ((int_bound ha sa).trans (by norm_num)) (fun x hx => by
    rw [x1 x hx, sub_mul]
    have h1 := totals_bound ha hB sa x hx
    have h2 := totals_bound hb hB sb x hx
    exact (abs_sub _ _).trans (by linarith)))
  obtain ⟨d, p5, u5, c5, x5⟩ := unit_div u2 u3
  refine ⟨q, an, bn, r, p1, p2, p3, p4, ?_⟩
  rw [p5, expr_ext u5.1 u4.1 (by rw [c5, c4]) (fun x hx => by rw [x5 x hx, x4 x hx, x1 x hx, x2 x hx, x3 x hx]; ring)]

/-- **C273 fails in the code** for the power 0: it is rejected for every expression, although the product of a power and its inverse
is 1. -/
theorem c273_counterexample (a : List Term) : exprPow a 0 = .error .typeError := by
  have : toFloat 0 = .ok 0 := by decide +kernel
  simp [exprPow, this, bind, Except.bind]

/-- A speed: its square, its inverse and the square of its cube. -/
example : exprPow [⟨1, ['m'], 1⟩, ⟨1, ['s'], -1⟩] 2 = .ok [⟨1, ['m'], 2⟩, ⟨1, ['s'], -2⟩] := by decide +kernel

example : exprPow [⟨1, ['m'], 3⟩, ⟨1, ['s'], -3⟩] 2 = .ok [⟨1, ['m'], 6⟩, ⟨1, ['s'], -6⟩] := by decide +kernel

example : exprDiv [⟨1, ['m'], 2⟩, ⟨1, ['s'], -2⟩] [⟨1, ['m'], 3⟩, ⟨1, ['s'], -3⟩] = .ok [⟨1, ['s'], 1⟩, ⟨1, ['m'], -1⟩] := by decide +kernel

end Verif.Symbolic
