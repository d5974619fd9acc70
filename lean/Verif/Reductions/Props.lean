import Verif.Reductions.Model
import Verif.Systems.NormProps

/-!
# Arithmetic of reductions, and the reduction of expressions (C211, C213)
-/

set_option linter.unusedSimpArgs false

namespace Verif.Reductions

open Verif.Py Verif.Symbolic Verif.Metric Verif.Systems

/-! ## Specification -/

/-- The number is written as a text from which it can be read. -/
def Reads (num : Rat → Res Str) (x : Rat) : Prop := ∃ t, num x = .ok t ∧ ofString t = .ok [⟨x, one, 1⟩]

/-- The number that the expression of a reduction, as it is printed, has in front of its units. -/
def printed (r : Reduction) : Rat := totalCoef r.terms

/-- The number is a float whose text, a fraction, can be read. -/
def Plain (x : Rat) : Prop := x.den < 10 ∧ IsDouble x

instance (x : Rat) : Decidable (Plain x) := by unfold Plain; infer_instance

instance (a : List Term) (p : Rat) : Decidable (FloatPow a p) := by unfold FloatPow; infer_instance

/-- A reduction as the constructor makes it. -/
structure Proper (r : Reduction) : Prop where
  expr : IsExpr r.terms
  names : ∀ t ∈ r.units, t.exp.den < 10 ∧ ValidName t.base

/-- A text for each number, as an example. -/
def fraction (x : Rat) : Res Str := .ok (exprStr [⟨x, one, 1⟩])

/-! ## Lemmas -/

theorem units_assemble {c : Rat} {vars : List Term} (hv : CanonVars vars) (s : Rat) :
    Reduction.units ⟨assemble c vars, s⟩ = vars := by
  have h : ∀ t ∈ vars, t.base ≠ one := fun t ht => (hv.1 t ht).2.1
  have hf : vars.filter (fun t => t.base ≠ one) = vars := by
    rw [List.filter_eq_self]; simpa using h
  unfold Reduction.units assemble
  split
  · next h0 => simp [h0]
  · split
    · simpa using hf
    · simpa using hf

theorem isExpr_of_assemble {c : Rat} {vars : List Term} (hc : c ≠ 0) (hv : CanonVars vars) : IsExpr (assemble c vars) :=
  ⟨_, assemble_ne_nil _ _, wf_assemble hc hv, reduce_assemble hc hv⟩

theorem isExpr_number {x : Rat} (hx : x ≠ 0) : IsExpr [⟨x, one, 1⟩] :=
  isExpr_of_assemble (vars := []) hx ⟨by simp, by simp, by simp⟩

theorem printable_assemble {c : Rat} {vars : List Term} (hv : CanonVars vars)
    (hn : ∀ t ∈ vars, t.exp.den < 10 ∧ ValidName t.base) (hd : Plain c) : Printable (assemble c vars) := by
  intro u hu
  unfold assemble at hu
  have hvar : ∀ u ∈ vars, (u.coef.den < 10 ∧ IsDouble u.coef) ∧ u.exp.den < 10 ∧ (u.base = one ∨ ValidName u.base) := by
    intro u hu
    rw [(hv.1 u hu).1]
    exact ⟨⟨by decide, isDouble_one⟩, (hn u hu).1, Or.inr (hn u hu).2⟩
  split at hu
  · simp at hu; subst hu; exact ⟨hd, by norm_num, Or.inl rfl⟩
  · split at hu
    · exact hvar u hu
    · rcases List.mem_cons.1 hu with rfl | hu
      · exact ⟨hd, by norm_num, Or.inl rfl⟩
      · exact hvar u hu

/-- Whole numbers and fractions with small denominators can be read from their text. -/
theorem reads_fraction {x : Rat} (hx : x ≠ 0) (hd : Plain x) : Reads fraction x := by
  refine ⟨_, rfl, c22_round_trip_partial _ (isExpr_number hx) ?_⟩
  intro t ht
  simp at ht
  subst ht
  exact ⟨hd, by norm_num, Or.inl rfl⟩

/-- The variables of an expression do not depend on its coefficient. -/
theorem scaleBy_assemble {num : Rat → Res Str} {x c : Rat} {vars : List Term} (hx : x ≠ 0) (hr : Reads num x)
    (hc : c ≠ 0) (hv : CanonVars vars) (hn : ∀ t ∈ vars, t.exp.den < 10 ∧ ValidName t.base) (hd : Plain (x * c)) :
    scaleBy num x (assemble c vars) = .ok (assemble (x * c) vars) := by
  obtain ⟨t, ht, hp⟩ := hr
  obtain ⟨r, h1, h2, h3, h4, h5⟩ := exprMul_spec (isExpr_number hx) (isExpr_of_assemble hc hv)
  have hxc : x * c ≠ 0 := mul_ne_zero hx hc
  have he : r = assemble (x * c) vars := by
    apply expr_ext h1 (isExpr_of_assemble hxc hv)
    · rw [h3, totalCoef_assemble hv, totalCoef_assemble hv]; simp [totalCoef]
    · intro y hy
      rw [h4 y hy, totalExp_assemble hy, totalExp_assemble hy]
      simp [totalExp_cons, Ne.symm hy]
  subst he
  unfold scaleBy
  rw [ht]
  show (do exprMul (← ofString t) (assemble c vars)) = _
  rw [hp]
  apply h5
  exact printable_assemble hv hn hd

theorem init_assemble {num : Rat → Res Str} {x c : Rat} {vars : List Term} (hx : x ≠ 0) (hr : Reads num x)
    (hc : c ≠ 0) (hv : CanonVars vars) (hn : ∀ t ∈ vars, t.exp.den < 10 ∧ ValidName t.base) (hd : Plain c)
    (hd' : Plain (x * c)) : init num (assemble c vars) x = .ok ⟨assemble (x * c) vars, x⟩ := by
  unfold init
  rw [ofTerms_eq (isExpr_of_assemble hc hv) (printable_assemble hv hn hd)]
  simp only [bind, Except.bind, scaleBy_assemble hx hr hc hv hn hd']
  rfl

theorem again {num : Rat → Res Str} {x c : Rat} {vars : List Term} (hx : x ≠ 0) (hr : Reads num x)
    (hc : c ≠ 0) (hv : CanonVars vars) (hn : ∀ t ∈ vars, t.exp.den < 10 ∧ ValidName t.base)
    (hd : Plain (x * c)) (hd' : Plain (x * (x * c))) :
    (do init num (← scaleBy num x (assemble c vars)) x) = .ok ⟨assemble (x * (x * c)) vars, x⟩ := by
  rw [scaleBy_assemble hx hr hc hv hn hd]
  exact init_assemble hx hr (mul_ne_zero hx hc) hv hn hd hd'

theorem totalExp_units (r : Reduction) {y : Name} (hy : y ≠ one) : totalExp r.units y = totalExp r.terms y := by
  unfold Reduction.units
  induction r.terms with
  | nil => rfl
  | cons t ts ih =>
    by_cases h : t.base = one
    · simp [List.filter_cons, h, totalExp_cons, Ne.symm hy] at ih ⊢; exact ih
    · simp [List.filter_cons, h, totalExp_cons] at ih ⊢; exact ih

theorem proper_exp {r : Reduction} (hp : Proper r) {w : Term} (hw : w ∈ r.units) : totalExp r.units w.base = w.exp := by
  obtain ⟨c, vars, he, hc, hv⟩ := isExpr_assemble hp.expr
  have hu : r.units = vars := by
    rw [← units_assemble hv (c := c) 1]
    simp only [Reduction.units, he]
  rw [hu] at hw ⊢
  exact totalExp_of_mem hv.2.1 hw

/-! ## C211 -/

/-- **C211.** The constructor: the scale is the given one, the units are those of the terms, and the printed number is the
scale times the coefficient of the terms. -/
theorem c211_init (num : Rat → Res Str) (ts : List Term) (x : Rat) (hx : x ≠ 0) (hr : Reads num x) (ht : IsExpr ts)
    (hp : Printable ts) (hd : Plain (x * totalCoef ts)) :
    ∃ r, init num ts x = .ok r ∧ Proper r ∧ r.scale = x ∧ r.units = ts.filter (fun t => t.base ≠ one)
      ∧ printed r = x * totalCoef ts := by
  obtain ⟨c, vars, rfl, hc, hv⟩ := isExpr_assemble ht
  rw [totalCoef_assemble hv] at hd ⊢
  have hm : ∀ t ∈ vars, t ∈ assemble c vars := by
    intro t h
    unfold assemble
    split
    · simp_all
    · split <;> simp [h]
  have hn : ∀ t ∈ vars, t.exp.den < 10 ∧ ValidName t.base := fun t h =>
    ⟨(hp t (hm t h)).2.1, (hp t (hm t h)).2.2.resolve_left (hv.1 t h).2.1⟩
  have hcd : Plain c := by
    by_cases h1 : c = 1
    · rw [h1]; exact ⟨by decide, isDouble_one⟩
    · refine (hp ⟨c, one, 1⟩ ?_).1
      unfold assemble
      split
      · simp
      · simp [h1]
  refine ⟨_, init_assemble hx hr hc hv hn hcd hd, ⟨isExpr_of_assemble (mul_ne_zero hx hc) hv, ?_⟩, rfl, ?_, ?_⟩
  · rw [units_assemble hv]; exact hn
  · rw [units_assemble hv]; exact (units_assemble hv 1).symm
  · exact totalCoef_assemble hv

/-- **C211 (partial).** Multiplying a reduction by a number, or dividing it, multiplies or divides its scale and leaves its
units alone. What is printed is not what the claim says: the number in front of the units is multiplied by the square of
the new scale. -/
theorem c211_mul_partial (num : Rat → Res Str) (r : Reduction) (x : Rat) (hs : r.scale ≠ 0) (hx : x ≠ 0) (hp : Proper r)
    (hr : Reads num (r.scale * x)) (hd : Plain (r.scale * x * printed r))
    (hd' : Plain (r.scale * x * (r.scale * x * printed r))) :
    ∃ q, mul num r x = .ok q ∧ q.scale = r.scale * x ∧ q.units = r.units
      ∧ printed q = (r.scale * x) ^ 2 * printed r ∧ Proper q := by
  obtain ⟨⟨ts, s⟩, he, hn⟩ : ∃ q, q = r ∧ Proper q := ⟨r, rfl, hp⟩
  subst he
  obtain ⟨c, vars, hts, hc, hv⟩ := isExpr_assemble hn.expr
  subst hts
  have hn' := hn.names
  rw [units_assemble hv] at hn'
  simp only [printed, totalCoef_assemble hv] at hd hd' ⊢
  refine ⟨⟨assemble (s * x * (s * x * c)) vars, s * x⟩, again (mul_ne_zero hs hx) hr hc hv hn' hd hd', rfl, ?_, ?_, ?_, ?_⟩
  · rw [units_assemble hv, units_assemble hv]
  · rw [totalCoef_assemble hv]; ring
  · exact isExpr_of_assemble (mul_ne_zero (mul_ne_zero hs hx) (mul_ne_zero (mul_ne_zero hs hx) hc)) hv
  · rw [units_assemble hv]; exact hn'

theorem c211_div_partial (num : Rat → Res Str) (r : Reduction) (x : Rat) (hs : r.scale ≠ 0) (hx : x ≠ 0) (hp : Proper r)
    (hr : Reads num (r.scale / x)) (hd : Plain (r.scale / x * printed r))
    (hd' : Plain (r.scale / x * (r.scale / x * printed r))) :
    ∃ q, div num r x = .ok q ∧ q.scale = r.scale / x ∧ q.units = r.units
      ∧ printed q = (r.scale / x) ^ 2 * printed r ∧ Proper q := by
  have h := c211_mul_partial num r x⁻¹ hs (inv_ne_zero hx) hp (by rwa [← div_eq_mul_inv]) (by rwa [← div_eq_mul_inv])
    (by rwa [← div_eq_mul_inv])
  rw [← div_eq_mul_inv] at h
  obtain ⟨q, h1, h2⟩ := h
  refine ⟨q, ?_, h2⟩
  rw [← h1]
  unfold div mul
  rw [if_neg hx, div_eq_mul_inv]



/-- **C211 (partial).** Raising a reduction to an integer power raises its scale and multiplies the exponents of its
units. Again, the printed number has the square of the new scale as a factor. -/
theorem c211_pow_partial (num : Rat → Res Str) (r : Reduction) (p : Rat) (hs : r.scale ≠ 0) (h0 : p ≠ 0) (h1 : p.den = 1)
    (hp : Proper r) (hr : Reads num (r.scale ^ p.num)) (hf : FloatPow r.terms p)
    (hd0 : Plain (printed r ^ p.num))
    (hd : Plain (r.scale ^ p.num * printed r ^ p.num))
    (hd' : Plain (r.scale ^ p.num * (r.scale ^ p.num * printed r ^ p.num))) :
    ∃ q, pow num r p = .ok q ∧ q.scale = r.scale ^ p.num
      ∧ (∀ y, y ≠ one → totalExp q.units y = totalExp r.units y * p)
      ∧ printed q = (r.scale ^ p.num) ^ 2 * printed r ^ p.num ∧ Proper q := by
  obtain ⟨e, e1, e2, e3, e4⟩ := exprPow_spec hp.expr h0 (Or.inl h1) hf
  have hrp : ∀ z : Rat, ratPow z p = z ^ p.num := by
    intro z; unfold ratPow; split
    · next hz => subst hz; simp
    · rfl
  rw [hrp] at e2
  obtain ⟨c, vars, rfl, hc, hv⟩ := isExpr_assemble e1
  rw [totalCoef_assemble hv] at e2
  have hu : ∀ y, y ≠ one → totalExp r.units y = totalExp r.terms y := fun y hy => totalExp_units r hy
  have hn : ∀ t ∈ vars, t.exp.den < 10 ∧ ValidName t.base := by
    intro t ht
    have hb := (hv.1 t ht).2.1
    have hx := e3 t.base hb
    rw [totalExp_assemble hb, totalExp_of_mem hv.2.1 ht, ← hu _ hb] at hx
    have hne : totalExp r.units t.base ≠ 0 := by
      intro h; rw [h, zero_mul] at hx; exact (hv.1 t ht).2.2.2 hx
    obtain ⟨w, hw, hwb⟩ := totalExp_ne_zero_mem hne
    have hwe := proper_exp hp hw
    rw [hwb] at hwe
    refine ⟨?_, hwb ▸ (hp.names w hw).2⟩
    rw [hx, hwe]
    refine lt_of_le_of_lt (Nat.le_of_dvd w.exp.pos ?_) (hp.names w hw).1
    have := Rat.mul_den_dvd w.exp p
    rwa [h1, mul_one] at this
  have hpe : exprPow r.terms p = .ok (assemble c vars) := by
    apply e4
    apply printable_assemble hv hn
    rw [e2]; exact hd0
  have hsc : powCoef r.scale p = .ok (r.scale ^ p.num) := by rw [powCoef_eq hs (Or.inr h1), hrp]
  have hs' : r.scale ^ p.num ≠ 0 := zpow_ne_zero _ hs
  have hcd : c = printed r ^ p.num := e2
  refine ⟨⟨assemble (r.scale ^ p.num * (r.scale ^ p.num * c)) vars, r.scale ^ p.num⟩, ?_, rfl, ?_, ?_, ?_, ?_⟩
  · unfold pow
    simp only [hsc, hpe, bind, Except.bind]
    exact again hs' hr hc hv hn (by rw [hcd]; exact hd) (by rw [hcd]; exact hd')
  · intro y hy
    rw [units_assemble hv, hu y hy, ← e3 y hy, totalExp_assemble hy]
  · rw [printed, totalCoef_assemble hv, hcd]; ring
  · exact isExpr_of_assemble (mul_ne_zero hs' (mul_ne_zero hs' hc)) hv
  · rw [units_assemble hv]; exact hn

/-- **C211 (counterexample).** For a new reduction, whose printed number is its scale `s`, the printed number of the product
with `x` is right only in the rare case that `s² x = 1`. -/
theorem c211_counterexample (num : Rat → Res Str) (r q : Reduction) (x : Rat) (hs : r.scale ≠ 0) (hx : x ≠ 0)
    (hp : Proper r) (hn : printed r = r.scale) (hr : Reads num (r.scale * x))
    (hd : Plain (r.scale * x * printed r)) (hd' : Plain (r.scale * x * (r.scale * x * printed r)))
    (hq : mul num r x = .ok q) : printed q = x * printed r ↔ r.scale ^ 2 * x = 1 := by
  obtain ⟨q', h1, _, _, h4, _⟩ := c211_mul_partial num r x hs hx hp hr hd hd'
  rw [h1] at hq
  injection hq with hq
  subst hq
  rw [h4, hn]
  have h0 : x * r.scale ≠ 0 := mul_ne_zero hx hs
  constructor
  · intro h
    have : (x * r.scale) * (r.scale ^ 2 * x) = (x * r.scale) * 1 := by linear_combination h
    exact mul_left_cancel₀ h0 this
  · intro h
    calc (r.scale * x) ^ 2 * r.scale = (x * r.scale) * (r.scale ^ 2 * x) := by ring
      _ = x * r.scale := by rw [h, mul_one]

/-- A kilometre, twice: the scale is 2000, and the printed expression says `4000000000 m`. -/
example : (init (fun x => .ok (intStr x.num)) [⟨1, c!"m", 1⟩] 1000 >>= fun r => mul (fun x => .ok (intStr x.num)) r 2).map
    (fun q => (q.scale, q.units, printed q)) = .ok (2000, [⟨1, c!"m", 1⟩], 4000000000) := by decide +kernel


/-- A kilometre. -/
def kilometre : Reduction := ⟨[⟨1000, one, 1⟩, ⟨1, c!"m", 1⟩], 1000⟩

theorem kilometre_proper : Proper kilometre := by
  refine ⟨⟨[⟨1000, one, 1⟩, ⟨1, c!"m", 1⟩], by decide +kernel⟩, ?_⟩
  have h : kilometre.units = [⟨1, c!"m", 1⟩] := by decide +kernel
  rw [h]
  intro t ht
  simp at ht
  subst ht
  exact ⟨by norm_num, validName_of (by decide +kernel)⟩

example : (init fraction [⟨1, c!"m", 1⟩] 1000).map (fun r => (r.terms, r.scale))
    = .ok (kilometre.terms, kilometre.scale) := by decide +kernel

example : ∃ q, mul fraction kilometre 2 = .ok q ∧ q.scale = 2000 ∧ printed q = 4000000000 := by
  have hk : printed kilometre = 1000 := by decide +kernel
  obtain ⟨q, h1, h2, _, h4, _⟩ := c211_mul_partial fraction kilometre 2 (by decide +kernel) (by norm_num) kilometre_proper
    (reads_fraction (by decide +kernel) (by decide +kernel)) (by decide +kernel) (by decide +kernel)
  refine ⟨q, h1, by rw [h2]; decide +kernel, by rw [h4]; decide +kernel⟩

example : ∃ q, div fraction kilometre 10 = .ok q ∧ q.scale = 100 := by
  obtain ⟨q, h1, h2, _⟩ := c211_div_partial fraction kilometre 10 (by decide +kernel) (by norm_num) kilometre_proper
    (reads_fraction (by decide +kernel) (by decide +kernel)) (by decide +kernel) (by decide +kernel)
  exact ⟨q, h1, by rw [h2]; decide +kernel⟩

example : ∃ q, pow fraction kilometre 2 = .ok q ∧ q.scale = 1000000 ∧ printed q = 1000000000000000000 := by
  obtain ⟨q, h1, h2, _, h4, _⟩ := c211_pow_partial fraction kilometre 2 (by decide +kernel) (by norm_num) (by norm_num)
    kilometre_proper (reads_fraction (by decide +kernel) (by decide +kernel)) (by decide +kernel) (by decide +kernel)
    (by decide +kernel) (by decide +kernel)
  exact ⟨q, h1, by rw [h2]; decide +kernel, by rw [h4]; decide +kernel⟩

/-! ## C213 -/

/-- While a reduction with the given scale and printed number is multiplied by the given numbers, all the numbers that are
printed are plain. -/
def Fits (s p : Rat) : List Rat → Prop
  | [] => True
  | x :: xs => Plain (s * x) ∧ Plain (s * x * p) ∧ Plain (s * x * (s * x * p)) ∧ Fits (s * x) ((s * x) ^ 2 * p) xs

theorem combine_fits (num : Rat → Res Str) (hnum : ∀ x, x ≠ 0 → Plain x → Reads num x) :
    ∀ (rs : List Reduction) {r : Reduction}, r.scale ≠ 0 → Proper r → (∀ s ∈ rs, s.scale ≠ 0) →
      Fits r.scale (printed r) (rs.map (·.scale)) →
      ∃ q, combine num r rs = .ok q ∧ q.scale = r.scale * (rs.map (·.scale)).prod ∧ q.units = r.units
  | [], r, _, _, _, _ => ⟨r, rfl, by simp, rfl⟩
  | s :: rs, r, hs, hp, h, hf => by
    have h0 := h s (by simp)
    obtain ⟨f1, f2, f3, f4⟩ := hf
    obtain ⟨q, h1, h2, h3, h4, h5⟩ := c211_mul_partial num r s.scale hs h0 hp (hnum _ (mul_ne_zero hs h0) f1) f2 f3
    obtain ⟨q', g1, g2, g3⟩ := combine_fits num hnum rs (r := q) (by rw [h2]; exact mul_ne_zero hs h0) h5
      (fun t ht => h t (by simp [ht])) (by rw [h2, h4]; exact f4)
    refine ⟨q', ?_, ?_, by rw [g3, h3]⟩
    · simp only [combine, h1]; exact g1
    · rw [g2, h2, List.map_cons, List.prod_cons]; ring

/-- The term names a unit with the given reduction, its exponent is a whole number, and the power of the scale, its square
and its cube are plain. -/
structure Reducible (b : Book) (system : Option System) (t : Term) (r : Reduction) : Prop where
  found : ∃ u, b.ident t.base = .ok u ∧ reduceTo b system u = .ok (some r)
  proper : Proper r
  nonzero : r.scale ≠ 0
  printed_eq : printed r = r.scale
  exp_ne : t.exp ≠ 0
  exp_whole : t.exp.den = 1
  floats : FloatPow r.terms t.exp
  plain : Plain (r.scale ^ t.exp.num)
  square : Plain (r.scale ^ t.exp.num * r.scale ^ t.exp.num)
  cube : Plain (r.scale ^ t.exp.num * (r.scale ^ t.exp.num * r.scale ^ t.exp.num))

theorem reduceTerm_fits (num : Rat → Res Str) (hnum : ∀ x, x ≠ 0 → Plain x → Reads num x) (b : Book)
    (system : Option System) {t : Term} {r : Reduction} (h : Reducible b system t r) :
    ∃ q, reduceTerm num b system t = .ok (some q) ∧ q.scale = r.scale ^ t.exp.num ∧ q.scale ≠ 0
      ∧ printed q = (r.scale ^ t.exp.num) ^ 3 ∧ Proper q
      ∧ ∀ y, y ≠ one → totalExp q.units y = totalExp r.units y * t.exp := by
  obtain ⟨u, hu, hr⟩ := h.found
  obtain ⟨q, h1, h2, h3, h4, h5⟩ := c211_pow_partial num r t.exp h.nonzero h.exp_ne h.exp_whole h.proper
    (hnum _ (zpow_ne_zero _ h.nonzero) h.plain) h.floats (by rw [h.printed_eq]; exact h.plain)
    (by rw [h.printed_eq]; exact h.square) (by rw [h.printed_eq]; exact h.cube)
  refine ⟨q, ?_, h2, by rw [h2]; exact zpow_ne_zero _ h.nonzero, ?_, h5, h3⟩
  · unfold reduceTerm
    simp only [hu, hr, bind, Except.bind, orNone, h1]
    rfl
  · rw [h4, h.printed_eq]; ring

theorem mapM_fits (num : Rat → Res Str) (hnum : ∀ x, x ≠ 0 → Plain x → Reads num x) (b : Book)
    (system : Option System) (f : Term → Reduction) : ∀ (ts : List Term), (∀ t ∈ ts, Reducible b system t (f t)) →
    ∃ qs : List Reduction, ts.mapM (reduceTerm num b system) = .ok (qs.map some) ∧ (∀ q ∈ qs, q.scale ≠ 0)
      ∧ qs.map (·.scale) = ts.map (fun t => (f t).scale ^ t.exp.num)
  | [], _ => ⟨[], rfl, by simp, rfl⟩
  | t :: ts, h => by
    obtain ⟨q, h1, h2, h3, _⟩ := reduceTerm_fits num hnum b system (h t (by simp))
    obtain ⟨qs, g1, g2, g3⟩ := mapM_fits num hnum b system f ts (fun u hu => h u (by simp [hu]))
    refine ⟨q :: qs, ?_, ?_, by simp [h2, g3]⟩
    · rw [List.mapM_cons, h1, g1]; rfl
    · intro p hp
      rcases List.mem_cons.1 hp with rfl | hp
      · exact h3
      · exact g2 p hp

/-- **C213 (partial).** If each term of a unit expression can be reduced, the scale of `reduction(unit, system)` is the
product of the powers of the scales. The units are those of the first term only, which is right for expressions with one
term. The numbers that are printed on the way, which grow faster than the scale, must be plain. -/
theorem c213_partial (num : Rat → Res Str) (hnum : ∀ x, x ≠ 0 → Plain x → Reads num x) (b : Book)
    (system : Option System) (f : Term → Reduction) (t : Term) (ts : List Term)
    (h : ∀ u ∈ t :: ts, Reducible b system u (f u))
    (hf : Fits ((f t).scale ^ t.exp.num) (((f t).scale ^ t.exp.num) ^ 3)
      (ts.map (fun u => (f u).scale ^ u.exp.num))) :
    ∃ q, reductionOf num b system (t :: ts) = .ok (some q)
      ∧ q.scale = ((t :: ts).map (fun u => (f u).scale ^ u.exp.num)).prod
      ∧ ∀ y, y ≠ one → totalExp q.units y = totalExp (f t).units y * t.exp := by
  obtain ⟨p, h1, h2, h3, h4, h6, h7⟩ := reduceTerm_fits num hnum b system (h t (by simp))
  obtain ⟨qs, g1, g2, g3⟩ := mapM_fits num hnum b system f ts (fun u hu => h u (by simp [hu]))
  obtain ⟨q, k1, k2, k3⟩ := combine_fits num hnum qs h3 h6 g2 (by rw [h2, h4, g3]; exact hf)
  refine ⟨q, ?_, ?_, fun y hy => by rw [k3, h7 y hy]⟩
  · unfold reductionOf
    rw [List.mapM_cons, h1, g1]
    simp only [bind, Except.bind, pure, Except.pure, List.filterMap_cons_some (f := id) rfl]
    rw [show (qs.map some).filterMap id = qs by simp [List.filterMap_map], k1]
  · rw [k2, h2, g3, List.map_cons, List.prod_cons]

/-- **C213 (counterexample), general.** A term whose unit is not known, or cannot be reduced, is left out silently. -/
theorem c213_dropped_counterexample (num : Rat → Res Str) (b : Book) (system : Option System) (t : Term) (u v : List Term)
    (h : reduceTerm num b system t = .ok none) :
    reductionOf num b system (u ++ t :: v) = reductionOf num b system (u ++ v) := by
  unfold reductionOf
  simp only [List.mapM_append, List.mapM_cons, h, bind, Except.bind, pure, Except.pure]
  cases u.mapM (reduceTerm num b system) with
  | error e => rfl
  | ok x =>
    cases v.mapM (reduceTerm num b system) with
    | error e => rfl
    | ok y => simp only [List.filterMap_append, List.filterMap_cons, id]

end Verif.Reductions
