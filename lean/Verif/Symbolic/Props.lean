import Verif.Symbolic.Semantics
import Verif.Symbolic.Strict

/-!
# Properties of `symbolic.py` (C17–C26, C71)
-/

set_option linter.unusedSimpArgs false
set_option linter.unusedSectionVars false

namespace Verif.Symbolic

open Verif.Py

/-! ## C17: canonical form -/

/-- Specification of a reduced expression: at most one constant, which comes first and is left out
when it is 1 and there are variables; then the variables, one term per base, with coefficient 1
and non-zero exponent, by descending exponent and then by base. -/
def Canonical (r : List Term) : Prop :=
  r ≠ [] ∧ ∃ consts vars, r = consts ++ vars
    ∧ consts.length ≤ 1
    ∧ (∀ t ∈ consts, t.base = one ∧ t.exp = 1 ∧ t.coef ≠ 0 ∧ (t.coef = 1 → vars = []))
    ∧ (∀ t ∈ vars, t.coef = 1 ∧ t.base ≠ one ∧ t.exp ≠ 0)
    ∧ (vars.map (·.base)).Nodup
    ∧ vars.Pairwise (fun a b => b.exp < a.exp ∨ (a.exp = b.exp ∧ a.base < b.base))

theorem canonical_assemble {c : Rat} {vars : List Term} (hc : c ≠ 0) (h : CanonVars vars) :
    Canonical (assemble c vars) := by
  refine ⟨assemble_ne_nil c vars, ?_⟩
  have hv : ∀ t ∈ vars, t.coef = 1 ∧ t.base ≠ one ∧ t.exp ≠ 0 := fun t ht =>
    ⟨(h.1 t ht).1, (h.1 t ht).2.1, (h.1 t ht).2.2.2⟩
  unfold assemble
  split
  · next h0 =>
    subst h0
    refine ⟨[⟨c, one, 1⟩], [], by simp, by simp, ?_, by simp, by simp, by simp⟩
    intro t ht; simp at ht; subst ht; exact ⟨rfl, rfl, hc, fun _ => rfl⟩
  · split
    · exact ⟨[], vars, by simp, by simp, by simp, hv, h.2.1, h.2.2⟩
    · next h1 =>
      refine ⟨[⟨c, one, 1⟩], vars, by simp, by simp, ?_, hv, h.2.1, h.2.2⟩
      intro t ht; simp at ht; subst ht; exact ⟨rfl, rfl, hc, fun h' => absurd h' h1⟩

theorem reduce_assemble {c : Rat} {vars : List Term} (hc : c ≠ 0) (h : CanonVars vars) :
    reduce (assemble c vars) = .ok (assemble c vars) := by
  obtain ⟨w, hw, hwc, hwe⟩ := reduce_eq (assemble c vars) (assemble_ne_nil _ _) (wf_assemble hc h)
  rw [totalCoef_assemble h] at hw
  have : w = vars := by
    apply canonVars_ext hwc h
    intro b
    by_cases hb : b = one
    · subst hb
      rw [totalExp_of_not_mem (fun t ht => (hwc.1 t ht).2.1),
        totalExp_of_not_mem (fun t ht => (h.1 t ht).2.1)]
    · rw [hwe b hb, totalExp_assemble hb]
  rw [hw, this]

/-- **C17.** For every non-empty list of terms (as the constructor makes them: see
`c17_constructor`) `reduce` returns a canonical list, and reducing that again returns it
unchanged. -/
theorem c17_reduce (ts : List Term) (hne : ts ≠ [])
    (hwf : ∀ t ∈ ts, t.coef ≠ 0 ∧ t.exp ≠ 0 ∧ t.base ≠ []) :
    ∃ r, reduce ts = .ok r ∧ Canonical r ∧ reduce r = .ok r := by
  obtain ⟨vars, h, hv, _⟩ := reduce_eq ts hne hwf
  have hc := totalCoef_ne_zero (fun t ht => (hwf t ht).1)
  exact ⟨_, h, canonical_assemble hc hv, reduce_assemble hc hv⟩

/-- Every term that the constructor makes satisfies the hypothesis of `c17_reduce`; without terms
`reduce` raises `TypeError`. -/
theorem c17_constructor : (∀ c b e, (mkOperand c b e).coef ≠ 0 ∧ (mkOperand c b e).exp ≠ 0
    ∧ (mkOperand c b e).base ≠ []) ∧ reduce [] = .error .typeError :=
  ⟨fun c b e => wf_mkOperand c b e, rfl⟩

/-- Any two canonical lists with the same value under every assignment are equal: the canonical
form is unique. -/
theorem c17_unique (a b ra rb : List Term) (ha : a ≠ []) (hb : b ≠ [])
    (hwa : ∀ t ∈ a, t.coef ≠ 0 ∧ t.exp ≠ 0 ∧ t.base ≠ [])
    (hwb : ∀ t ∈ b, t.coef ≠ 0 ∧ t.exp ≠ 0 ∧ t.base ≠ [])
    (hra : reduce a = .ok ra) (hrb : reduce b = .ok rb)
    (h : ∀ v, value v a = value v b) : ra = rb := by
  obtain ⟨h1, h2⟩ := totals_of_value (totalCoef_ne_zero (fun t ht => (hwa t ht).1)) h
  have := reduce_congr ha hb hwa hwb h1 h2
  rw [hra, hrb] at this
  injection this

example : reduce [⟨2, ['b'], 1⟩, ⟨3, ['a'], 2⟩, ⟨1, ['b'], -1⟩, ⟨1, ['c'], 2⟩]
    = .ok [⟨6, one, 1⟩, ⟨1, ['a'], 2⟩, ⟨1, ['c'], 2⟩] := by decide +kernel

/-! ## C18: value -/

/-- **C18.** The value of the reduced expression is the value of the terms. -/
theorem c18_reduce_value (ts r : List Term) (hne : ts ≠ [])
    (hwf : ∀ t ∈ ts, t.coef ≠ 0 ∧ t.exp ≠ 0 ∧ t.base ≠ []) (h : reduce ts = .ok r)
    (v : Assignment) : value v r = value v ts := by
  obtain ⟨vars, h', hv, he⟩ := reduce_eq ts hne hwf
  rw [h'] at h
  injection h with h; subst h
  apply value_congr
  · exact totalCoef_assemble hv
  · intro x hx; rw [totalExp_assemble hx, he x hx]

example : ∃ ts r, ts ≠ [] ∧ (∀ t ∈ ts, t.coef ≠ 0 ∧ t.exp ≠ 0 ∧ t.base ≠ ([] : Name))
    ∧ reduce ts = .ok r ∧ r ≠ ts :=
  ⟨[⟨2, ['b'], 1⟩, ⟨3, ['b'], 1/2⟩], [⟨6, one, 1⟩, ⟨1, ['b'], 3/2⟩], by decide +kernel⟩

/-! ## C19: group laws -/

/-- The terms of an `Expression` object: the constructor reduces (symbolic.py 1442). -/
def IsExpr (a : List Term) : Prop :=
  ∃ ts, ts ≠ [] ∧ (∀ t ∈ ts, t.coef ≠ 0 ∧ t.exp ≠ 0 ∧ t.base ≠ []) ∧ reduce ts = .ok a

/-- Every coefficient and exponent has a denominator of one digit, every coefficient is a float, and
every base is a valid name. -/
def Printable (a : List Term) : Prop :=
  ∀ t ∈ a, (t.coef.den < 10 ∧ IsDouble t.coef) ∧ t.exp.den < 10 ∧ (t.base = one ∨ ValidName t.base)

theorem isExpr_assemble {a : List Term} (h : IsExpr a) :
    ∃ c vars, a = assemble c vars ∧ c ≠ 0 ∧ CanonVars vars := by
  obtain ⟨ts, h1, h2, h3⟩ := h
  obtain ⟨vars, h', hv, _⟩ := reduce_eq ts h1 h2
  rw [h'] at h3
  injection h3 with h3
  exact ⟨_, vars, h3.symm, totalCoef_ne_zero (fun t ht => (h2 t ht).1), hv⟩

theorem isExpr_wf {a : List Term} (h : IsExpr a) : a ≠ [] ∧ ∀ t ∈ a, WF t := by
  obtain ⟨c, vars, rfl, hc, hv⟩ := isExpr_assemble h
  exact ⟨assemble_ne_nil _ _, wf_assemble hc hv⟩

theorem isExpr_reduce {a : List Term} (h : IsExpr a) : reduce a = .ok a := by
  obtain ⟨c, vars, rfl, hc, hv⟩ := isExpr_assemble h
  exact reduce_assemble hc hv

theorem printableTerm_of {a : List Term} (h : IsExpr a) (hp : Printable a) :
    ∀ t ∈ a, PrintableTerm t := by
  obtain ⟨c, vars, rfl, hc, hv⟩ := isExpr_assemble h
  have hvar : ∀ t ∈ vars, t ∈ assemble c vars → PrintableTerm t := by
    intro t ht hm
    obtain ⟨h1, h2, h3, h4⟩ := hv.1 t ht
    obtain ⟨p1, p2, p3⟩ := hp t hm
    exact Or.inr ⟨h1, p3.resolve_left h2, h4, p2⟩
  intro t ht
  have hm := ht
  unfold assemble at ht
  split at ht
  · simp at ht
    exact Or.inl ⟨by rw [ht], by rw [ht], ⟨by rw [ht]; exact hc, (hp t hm).1.1⟩, (hp t hm).1.2⟩
  · split at ht
    · exact hvar t ht hm
    · rcases List.mem_cons.1 ht with ht | ht
      · exact Or.inl ⟨by rw [ht], by rw [ht], ⟨by rw [ht]; exact hc, (hp t hm).1.1⟩, (hp t hm).1.2⟩
      · exact hvar t ht hm

theorem standardStr_ne_nil {a : List Term} (h : a ≠ []) : standardStr a ≠ [] := by
  obtain ⟨t, ts, rfl⟩ := List.exists_cons_of_ne_nil h
  unfold standardStr
  cases ts <;> simp [join]

theorem padded_totals (a : List Term) :
    totalCoef ((a.map (fun t => [t, ⟨1, one, 1⟩])).flatten) = totalCoef a ∧
    ∀ x, x ≠ one → totalExp ((a.map (fun t => [t, ⟨1, one, 1⟩])).flatten) x = totalExp a x := by
  induction a with
  | nil => simp
  | cons t a ih =>
    constructor
    · simp only [List.map_cons, List.flatten_cons, totalCoef_append, ih.1, totalCoef_cons]; simp
    · intro x hx
      simp only [List.map_cons, List.flatten_cons, totalExp_append, ih.2 x hx, totalExp_cons]
      simp [Ne.symm hx]

/-- Building an expression from its own terms (they are formatted and parsed) gives it back. -/
theorem ofTerms_eq {a : List Term} (h : IsExpr a) (hp : Printable a) : ofTerms a = .ok a := by
  obtain ⟨hne, hw⟩ := isExpr_wf h
  have hw1 : WF (⟨1, one, 1⟩ : Term) := ⟨one_ne_zero, one_ne_zero, by simp [one]⟩
  unfold ofTerms ofString
  rw [if_neg hne, if_neg (standardStr_ne_nil hne),
    parse_standardStr hne (printableTerm_of h hp)]
  simp only [bind, Except.bind]
  rw [reduce_congr (b := a) (by simp) hne _ hw, isExpr_reduce h]
  · rw [totalCoef_append, (padded_totals a).1]; simp [totalCoef]
  · intro x hx
    rw [totalExp_append, (padded_totals a).2 x hx, totalExp_cons, if_neg (Ne.symm hx)]; simp
  · intro t ht
    simp only [List.mem_append, List.mem_flatten, List.mem_map, List.mem_singleton] at ht
    rcases ht with ⟨l, ⟨u, hu, rfl⟩, ht⟩ | rfl
    · simp only [List.mem_cons, List.not_mem_nil, or_false] at ht
      rcases ht with rfl | rfl
      · exact hw _ hu
      · exact hw1
    · exact hw1

/-- Totals of an expression, and that totals determine it. -/
theorem expr_ext {a b : List Term} (ha : IsExpr a) (hb : IsExpr b)
    (hc : totalCoef a = totalCoef b) (he : ∀ x, x ≠ one → totalExp a x = totalExp b x) : a = b := by
  have h1 := isExpr_reduce ha
  have h2 := isExpr_reduce hb
  rw [reduce_congr (isExpr_wf ha).1 (isExpr_wf hb).1 (isExpr_wf ha).2 (isExpr_wf hb).2 hc he, h2]
    at h1
  injection h1 with h1
  exact h1.symm

theorem reduce_totals {ts r : List Term} (hne : ts ≠ []) (hw : ∀ t ∈ ts, WF t)
    (h : reduce ts = .ok r) : IsExpr r ∧ totalCoef r = totalCoef ts
      ∧ ∀ x, x ≠ one → totalExp r x = totalExp ts x := by
  refine ⟨⟨ts, hne, hw, h⟩, ?_⟩
  obtain ⟨vars, h', hv, he⟩ := reduce_eq ts hne hw
  rw [h'] at h
  injection h with h; subst h
  exact ⟨totalCoef_assemble hv, fun x hx => by rw [totalExp_assemble hx, he x hx]⟩

theorem reduce_ok {ts : List Term} (hne : ts ≠ []) (hw : ∀ t ∈ ts, WF t) :
    ∃ r, reduce ts = .ok r := by
  obtain ⟨vars, h', _⟩ := reduce_eq ts hne hw
  exact ⟨_, h'⟩

theorem exprMul_spec {a b : List Term} (ha : IsExpr a) (hb : IsExpr b) :
    ∃ r, IsExpr r ∧ reduce (a ++ b) = .ok r ∧ totalCoef r = totalCoef a * totalCoef b
      ∧ (∀ x, x ≠ one → totalExp r x = totalExp a x + totalExp b x)
      ∧ (Printable r → exprMul a b = .ok r) := by
  have hne : a ++ b ≠ [] := by simp [(isExpr_wf ha).1]
  have hw : ∀ t ∈ a ++ b, WF t := by
    intro t ht
    rcases List.mem_append.1 ht with h | h
    · exact (isExpr_wf ha).2 t h
    · exact (isExpr_wf hb).2 t h
  obtain ⟨r, hr⟩ := reduce_ok hne hw
  obtain ⟨h1, h2, h3⟩ := reduce_totals hne hw hr
  refine ⟨r, h1, hr, by rw [h2, totalCoef_append], fun x hx => by rw [h3 x hx, totalExp_append], ?_⟩
  intro hp
  unfold exprMul
  rw [hr]
  exact ofTerms_eq h1 hp

/-- Powers of all terms of an expression. -/
theorem mapM_pow {a : List Term} (hw : ∀ t ∈ a, WF t) {p : Rat} (hp0 : p ≠ 0)
    (hp : p.den = 1 ∨ ∀ t ∈ a, t.coef = 1) :
    ∃ ts, a.mapM (fun t => Operand.pow t p) = .ok ts ∧ (∀ t ∈ ts, WF t)
      ∧ ts.length = a.length
      ∧ totalCoef ts = ratPow (totalCoef a) p
      ∧ (∀ x, totalExp ts x = totalExp a x * p) := by
  have hmul : ∀ c d : Rat, (p.den = 1 ∨ (c = 1 ∧ d = 1)) →
      ratPow c p * ratPow d p = ratPow (c * d) p := by
    intro c d h
    rcases h with h | ⟨rfl, rfl⟩
    · have : ∀ z : Rat, ratPow z p = z ^ p.num := by
        intro z; unfold ratPow; split
        · next hz => subst hz; simp
        · rfl
      rw [this, this, this, mul_zpow]
    · simp [ratPow]
  induction a with
  | nil => exact ⟨[], by simp [pure, Except.pure], by simp, rfl, by simp [ratPow], by simp⟩
  | cons t a ih =>
    obtain ⟨ts, h1, h2, h3, h4, h5⟩ := ih (fun t ht => hw t (List.mem_cons_of_mem _ ht))
      (hp.imp id (fun h t ht => h t (List.mem_cons_of_mem _ ht)))
    obtain ⟨w1, w2, w3⟩ := hw t (by simp)
    have hpow : powCoef t.coef p = .ok (ratPow t.coef p) :=
      powCoef_eq w1 (hp.symm.imp (fun h => h t (by simp)) id)
    have hop : Operand.pow t p = .ok ⟨ratPow t.coef p, t.base, t.exp * p⟩ :=
      operand_pow hpow (ratPow_ne_zero w1) (mul_ne_zero w2 hp0) w3
    refine ⟨⟨ratPow t.coef p, t.base, t.exp * p⟩ :: ts, ?_, ?_, by simp [h3], ?_, ?_⟩
    · rw [List.mapM_cons, hop, h1]; rfl
    · intro u hu
      rcases List.mem_cons.1 hu with rfl | hu
      · exact ⟨ratPow_ne_zero w1, mul_ne_zero w2 hp0, w3⟩
      · exact h2 u hu
    · rw [totalCoef_cons, totalCoef_cons, h4]
      simp only
      apply hmul
      rcases hp with hp | hp
      · exact Or.inl hp
      · refine Or.inr ⟨hp t (by simp), ?_⟩
        have : ∀ t ∈ a, t.coef = 1 := fun t ht => hp t (List.mem_cons_of_mem _ ht)
        clear h1 h2 h3 h4 h5 ih hw hp hpow hop
        induction a with
        | nil => rfl
        | cons u a ih =>
          rw [totalCoef_cons, this u (by simp), ih (fun t ht => this t (List.mem_cons_of_mem _ ht))]
          simp
    · intro x
      rw [totalExp_cons, totalExp_cons, h5]
      simp only
      split <;> ring

theorem exprDiv_spec {a b : List Term} (ha : IsExpr a) (hb : IsExpr b) :
    ∃ r, IsExpr r ∧ totalCoef r = totalCoef a / totalCoef b
      ∧ (∀ x, x ≠ one → totalExp r x = totalExp a x - totalExp b x)
      ∧ (Printable r → exprDiv a b = .ok r) := by
  obtain ⟨ts, h1, h2, h3, h4, h5⟩ := mapM_pow (isExpr_wf hb).2 (p := -1) (by norm_num) (Or.inl rfl)
  have hne : a ++ ts ≠ [] := by simp [(isExpr_wf ha).1]
  have hw : ∀ t ∈ a ++ ts, WF t := by
    intro t ht
    rcases List.mem_append.1 ht with h | h
    · exact (isExpr_wf ha).2 t h
    · exact h2 t h
  obtain ⟨r, hr⟩ := reduce_ok hne hw
  obtain ⟨r1, r2, r3⟩ := reduce_totals hne hw hr
  refine ⟨r, r1, ?_, fun x hx => by rw [r3 x hx, totalExp_append, h5]; ring, ?_⟩
  · rw [r2, totalCoef_append, h4, div_eq_mul_inv]
    congr 1
    unfold ratPow
    split
    · next h => rw [h]; simp
    · have : ((-1 : Rat)).num = -1 := rfl
      rw [this, zpow_neg_one]
  · intro hp
    unfold exprDiv
    simp only [h1, bind, Except.bind, hr]
    exact ofTerms_eq r1 hp

/-- The numbers that take part in the power of an expression are floats. -/
def FloatPow (a : List Term) (p : Rat) : Prop :=
  IsDouble p ∧ ∀ t ∈ a, (IsDouble t.coef ∧ IsDouble (ratPow t.coef p))
    ∧ IsDouble t.exp ∧ IsDouble (t.exp * p)

/-- On floats, the power in floating point is exact. -/
theorem powFloat_eq {t : Term} {p : Rat} (hw : WF t) (hp : p.den = 1 ∨ t.coef = 1)
    (hf : (IsDouble t.coef ∧ IsDouble (ratPow t.coef p)) ∧ IsDouble t.exp ∧ IsDouble (t.exp * p)) :
    Operand.powFloat t p = Operand.pow t p := by
  unfold Operand.powFloat Operand.pow
  simp only [toFloat_double hf.1.1, toFloat_double hf.2.1, toFloat_double hf.2.2,
    powCoef_eq hw.1 hp.symm, toFloat_double hf.1.2, bind, Except.bind]

theorem mapM_congr_mem {α β : Type} {f g : α → Res β} {l : List α} (h : ∀ x ∈ l, f x = g x) :
    l.mapM f = l.mapM g := by
  induction l with
  | nil => rfl
  | cons x l ih =>
    rw [List.mapM_cons, List.mapM_cons, h x (by simp), ih (fun y hy => h y (List.mem_cons_of_mem _ hy))]

theorem exprPow_spec {a : List Term} (ha : IsExpr a) {p : Rat} (hp0 : p ≠ 0)
    (hp : p.den = 1 ∨ ∀ t ∈ a, t.coef = 1) (hf : FloatPow a p) :
    ∃ r, IsExpr r ∧ totalCoef r = ratPow (totalCoef a) p
      ∧ (∀ x, x ≠ one → totalExp r x = totalExp a x * p)
      ∧ (Printable r → exprPow a p = .ok r) := by
  obtain ⟨ts, h1, h2, h3, h4, h5⟩ := mapM_pow (isExpr_wf ha).2 (p := p) hp0 hp
  have hne : ts ≠ [] := by
    intro h
    rw [h] at h3
    exact (isExpr_wf ha).1 (List.length_eq_zero_iff.1 h3.symm)
  obtain ⟨r, hr⟩ := reduce_ok hne h2
  obtain ⟨r1, r2, r3⟩ := reduce_totals hne h2 hr
  refine ⟨r, r1, by rw [r2, h4], fun x hx => by rw [r3 x hx, h5], ?_⟩
  intro hpr
  have hmap : a.mapM (fun t => Operand.powFloat t p) = .ok ts := by
    rw [← h1]
    exact mapM_congr_mem (fun t ht => powFloat_eq ((isExpr_wf ha).2 t ht)
      (hp.imp id (fun h => h t ht)) (hf.2 t ht))
  unfold exprPow
  simp only [toFloat_double hf.1, bind, Except.bind, if_neg hp0, hmap, hr]
  exact ofTerms_eq r1 hpr

theorem totalCoef_expr_ne {a : List Term} (ha : IsExpr a) : totalCoef a ≠ 0 :=
  totalCoef_ne_zero (fun t ht => ((isExpr_wf ha).2 t ht).1)

/-- Multiplication of expressions is commutative, in all cases (also those in which it fails). -/
theorem c19_mul_comm (a b : List Term) (ha : IsExpr a) (hb : IsExpr b) :
    exprMul a b = exprMul b a := by
  unfold exprMul
  have ha' := isExpr_wf ha
  have hb' := isExpr_wf hb
  rw [reduce_congr (a := a ++ b) (b := b ++ a)]
  · simp [ha'.1]
  · simp [hb'.1]
  · intro t ht
    rcases List.mem_append.1 ht with h | h
    · exact ha'.2 t h
    · exact hb'.2 t h
  · intro t ht
    rcases List.mem_append.1 ht with h | h
    · exact hb'.2 t h
    · exact ha'.2 t h
  · rw [totalCoef_append, totalCoef_append, mul_comm]
  · intro x _; rw [totalExp_append, totalExp_append, add_comm]

/-- The value of a ratio of powers of totals. -/
theorem value_of_totals {r a : List Term} {b : List Term} (v : Assignment)
    (hc : totalCoef r = totalCoef a * totalCoef b)
    (he : ∀ x, x ≠ one → totalExp r x = totalExp a x + totalExp b x) :
    value v r = value v a * value v b := by
  rw [← value_append]
  apply value_congr
  · rw [hc, totalCoef_append]
  · intro x hx; rw [he x hx, totalExp_append]

/-- The product of two expressions can be read back after formatting. -/
def ProductPrintable (a b : List Term) : Prop := ∀ r, reduce (a ++ b) = .ok r → Printable r

/-- **C19 (partial), meaning.** When the result can be read back after formatting, the product of
two expressions is the expression whose value is the product of the values. -/
theorem c19_mul_value_partial (a b : List Term) (ha : IsExpr a) (hb : IsExpr b)
    (hp : ProductPrintable a b) :
    ∃ r, exprMul a b = .ok r ∧ IsExpr r ∧ ∀ v, value v r = value v a * value v b := by
  obtain ⟨r, h1, h2, h3, h4, h5⟩ := exprMul_spec ha hb
  exact ⟨r, h5 (hp r h2), h1, fun v => value_of_totals v h3 h4⟩

/-- **C19 (partial), associativity**, when the products involved can be read back after
formatting. -/
theorem c19_mul_assoc_partial (a b c : List Term) (ha : IsExpr a) (hb : IsExpr b) (hc : IsExpr c)
    (h1 : ProductPrintable a b) (h2 : ProductPrintable b c)
    (h3 : ∀ r, reduce (a ++ b ++ c) = .ok r → Printable r) :
    ∃ ab bc abc, exprMul a b = .ok ab ∧ exprMul b c = .ok bc
      ∧ exprMul ab c = .ok abc ∧ exprMul a bc = .ok abc := by
  obtain ⟨ab, e1, r1, c1, x1, p1⟩ := exprMul_spec ha hb
  obtain ⟨bc, e2, r2, c2, x2, p2⟩ := exprMul_spec hb hc
  obtain ⟨l, e3, r3, c3, x3, p3⟩ := exprMul_spec e1 hc
  obtain ⟨r, e4, r4, c4, x4, p4⟩ := exprMul_spec ha e2
  have hlr : l = r := expr_ext e3 e4 (by rw [c3, c4, c1, c2, mul_assoc])
    (fun x hx => by rw [x3 x hx, x4 x hx, x1 x hx, x2 x hx, add_assoc])
  have hpl : Printable l := by
    have hne : a ++ b ++ c ≠ [] := by simp [(isExpr_wf ha).1]
    have hw : ∀ t ∈ a ++ b ++ c, WF t := by
      intro t ht
      simp only [List.mem_append] at ht
      rcases ht with (h | h) | h
      · exact (isExpr_wf ha).2 t h
      · exact (isExpr_wf hb).2 t h
      · exact (isExpr_wf hc).2 t h
    obtain ⟨m, hm⟩ := reduce_ok hne hw
    obtain ⟨m1, m2, m3⟩ := reduce_totals hne hw hm
    have : l = m := expr_ext e3 m1 (by rw [c3, c1, m2, totalCoef_append, totalCoef_append])
      (fun x hx => by rw [x3 x hx, x1 x hx, m3 x hx, totalExp_append, totalExp_append])
    rw [this]; exact h3 m hm
  exact ⟨ab, bc, l, p1 (h1 ab r1), p2 (h2 bc r2), p3 hpl, by rw [hlr]; exact p4 (hlr ▸ hpl)⟩

/-- **C19 (partial), cancellation**: `(a * b) / b = a`. -/
theorem c19_mul_div_partial (a b : List Term) (ha : IsExpr a) (hb : IsExpr b)
    (hp : ProductPrintable a b) (hpa : Printable a) :
    ∃ ab, exprMul a b = .ok ab ∧ exprDiv ab b = .ok a := by
  obtain ⟨ab, e1, r1, c1, x1, p1⟩ := exprMul_spec ha hb
  obtain ⟨r, e2, c2, x2, p2⟩ := exprDiv_spec e1 hb
  have : r = a := expr_ext e2 ha
    (by rw [c2, c1, mul_div_assoc, div_self (totalCoef_expr_ne hb), mul_one])
    (fun x hx => by rw [x2 x hx, x1 x hx]; ring)
  subst this
  exact ⟨ab, p1 (hp ab r1), p2 hpa⟩

theorem isExpr_one : IsExpr [⟨1, one, 1⟩] :=
  ⟨[⟨1, one, 1⟩], by simp, by simp [one], rfl⟩

theorem printable_one : Printable [⟨1, one, 1⟩] := by
  intro t ht; simp at ht; subst ht
  exact ⟨⟨by decide, isDouble_one⟩, by decide, Or.inl rfl⟩

/-- **C19, inverse**: `a / a` is the constant 1, for every expression. -/
theorem c19_div_self (a : List Term) (ha : IsExpr a) : exprDiv a a = .ok [⟨1, one, 1⟩] := by
  obtain ⟨r, e, c, x, p⟩ := exprDiv_spec ha ha
  have : r = [⟨1, one, 1⟩] := expr_ext e isExpr_one
    (by rw [c, div_self (totalCoef_expr_ne ha)]; simp [totalCoef])
    (fun y hy => by rw [x y hy, totalExp_cons, if_neg (Ne.symm hy)]; simp)
  subst this
  exact p printable_one

/-- When the totals can be written, so can the expression. -/
theorem printable_of_totals {r : List Term} (hr : IsExpr r)
    (hc : (totalCoef r).den < 10 ∧ IsDouble (totalCoef r))
    (he : ∀ x, x ≠ one → totalExp r x ≠ 0 → (totalExp r x).den < 10 ∧ ValidName x) :
    Printable r := by
  obtain ⟨c, vars, rfl, hc0, hv⟩ := isExpr_assemble hr
  rw [totalCoef_assemble hv] at hc
  have hvars : ∀ t ∈ vars, (t.coef.den < 10 ∧ IsDouble t.coef) ∧ t.exp.den < 10
      ∧ (t.base = one ∨ ValidName t.base) := by
    intro t ht
    obtain ⟨h1, h2, h3, h4⟩ := hv.1 t ht
    have h5 := totalExp_of_mem hv.2.1 ht
    have h6 := he t.base h2
    rw [totalExp_assemble h2, h5] at h6
    obtain ⟨h7, h8⟩ := h6 h4
    exact ⟨by rw [h1]; exact ⟨by decide, isDouble_one⟩, h7, Or.inr h8⟩
  intro t ht
  unfold assemble at ht
  split at ht
  · simp at ht; rw [ht]; exact ⟨hc, (by decide : (1 : Rat).den < 10), Or.inl rfl⟩
  · split at ht
    · exact hvars t ht
    · rcases List.mem_cons.1 ht with rfl | ht
      · exact ⟨hc, (by decide : (1 : Rat).den < 10), Or.inl rfl⟩
      · exact hvars t ht

/-- Expressions like those of units: coefficient 1, valid names and integer exponents. -/
def UnitLike (a : List Term) : Prop :=
  IsExpr a ∧ (∀ t ∈ a, t.coef = 1) ∧ ∀ t ∈ a, t.base ≠ one → ValidName t.base ∧ t.exp.den = 1

theorem totalExp_ne_zero_mem {a : List Term} {x : Name} (h : totalExp a x ≠ 0) :
    ∃ t ∈ a, t.base = x := by
  by_contra hno
  push Not at hno
  exact h (totalExp_of_not_mem hno)

theorem den_one_iff (q : Rat) : q.den = 1 ↔ ∃ n : Int, q = n := by
  constructor
  · intro h; exact ⟨q.num, (Rat.coe_int_num_of_den_eq_one h).symm⟩
  · rintro ⟨n, rfl⟩; rfl

theorem totalExp_int {a : List Term} {x : Name} (h : ∀ t ∈ a, t.base = x → t.exp.den = 1) :
    (totalExp a x).den = 1 := by
  induction a with
  | nil => rfl
  | cons t a ih =>
    rw [totalExp_cons]
    obtain ⟨m, hm⟩ := (den_one_iff _).1 (ih (fun t ht => h t (List.mem_cons_of_mem _ ht)))
    rw [hm, den_one_iff]
    split
    · next hb =>
      obtain ⟨n, hn⟩ := (den_one_iff _).1 (h t (by simp) hb)
      exact ⟨n + m, by rw [hn]; push_cast; ring⟩
    · exact ⟨m, by ring⟩

theorem totalCoef_all_one {a : List Term} (h : ∀ t ∈ a, t.coef = 1) : totalCoef a = 1 := by
  induction a with
  | nil => rfl
  | cons t a ih =>
    rw [totalCoef_cons, h t (by simp), ih (fun t ht => h t (List.mem_cons_of_mem _ ht)), mul_one]

theorem unitLike_iff {a : List Term} (ha : IsExpr a) : UnitLike a ↔ totalCoef a = 1
    ∧ ∀ x, x ≠ one → totalExp a x ≠ 0 → ValidName x ∧ (totalExp a x).den = 1 := by
  constructor
  · rintro ⟨_, h1, h2⟩
    refine ⟨totalCoef_all_one h1, ?_⟩
    intro x hx hne
    obtain ⟨t, ht, hb⟩ := totalExp_ne_zero_mem hne
    refine ⟨hb ▸ (h2 t ht (by rw [hb]; exact hx)).1, ?_⟩
    exact totalExp_int (fun u hu hub => (h2 u hu (by rw [hub]; exact hx)).2)
  · rintro ⟨h1, h2⟩
    refine ⟨ha, ?_⟩
    obtain ⟨c, vars, rfl, hc0, hv⟩ := isExpr_assemble ha
    rw [totalCoef_assemble hv] at h1
    subst h1
    have hvars : ∀ t ∈ vars, t.coef = 1 ∧ (t.base ≠ one → ValidName t.base ∧ t.exp.den = 1) := by
      intro t ht
      obtain ⟨g1, g2, g3, g4⟩ := hv.1 t ht
      have h5 := totalExp_of_mem hv.2.1 ht
      have h6 := h2 t.base g2
      rw [totalExp_assemble g2, h5] at h6
      exact ⟨g1, fun _ => h6 g4⟩
    have hall : ∀ t ∈ assemble 1 vars, t.coef = 1 ∧
        (t.base ≠ one → ValidName t.base ∧ t.exp.den = 1) := by
      intro t ht
      unfold assemble at ht
      split at ht
      · simp at ht; rw [ht]; exact ⟨rfl, fun h => absurd rfl h⟩
      · simp at ht; exact hvars t ht
    exact ⟨fun t ht => (hall t ht).1, fun t ht => (hall t ht).2⟩

theorem UnitLike.printable {a : List Term} (h : UnitLike a) : Printable a := by
  obtain ⟨h1, h2⟩ := (unitLike_iff h.1).1 h
  apply printable_of_totals h.1 (by rw [h1]; exact ⟨by decide, isDouble_one⟩)
  intro x hx hne
  obtain ⟨a1, a2⟩ := h2 x hx hne
  exact ⟨by rw [a2]; decide, a1⟩

theorem den_add {p q : Rat} (hp : p.den = 1) (hq : q.den = 1) : (p + q).den = 1 := by
  obtain ⟨m, rfl⟩ := (den_one_iff _).1 hp
  obtain ⟨n, rfl⟩ := (den_one_iff _).1 hq
  exact (den_one_iff _).2 ⟨m + n, by push_cast; ring⟩

theorem den_mul_int {p : Rat} (hp : p.den = 1) (n : Int) : (p * n).den = 1 := by
  obtain ⟨m, rfl⟩ := (den_one_iff _).1 hp
  exact (den_one_iff _).2 ⟨m * n, by push_cast; ring⟩

/-- Totals of a unit-like expression. -/
theorem UnitLike.totals {a : List Term} (h : UnitLike a) : totalCoef a = 1
    ∧ ∀ x, x ≠ one → (totalExp a x).den = 1 ∧ (totalExp a x ≠ 0 → ValidName x) := by
  obtain ⟨h1, h2⟩ := (unitLike_iff h.1).1 h
  refine ⟨h1, fun x hx => ⟨?_, fun hne => (h2 x hx hne).1⟩⟩
  by_cases hz : totalExp a x = 0
  · rw [hz]; rfl
  · exact (h2 x hx hz).2

theorem unitLike_mul {a b r : List Term} (ha : UnitLike a) (hb : UnitLike b) (hr : IsExpr r)
    (hc : totalCoef r = totalCoef a * totalCoef b)
    (he : ∀ x, x ≠ one → totalExp r x = totalExp a x + totalExp b x) : UnitLike r := by
  obtain ⟨a1, a2⟩ := ha.totals
  obtain ⟨b1, b2⟩ := hb.totals
  refine (unitLike_iff hr).2 ⟨by rw [hc, a1, b1, mul_one], ?_⟩
  intro x hx hne
  rw [he x hx] at hne ⊢
  refine ⟨?_, den_add (a2 x hx).1 (b2 x hx).1⟩
  by_cases hz : totalExp a x = 0
  · rw [hz, zero_add] at hne; exact (b2 x hx).2 hne
  · exact (a2 x hx).2 hz

theorem unitLike_pow {a r : List Term} (ha : UnitLike a) (n : Int) (hr : IsExpr r)
    (hc : totalCoef r = 1) (he : ∀ x, x ≠ one → totalExp r x = totalExp a x * n) :
    UnitLike r := by
  obtain ⟨a1, a2⟩ := ha.totals
  refine (unitLike_iff hr).2 ⟨hc, ?_⟩
  intro x hx hne
  rw [he x hx] at hne ⊢
  exact ⟨(a2 x hx).2 (left_ne_zero_of_mul hne), den_mul_int (a2 x hx).1 n⟩

theorem ratPow_one (q : Rat) : ratPow 1 q = 1 := by simp [ratPow]

theorem isDouble_of_den {q : Rat} (h : q.den = 1) (hb : |q| ≤ 2 ^ 53) : IsDouble q := by
  obtain ⟨n, rfl⟩ := (den_one_iff _).1 h
  exact isDouble_int (by exact_mod_cast hb)

/-- The exponent of a constant is 1, that of another term the total one of its base. -/
theorem expr_term {a : List Term} (h : IsExpr a) {t : Term} (ht : t ∈ a) :
    (t.base = one → t.exp = 1) ∧ (t.base ≠ one → totalExp a t.base = t.exp) := by
  obtain ⟨c, vars, rfl, hc0, hv⟩ := isExpr_assemble h
  have hvar : t ∈ vars → (t.base = one → t.exp = 1)
      ∧ (t.base ≠ one → totalExp (assemble c vars) t.base = t.exp) := fun hm =>
    ⟨fun hb => absurd hb (hv.1 t hm).2.1, fun hb => by
      rw [totalExp_assemble hb, totalExp_of_mem hv.2.1 hm]⟩
  have hmem : t = ⟨c, one, 1⟩ ∨ t ∈ vars := by
    unfold assemble at ht
    split at ht
    · left; simpa using ht
    · split at ht
      · right; exact ht
      · exact List.mem_cons.1 ht
  rcases hmem with rfl | hm
  · exact ⟨fun _ => rfl, fun h => absurd rfl h⟩
  · exact hvar hm

/-- Terms of unit-like expressions have integral exponents. -/
theorem UnitLike.exp_den {a : List Term} (h : UnitLike a) {t : Term} (ht : t ∈ a) :
    t.exp.den = 1 := by
  by_cases hb : t.base = one
  · rw [(expr_term h.1 ht).1 hb]; rfl
  · exact (h.2.2 t ht hb).2

theorem UnitLike.floatPow {a : List Term} (h : UnitLike a) {n : Int} (hn : n ≠ 0)
    (hs : ∀ t ∈ a, |t.exp * n| ≤ 2 ^ 53) : FloatPow a n := by
  have hone : ∀ m : Int, m ≠ 0 → (1 : Rat) ≤ |(m : Rat)| := by
    intro m hm
    exact_mod_cast Int.one_le_abs hm
  have hexp : ∀ t ∈ a, (1 : Rat) ≤ |t.exp| := by
    intro t ht
    obtain ⟨m, hm⟩ := (den_one_iff _).1 (h.exp_den ht)
    rw [hm]
    apply hone
    rintro rfl
    exact ((isExpr_wf h.1).2 t ht).2.1 (by rw [hm]; rfl)
  refine ⟨?_, fun t ht => ⟨?_, ?_, ?_⟩⟩
  · obtain ⟨t, ts, rfl⟩ := List.exists_cons_of_ne_nil (isExpr_wf h.1).1
    have h1 := hs t (by simp)
    have h2 := hexp t (by simp)
    rw [abs_mul] at h1
    refine isDouble_of_den rfl (le_trans ?_ h1)
    nlinarith [abs_nonneg (n : Rat)]
  · rw [h.2.1 t ht, ratPow_one]; exact ⟨isDouble_one, isDouble_one⟩
  · have h1 := hs t ht
    rw [abs_mul] at h1
    refine isDouble_of_den (h.exp_den ht) (le_trans ?_ h1)
    nlinarith [abs_nonneg t.exp, hone n hn]
  · exact isDouble_of_den (den_mul_int (h.exp_den ht) n) (hs t ht)

/-- Exponents of a product. -/
theorem small_mul {a b r : List Term} (ha : UnitLike a) (hb : UnitLike b) (hr : UnitLike r)
    (he : ∀ x, x ≠ one → totalExp r x = totalExp a x + totalExp b x) {n : Int}
    (hs : ∀ t ∈ a ++ b, |t.exp * n| ≤ 2 ^ 52) : ∀ t ∈ r, |t.exp * n| ≤ 2 ^ 53 := by
  intro t ht
  have hbound : ∀ e, UnitLike e → (∀ u ∈ e, |u.exp * n| ≤ 2 ^ 52) → ∀ x, x ≠ one →
      |totalExp e x * n| ≤ 2 ^ 52 := by
    intro e hu hb x hx
    by_cases hz : totalExp e x = 0
    · rw [hz]; simp
    · obtain ⟨u, hm, hbase⟩ := totalExp_ne_zero_mem hz
      rw [← hbase, (expr_term hu.1 hm).2 (by rw [hbase]; exact hx)]
      exact hb u hm
  by_cases hb1 : t.base = one
  · rw [(expr_term hr.1 ht).1 hb1, one_mul]
    obtain ⟨u, us, rfl⟩ := List.exists_cons_of_ne_nil (isExpr_wf ha.1).1
    have h1 := hs u (by simp)
    obtain ⟨m, hm⟩ := (den_one_iff _).1 (ha.exp_den (t := u) (by simp))
    have h2 : (1 : Rat) ≤ |u.exp| := by
      have : m ≠ 0 := by
        rintro rfl
        exact ((isExpr_wf ha.1).2 u (by simp)).2.1 (by rw [hm]; rfl)
      rw [hm]; exact_mod_cast Int.one_le_abs this
    rw [abs_mul] at h1
    have h3 : |(n : Rat)| ≤ |u.exp| * |(n : Rat)| := by nlinarith [abs_nonneg (n : Rat)]
    exact (h3.trans h1).trans (by norm_num)
  · rw [← (expr_term hr.1 ht).2 hb1, he _ hb1, add_mul]
    refine (abs_add_le _ _).trans ?_
    have h1 := hbound a ha (fun u hu => hs u (by simp [hu])) t.base hb1
    have h2 := hbound b hb (fun u hu => hs u (by simp [hu])) t.base hb1
    linarith

/-- **C19, units.** Expressions with coefficient 1, valid names and integer exponents (units) form
a commutative group without further conditions: multiplication and division succeed and stay
within that class; multiplication is commutative and associative, `(a * b) / b = a`,
`a / a = 1`, and `(a * b) ** n = a ** n * b ** n` for every non-zero integer `n` for which the exponents
stay within the integers that a float represents. -/
theorem c19_units (a b c : List Term) (ha : UnitLike a) (hb : UnitLike b) (hc : UnitLike c)
    (n : Int) (hn : n ≠ 0) (hs : ∀ t ∈ a ++ b, |t.exp * n| ≤ 2 ^ 52) :
    ∃ ab bc abc an bn abn,
      exprMul a b = .ok ab ∧ UnitLike ab ∧ exprMul b a = .ok ab
      ∧ exprMul b c = .ok bc ∧ exprMul ab c = .ok abc ∧ exprMul a bc = .ok abc
      ∧ exprDiv ab b = .ok a ∧ exprDiv a a = .ok [⟨1, one, 1⟩]
      ∧ exprPow a n = .ok an ∧ exprPow b n = .ok bn ∧ exprPow ab n = .ok abn
      ∧ exprMul an bn = .ok abn := by
  obtain ⟨ab, e1, r1, c1, x1, p1⟩ := exprMul_spec ha.1 hb.1
  obtain ⟨bc, e2, r2, c2, x2, p2⟩ := exprMul_spec hb.1 hc.1
  have uab := unitLike_mul ha hb e1 c1 x1
  have ubc := unitLike_mul hb hc e2 c2 x2
  obtain ⟨abc, e3, r3, c3, x3, p3⟩ := exprMul_spec e1 hc.1
  have uabc := unitLike_mul uab hc e3 c3 x3
  obtain ⟨abc', e4, r4, c4, x4, p4⟩ := exprMul_spec ha.1 e2
  have uabc' := unitLike_mul ha ubc e4 c4 x4
  have hassoc : abc = abc' := expr_ext e3 e4 (by rw [c3, c4, c1, c2, mul_assoc])
    (fun x hx => by rw [x3 x hx, x4 x hx, x1 x hx, x2 x hx, add_assoc])
  have hn' : (n : Rat) ≠ 0 := by exact_mod_cast hn
  have hden : (n : Rat).den = 1 := rfl
  have hsa : ∀ t ∈ a, |t.exp * n| ≤ 2 ^ 53 := fun t ht => (hs t (by simp [ht])).trans (by norm_num)
  have hsb : ∀ t ∈ b, |t.exp * n| ≤ 2 ^ 53 := fun t ht => (hs t (by simp [ht])).trans (by norm_num)
  have hsab : ∀ t ∈ ab, |t.exp * n| ≤ 2 ^ 53 := small_mul ha hb uab x1 hs
  obtain ⟨an, f1, cf1, xf1, pf1⟩ := exprPow_spec ha.1 hn' (Or.inl hden) (ha.floatPow hn hsa)
  obtain ⟨bn, f2, cf2, xf2, pf2⟩ := exprPow_spec hb.1 hn' (Or.inl hden) (hb.floatPow hn hsb)
  obtain ⟨abn, f3, cf3, xf3, pf3⟩ := exprPow_spec e1 hn' (Or.inl hden) (uab.floatPow hn hsab)
  rw [ha.totals.1, ratPow_one] at cf1
  rw [hb.totals.1, ratPow_one] at cf2
  rw [uab.totals.1, ratPow_one] at cf3
  have uan := unitLike_pow ha n f1 cf1 xf1
  have ubn := unitLike_pow hb n f2 cf2 xf2
  have uabn := unitLike_pow uab n f3 cf3 xf3
  obtain ⟨m, e5, r5, c5, x5, p5⟩ := exprMul_spec f1 f2
  have um := unitLike_mul uan ubn e5 c5 x5
  have hm : m = abn := expr_ext e5 f3 (by rw [c5, cf1, cf2, cf3, mul_one])
    (fun x hx => by rw [x5 x hx, xf1 x hx, xf2 x hx, xf3 x hx, x1 x hx]; ring)
  obtain ⟨d, e6, c6, x6, p6⟩ := exprDiv_spec e1 hb.1
  have hd : d = a := expr_ext e6 ha.1
    (by rw [c6, c1, mul_div_assoc, div_self (totalCoef_expr_ne hb.1), mul_one])
    (fun x hx => by rw [x6 x hx, x1 x hx]; ring)
  subst hd
  have hab := p1 uab.printable
  refine ⟨ab, bc, abc, an, bn, abn, hab, uab, ?_, p2 ubc.printable, p3 uabc.printable, ?_,
    p6 ha.printable, c19_div_self _ ha.1, pf1 uan.printable, pf2 ubn.printable, pf3 uabn.printable,
    ?_⟩
  · rw [c19_mul_comm b _ hb.1 ha.1]; exact hab
  · rw [hassoc]; exact p4 uabc'.printable
  · rw [← hm]; exact p5 um.printable

/-- **C19 (partial), powers**: `(a * b) ** n = a ** n * b ** n` when the results can be read back
after formatting. -/
theorem c19_mul_pow_partial (a b : List Term) (ha : IsExpr a) (hb : IsExpr b) (n : Int)
    (hn : n ≠ 0) (hp : ProductPrintable a b)
    (hpow : ∀ e ∈ [a, b, a ++ b], ∀ ts r, e.mapM (fun t => Operand.pow t n) = .ok ts →
      reduce ts = .ok r → Printable r)
    (hf : FloatPow a n ∧ FloatPow b n ∧ ∀ r, reduce (a ++ b) = .ok r → FloatPow r n) :
    ∃ ab an bn abn, exprMul a b = .ok ab ∧ exprPow a n = .ok an ∧ exprPow b n = .ok bn
      ∧ exprPow ab n = .ok abn ∧ exprMul an bn = .ok abn := by
  obtain ⟨ab, e1, r1, c1, x1, p1⟩ := exprMul_spec ha hb
  have hn' : (n : Rat) ≠ 0 := by exact_mod_cast hn
  have hden : (n : Rat).den = 1 := rfl
  have hprint : ∀ e ∈ [a, b, a ++ b], e ≠ [] → (∀ t ∈ e, WF t) → ∀ r, IsExpr r →
      totalCoef r = ratPow (totalCoef e) n →
      (∀ x, x ≠ one → totalExp r x = totalExp e x * n) → Printable r := by
    intro e he hne hw r hr hc hx
    obtain ⟨ts, t1, t2, t3, t4, t5⟩ := mapM_pow hw hn' (Or.inl hden)
    have htne : ts ≠ [] := by
      intro h; rw [h] at t3; exact hne (List.length_eq_zero_iff.1 t3.symm)
    obtain ⟨s, hs⟩ := reduce_ok htne t2
    obtain ⟨s1, s2, s3⟩ := reduce_totals htne t2 hs
    have : r = s := expr_ext hr s1 (by rw [hc, s2, t4])
      (fun x hx' => by rw [hx x hx', s3 x hx', t5])
    rw [this]; exact hpow e he ts s t1 hs
  have hwa := isExpr_wf ha
  have hwb := isExpr_wf hb
  have hwab : ∀ t ∈ a ++ b, WF t := by
    intro t ht
    rcases List.mem_append.1 ht with h | h
    · exact hwa.2 t h
    · exact hwb.2 t h
  obtain ⟨an, f1, cf1, xf1, pf1⟩ := exprPow_spec ha hn' (Or.inl hden) hf.1
  obtain ⟨bn, f2, cf2, xf2, pf2⟩ := exprPow_spec hb hn' (Or.inl hden) hf.2.1
  obtain ⟨abn, f3, cf3, xf3, pf3⟩ := exprPow_spec e1 hn' (Or.inl hden) (hf.2.2 ab r1)
  have qan := hprint a (by simp) hwa.1 hwa.2 an f1 cf1 xf1
  have qbn := hprint b (by simp) hwb.1 hwb.2 bn f2 cf2 xf2
  have qabn := hprint (a ++ b) (by simp) (by simp [hwa.1]) hwab abn f3
    (by rw [cf3, c1, totalCoef_append])
    (fun x hx => by rw [xf3 x hx, x1 x hx, totalExp_append])
  obtain ⟨m, e5, r5, c5, x5, p5⟩ := exprMul_spec f1 f2
  have hpw : ∀ z : Rat, ratPow z n = z ^ n := by
    intro z; unfold ratPow; split
    · next hz => subst hz; simp
    · rfl
  have hm : m = abn := expr_ext e5 f3
    (by rw [c5, cf1, cf2, cf3, c1, hpw, hpw, hpw, mul_zpow])
    (fun x hx => by rw [x5 x hx, xf1 x hx, xf2 x hx, xf3 x hx, x1 x hx]; ring)
  exact ⟨ab, an, bn, abn, p1 (hp ab r1), pf1 qan, pf2 qbn, pf3 qabn, by rw [← hm]; exact p5 (hm ▸ qabn)⟩

/-- **C19 (counterexample).** `a^(1/3) * a^(1/4)` is computed as `2 a^7` instead of `a^(7/12)`:
the result is formatted as `(a^7/12)` and read back as `a^(7/1)` times 2. -/
theorem c19_group_counterexample :
    exprMul [⟨1, ['a'], 1/3⟩] [⟨1, ['a'], 1/4⟩] = .ok [⟨2, one, 1⟩, ⟨1, ['a'], 7⟩] := by
  decide +kernel

example : exprMul [⟨2, one, 1⟩, ⟨1, ['a'], 3/2⟩] [⟨1/4, one, 1⟩, ⟨1, ['b'], 1⟩, ⟨1, ['a'], -1⟩]
    = .ok [⟨1/2, one, 1⟩, ⟨1, ['b'], 1⟩, ⟨1, ['a'], 1/2⟩] := by decide +kernel

example : ∃ a, UnitLike a ∧ a.length = 2 := by
  refine ⟨[⟨1, ['m'], 2⟩, ⟨1, ['s'], -1⟩], ⟨⟨_, by simp, ?_, (by decide +kernel :
    reduce [⟨1, ['m'], 2⟩, ⟨1, ['s'], -1⟩] = .ok [⟨1, ['m'], 2⟩, ⟨1, ['s'], -1⟩])⟩, by simp, ?_⟩,
    rfl⟩
  · decide
  · intro t ht _
    simp at ht
    rcases ht with rfl | rfl
    · exact ⟨⟨['m'], [], rfl, by simp, by decide, by simp, by decide⟩, rfl⟩
    · exact ⟨⟨['s'], [], rfl, by simp, by decide, by simp, by decide⟩, rfl⟩

/-! ## C20: equality -/

theorem exprEq_iff_perm (a b : List Term) : exprEq a b = true ↔ a.Perm b := by
  have htot : Std.Total keyLe := ⟨by
    intro a b
    unfold keyLe
    rcases lt_trichotomy a.base b.base with h | h | h
    · exact Or.inl (Or.inl h)
    · rcases lt_trichotomy a.exp b.exp with g | g | g
      · exact Or.inl (Or.inr ⟨h, Or.inl g⟩)
      · rcases le_total a.coef b.coef with f | f
        · exact Or.inl (Or.inr ⟨h, Or.inr ⟨g, f⟩⟩)
        · exact Or.inr (Or.inr ⟨h.symm, Or.inr ⟨g.symm, f⟩⟩)
      · exact Or.inr (Or.inr ⟨h.symm, Or.inl g⟩)
    · exact Or.inr (Or.inl h)⟩
  have htrans : IsTrans Term keyLe := ⟨by
    intro a b c h1 h2
    unfold keyLe at *
    rcases h1 with h1 | ⟨h1, h1'⟩
    · rcases h2 with h2 | ⟨h2, _⟩
      · exact Or.inl (lt_trans h1 h2)
      · exact Or.inl (h2 ▸ h1)
    · rcases h2 with h2 | ⟨h2, h2'⟩
      · exact Or.inl (h1 ▸ h2)
      · refine Or.inr ⟨h1.trans h2, ?_⟩
        rcases h1' with h1' | ⟨h1', h1''⟩
        · rcases h2' with h2' | ⟨h2', _⟩
          · exact Or.inl (lt_trans h1' h2')
          · exact Or.inl (h2' ▸ h1')
        · rcases h2' with h2' | ⟨h2', h2''⟩
          · exact Or.inl (h1' ▸ h2')
          · exact Or.inr ⟨h1'.trans h2', le_trans h1'' h2''⟩⟩
  have hanti : Std.Antisymm keyLe := ⟨by
    intro a b h1 h2
    unfold keyLe at *
    rcases h1 with h1 | ⟨h1, h1'⟩
    · rcases h2 with h2 | ⟨h2, _⟩
      · exact absurd (lt_trans h1 h2) (lt_irrefl _)
      · exact absurd (h2 ▸ h1) (lt_irrefl _)
    · rcases h2 with h2 | ⟨h2, h2'⟩
      · exact absurd (h1 ▸ h2) (lt_irrefl _)
      · rcases h1' with h1' | ⟨h1', h1''⟩
        · rcases h2' with h2' | ⟨h2', _⟩
          · exact absurd (lt_trans h1' h2') (lt_irrefl _)
          · exact absurd (h2' ▸ h1') (lt_irrefl _)
        · rcases h2' with h2' | ⟨h2', h2''⟩
          · exact absurd (h1' ▸ h2') (lt_irrefl _)
          · obtain ⟨c, b', e⟩ := a
            obtain ⟨c', b'', e'⟩ := b
            simp only at *
            subst h1; subst h1'
            rw [le_antisymm h1'' h2'']⟩
  unfold exprEq
  constructor
  · intro h
    split at h
    · cases h
    · have h' : a.insertionSort keyLe = b.insertionSort keyLe := by simpa using h
      exact (List.perm_insertionSort keyLe a).symm.trans
        (h' ▸ List.perm_insertionSort keyLe b)
  · intro h
    rw [if_neg (by simpa using h.length_eq)]
    have hp : (a.insertionSort keyLe).Perm (b.insertionSort keyLe) :=
      ((List.perm_insertionSort keyLe a).trans h).trans (List.perm_insertionSort keyLe b).symm
    have := List.Perm.eq_of_pairwise (fun x y _ _ h1 h2 => hanti.antisymm x y h1 h2)
      (List.pairwise_insertionSort keyLe a) (List.pairwise_insertionSort keyLe b) hp
    simpa using this

/-- **C20.** Two expressions compare equal iff they have the same terms in some order, iff they
have the same value under every assignment of positive reals to the bases. -/
theorem c20_eq (a b : List Term) (ha : IsExpr a) (hb : IsExpr b) :
    (exprEq a b = true ↔ a.Perm b) ∧ (exprEq a b = true ↔ ∀ v, value v a = value v b) := by
  refine ⟨exprEq_iff_perm a b, ?_⟩
  rw [exprEq_iff_perm]
  constructor
  · intro h v
    exact value_congr v (totalCoef_perm h) (fun x _ => totalExp_perm h x)
  · intro h
    obtain ⟨h1, h2⟩ := totals_of_value (totalCoef_expr_ne ha) h
    rw [expr_ext ha hb h1 h2]

example : exprEq [⟨2, one, 1⟩, ⟨1, ['a'], 1⟩] [⟨1, ['a'], 1⟩, ⟨2, one, 1⟩] = true
    ∧ exprEq [⟨1, ['a'], 1⟩] [⟨1, ['a'], 2⟩] = false := by decide +kernel

/-! ## C21: zero -/

/-- **C21 (counterexample).** The power zero of a term is the term with exponent one, and a term
multiplied by zero has coefficient one; the values are not 1 and 0. -/
theorem c21_zero_counterexample :
    Operand.pow ⟨1, ['a'], 2⟩ 0 = .ok ⟨1, ['a'], 1⟩
    ∧ termValue (single ['a'] 2 (by norm_num) (by decide)) ⟨1, ['a'], 1⟩ ≠ 1
    ∧ Operand.scale ⟨3, ['a'], 2⟩ 0 = ⟨1, ['a'], 2⟩
    ∧ (∀ v, termValue v ⟨1, ['a'], 2⟩ ≠ 0) := by
  refine ⟨by decide +kernel, ?_, by decide +kernel, ?_⟩
  · simp [termValue, single]
  · intro v
    simp only [termValue]
    have := Real.rpow_pos_of_pos (v.pos ['a']) ((2 : Rat) : ℝ)
    simp
    exact (v.pos ['a']).ne'

/-- The general extent of the defect: for every term, the power zero has the base to the first
power, and multiplying by zero replaces the coefficient by one. -/
theorem c21_zero_general (t : Term) (hw : t.coef ≠ 0 ∧ t.exp ≠ 0 ∧ t.base ≠ []) :
    t.pow 0 = .ok ⟨1, t.base, 1⟩ ∧ t.scale 0 = ⟨1, t.base, t.exp⟩ := by
  constructor
  · simp [Operand.pow, powCoef, bind, Except.bind, pure, Except.pure, mkOperand, orOne, hw.2.2]
  · simp [Operand.scale, mkOperand, orOne, hw.2.2, hw.2.1]

/-- **C21 (partial).** For every other factor and integer power, the value is right. -/
theorem c21_nonzero_partial (t : Term) (hw : t.coef ≠ 0 ∧ t.exp ≠ 0 ∧ t.base ≠ []) (v : Assignment) :
    (∀ x : Rat, x ≠ 0 → termValue v (t.scale x) = (x : ℝ) * termValue v t)
    ∧ (∀ n : Int, n ≠ 0 → ∃ u, t.pow n = .ok u ∧ termValue v u = termValue v t ^ n) := by
  constructor
  · intro x hx
    have : t.scale x = ⟨t.coef * x, t.base, t.exp⟩ := by
      simp [Operand.scale, mkOperand, orOne, hw.1, hw.2.1, hw.2.2, hx]
    rw [this]
    simp only [termValue]
    push_cast
    ring
  · intro n hn
    have hn' : (n : Rat) ≠ 0 := by exact_mod_cast hn
    have hpow : powCoef t.coef n = .ok (ratPow t.coef n) := powCoef_eq hw.1 (Or.inr rfl)
    have := operand_pow hpow (ratPow_ne_zero hw.1) (mul_ne_zero hw.2.1 hn') hw.2.2
    refine ⟨_, this, ?_⟩
    simp only [termValue]
    have hr : ((ratPow t.coef n : Rat) : ℝ) = (t.coef : ℝ) ^ n := by
      unfold ratPow
      split
      · next h => rw [h]; simp
      · push_cast; rfl
    rw [hr, mul_zpow, ← Real.rpow_intCast (_ ^ _), ← Real.rpow_mul (v.pos _).le]
    push_cast
    rfl

example : ∃ t : Term, (t.coef ≠ 0 ∧ t.exp ≠ 0 ∧ t.base ≠ []) ∧ t.pow 2 = .ok ⟨9, ['a'], 4⟩ :=
  ⟨⟨3, ['a'], 2⟩, by decide +kernel⟩

/-! ## C22: formatting and parsing -/

theorem exprStr_ne_nil {a : List Term} (h : a ≠ []) (hp : ∀ t ∈ a, PrintableTerm t) :
    exprStr a ≠ [] := by
  obtain ⟨t, ts, rfl⟩ := List.exists_cons_of_ne_nil h
  have ht : termStr t ≠ [] := by
    rw [← termTree_render (hp t (by simp))]
    exact Tree.render_ne_nil (termTree_ok (hp t (by simp))).1
  unfold exprStr
  cases ts <;> simp [join, ht]

/-- **C22 (partial).** Parsing the formatted expression gives the expression back, for every
expression whose coefficients and exponents have one-digit denominators and whose coefficients are
floats (so all integers of at most 53 bits), and whose base names are letters followed by digits and do not start with `sqrt`. -/
theorem c22_round_trip_partial (a : List Term) (ha : IsExpr a) (hp : Printable a) :
    ofString (exprStr a) = .ok a := by
  obtain ⟨hne, hw⟩ := isExpr_wf ha
  have hpt := printableTerm_of ha hp
  unfold ofString
  rw [if_neg (exprStr_ne_nil hne hpt), parse_exprStr hne hpt]
  simp only [bind, Except.bind]
  rw [reduce_padded hne hw (by intro t ht; simp at ht; subst ht; exact ⟨by simp, by simp, by simp [one]⟩)
    (by simp [totalCoef]) (by intro x hx; rw [totalExp_cons, if_neg (Ne.symm hx)]; simp)]
  exact isExpr_reduce ha

/-- **C22 (partial), integers**: coefficients of at most 53 bits; no condition on the size of the
exponents. -/
theorem c22_integers_partial (a : List Term) (ha : IsExpr a)
    (hint : ∀ t ∈ a, (t.coef.den = 1 ∧ |t.coef| ≤ 2 ^ 53) ∧ t.exp.den = 1
      ∧ (t.base = one ∨ ValidName t.base)) :
    ofString (exprStr a) = .ok a := by
  apply c22_round_trip_partial a ha
  intro t ht
  obtain ⟨h1, h2, h3⟩ := hint t ht
  exact ⟨⟨by omega, isDouble_of_den h1.1 h1.2⟩, by omega, h3⟩

/-- **C22 (counterexample), numbers.** Constants are read as floats: a large integer coefficient comes
back changed, and the expression `1/3` has a coefficient with a long denominator, of which only the first
digit is read back. -/
theorem c22_float_counterexample :
    ofString (exprStr [⟨9007199254740993, one, 1⟩, ⟨1, ['a'], 1⟩])
      = .ok [⟨9007199254740992, one, 1⟩, ⟨1, ['a'], 1⟩]
    ∧ ofString "1/3".toList = .ok [⟨6004799503160661/18014398509481984, one, 1⟩]
    ∧ ofString (exprStr [⟨6004799503160661/18014398509481984, one, 1⟩])
      = .ok [⟨6004799503160661 * 8014398509481984, one, 1⟩] := by
  decide +kernel

/-- **C22 (counterexample).** A valid base name that starts with `sqrt` is read as a square root
of the remaining name. -/
theorem c22_sqrt_counterexample :
    ValidBase ['s', 'q', 'r', 't', 'x'] = true
    ∧ ofString (exprStr [⟨1, ['s', 'q', 'r', 't', 'x'], 1⟩]) = .ok [⟨1, ['x'], 1/2⟩] := by
  decide +kernel

example : exprStr [⟨-20, one, 1⟩, ⟨1, ['a'], 12⟩, ⟨1, ['b', '1'], -3⟩] = "-20 a^12 b1^-3".toList
    ∧ ofString "-20 a^12 b1^-3".toList
      = .ok [⟨-20, one, 1⟩, ⟨1, ['a'], 12⟩, ⟨1, ['b', '1'], -3⟩] := by decide +kernel

/-! ## C23: termination and errors -/

/-- **C23 (partial).** Parsing never runs out of steps (the model's bound, which stands for
non-termination, is never reached, and a larger bound gives the same result); the errors are the
documented ones (`ParsingValueError`, `RatioError`, `ProductError`) or arithmetic errors
(`ZeroDivisionError`, `TypeError`, `OverflowError`, or a power outside exact arithmetic). -/
theorem c23_parse_total_partial (strict : Bool) (s : List Char) :
    (∀ e, parse strict s = .error e →
      (e = .named "ParsingValueError" ∨ e = .named "RatioError" ∨ e = .named "ProductError")
      ∨ (e = .zeroDivision ∨ e = .typeError ∨ e = .named "OverflowError" ∨ e = .named "inexact"))
    ∧ (∀ n, s.length + 2 ≤ n → resolve strict n (mkOperand 1 s 1) = parse strict s) := by
  have hlen : (mkOperand 1 s 1).base.length < s.length + 2 := by
    simp only [mkOperand]
    split
    · simp [one]
    · omega
  constructor
  · intro e h
    exact resolve_error strict _ _ hlen e h
  · intro n hn
    exact resolve_fuel strict _ _ _ (by omega) hlen

/-- Each step of the parser consumes at least one character. -/
theorem c23_progress (strict : Bool) (power : Rat) (prev : Option Op) (s : List Char)
    (r : Part × Option Op × List Char) (h : parseStep strict power prev s = .ok r) :
    r.2.2.length < s.length := (parseStep_length h).1

/-- **C23 (counterexample).** Undocumented errors: a zero denominator, a negative power of zero,
a fractional power of a negative number, and a number out of the range of floats. -/
theorem c23_parse_counterexample :
    parse false "a^1/0".toList = .error .zeroDivision
    ∧ parse false "0^-1".toList = .error .zeroDivision
    ∧ parse false "-8^1/2".toList = .error .typeError
    ∧ parse false "1e400".toList = .error (.named "OverflowError") := by decide +kernel

example : parse true "(a * b^2) / (c * (d / e))".toList = .ok [⟨1, ['a'], 1⟩, ⟨1, ['b'], 2⟩,
    ⟨1, one, 1⟩, ⟨1, ['c'], -1⟩, ⟨1, ['d'], -1⟩, ⟨1, ['e'], 1⟩, ⟨1, one, 1⟩, ⟨1, one, 1⟩,
    ⟨1, one, 1⟩]
    ∧ parse true "a +".toList = .error (.named "ParsingValueError")
    ∧ parse true "(a".toList = .error (.named "ParsingValueError") := by decide +kernel

/-! ## C24: order of operators -/

/-- Two successive separators that are ambiguous. -/
def Clash (l : List Sep) : Prop :=
  ∃ i, l[i]? = some Sep.slash ∧ (l[i + 1]? = some Sep.slash ∨ l[i + 1]? = some Sep.star)

theorem firstError_none_iff : ∀ l : List Sep, firstError l = none ↔ ¬ Clash l := by
  intro l
  induction l with
  | nil => simp [firstError, Clash]
  | cons a l ih =>
    cases l with
    | nil =>
      simp only [firstError, true_iff]
      rintro ⟨i, h1, h2⟩
      cases i <;> simp at h1 h2
    | cons b l =>
      have hsplit : Clash (a :: b :: l) ↔ (a = .slash ∧ (b = .slash ∨ b = .star)) ∨ Clash (b :: l) := by
        constructor
        · rintro ⟨i, h1, h2⟩
          cases i with
          | zero => left; exact ⟨by simpa using h1, by simpa using h2⟩
          | succ i => right; exact ⟨i, by simpa using h1, by simpa using h2⟩
        · rintro (⟨h1, h2⟩ | ⟨i, h1, h2⟩)
          · exact ⟨0, by simp [h1], by simpa using h2⟩
          · exact ⟨i + 1, by simpa using h1, by simpa using h2⟩
      rw [hsplit]
      simp only [firstError, Option.or_eq_none_iff, ih]
      cases a <;> cases b <;> simp [pairError]

/-- There is an ambiguous pair of separators at some level of the tree. -/
def Tree.Ambiguous : Tree → Prop
  | .num _ => False
  | .var _ _ => False
  | .group t _ => Clash t.seps ∨ t.Ambiguous
  | .bin _ a b => a.Ambiguous ∨ b.Ambiguous

theorem ambiguous_iff : ∀ t : Tree, t.Ambiguous ↔ ¬ t.Unambiguous := by
  intro t
  induction t with
  | num c => simp [Tree.Ambiguous, Tree.Unambiguous]
  | var n x => simp [Tree.Ambiguous, Tree.Unambiguous]
  | group t x ih =>
    simp only [Tree.Ambiguous, Tree.Unambiguous, ih, firstError_none_iff]; tauto
  | bin o a b iha ihb => simp only [Tree.Ambiguous, Tree.Unambiguous, iha, ihb]; tauto

/-- **C24.** For every written expression (any nesting, any number of operands, separated by
`*`, `/` or blanks): with strict operator order it is rejected, with `RatioError` or
`ProductError`, iff at some nesting level a division is immediately followed by a division or a
multiplication sign; otherwise the result is the same as when the order is ignored.  With the
order ignored it is always accepted, and evaluated from left to right: see
`c71_parse_meaning_partial`. -/
theorem c24_operator_order (t : Tree) (hok : t.Ok) (he : t.Exact 1) :
    ((Clash t.seps ∨ t.Ambiguous) → ∃ e, parse true t.render = .error e
      ∧ (e = .named "RatioError" ∨ e = .named "ProductError"))
    ∧ (¬ (Clash t.seps ∨ t.Ambiguous) → parse true t.render = parse false t.render)
    ∧ ∃ ts, parse false t.render = .ok ts := by
  have hne := Tree.render_ne_nil hok
  have hmk : mkOperand 1 t.render 1 = ⟨1, t.render, 1⟩ := by simp [mkOperand, orOne, hne]
  have hg := resolve_group_strict t 1 1 (t.render.length + 1) hok one_ne_zero he
  obtain ⟨i1, i2⟩ := resolve_parts_strict t 1 (t.render.length + 1) hok one_ne_zero he (by omega)
  have hparse : parse true t.render = resolve true (t.render.length + 2) ⟨1, t.render, 1⟩ := by
    unfold parse; rw [hmk]
  refine ⟨?_, ?_, ⟨_, parse_render t hok he⟩⟩
  · intro h
    rw [hparse, hg]
    cases hf : firstError t.seps with
    | some e => exact ⟨e, rfl, firstError_orderError _ _ hf⟩
    | none =>
      have hnc := (firstError_none_iff _).1 hf
      have ha : t.Ambiguous := h.resolve_left hnc
      obtain ⟨e, h1, h2⟩ := i2 ((ambiguous_iff t).1 ha)
      exact ⟨e, by simp [h1, bind, Except.bind], h2⟩
  · intro h
    have hnc : ¬ Clash t.seps := fun h' => h (Or.inl h')
    have hu : t.Unambiguous := by
      by_contra hu
      exact h (Or.inr ((ambiguous_iff t).2 hu))
    obtain ⟨ls, h1, h2⟩ := i1 hu
    rw [hparse, hg, (firstError_none_iff _).2 hnc, parse_render t hok he]
    simp [h1, bind, Except.bind, pure, Except.pure, h2, mkOperand, orOne, one]

/-- Which of the two errors: that of the first offending pair of the outermost level. -/
theorem c24_which_error (t : Tree) (hok : t.Ok) (he : t.Exact 1) (l r : List Sep) (o : Sep)
    (hs : t.seps = l ++ .slash :: o :: r) (hl : ¬ Clash (l ++ [.slash])) (ho : o ≠ .blank) :
    parse true t.render = .error (.named (if o = .slash then "RatioError" else "ProductError")) := by
  have hne := Tree.render_ne_nil hok
  have hmk : mkOperand 1 t.render 1 = ⟨1, t.render, 1⟩ := by simp [mkOperand, orOne, hne]
  have hg := resolve_group_strict t 1 1 (t.render.length + 1) hok one_ne_zero he
  have hf : firstError t.seps = pairError .slash o := by
    rw [hs]
    clear hs hg hmk hne
    induction l with
    | nil =>
      simp only [List.nil_append, firstError]
      cases o <;> simp [pairError] at ho ⊢
    | cons a l ih =>
      have hl' : ¬ Clash (l ++ [.slash]) := by
        rintro ⟨i, h1, h2⟩
        exact hl ⟨i + 1, by simpa using h1, by simpa using h2⟩
      have := ih hl'
      cases l with
      | nil =>
        simp only [List.cons_append, List.nil_append, firstError] at this ⊢
        have hn := (firstError_none_iff _).2 hl
        simp only [List.cons_append, List.nil_append, firstError, Option.or_eq_none_iff] at hn
        rw [hn.1]; simpa using this
      | cons b l =>
        simp only [List.cons_append, firstError] at this ⊢
        have hn := (firstError_none_iff _).2 hl
        simp only [List.cons_append, firstError, Option.or_eq_none_iff] at hn
        rw [hn.1]; simpa using this
  unfold parse
  rw [hmk, hg, hf]
  cases o <;> simp [pairError] at ho ⊢

/-- Separating by a blank resets the check: `a / b c * d` is accepted. -/
theorem c24_blank_resets : parse true "a / b c * d".toList = parse false "a / b c * d".toList
    ∧ parse true "a / b * c".toList = .error (.named "ProductError")
    ∧ parse true "(a / b) / (c / d / e)".toList = .error (.named "RatioError") := by decide +kernel

/-! ## C25: brackets -/

/-- The region closes its first bracket exactly at its end. -/
def MatchedRegion (r : List Char) : Prop :=
  depth r = 0 ∧ ∀ p q, r = p ++ q → p ≠ [] → q ≠ [] → 0 < depth p

/-- **C25.** Let `pre` be the text before the first opening bracket, without brackets. The bounds
are those of the matched region that starts with that bracket, and there are none iff no such
region exists; without an opening bracket there are none. -/
theorem c25_find_bounds (pre t : List Char) (hpre : ∀ c ∈ pre, c ≠ '(' ∧ c ≠ ')') :
    (∀ i e, findBounds (pre ++ '(' :: t) = some (i, e) ↔
      i = pre.length ∧ ∃ r rest, '(' :: t = r ++ rest ∧ e = pre.length + r.length ∧ r ≠ []
        ∧ MatchedRegion r)
    ∧ (findBounds (pre ++ '(' :: t) = none ↔
      ∀ r rest, '(' :: t = r ++ rest → r ≠ [] → 0 < depth r) := by
  have hstart : findBounds (pre ++ '(' :: t)
      = boundsLoop (pre.length + 1) (some pre.length) 1 t := by
    unfold findBounds
    rw [boundsLoop_before pre hpre]
    conv_lhs => unfold boundsLoop
    simp
  obtain ⟨h1, h2⟩ := boundsLoop_open pre.length t (pre.length + 1) 1 (by omega)
  have hcons : ∀ p, depth ('(' :: p) = 1 + depth p := by intro p; simp [depth]
  rw [hstart]
  constructor
  · intro i e
    rw [h1]
    constructor
    · rintro ⟨rfl, r, rest, rfl, rfl, hr, hd, hmin⟩
      refine ⟨rfl, '(' :: r, rest, rfl, by simp; omega, by simp, by rw [hcons]; exact hd, ?_⟩
      intro p q hpq hp hq
      obtain ⟨c, p, rfl⟩ := List.exists_cons_of_ne_nil hp
      simp only [List.cons_append, List.cons.injEq] at hpq
      obtain ⟨rfl, hpq⟩ := hpq
      rw [hcons]; exact hmin p q hpq hq
    · rintro ⟨rfl, r, rest, hr, rfl, hne, hd, hmin⟩
      obtain ⟨c, r, rfl⟩ := List.exists_cons_of_ne_nil hne
      simp only [List.cons_append, List.cons.injEq] at hr
      obtain ⟨rfl, hr⟩ := hr
      rw [hcons] at hd
      refine ⟨rfl, r, rest, hr, by simp; omega, ?_, hd, ?_⟩
      · rintro rfl; simp [depth] at hd
      · intro p q hpq hq
        rw [← hcons]
        exact hmin ('(' :: p) q (by rw [hpq]; rfl) (by simp) hq
  · rw [h2]
    constructor
    · intro h r rest hr hne
      obtain ⟨c, r, rfl⟩ := List.exists_cons_of_ne_nil hne
      simp only [List.cons_append, List.cons.injEq] at hr
      obtain ⟨rfl, hr⟩ := hr
      rw [hcons]; exact h r rest hr
    · intro h r rest hr
      rw [← hcons]
      exact h ('(' :: r) rest (by rw [hr]; rfl) (by simp)

/-- A string without an opening bracket has no bounds. -/
theorem c25_no_bracket (s : List Char) (h : ∀ c ∈ s, c ≠ '(') : findBounds s = none :=
  boundsLoop_none s 0 0 h

/-- When a closing bracket precedes the first opening one (outside the quantifier of C25) the
bounds are wrong. -/
theorem c25_closing_first_counterexample : findBounds ")(a)".toList = some (1, 2) := by
  decide +kernel

example : findBounds "x (a (b) c) (d)".toList = some (2, 11) ∧ findBounds "(a (b)".toList = none := by
  decide +kernel

/-! ## C26: rational exponents -/

/-- **C26 (counterexample).** Only the first digit of the denominator is read; the remaining digits
become a factor. -/
theorem c26_exponent_counterexample :
    parse false "a^1/12".toList = .ok [⟨1, ['a'], 1⟩, ⟨2, one, 1⟩, ⟨1, one, 1⟩]
    ∧ ofString "a^1/12 b".toList = .ok [⟨2, one, 1⟩, ⟨1, ['a'], 1⟩, ⟨1, ['b'], 1⟩] := by
  decide +kernel

/-- **C26 (partial).** An exponent with any numerator and a one-digit denominator is read in full,
whatever precedes (`l`) and follows (`r`) in the expression. (The exponent 1 is not written when an
expression is formatted.) -/
theorem c26_exponent_partial (n : Name) (x : Rat) (hn : ValidName n) (hx : x ≠ 0) (h1 : x ≠ 1)
    (hd : x.den < 10) (l : Tree) (hl : l.Ok) (he : l.Exact 1) (r : Tree) (hr : r.Ok) (hra : r.IsAtom)
    (hre : r.Exact 1) :
    ∃ ts us, parse false (l.render ++ " * ".toList ++ (n ++ '^' :: ratStr x) ++ " * ".toList
      ++ r.render) = .ok (ts ++ ⟨1, n, x⟩ :: us) := by
  let t : Tree := .bin .star (.bin .star l (.var n x)) r
  have ht : t.Ok := ⟨⟨hl, ⟨hn, hx, hd⟩, trivial⟩, hr, hra⟩
  have := parse_render t ht ⟨⟨he, trivial⟩, hre⟩
  refine ⟨termsOf l 1, termsOf r 1 ++ [⟨1, one, 1⟩], ?_⟩
  simpa [t, Tree.render, termsOf, Sep.sign, Sep.str, powStr, h1] using this

example : parse false "a * b^-13/4 * c".toList
    = .ok [⟨1, ['a'], 1⟩, ⟨1, ['b'], -13/4⟩, ⟨1, ['c'], 1⟩, ⟨1, one, 1⟩]
    ∧ parse false "b^1 c".toList = .ok [⟨1, ['b'], 1⟩, ⟨1, ['c'], 1⟩, ⟨1, one, 1⟩] := by
  decide +kernel

/-! ## C71: meaning of written expressions -/

/-- **C71.** For every expression written with numbers, names, exponents, brackets, `*`, `/` and
blanks, parsing succeeds and the value of the resulting terms is the conventional value, with
operations associating to the left, under every assignment of positive reals. -/
theorem c71_parse_meaning_partial (t : Tree) (hok : t.Ok) (he : t.Exact 1) (hpos : t.Positive) :
    ∃ ts r, parse false t.render = .ok ts ∧ ofString t.render = .ok r ∧ IsExpr r
      ∧ ∀ v, value v ts = t.denote v ∧ value v r = t.denote v := by
  have hp := parse_render t hok he
  have hw : ∀ u ∈ termsOf t 1 ++ [⟨1, one, 1⟩], WF u := by
    intro u hu
    rcases List.mem_append.1 hu with h | h
    · exact wf_termsOf t 1 hok one_ne_zero u h
    · simp at h; subst h; exact ⟨by simp, by simp, by simp [one]⟩
  have hne : termsOf t 1 ++ [⟨1, one, 1⟩] ≠ [] := by simp
  obtain ⟨r, hr⟩ := reduce_ok hne hw
  have hval : ∀ v, value v (termsOf t 1 ++ [⟨1, one, 1⟩]) = t.denote v := by
    intro v
    rw [value_append, value_termsOf v t 1 hpos he]
    simp [value_cons, value_nil, value_const]
  refine ⟨_, r, hp, ?_, ⟨_, hne, hw, hr⟩, fun v => ⟨hval v, ?_⟩⟩
  · unfold ofString
    rw [if_neg (Tree.render_ne_nil hok), hp]
    exact hr
  · rw [c18_reduce_value _ r hne hw hr v, hval v]

example : (Tree.bin .slash (.num 3) (.group (.bin .slash (.var ['a'] 1) (.var ['b'] 2)) (-2))).render
    = "3 / (a / b^2)^-2".toList := by decide +kernel

end Verif.Symbolic
