import Verif.Symbolic.RenderParse
import Mathlib.Analysis.SpecialFunctions.Pow.Real

/-!
# Meaning of expressions over the reals: specification and helper lemmas
-/

set_option linter.unusedSimpArgs false
set_option linter.unusedSectionVars false

namespace Verif.Symbolic

open Verif.Py

/-! ## Specification -/

/-- An assignment of positive real values to the bases; the base `'1'` of constants has the
value 1. -/
structure Assignment where
  val : Name → ℝ
  pos : ∀ n, 0 < val n
  one' : val one = 1

/-- The value of a term. -/
noncomputable def termValue (v : Assignment) (t : Term) : ℝ :=
  (t.coef : ℝ) * (v.val t.base) ^ (t.exp : ℝ)

/-- The value of an expression: the product of its terms. -/
noncomputable def value (v : Assignment) (ts : List Term) : ℝ := (ts.map (termValue v)).prod

/-- The conventional meaning of an expression tree. -/
noncomputable def Tree.denote (v : Assignment) : Tree → ℝ
  | .num c => (c : ℝ)
  | .var n x => v.val n ^ (x : ℝ)
  | .group t x => t.denote v ^ (x : ℝ)
  | .bin .slash a b => a.denote v / b.denote v
  | .bin .star a b => a.denote v * b.denote v
  | .bin .blank a b => a.denote v * b.denote v

/-- All numbers in the tree are positive. -/
def Tree.Positive : Tree → Prop
  | .num c => 0 < c
  | .var _ _ => True
  | .group t _ => t.Positive
  | .bin _ a b => a.Positive ∧ b.Positive

/-! ## Values and totals -/

theorem value_nil (v : Assignment) : value v [] = 1 := rfl

theorem value_cons (v : Assignment) (t : Term) (ts : List Term) :
    value v (t :: ts) = termValue v t * value v ts := by simp [value]

theorem value_append (v : Assignment) (a b : List Term) :
    value v (a ++ b) = value v a * value v b := by simp [value]

/-- Assignment of `x` to a single base. -/
noncomputable def single (b : Name) (x : ℝ) (hx : 0 < x) (hb : b ≠ one) : Assignment where
  val n := if n = b then x else 1
  pos n := by split <;> simp [hx]
  one' := by rw [if_neg (Ne.symm hb)]

theorem value_single (b : Name) (x : ℝ) (hx : 0 < x) (hb : b ≠ one) (ts : List Term) :
    value (single b x hx hb) ts = (totalCoef ts : ℝ) * x ^ ((totalExp ts b : Rat) : ℝ) := by
  induction ts with
  | nil => simp [value]
  | cons t ts ih =>
    rw [value_cons, ih, totalCoef_cons, totalExp_cons, termValue]
    simp only [single]
    by_cases h : t.base = b
    · simp only [h, if_true]
      push_cast
      rw [Real.rpow_add hx]
      ring
    · simp only [h, if_false]
      push_cast
      rw [Real.one_rpow, zero_add]
      ring

theorem value_one_eq_totalCoef (ts : List Term) :
    value ⟨fun _ => 1, by simp, rfl⟩ ts = (totalCoef ts : ℝ) := by
  induction ts with
  | nil => simp [value]
  | cons t ts ih =>
    rw [value_cons, ih, totalCoef_cons, termValue]
    simp [Real.one_rpow]

/-- The logarithm of the value without coefficients. -/
noncomputable def logSum (v : Assignment) (ts : List Term) : ℝ :=
  (ts.map (fun t => (t.exp : ℝ) * Real.log (v.val t.base))).sum

theorem value_eq_exp (v : Assignment) (ts : List Term) :
    value v ts = (totalCoef ts : ℝ) * Real.exp (logSum v ts) := by
  induction ts with
  | nil => simp [value, logSum]
  | cons t ts ih =>
    rw [value_cons, ih, totalCoef_cons, termValue, Real.rpow_def_of_pos (v.pos _)]
    simp only [logSum, List.map_cons, List.sum_cons]
    rw [Real.exp_add]
    push_cast
    rw [mul_comm (Real.log _)]
    ring

theorem logSum_eq_sum (v : Assignment) (F : Finset Name) : ∀ ts : List Term,
    (∀ t ∈ ts, t.base ∈ F) →
    logSum v ts = ∑ b ∈ F, ((totalExp ts b : Rat) : ℝ) * Real.log (v.val b) := by
  intro ts
  induction ts with
  | nil => intro _; simp [logSum]
  | cons t ts ih =>
    intro h
    have ht := h t (by simp)
    have := ih (fun t ht => h t (List.mem_cons_of_mem _ ht))
    simp only [logSum, List.map_cons, List.sum_cons] at this ⊢
    rw [this]
    have hsplit : ∀ b ∈ F, ((totalExp (t :: ts) b : Rat) : ℝ) * Real.log (v.val b)
        = (if t.base = b then (t.exp : ℝ) * Real.log (v.val t.base) else 0)
          + ((totalExp ts b : Rat) : ℝ) * Real.log (v.val b) := by
      intro b _
      rw [totalExp_cons]
      by_cases hb : t.base = b
      · subst hb; simp; ring
      · simp [hb]
    rw [Finset.sum_congr rfl hsplit, Finset.sum_add_distrib, Finset.sum_ite_eq, if_pos ht]

/-- The value depends on the totals only. -/
theorem value_congr (v : Assignment) {a b : List Term} (hc : totalCoef a = totalCoef b)
    (he : ∀ x, x ≠ one → totalExp a x = totalExp b x) : value v a = value v b := by
  rw [value_eq_exp, value_eq_exp, hc]
  congr 2
  let F : Finset Name := (a.map (·.base)).toFinset ∪ (b.map (·.base)).toFinset
  rw [logSum_eq_sum v F a (by
      intro t ht; simp only [F, Finset.mem_union, List.mem_toFinset]
      exact Or.inl (List.mem_map.2 ⟨t, ht, rfl⟩)),
    logSum_eq_sum v F b (by
      intro t ht; simp only [F, Finset.mem_union, List.mem_toFinset]
      exact Or.inr (List.mem_map.2 ⟨t, ht, rfl⟩))]
  apply Finset.sum_congr rfl
  intro x _
  by_cases hx : x = one
  · subst hx; rw [v.one', Real.log_one]; simp
  · rw [he x hx]

/-- Expressions with the same value under all assignments have the same totals. -/
theorem totals_of_value {a b : List Term} (hca : totalCoef a ≠ 0)
    (h : ∀ v, value v a = value v b) :
    totalCoef a = totalCoef b ∧ ∀ x, x ≠ one → totalExp a x = totalExp b x := by
  have hc : totalCoef a = totalCoef b := by
    have := h ⟨fun _ => 1, by simp, rfl⟩
    rw [value_one_eq_totalCoef, value_one_eq_totalCoef] at this
    exact_mod_cast this
  refine ⟨hc, ?_⟩
  intro x hx
  have := h (single x 2 (by norm_num) hx)
  rw [value_single, value_single, ← hc] at this
  have hne : ((totalCoef a : Rat) : ℝ) ≠ 0 := by exact_mod_cast hca
  have h2 := mul_left_cancel₀ hne this
  have h3 := (Real.rpow_right_inj (by norm_num : (0:ℝ) < 2) (by norm_num)).1 h2
  exact_mod_cast h3

/-! ## Meaning of the terms read from a tree -/

theorem ratPow_cast {c q : Rat} (hc : 0 < c) (h : c = 1 ∨ q.den = 1) :
    ((ratPow c q : Rat) : ℝ) = (c : ℝ) ^ (q : ℝ) := by
  unfold ratPow
  split
  · next h1 => subst h1; simp
  · next h1 =>
    have hq : q.den = 1 := by tauto
    have : (q : ℝ) = ((q.num : ℤ) : ℝ) := by
      conv_lhs => rw [← Rat.num_div_den q, hq]
      push_cast; simp
    rw [this, Real.rpow_intCast]
    push_cast
    rfl

theorem Tree.denote_pos (v : Assignment) : ∀ t : Tree, t.Positive → 0 < t.denote v := by
  intro t
  induction t with
  | num c => intro h; simp only [Tree.denote]; exact_mod_cast h
  | var n x => intro _; exact Real.rpow_pos_of_pos (v.pos n) _
  | group t x ih => intro h; exact Real.rpow_pos_of_pos (ih h) _
  | bin o a b iha ihb =>
    intro h
    cases o with
    | star => exact mul_pos (iha h.1) (ihb h.2)
    | blank => exact mul_pos (iha h.1) (ihb h.2)
    | slash => exact div_pos (iha h.1) (ihb h.2)

theorem value_const (v : Assignment) (c e : Rat) : termValue v ⟨c, one, e⟩ = (c : ℝ) := by
  simp [termValue, v.one']

theorem value_termsOf (v : Assignment) : ∀ (t : Tree) (q : Rat), t.Positive → t.Exact q →
    value v (termsOf t q) = t.denote v ^ (q : ℝ) := by
  intro t
  induction t with
  | num c =>
    intro q hp he
    simp only [termsOf, value_cons, value_nil, value_const, mul_one, Tree.denote]
    exact ratPow_cast hp he
  | var n x =>
    intro q _ _
    simp only [termsOf, value_cons, value_nil, termValue, Tree.denote, mul_one]
    rw [← Real.rpow_mul (v.pos n).le]
    push_cast
    simp
  | group t x ih =>
    intro q hp he
    simp only [termsOf, value_append, value_cons, value_nil, value_const, Tree.denote]
    rw [ih (x * q) hp he, ← Real.rpow_mul (t.denote_pos v hp).le]
    push_cast
    simp
  | bin o a b iha ihb =>
    intro q hp he
    have pa := a.denote_pos v hp.1
    have pb := b.denote_pos v hp.2
    simp only [termsOf, value_append]
    rw [iha q hp.1 he.1, ihb (o.sign q) hp.2 he.2]
    cases o with
    | star => simp only [Sep.sign, Tree.denote]; rw [Real.mul_rpow pa.le pb.le]
    | blank => simp only [Sep.sign, Tree.denote]; rw [Real.mul_rpow pa.le pb.le]
    | slash =>
      simp only [Sep.sign, Tree.denote]
      rw [Real.div_rpow pa.le pb.le]
      push_cast
      rw [Real.rpow_neg pb.le]
      rfl

theorem wf_termsOf : ∀ (t : Tree) (q : Rat), t.Ok → q ≠ 0 → ∀ u ∈ termsOf t q, WF u := by
  intro t
  induction t with
  | num c =>
    intro q hok hq u hu
    simp [termsOf] at hu; subst hu
    exact ⟨ratPow_ne_zero hok.1.1, hq, by simp [one]⟩
  | var n x =>
    intro q hok hq u hu
    simp [termsOf] at hu; subst hu
    exact ⟨one_ne_zero, mul_ne_zero hok.2.1 hq, hok.1.ne_nil⟩
  | group t x ih =>
    intro q hok hq u hu
    simp only [termsOf, List.mem_append, List.mem_singleton] at hu
    rcases hu with hu | rfl
    · exact ih (x * q) hok.1 (mul_ne_zero hok.2.1 hq) u hu
    · exact ⟨one_ne_zero, one_ne_zero, by simp [one]⟩
  | bin o a b iha ihb =>
    intro q hok hq u hu
    have hsq : o.sign q ≠ 0 := by cases o <;> simpa [Sep.sign] using hq
    rcases List.mem_append.1 hu with hu | hu
    · exact iha q hok.1 hq u hu
    · exact ihb _ hok.2.1 hsq u hu

/-! ## Expressions that survive printing -/

/-- A term of a reduced expression that can be printed and read back. -/
def PrintableTerm (t : Term) : Prop :=
  (t.base = one ∧ t.exp = 1 ∧ WritableNum t.coef) ∨ (t.coef = 1 ∧ ValidName t.base ∧ Writable t.exp)

/-- The tree of a term. -/
def termTree (t : Term) : Tree := if t.base = one then .num t.coef else .var t.base t.exp

theorem termTree_ok {t : Term} (h : PrintableTerm t) : (termTree t).Ok ∧ (termTree t).IsAtom := by
  unfold termTree
  rcases h with ⟨h1, h2, h3⟩ | ⟨h1, h2, h3⟩
  · rw [if_pos h1]; exact ⟨h3, trivial⟩
  · rw [if_neg h2.ne_one]; exact ⟨⟨h2, h3⟩, trivial⟩

theorem termTree_render {t : Term} (h : PrintableTerm t) : (termTree t).render = termStr t := by
  unfold termTree termStr coefStr expStr
  rcases h with ⟨h1, h2, h3⟩ | ⟨h1, h2, h3⟩
  · simp [h1, Tree.render]
  · simp [h2.ne_one, h1, Tree.render, powStr]

theorem termTree_terms {t : Term} (h : PrintableTerm t) : termsOf (termTree t) 1 = [t] := by
  unfold termTree
  obtain ⟨c, b, e⟩ := t
  rcases h with ⟨h1, h2, h3⟩ | ⟨h1, h2, h3⟩
  · simp only at h1 h2; subst h1; subst h2
    simp [termsOf, ratPow]; intro h; exact h.symm
  · simp only at h1; subst h1
    simp [termsOf, h2.ne_one]

theorem termTree_exact (t : Term) : (termTree t).Exact 1 := by
  unfold termTree
  split
  · exact Or.inr rfl
  · trivial

/-- A sequence of operands with the same separator. -/
def chain (o : Sep) (f : Term → Tree) : Tree → List Term → Tree
  | acc, [] => acc
  | acc, t :: ts => chain o f (.bin o acc (f t)) ts

theorem chain_ok (o : Sep) (f : Term → Tree) (hf : ∀ t, PrintableTerm t → (f t).Ok ∧ (f t).IsAtom) :
    ∀ (ts : List Term) (acc : Tree), acc.Ok → (∀ t ∈ ts, PrintableTerm t) → (chain o f acc ts).Ok := by
  intro ts
  induction ts with
  | nil => intro acc h _; exact h
  | cons t ts ih =>
    intro acc h ht
    exact ih _ ⟨h, hf t (ht t (by simp))⟩ (fun t' h' => ht t' (List.mem_cons_of_mem _ h'))

theorem chain_exact (o : Sep) (ho : ∀ q, o.sign q = q) (f : Term → Tree)
    (hf : ∀ t, (f t).Exact 1) :
    ∀ (ts : List Term) (acc : Tree), acc.Exact 1 → (chain o f acc ts).Exact 1 := by
  intro ts
  induction ts with
  | nil => intro acc h; exact h
  | cons t ts ih => intro acc h; exact ih _ ⟨h, by rw [ho]; exact hf t⟩

theorem chain_terms (o : Sep) (ho : ∀ q, o.sign q = q) (f : Term → Tree) :
    ∀ (ts : List Term) (acc : Tree), termsOf (chain o f acc ts) 1
      = termsOf acc 1 ++ (ts.map (fun t => termsOf (f t) 1)).flatten := by
  intro ts
  induction ts with
  | nil => intro acc; simp [chain]
  | cons t ts ih => intro acc; simp [chain, ih, termsOf, ho]

theorem chain_render (o : Sep) (f : Term → Tree) (g : Term → List Char) :
    ∀ (ts : List Term) (acc : Tree), (∀ t ∈ ts, (f t).render = g t) →
      (chain o f acc ts).render = join o.str (acc.render :: ts.map g) := by
  intro ts
  induction ts with
  | nil => intro acc _; simp [chain, join]
  | cons t ts ih =>
    intro acc h
    rw [chain, ih _ (fun t' h' => h t' (List.mem_cons_of_mem _ h'))]
    simp only [Tree.render, List.map_cons, join, h t (by simp)]
    cases ts with
    | nil => simp [join]
    | cons u us => simp [join]

/-- Parsing a printed expression (blanks between the terms). -/
theorem parse_exprStr {ts : List Term} (hne : ts ≠ []) (h : ∀ t ∈ ts, PrintableTerm t) :
    parse false (exprStr ts) = .ok (ts ++ [⟨1, one, 1⟩]) := by
  obtain ⟨t, ts, rfl⟩ := List.exists_cons_of_ne_nil hne
  have ht := h t (by simp)
  have hts : ∀ u ∈ ts, PrintableTerm u := fun u hu => h u (List.mem_cons_of_mem _ hu)
  have hr : exprStr (t :: ts) = (chain .blank termTree (termTree t) ts).render := by
    rw [chain_render .blank termTree termStr ts _ (fun u hu => termTree_render (hts u hu)),
      termTree_render ht]
    rfl
  rw [hr, parse_render _ (chain_ok _ _ (fun t h => termTree_ok h) ts _ (termTree_ok ht).1 hts)
    (chain_exact _ (fun _ => rfl) _ termTree_exact ts _ (termTree_exact t)),
    chain_terms _ (fun _ => rfl), termTree_terms ht]
  have : (ts.map (fun t => termsOf (termTree t) 1)).flatten = ts := by
    clear hne hr h ht
    induction ts with
    | nil => rfl
    | cons u us ih =>
      simp only [List.map_cons, List.flatten_cons, termTree_terms (hts u (by simp))]
      rw [ih (fun u hu => hts u (List.mem_cons_of_mem _ hu))]
      rfl
  rw [this]; rfl

/-- Parsing the standard form of terms (`(…) * (…)`): every term is followed by a constant 1. -/
theorem parse_standardStr {ts : List Term} (hne : ts ≠ []) (h : ∀ t ∈ ts, PrintableTerm t) :
    parse false (standardStr ts)
      = .ok ((ts.map (fun t => [t, ⟨1, one, 1⟩])).flatten ++ [⟨1, one, 1⟩]) := by
  obtain ⟨t, ts, rfl⟩ := List.exists_cons_of_ne_nil hne
  have ht := h t (by simp)
  have hts : ∀ u ∈ ts, PrintableTerm u := fun u hu => h u (List.mem_cons_of_mem _ hu)
  let f : Term → Tree := fun t => .group (termTree t) 1
  have hfr : ∀ u, PrintableTerm u → (f u).render = '(' :: termStr u ++ [')'] := by
    intro u hu
    simp [f, Tree.render, powStr, termTree_render hu]
  have hfo : ∀ u, PrintableTerm u → (f u).Ok ∧ (f u).IsAtom := by
    intro u hu
    exact ⟨⟨(termTree_ok hu).1, one_ne_zero, by decide⟩, trivial⟩
  have hfe : ∀ u, (f u).Exact 1 := by
    intro u
    have := termTree_exact u
    simpa [f, Tree.Exact] using this
  have hft : ∀ u, PrintableTerm u → termsOf (f u) 1 = [u, ⟨1, one, 1⟩] := by
    intro u hu
    simp [f, termsOf, termTree_terms hu]
  have hr : standardStr (t :: ts) = (chain .star f (f t) ts).render := by
    rw [chain_render .star f (fun t => '(' :: termStr t ++ [')']) ts _
      (fun u hu => hfr u (hts u hu)), hfr t ht]
    rfl
  rw [hr, parse_render _ (chain_ok _ _ hfo ts _ (hfo t ht).1 hts)
    (chain_exact _ (fun _ => rfl) _ hfe ts _ (hfe t)),
    chain_terms _ (fun _ => rfl), hft t ht]
  have : (ts.map (fun t => termsOf (f t) 1)) = ts.map (fun t => [t, ⟨1, one, 1⟩]) :=
    List.map_congr_left (fun u hu => hft u (hts u hu))
  rw [this]; rfl

/-- Terms of constants 1 do not matter. -/
theorem reduce_padded {ts us : List Term} (hne : ts ≠ []) (hw : ∀ t ∈ ts, WF t)
    (hw' : ∀ t ∈ us, WF t) (hc : totalCoef us = 1) (he : ∀ x, x ≠ one → totalExp us x = 0) :
    reduce (ts ++ us) = reduce ts := by
  apply reduce_congr
  · simp [hne]
  · exact hne
  · intro t ht
    rcases List.mem_append.1 ht with h | h
    · exact hw t h
    · exact hw' t h
  · exact hw
  · rw [totalCoef_append, hc, mul_one]
  · intro x hx; rw [totalExp_append, he x hx, add_zero]

end Verif.Symbolic
