import Verif.Systems.Model

/-!
# Lemmas on norms of units
-/

set_option linter.unusedSimpArgs false

namespace Verif.Systems

open Verif.Py Verif.Symbolic Verif.Metric

/-! ## Lists of results -/

theorem mapM_ok {α β : Type _} {f : α → Res β} {g : α → β} :
    ∀ {l : List α}, (∀ a ∈ l, f a = .ok (g a)) → l.mapM f = .ok (l.map g) := by
  intro l
  induction l with
  | nil => intro _; rfl
  | cons a l ih =>
    intro h
    rw [List.mapM_cons, h a (by simp), ih (fun b hb => h b (List.mem_cons_of_mem _ hb))]
    rfl

/-! ## Expressions made of a list of expressions -/

/-- Operands separated by ` * `. -/
def starChain : Tree → List Tree → Tree
  | acc, [] => acc
  | acc, t :: ts => starChain (.bin .star acc t) ts

theorem starChain_ok : ∀ (ts : List Tree) (acc : Tree), acc.Ok → (∀ t ∈ ts, t.Ok ∧ t.IsAtom) →
    (starChain acc ts).Ok := by
  intro ts
  induction ts with
  | nil => intro acc h _; exact h
  | cons t ts ih =>
    intro acc h ht
    exact ih _ ⟨h, ht t (by simp)⟩ (fun u hu => ht u (List.mem_cons_of_mem _ hu))

theorem starChain_exact : ∀ (ts : List Tree) (acc : Tree), acc.Exact 1 → (∀ t ∈ ts, t.Exact 1) →
    (starChain acc ts).Exact 1 := by
  intro ts
  induction ts with
  | nil => intro acc h _; exact h
  | cons t ts ih =>
    intro acc h ht
    exact ih _ ⟨h, ht t (by simp)⟩ (fun u hu => ht u (List.mem_cons_of_mem _ hu))

theorem starChain_terms : ∀ (ts : List Tree) (acc : Tree), termsOf (starChain acc ts) 1
    = termsOf acc 1 ++ (ts.map (fun t => termsOf t 1)).flatten := by
  intro ts
  induction ts with
  | nil => intro acc; simp [starChain]
  | cons t ts ih => intro acc; simp [starChain, ih, termsOf, Sep.sign]

theorem starChain_render : ∀ (ts : List Tree) (acc : Tree),
    (starChain acc ts).render = join c!" * " (acc.render :: ts.map Tree.render) := by
  intro ts
  induction ts with
  | nil => intro acc; simp [starChain, join]
  | cons t ts ih =>
    intro acc
    rw [starChain, ih]
    simp only [Tree.render, List.map_cons, join, Sep.str]
    cases ts with
    | nil => simp [join]
    | cons u us => simp [join]

/-- The tree of an expression in parentheses. -/
def exprTree : List Term → Tree
  | [] => .group (.num 1) 1
  | t :: ts => .group (chain .blank termTree (termTree t) ts) 1

theorem flatten_termTrees : ∀ {ts : List Term}, (∀ t ∈ ts, PrintableTerm t) →
    (ts.map (fun t => termsOf (termTree t) 1)).flatten = ts := by
  intro ts
  induction ts with
  | nil => intro _; rfl
  | cons u us ih =>
    intro h
    simp only [List.map_cons, List.flatten_cons, termTree_terms (h u (by simp))]
    rw [ih (fun u hu => h u (List.mem_cons_of_mem _ hu))]
    rfl

theorem exprTree_spec {ts : List Term} (hne : ts ≠ []) (h : ∀ t ∈ ts, PrintableTerm t) :
    (exprTree ts).Ok ∧ (exprTree ts).IsAtom ∧ (exprTree ts).Exact 1
      ∧ (exprTree ts).render = c!"(" ++ exprStr ts ++ c!")"
      ∧ termsOf (exprTree ts) 1 = ts ++ [⟨1, one, 1⟩] := by
  obtain ⟨t, ts, rfl⟩ := List.exists_cons_of_ne_nil hne
  have ht := h t (by simp)
  have hts : ∀ u ∈ ts, PrintableTerm u := fun u hu => h u (List.mem_cons_of_mem _ hu)
  refine ⟨⟨chain_ok _ _ (fun t h => termTree_ok h) ts _ (termTree_ok ht).1 hts, one_ne_zero, by decide⟩,
    trivial, ?_, ?_, ?_⟩
  · have := chain_exact .blank (fun _ => rfl) _ termTree_exact ts _ (termTree_exact t)
    simpa [exprTree, Tree.Exact] using this
  · rw [exprTree, Tree.render, chain_render .blank termTree termStr ts _ (fun u hu => termTree_render (hts u hu)),
      termTree_render ht]
    simp [powStr, exprStr, Sep.str]
  · rw [exprTree, termsOf, mul_one, chain_terms _ (fun _ => rfl), termTree_terms ht, flatten_termTrees hts]
    rfl

theorem totalExp_flatten (x : Name) : ∀ es : List (List Term),
    totalExp es.flatten x = (es.map (fun e => totalExp e x)).sum := by
  intro es
  induction es with
  | nil => rfl
  | cons e es ih => rw [List.flatten_cons, totalExp_append, ih]; rfl

theorem totalCoef_flatten : ∀ es : List (List Term), (∀ e ∈ es, totalCoef e = 1) → totalCoef es.flatten = 1 := by
  intro es
  induction es with
  | nil => intro _; rfl
  | cons e es ih =>
    intro h
    rw [List.flatten_cons, totalCoef_append, h e (by simp), ih (fun e he => h e (List.mem_cons_of_mem _ he)), mul_one]

theorem _root_.Verif.Symbolic.UnitLike.terms {e : List Term} (h : UnitLike e) : e ≠ [] ∧ (∀ t ∈ e, WF t) ∧ ∀ t ∈ e, PrintableTerm t :=
  ⟨(isExpr_wf h.1).1, (isExpr_wf h.1).2, printableTerm_of h.1 h.printable⟩

theorem sum_den {l : List Rat} (h : ∀ x ∈ l, x.den = 1) : l.sum.den = 1 := by
  induction l with
  | nil => rfl
  | cons a l ih =>
    rw [List.sum_cons]
    exact den_add (h a (by simp)) (ih (fun x hx => h x (List.mem_cons_of_mem _ hx)))

theorem sum_ne_zero {l : List Rat} (h : l.sum ≠ 0) : ∃ x ∈ l, x ≠ 0 := by
  by_contra hno
  push Not at hno
  exact h (List.sum_eq_zero hno)

/-- The product of expressions like those of units, given as a list: it is of the same kind, and exponents add. -/
theorem ofString_standardExprs {es : List (List Term)} (hne : es ≠ []) (h : ∀ e ∈ es, UnitLike e) :
    ∃ r, ofString (standardExprs es) = .ok r ∧ UnitLike r
      ∧ ∀ x, x ≠ one → totalExp r x = (es.map (fun e => totalExp e x)).sum := by
  obtain ⟨e, es, rfl⟩ := List.exists_cons_of_ne_nil hne
  have he := exprTree_spec (h e (by simp)).terms.1 (h e (by simp)).terms.2.2
  have hes : ∀ f ∈ es, UnitLike f := fun f hf => h f (List.mem_cons_of_mem _ hf)
  have hr : standardExprs (e :: es) = (starChain (exprTree e) (es.map exprTree)).render := by
    rw [starChain_render, he.2.2.2.1, standardExprs, List.map_cons, List.map_map]
    congr 2
    exact List.map_congr_left (fun f hf =>
      ((exprTree_spec (hes f hf).terms.1 (hes f hf).terms.2.2).2.2.2.1).symm)
  have hok : (starChain (exprTree e) (es.map exprTree)).Ok := by
    apply starChain_ok _ _ he.1
    intro t ht
    obtain ⟨f, hf, rfl⟩ := List.mem_map.1 ht
    have := exprTree_spec (hes f hf).terms.1 (hes f hf).terms.2.2
    exact ⟨this.1, this.2.1⟩
  have hex : (starChain (exprTree e) (es.map exprTree)).Exact 1 := by
    apply starChain_exact _ _ he.2.2.1
    intro t ht
    obtain ⟨f, hf, rfl⟩ := List.mem_map.1 ht
    exact (exprTree_spec (hes f hf).terms.1 (hes f hf).terms.2.2).2.2.1
  have hts : termsOf (starChain (exprTree e) (es.map exprTree)) 1
      = ((e :: es).map (fun f => f ++ [⟨1, one, 1⟩])).flatten := by
    rw [starChain_terms, he.2.2.2.2, List.map_cons, List.flatten_cons, List.map_map]
    congr 2
    exact List.map_congr_left (fun f hf => (exprTree_spec (hes f hf).terms.1 (hes f hf).terms.2.2).2.2.2.2)
  have hw1 : WF (⟨1, one, 1⟩ : Term) := ⟨one_ne_zero, one_ne_zero, by simp [one]⟩
  let all : List Term := ((e :: es).map (fun f => f ++ [(⟨1, one, 1⟩ : Term)])).flatten ++ [⟨1, one, 1⟩]
  have hall : ∀ t ∈ all, WF t := by
    intro t ht
    rcases List.mem_append.1 ht with ht | ht
    · obtain ⟨l, hl, ht⟩ := List.mem_flatten.1 ht
      obtain ⟨f, hf, rfl⟩ := List.mem_map.1 hl
      rcases List.mem_append.1 ht with ht | ht
      · exact (h f hf).terms.2.1 t ht
      · rw [List.mem_singleton.1 ht]; exact hw1
    · rw [List.mem_singleton.1 ht]; exact hw1
  have hnil : all ≠ [] := by simp [all]
  obtain ⟨r, hred⟩ := reduce_ok hnil hall
  obtain ⟨h1, h2, h3⟩ := reduce_totals hnil hall hred
  have hcoef : totalCoef all = 1 := by
    rw [totalCoef_append, totalCoef_flatten]
    · simp [totalCoef]
    · intro f hf
      obtain ⟨g, hg, rfl⟩ := List.mem_map.1 hf
      rw [totalCoef_append, (h g hg).totals.1]; simp [totalCoef]
  have hexp : ∀ x, x ≠ one → totalExp all x = ((e :: es).map (fun f => totalExp f x)).sum := by
    intro x hx
    have h0 : totalExp [(⟨1, one, 1⟩ : Term)] x = 0 := by rw [totalExp_cons, if_neg (Ne.symm hx)]; simp
    rw [totalExp_append, h0, add_zero, totalExp_flatten, List.map_map]
    congr 1
    apply List.map_congr_left
    intro f _
    show totalExp (f ++ _) x = _
    rw [totalExp_append, h0, add_zero]
  refine ⟨r, ?_, ?_, fun x hx => by rw [h3 x hx, hexp x hx]⟩
  · unfold ofString
    have hnn : standardExprs (e :: es) ≠ [] := by
      rw [hr]; exact Tree.render_ne_nil hok
    rw [if_neg hnn, hr, parse_render _ hok hex, hts]
    exact hred
  · refine (unitLike_iff h1).2 ⟨by rw [h2, hcoef], ?_⟩
    intro x hx hnz
    rw [h3 x hx, hexp x hx] at hnz ⊢
    obtain ⟨y, hy, hy0⟩ := sum_ne_zero hnz
    obtain ⟨f, hf, rfl⟩ := List.mem_map.1 hy
    refine ⟨((h f hf).totals.2 x hx).2 hy0, sum_den ?_⟩
    intro y hy
    obtain ⟨f, hf, rfl⟩ := List.mem_map.1 hy
    exact ((h f hf).totals.2 x hx).1

/-! ## Powers -/

theorem exprPow_unitLike {a : List Term} (ha : UnitLike a) {p : Rat} (hp0 : p ≠ 0) (hp : p.den = 1)
    (hs : ∀ t ∈ a, |t.exp * p| ≤ 2 ^ 53) :
    ∃ r, exprPow a p = .ok r ∧ UnitLike r ∧ ∀ x, x ≠ one → totalExp r x = totalExp a x * p := by
  obtain ⟨n, rfl⟩ := (den_one_iff p).1 hp
  obtain ⟨r, h1, h2, h3, h4⟩ := exprPow_spec ha.1 hp0 (Or.inl hp)
    (ha.floatPow (by rintro rfl; exact hp0 rfl) hs)
  rw [ha.totals.1, ratPow_one] at h2
  have hu := unitLike_pow ha n h1 h2 h3
  exact ⟨r, h4 hu.printable, hu, h3⟩

/-! ## Norms, for arbitrary tables -/

/-- The total exponent of a quantity in a unit; `qn` gives the name of the quantity of a base. -/
def quantityExp (qn : Name → Name) (u : List Term) (x : Name) : Rat :=
  totalExp (u.map (fun t => (⟨1, qn t.base, t.exp⟩ : Term))) x

theorem unitQuantity_spec (b : Book) (qn : Name → Name) {u : List Term} (hu : u ≠ [])
    (hexp : ∀ t ∈ u, t.exp ≠ 0 ∧ t.exp.den = 1)
    (hid : ∀ t ∈ u, ∃ n, b.ident t.base = .ok n ∧ quantityName n = qn t.base)
    (hv : ∀ t ∈ u, ValidName (qn t.base)) :
    ∃ q, unitQuantity b u = .ok q ∧ UnitLike q ∧ ∀ x, x ≠ one → totalExp q x = quantityExp qn u x := by
  have hterm : ∀ t ∈ u, quantityTerm b t = .ok ⟨1, qn t.base, t.exp⟩ := by
    intro t ht
    obtain ⟨n, h1, h2⟩ := hid t ht
    have hne := (hv t ht).ne_nil
    have hm : mkOperand 1 (qn t.base) 1 = ⟨1, qn t.base, 1⟩ := by simp [mkOperand, orOne, hne]
    unfold quantityTerm
    rw [h1]
    show (mkOperand 1 (quantityName n) 1).pow t.exp = _
    rw [h2, hm]
    have := operand_pow (c := 1) (e := 1) (p := t.exp) (b := qn t.base) (powCoef_one_base _) one_ne_zero
      (by rw [one_mul]; exact (hexp t ht).1) hne
    rw [this, one_mul]
  have hm : u.mapM (quantityTerm b) = .ok (u.map (fun t => (⟨1, qn t.base, t.exp⟩ : Term))) := mapM_ok hterm
  let ts : List Term := u.map (fun t => (⟨1, qn t.base, t.exp⟩ : Term))
  have hne : ts ≠ [] := by simp [ts, hu]
  have hpr : ∀ t ∈ ts, PrintableTerm t := by
    intro t ht
    obtain ⟨s, hs, rfl⟩ := List.mem_map.1 ht
    exact Or.inr ⟨rfl, hv s hs, (hexp s hs).1, by show s.exp.den < 10; rw [(hexp s hs).2]; decide⟩
  have hw1 : WF (⟨1, one, 1⟩ : Term) := ⟨one_ne_zero, one_ne_zero, by simp [one]⟩
  let all : List Term := (ts.map (fun t => [t, (⟨1, one, 1⟩ : Term)])).flatten ++ [⟨1, one, 1⟩]
  have hall : ∀ t ∈ all, WF t := by
    intro t ht
    rcases List.mem_append.1 ht with ht | ht
    · obtain ⟨l, hl, ht⟩ := List.mem_flatten.1 ht
      obtain ⟨f, hf, rfl⟩ := List.mem_map.1 hl
      obtain ⟨s, hs, rfl⟩ := List.mem_map.1 hf
      rcases List.mem_cons.1 ht with rfl | ht
      · exact ⟨one_ne_zero, (hexp s hs).1, (hv s hs).ne_nil⟩
      · rw [List.mem_singleton.1 ht]; exact hw1
    · rw [List.mem_singleton.1 ht]; exact hw1
  have hnil : all ≠ [] := by simp [all]
  obtain ⟨r, hred⟩ := reduce_ok hnil hall
  obtain ⟨h1, h2, h3⟩ := reduce_totals hnil hall hred
  have hexp' : ∀ x, x ≠ one → totalExp all x = totalExp ts x := by
    intro x hx
    rw [totalExp_append, (padded_totals ts).2 x hx, totalExp_cons, if_neg (Ne.symm hx)]; simp
  refine ⟨r, ?_, ?_, fun x hx => by rw [h3 x hx, hexp' x hx]; rfl⟩
  · unfold unitQuantity
    rw [hm]
    show ofTerms ts = _
    unfold ofTerms ofString
    rw [if_neg hne, if_neg (standardStr_ne_nil hne), parse_standardStr hne hpr]
    exact hred
  · refine (unitLike_iff h1).2 ⟨?_, ?_⟩
    · rw [h2, totalCoef_append, (padded_totals ts).1, totalCoef_all_one]
      · simp [totalCoef]
      · intro t ht
        obtain ⟨s, _, rfl⟩ := List.mem_map.1 ht
        rfl
    · intro x hx hnz
      rw [h3 x hx, hexp' x hx] at hnz ⊢
      obtain ⟨t, ht, hb⟩ := totalExp_ne_zero_mem hnz
      obtain ⟨s, hs, rfl⟩ := List.mem_map.1 ht
      refine ⟨hb ▸ hv s hs, totalExp_int ?_⟩
      intro t ht _
      obtain ⟨s, hs, rfl⟩ := List.mem_map.1 ht
      exact (hexp s hs).2

/-- A unit-like expression that is not trivial has no constant term. -/
theorem _root_.Verif.Symbolic.UnitLike.no_one {q : List Term} (h : UnitLike q) (hnc : ∃ x, x ≠ one ∧ totalExp q x ≠ 0) :
    ∀ t ∈ q, t.base ≠ one ∧ totalExp q t.base = t.exp := by
  obtain ⟨c, vars, rfl, hc0, hv⟩ := isExpr_assemble h.1
  have h1 := h.totals.1
  rw [totalCoef_assemble hv] at h1
  subst h1
  obtain ⟨x, hx, hne⟩ := hnc
  have hvars : vars ≠ [] := by
    intro h0
    subst h0
    rw [totalExp_assemble hx] at hne
    exact hne rfl
  intro t ht
  have ht' : t ∈ vars := by simpa [assemble, hvars] using ht
  obtain ⟨g1, g2, g3, g4⟩ := hv.1 t ht'
  exact ⟨g2, by rw [totalExp_assemble g2]; exact totalExp_of_mem hv.2.1 ht'⟩

theorem normIn_spec (get : Str → Res (PerSystem Str)) (s : System) (canon : Name → List Term) {q : List Term}
    (hq : UnitLike q)
    (hc : ∀ t ∈ q, ∃ v, get t.base = .ok v ∧ ofString (v.get s) = .ok (canon t.base) ∧ UnitLike (canon t.base))
    (hint : ∀ t ∈ q, t.exp.den = 1) (hb : ∀ t ∈ q, |t.exp| ≤ 2 ^ 48)
    (hs : ∀ t ∈ q, ∀ c ∈ canon t.base, |c.exp| ≤ 16) :
    ∃ r, normIn get q s = .ok r ∧ UnitLike r
      ∧ ∀ x, x ≠ one → totalExp r x = (q.map (fun t => t.exp * totalExp (canon t.base) x)).sum := by
  have hp : ∀ t ∈ q, ∃ r, normTerm get s t = .ok r ∧ UnitLike r
      ∧ ∀ x, x ≠ one → totalExp r x = totalExp (canon t.base) x * t.exp := by
    intro t ht
    obtain ⟨v, h1, h2, h3⟩ := hc t ht
    obtain ⟨r, g1, g2, g3⟩ := exprPow_unitLike h3 (hq.terms.2.1 t ht).2.1 (hint t ht) (by
      intro c hc
      rw [abs_mul]
      calc |c.exp| * |t.exp| ≤ 16 * 2 ^ 48 :=
            mul_le_mul (hs t ht c hc) (hb t ht) (abs_nonneg _) (by norm_num)
        _ ≤ 2 ^ 53 := by norm_num)
    refine ⟨r, ?_, g2, g3⟩
    unfold normTerm
    rw [h1]
    show (do exprPow (← ofString (v.get s)) t.exp) = _
    rw [h2]
    exact g1
  classical
  let g : Term → List Term := fun t => if h : t ∈ q then (hp t h).choose else []
  have hg : ∀ t (h : t ∈ q), g t = (hp t h).choose := fun t h => by simp [g, h]
  have hm : q.mapM (normTerm get s) = .ok (q.map g) :=
    mapM_ok (fun t ht => by rw [hg t ht]; exact (hp t ht).choose_spec.1)
  obtain ⟨r, h1, h2, h3⟩ := ofString_standardExprs (es := q.map g) (by simp [hq.terms.1]) (by
    intro e he
    obtain ⟨t, ht, rfl⟩ := List.mem_map.1 he
    rw [hg t ht]; exact (hp t ht).choose_spec.2.1)
  refine ⟨r, ?_, h2, ?_⟩
  · unfold normIn
    rw [hm]
    exact h1
  · intro x hx
    rw [h3 x hx, List.map_map]
    congr 1
    apply List.map_congr_left
    intro t ht
    show totalExp (g t) x = _
    rw [hg t ht, (hp t ht).choose_spec.2.2 x hx, mul_comm]

theorem sum_quantityExp (qn : Name → Name) (f : Name → Rat) {u q : List Term}
    (h : ∀ x, x ≠ one → totalExp q x = quantityExp qn u x) (h1 : ∀ t ∈ q, t.base ≠ one)
    (h2 : ∀ t ∈ u, qn t.base ≠ one) :
    (q.map (fun t => t.exp * f t.base)).sum = (u.map (fun t => t.exp * f (qn t.base))).sum := by
  let v : List Term := u.map (fun t => (⟨1, qn t.base, t.exp⟩ : Term))
  let F : Finset Name := ((q ++ v).map (·.base)).toFinset
  have hF : ∀ t ∈ q ++ v, t.base ∈ F := fun t ht => List.mem_toFinset.2 (List.mem_map_of_mem ht)
  have hv : (u.map (fun t => t.exp * f (qn t.base))).sum = (v.map (fun t => t.exp * f t.base)).sum := by
    rw [List.map_map]; rfl
  rw [hv, sum_terms f F q (fun t ht => hF t (by simp [ht])), sum_terms f F v (fun t ht => hF t (by simp [ht]))]
  apply Finset.sum_congr rfl
  intro x hx
  have hx1 : x ≠ one := by
    obtain ⟨t, ht, rfl⟩ := List.mem_map.1 (List.mem_toFinset.1 hx)
    rcases List.mem_append.1 ht with ht | ht
    · exact h1 t ht
    · obtain ⟨w, hw, rfl⟩ := List.mem_map.1 ht
      exact h2 w hw
  rw [h x hx1]
  rfl

/-- Norms for arbitrary tables: unless its quantities cancel, a unit with integer exponents whose bases are known has a
norm, whose exponents are the weighted sums of those in the canonical units. The bounds keep the exponents within the
integers that floats represent. -/
theorem norm_spec (b : Book) (get : Str → Res (PerSystem Str)) (qn : Name → Name) (canon : System → Name → List Term)
    {u : List Term} (hu : u ≠ []) (hexp : ∀ t ∈ u, t.exp ≠ 0 ∧ t.exp.den = 1)
    (hid : ∀ t ∈ u, ∃ n, b.ident t.base = .ok n ∧ quantityName n = qn t.base)
    (hv : ∀ t ∈ u, ValidName (qn t.base))
    (hc : ∀ s, ∀ t ∈ u, ∃ v, get (qn t.base) = .ok v ∧ ofString (v.get s) = .ok (canon s (qn t.base))
      ∧ UnitLike (canon s (qn t.base)))
    (hb : ∀ x, |quantityExp qn u x| ≤ 2 ^ 48) (hs : ∀ s, ∀ t ∈ u, ∀ c ∈ canon s (qn t.base), |c.exp| ≤ 16)
    (hnc : ∃ x, quantityExp qn u x ≠ 0) :
    ∃ n, norm b get u = .ok n ∧ ∀ s, UnitLike (n.get s) ∧ ∀ x, x ≠ one →
      totalExp (n.get s) x = (u.map (fun t => t.exp * totalExp (canon s (qn t.base)) x)).sum := by
  obtain ⟨q, h1, h2, h3⟩ := unitQuantity_spec b qn hu hexp hid hv
  have hone : ∀ t ∈ u, qn t.base ≠ one := fun t ht => (hv t ht).ne_one
  have hq : ∃ x, x ≠ one ∧ totalExp q x ≠ 0 := by
    obtain ⟨x, hx⟩ := hnc
    have : x ≠ one := by
      rintro rfl
      obtain ⟨t, ht, hb⟩ := totalExp_ne_zero_mem hx
      obtain ⟨w, hw, rfl⟩ := List.mem_map.1 ht
      exact hone w hw hb
    exact ⟨x, this, by rw [h3 x this]; exact hx⟩
  have hno := h2.no_one hq
  have hmem : ∀ t ∈ q, ∃ s ∈ u, qn s.base = t.base := by
    intro t ht
    have hne : quantityExp qn u t.base ≠ 0 := by
      rw [← h3 _ (hno t ht).1, (hno t ht).2]
      exact (h2.terms.2.1 t ht).2.1
    obtain ⟨w, hw, hb⟩ := totalExp_ne_zero_mem hne
    obtain ⟨s, hs, rfl⟩ := List.mem_map.1 hw
    exact ⟨s, hs, hb⟩
  have hspec : ∀ s, ∃ r, normIn get q s = .ok r ∧ UnitLike r
      ∧ ∀ x, x ≠ one → totalExp r x = (u.map (fun t => t.exp * totalExp (canon s (qn t.base)) x)).sum := by
    intro s
    obtain ⟨r, r1, r2, r3⟩ := normIn_spec get s (canon s) h2 (by
      intro t ht
      obtain ⟨w, hw, hb⟩ := hmem t ht
      rw [← hb]; exact hc s w hw) (fun t ht => (h2.2.2 t ht (hno t ht).1).2)
      (fun t ht => by rw [← (hno t ht).2, h3 _ (hno t ht).1]; exact hb _) (by
      intro t ht
      obtain ⟨w, hw, hb⟩ := hmem t ht
      rw [← hb]; exact hs s w hw)
    refine ⟨r, r1, r2, fun x hx => ?_⟩
    rw [r3 x hx]
    exact sum_quantityExp qn (fun y => totalExp (canon s y) x) h3 (fun t ht => (hno t ht).1) hone
  obtain ⟨m, m1, m2⟩ := hspec .mks
  obtain ⟨c, c1, c2⟩ := hspec .cgs
  refine ⟨⟨m, c⟩, ?_, ?_⟩
  · unfold norm
    rw [h1]
    show (do return (⟨← normIn get q .mks, ← normIn get q .cgs⟩ : PerSystem (List Term))) = _
    rw [m1, c1]
    rfl
  · rintro (_ | _)
    · exact m2
    · exact c2

/-- A unit whose quantities cancel has the quantity `1`. -/
theorem unitQuantity_cancel (b : Book) (qn : Name → Name) {u : List Term} (hu : u ≠ [])
    (hexp : ∀ t ∈ u, t.exp ≠ 0 ∧ t.exp.den = 1)
    (hid : ∀ t ∈ u, ∃ n, b.ident t.base = .ok n ∧ quantityName n = qn t.base)
    (hv : ∀ t ∈ u, ValidName (qn t.base)) (hc : ∀ x, quantityExp qn u x = 0) :
    unitQuantity b u = .ok [⟨1, one, 1⟩] := by
  obtain ⟨q, h1, h2, h3⟩ := unitQuantity_spec b qn hu hexp hid hv
  rw [h1]
  congr 1
  refine expr_ext h2.1 isExpr_one ?_ ?_
  · rw [h2.totals.1]; simp [totalCoef]
  · intro x hx
    rw [h3 x hx, hc x, totalExp_cons, if_neg (Ne.symm hx)]; simp

end Verif.Systems
