import Verif.Terms.Lemmas
import Verif.Symbolic.Props

/-!
# Properties of terms and of expressions as collections (C200–C206)
-/

set_option linter.unusedSimpArgs false

namespace Verif.Terms

open Verif.Py Verif.Symbolic

/-! ## C200: creating an operand -/

/-- **C200 (partial).** The operand created from a coefficient, the text of an operand and an
integral exponent is a term whose value is the coefficient times that power of the operand; a
coefficient or exponent that is left out counts as 1. Neither may be zero. -/
theorem c200_create_partial (w : Nest) (hw : w.Ok) (c : Rat) (e : Int) (hc : c ≠ 0) (he : e ≠ 0) :
    (∃ t, create [.num c, .str w.text, .num e] = .ok (.term t)
      ∧ ∀ v, termValue v t = (c : ℝ) * w.denote v ^ e)
    ∧ (∃ t, create [.num c, .str w.text] = .ok (.term t)
      ∧ ∀ v, termValue v t = (c : ℝ) * w.denote v)
    ∧ (∃ t, create [.str w.text, .num e] = .ok (.term t) ∧ ∀ v, termValue v t = w.denote v ^ e)
    ∧ ∃ t, create [.str w.text] = .ok (.term t) ∧ ∀ v, termValue v t = w.denote v := by
  have hne := (nest_ends w hw).1
  have he' : (e : Rat) ≠ 0 := by exact_mod_cast he
  have key := fun c0 (e0 : Int) h1 h2 => createWith_nest w hw w.text.length le_rfl c0 e0 h1 h2
  refine ⟨?_, ?_, ?_, ?_⟩
  · obtain ⟨t, h, _, _, _, hv⟩ := key c e hc he
    exact ⟨t, by simp [create, normalize, coefArg, baseArg, expArg, orOne, hc, he, hne, bind,
      Except.bind, pure, Except.pure, h], hv⟩
  · obtain ⟨t, h, _, _, _, hv⟩ := key c 1 hc one_ne_zero
    refine ⟨t, ?_, fun v => by rw [hv v, zpow_one]⟩
    have h' : createWith (w.text.length + 1) c w.text 1 = .ok (.term t) := by exact_mod_cast h
    simp [create, normalize, baseArg, orOne, hc, hne, bind, Except.bind, pure, Except.pure, h']
  · obtain ⟨t, h, _, _, _, hv⟩ := key 1 e one_ne_zero he
    refine ⟨t, ?_, fun v => by rw [hv v]; simp⟩
    simp [create, normalize, baseArg, expArg, orOne, he, hne, bind, Except.bind, pure, Except.pure, h]
  · obtain ⟨t, h, _, _, _, hv⟩ := key 1 1 one_ne_zero one_ne_zero
    refine ⟨t, ?_, fun v => by rw [hv v]; simp⟩
    have h' : createWith (w.text.length + 1) 1 w.text 1 = .ok (.term t) := by exact_mod_cast h
    simp [create, normalize, baseArg, hne, bind, Except.bind, pure, Except.pure, h']

/-- **C200 (partial), general operands.** A bracketed text that is not a term is kept as it stands:
the operand `c · (k (a)^p)^e` has coefficient `c k^e`, base `a` and exponent `p e`. -/
theorem c200_group_partial (k c : Rat) (a : List Char) (p e : Int) (hk : k ≠ 0)
    (hf : IsDouble k) (hc : c ≠ 0) (hp : p ≠ 0) (he : e ≠ 0) (ha : Balanced a) (hne : a ≠ [])
    (hgroup : ∃ o, createWith (coefText k ++ ('(' :: a ++ ')' :: powStr p)).length 1 a 1
      = .ok (.group o)) :
    create [.num c, .str (coefText k ++ ('(' :: a ++ ')' :: powStr p)), .num e]
      = .ok (.group ⟨c * k ^ e, a, p * e⟩) := by
  obtain ⟨o, ho⟩ := hgroup
  have hends : (coefText k ++ ('(' :: a ++ ')' :: powStr p)).head? ≠ some '^'
      ∧ (coefText k ++ ('(' :: a ++ ')' :: powStr p)).getLast? ≠ some '^' := by
    have h := nest_ends (.wrap k (.num 1) p) ⟨⟨hk, hf⟩, ⟨one_ne_zero, isDouble_one⟩, hp⟩
    constructor
    · have h1 := h.2.1
      unfold Nest.text at h1
      unfold coefText at h1 ⊢
      split
      · simp
      · next hk1 =>
        rw [if_neg hk1] at h1
        obtain ⟨x, y, hxy⟩ := List.exists_cons_of_ne_nil (ratStr_ne_nil k)
        rw [hxy] at h1 ⊢
        simpa using h1
    · have h2 := h.2.2
      unfold Nest.text at h2
      have : ∀ b : List Char, (coefText k ++ ('(' :: b ++ ')' :: powStr p)).getLast?
          = (')' :: powStr p).getLast? := by
        intro b
        rw [List.getLast?_append, List.getLast?_append]
        cases h3 : (')' :: powStr p).getLast? with
        | none => simp at h3
        | some x => simp
      rw [this] at h2 ⊢
      exact h2
  have hne' : coefText k ++ ('(' :: a ++ ')' :: powStr p) ≠ [] := by simp
  have hce : c * k ^ e ≠ 0 := mul_ne_zero hc (zpow_ne_zero _ hk)
  simp only [create, normalize, coefArg, baseArg, expArg, bind, Except.bind, pure, Except.pure,
    if_neg hne']
  unfold createWith
  rw [if_neg (by rintro (h | h); exacts [hends.1 h, hends.2 h])]
  have he' : (e : Rat) ≠ 0 := by exact_mod_cast he
  simp only [orOne, hc, he', if_false, fullSimplex_bracket (s := coefText k ++ ('(' :: a ++ ')' :: powStr p))
    (by simp), fullComplex_wrap hk hf ha hne hp, bind, Except.bind, powCoef_int hk, pure, Except.pure, ho]
  simp [mkOperand, orOne, hc, zpow_ne_zero e hk, hp, he, hne]

/-- **C200 (counterexample).** An explicit coefficient or exponent of zero counts as 1, whatever the
other arguments; and a coefficient with an exponent given as a string, which is documented, is read
as a coefficient and a base. -/
theorem c200_zero_counterexample :
    (∀ b e, create [.num 0, b, e] = create [.num 1, b, e])
    ∧ (∀ c b, create [c, b, .num 0] = create [c, b, .num 1])
    ∧ (∀ s, create [.num 0, .str s] = create [.num 1, .str s])
    ∧ create [.num 2, .num 3] = .ok (.term ⟨2, one, 3⟩)
    ∧ create [.num 2, .str ['3']] = .ok (.term ⟨6, one, 1⟩) := by
  refine ⟨?_, ?_, ?_, by decide +kernel, by decide +kernel⟩
  · intro b e; simp [create, normalize, coefArg, orOne]
  · intro c b
    cases c <;> cases b <;> simp [create, normalize, coefArg, expArg, orOne]
  · intro s; simp [create, normalize, orOne]

example : (Nest.wrap 2 (.wrap 3 (.var 4 ['a'] 4) 3) 2).Ok
    ∧ (Nest.wrap 2 (.wrap 3 (.var 4 ['a'] 4) 3) 2).text = "2(3(4a^4)^3)^2".toList
    ∧ create [.str "2(3(4a^4)^3)^2".toList] = .ok (.term ⟨73728, ['a'], 24⟩) := by
  refine ⟨⟨⟨by norm_num, by decide +kernel⟩, ⟨⟨by norm_num, by decide +kernel⟩, ⟨by norm_num, ⟨['a'], [], rfl, by simp, by decide, by simp⟩,
    by norm_num, Or.inr ?_⟩, by norm_num⟩, by norm_num⟩, by decide +kernel, by decide +kernel⟩
  rintro ⟨⟨c, h, hc⟩, _⟩
  simp at h; subst h; exact absurd hc (by decide)

example : (∃ o, createWith 14 1 "a * b^2".toList 1 = .ok (.group o))
    ∧ create [.num 5, .str "2(a * b^2)^3".toList, .num 2]
      = .ok (.group ⟨20, "a * b^2".toList, 6⟩) := by
  refine ⟨⟨⟨1, "a * b^2".toList, 1⟩, by decide +kernel⟩, by decide +kernel⟩

/-! ## C201: a term and its text -/

/-- Terms whose text is a simple operand: a constant that is a float, or a variable with an integral coefficient. -/
def Textual (t : Term) : Prop :=
  (t.base = one ∧ t.exp = 1 ∧ t.coef ≠ 0 ∧ IsDouble t.coef)
  ∨ (Plain t.base ∧ t.coef.den = 1 ∧ t.coef ≠ 0 ∧ t.exp ≠ 0 ∧ (t.coef = 1 ∨ ¬ ENum t.base))

theorem create_text {t : Term} (h : Textual t) : create [.str (termStr t)] = .ok (.term t) := by
  obtain ⟨c, b, e⟩ := t
  rcases h with ⟨h1, h2, h3⟩ | ⟨h1, h2, h3, h4, h5⟩
  · simp only at h1 h2 h3
    subst h1; subst h2
    have hs : termStr ⟨c, one, 1⟩ = (Nest.num c).text := by simp [termStr, coefStr, Nest.text]
    have hend := nest_ends (.num c) h3
    rw [hs]
    simp only [create, normalize, baseArg, hend.1, if_false, bind, Except.bind]
    unfold createWith
    rw [if_neg (by rintro (h | h); exacts [hend.2.1 h, hend.2.2 h])]
    simp [Nest.text, fullSimplex_num h3.1 h3.2, bind, Except.bind, pure, Except.pure, powCoef_one_exp,
      mkOperand, orOne, h3.1, one]
  · simp only at h1 h2 h3 h4 h5
    have hs : termStr ⟨c, b, e⟩ = (Nest.var c b e).text := by
      simp [termStr, coefStr, expStr, Nest.text, coefText, powStr, plain_ne_one h1, h2]
    have hok : (Nest.var c b e).Ok := ⟨h3, h1, h4, h5⟩
    have hend := nest_ends _ hok
    rw [hs]
    simp only [create, normalize, baseArg, hend.1, if_false, bind, Except.bind]
    unfold createWith
    rw [if_neg (by rintro (h | h); exacts [hend.2.1 h, hend.2.2 h])]
    simp [Nest.text, fullSimplex_var h3 h1 h4 h5, bind, Except.bind, pure, Except.pure,
      powCoef_one_exp, mkOperand, orOne, h3, h4, plain_ne_nil h1]

/-- **C201 (partial).** A term equals the text of another one iff the terms are the same; in
particular it equals its own text. This holds for constants and for variables with an integral
coefficient whose name does not look like the exponent of a decimal number. -/
theorem c201_text_partial (t u : Term) (hu : Textual u) :
    eqString t (termStr u) = .ok (decide (u = t)) := by
  simp only [eqString, create_text hu, bind, Except.bind, pure, Except.pure, partOperand]
  exact congrArg Except.ok (decide_eq_decide.2 Iff.rfl)

/-- **C201 (partial), numbers.** Comparing a term with a number says whether the term has that value
under every assignment; it raises `TypeError` iff the term is not a constant. -/
theorem c201_number_partial (t : Term) (x : Rat) :
    (∀ b, eqNumber t x = .ok b → (b = true ↔ ∀ v, termValue v t = (x : ℝ)))
    ∧ (t.base = one → ∃ b, eqNumber t x = .ok b)
    ∧ (t.base ≠ one → eqNumber t x = .error .typeError) := by
  obtain ⟨c, b, e⟩ := t
  by_cases hb : b = one
  · subst hb
    have hbool : eqNumber ⟨c, one, e⟩ x = .ok (decide (c = x)) := by
      simp [eqNumber, castFloat, bind, Except.bind, pure, Except.pure]
    refine ⟨?_, fun _ => ⟨_, hbool⟩, fun h => absurd rfl h⟩
    intro r hr
    rw [hbool] at hr
    injection hr with hr
    rw [← hr, decide_eq_true_iff]
    constructor
    · rintro rfl v; exact value_const v c e
    · intro h
      have := h ⟨fun _ => 1, fun _ => one_pos, rfl⟩
      rw [value_const] at this
      exact_mod_cast this
  · have herr : eqNumber ⟨c, b, e⟩ x = .error .typeError := by
      simp [eqNumber, castFloat, hb, bind, Except.bind]
    refine ⟨?_, fun h => absurd h hb, fun _ => herr⟩
    intro r hr
    rw [herr] at hr; cases hr

/-- **C201 (counterexample).** Terms that differ from their own text: a fractional coefficient, a
numeral as base, a name that looks like the exponent of a decimal number, and a power of a constant. -/
theorem c201_text_counterexample :
    (termStr ⟨2/3, ['a'], 1⟩ = "(2/3)a".toList
      ∧ eqString ⟨2/3, ['a'], 1⟩ "(2/3)a".toList = .ok false)
    ∧ (mkTerm (.positional [.str ['2']]) = .ok ⟨1, ['2'], 1⟩
      ∧ eqString ⟨1, ['2'], 1⟩ ['2'] = .ok false ∧ eqNumber ⟨1, ['2'], 1⟩ 2 = .error .typeError)
    ∧ (termStr ⟨2, "e3".toList, 1⟩ = "2e3".toList
      ∧ eqString ⟨2, "e3".toList, 1⟩ "2e3".toList = .ok false)
    ∧ (create [.str "(2)^3".toList] = .ok (.term ⟨8, one, 3⟩)
      ∧ termStr ⟨8, one, 3⟩ = ['8'] ∧ eqString ⟨8, one, 3⟩ ['8'] = .ok false) := by
  decide +kernel

example : Textual ⟨-12, "ab1".toList, 5/12⟩
    ∧ termStr ⟨-12, "ab1".toList, 5/12⟩ = "-12ab1^5/12".toList
    ∧ eqString ⟨-12, "ab1".toList, 5/12⟩ "-12ab1^5/12".toList = .ok true := by
  refine ⟨Or.inr ⟨⟨['a', 'b'], ['1'], rfl, by simp, by decide, by decide⟩, by decide +kernel,
    by norm_num, by norm_num, Or.inr ?_⟩, by decide +kernel, by decide +kernel⟩
  rintro ⟨_, h⟩
  have := h 'a' (by decide) (by decide)
  revert this; decide

/-! ## C202: equality and hashes of terms -/

/-- **C202 (partial).** Whatever the conversion to floating point, two terms whose coefficients and
exponents are exact in it are equal iff they have the same hash key. -/
theorem c202_hash_partial (fl : Rat → Rat) (a b : Operand)
    (ha : fl a.coef = a.coef ∧ fl a.exp = a.exp) (hb : fl b.coef = b.coef ∧ fl b.exp = b.exp) :
    eqFloat fl a b = true ↔ hashKey a = hashKey b := by
  simp only [eqFloat, hashKey, ha.1, ha.2, hb.1, hb.2, Bool.and_eq_true, decide_eq_true_eq,
    Prod.mk.injEq]
  constructor
  · rintro ⟨⟨h1, h2⟩, h3⟩; exact ⟨h3.symm, h1.symm, h2.symm⟩
  · rintro ⟨h1, h2, h3⟩; exact ⟨⟨h2.symm, h3.symm⟩, h1.symm⟩

/-- **C202 (counterexample).** Whatever the conversion to floating point, a number that is not exact
in it gives two terms that are equal and have different hash keys: the one with that coefficient
and the one read from its text. So they are two different elements of a set. -/
theorem c202_hash_counterexample (fl : Rat → Rat) (hfl : ∀ x, fl (fl x) = fl x) (x : Rat)
    (hx : fl x ≠ x) (h0 : x ≠ 0) (h1 : fl x ≠ 0) :
    eqFloat fl (mkOperand x one 1) (constantTerm fl x) = true
    ∧ hashKey (mkOperand x one 1) ≠ hashKey (constantTerm fl x) := by
  constructor
  · simp [eqFloat, constantTerm, mkOperand, orOne, h0, h1, hfl]
  · simp [hashKey, constantTerm, mkOperand, orOne, h0, h1, Ne.symm hx]

example : ∃ fl : Rat → Rat, (∀ x, fl (fl x) = fl x) ∧ fl (1/3) = 6004799503160661 / 2 ^ 54 := by
  refine ⟨fun x => (⌊x * 2 ^ 54⌋ : Rat) / 2 ^ 54, ?_, by decide +kernel⟩
  intro x
  simp only
  rw [div_mul_cancel₀ _ (by norm_num : (2 : Rat) ^ 54 ≠ 0), Int.floor_intCast]

/-! ## C203: differences between expressions -/

theorem mem_difference {a b : List Term} {t : Term} : t ∈ difference a b ↔ t ∈ a ∧ t ∉ b := by
  simp [difference]

theorem isExpr_nodup {a : List Term} (h : IsExpr a) : a.Nodup := by
  obtain ⟨c, vars, rfl, hc, hv⟩ := isExpr_assemble h
  have hn : vars.Nodup := List.Nodup.of_map _ hv.2.1
  unfold assemble
  split
  · simp
  · split
    · exact hn
    · refine List.nodup_cons.2 ⟨?_, hn⟩
      intro hm
      exact (hv.1 _ hm).2.1 rfl

theorem perm_split {a b : List Term} : (a.filter (· ∈ b) ++ difference a b).Perm a := by
  unfold difference
  have := List.filter_append_perm (fun t => decide (t ∈ b)) a
  simpa using this

/-- **C203.** The split difference is a pair of disjoint sets whose union is the symmetric difference;
the first is the one-sided difference; both are empty iff the expressions are equal; and the ratio of
the expressions is the ratio of the two sets. -/
theorem c203_difference (a b : List Term) (ha : IsExpr a) (hb : IsExpr b) :
    ∃ s t u, differ a b false true = .two s t ∧ differ a b true true = .two s t
      ∧ differ a b false false = .one s ∧ differ b a false false = .one t
      ∧ differ a b true false = .one u
      ∧ (∀ x, x ∈ u ↔ x ∈ s ∨ x ∈ t) ∧ (∀ x, ¬ (x ∈ s ∧ x ∈ t))
      ∧ (∀ x, x ∈ s ↔ x ∈ a ∧ x ∉ b)
      ∧ ((s = [] ∧ t = []) ↔ exprEq a b = true)
      ∧ ∀ v, value v a * value v t = value v b * value v s := by
  refine ⟨difference a b, difference b a, difference a b ++ difference b a, rfl, rfl, rfl, rfl, rfl,
    by simp, ?_, fun x => mem_difference, ?_, ?_⟩
  · rintro x ⟨h1, h2⟩
    exact (mem_difference.1 h1).2 (mem_difference.1 h2).1
  · rw [exprEq_iff_perm, List.perm_ext_iff_of_nodup (isExpr_nodup ha) (isExpr_nodup hb)]
    constructor
    · rintro ⟨h1, h2⟩ x
      constructor
      · intro hx
        by_contra hn
        have : x ∈ difference a b := mem_difference.2 ⟨hx, hn⟩
        rw [h1] at this; cases this
      · intro hx
        by_contra hn
        have : x ∈ difference b a := mem_difference.2 ⟨hx, hn⟩
        rw [h2] at this; cases this
    · intro h
      constructor
      · apply List.eq_nil_iff_forall_not_mem.2
        intro x hx
        exact (mem_difference.1 hx).2 ((h x).1 (mem_difference.1 hx).1)
      · apply List.eq_nil_iff_forall_not_mem.2
        intro x hx
        exact (mem_difference.1 hx).2 ((h x).2 (mem_difference.1 hx).1)
  · intro v
    have hp : ∀ {x y : List Term}, x.Perm y → value v x = value v y := by
      intro x y h
      unfold value
      exact (h.map _).prod_eq
    have hcommon : (a.filter (· ∈ b)).Perm (b.filter (· ∈ a)) := by
      rw [List.perm_ext_iff_of_nodup ((isExpr_nodup ha).filter _) ((isExpr_nodup hb).filter _)]
      intro x; simp; tauto
    rw [← hp (perm_split (a := a) (b := b)), ← hp (perm_split (a := b) (b := a)), value_append,
      value_append, hp hcommon]
    ring

example : IsExpr [⟨1, ['a'], 1⟩, ⟨1, ['b'], 1⟩] ∧ IsExpr [⟨1, ['a'], 1⟩, ⟨1, ['c'], 1⟩]
    ∧ differ [⟨1, ['a'], 1⟩, ⟨1, ['b'], 1⟩] [⟨1, ['a'], 1⟩, ⟨1, ['c'], 1⟩] false true
      = .two [⟨1, ['b'], 1⟩] [⟨1, ['c'], 1⟩] := by
  refine ⟨⟨[⟨1, ['a'], 1⟩, ⟨1, ['b'], 1⟩], by simp, by simp, by decide +kernel⟩,
    ⟨[⟨1, ['a'], 1⟩, ⟨1, ['c'], 1⟩], by simp, by simp, by decide +kernel⟩, by decide +kernel⟩

/-! ## C204: applying a function to the bases -/

/-- **C204 (partial).** Applying a substitution of positive numbers for the bases gives the value of
the expression without its coefficient. -/
theorem c204_apply_partial (a : List Term) (ha : IsExpr a) (v : Assignment) :
    ∃ r, apply (· * ·) (fun x (q : Rat) => x ^ (q : ℝ)) v.val a = .ok r
      ∧ (totalCoef a : ℝ) * r = value v a := by
  have hfold : ∀ (ts : List Term) (r : ℝ),
      (totalCoef ts : ℝ) * ts.foldl (fun r u => r * v.val u.base ^ (u.exp : ℝ)) r = r * value v ts := by
    intro ts
    induction ts with
    | nil => intro r; simp [totalCoef, value]
    | cons t ts ih =>
      intro r
      rw [List.foldl_cons, totalCoef_cons, value_cons]
      push_cast
      rw [mul_assoc, ih]
      simp only [termValue]
      ring
  obtain ⟨t, ts, rfl⟩ := List.exists_cons_of_ne_nil (isExpr_wf ha).1
  refine ⟨_, rfl, ?_⟩
  rw [totalCoef_cons, value_cons]
  push_cast
  rw [mul_assoc, hfold]
  simp only [termValue]
  ring

/-- **C204 (counterexample).** A coefficient is dropped. -/
theorem c204_apply_counterexample (v : Assignment) (c : Rat) (hc : c ≠ 0) (h1 : c ≠ 1) :
    IsExpr [⟨c, one, 1⟩, ⟨1, ['a'], 1⟩]
    ∧ apply (· * ·) (fun x (q : Rat) => x ^ (q : ℝ)) v.val [⟨c, one, 1⟩, ⟨1, ['a'], 1⟩]
      = .ok (v.val ['a'])
    ∧ value v [⟨c, one, 1⟩, ⟨1, ['a'], 1⟩] ≠ v.val ['a'] := by
  refine ⟨⟨[⟨c, one, 1⟩, ⟨1, ['a'], 1⟩], by simp, by simp [hc, one], ?_⟩, ?_, ?_⟩
  · simp [reduce, collect, reduceStep, Dict.get?, Dict.set, one, variablesOf, sortTerms, mkOperand,
      orOne, Dict.values, hc, h1]
  · simp [apply, v.one']
  · rw [value_cons, value_cons, value_nil, value_const]
    simp only [termValue, Rat.cast_one, Real.rpow_one, one_mul, mul_one]
    have := (v.pos ['a']).ne'
    intro h
    have hc1 : (c : ℝ) = 1 := by
      have : ((c : ℝ) - 1) * v.val ['a'] = 0 := by linarith
      rcases mul_eq_zero.1 this with h' | h'
      · linarith
      · exact absurd h' (v.pos ['a']).ne'
    exact h1 (by exact_mod_cast hc1)

example : IsExpr [⟨1, ['a'], 2⟩, ⟨1, ['b'], -1⟩]
    ∧ totalCoef [⟨1, ['a'], 2⟩, ⟨1, ['b'], -1⟩] = 1 :=
  ⟨⟨[⟨1, ['a'], 2⟩, ⟨1, ['b'], -1⟩], by simp, by simp, by decide +kernel⟩, by decide +kernel⟩

/-! ## C205: numbers as factors -/

theorem isExpr_num {x : Rat} (hx : x ≠ 0) : IsExpr [⟨x, one, 1⟩] := by
  refine ⟨[⟨x, one, 1⟩], by simp, by simp [one, hx], ?_⟩
  simp [reduce, collect, reduceStep, Dict.get?, Dict.set, variablesOf, sortTerms, mkOperand,
    orOne, Dict.values, hx, one]

/-- A float with a denominator of one digit becomes the constant. -/
theorem ofNumber_eq {x : Rat} (hx : WritableNum x) : ofNumber x = .ok [⟨x, one, 1⟩] := by
  have h := c22_round_trip_partial [⟨x, one, 1⟩] (isExpr_num hx.1.1)
    (by intro t ht; simp at ht; subst ht; exact ⟨⟨hx.1.2, hx.2⟩, by norm_num, Or.inl rfl⟩)
  have hs : exprStr [⟨x, one, 1⟩] = ratStr x := by simp [exprStr, join, termStr, coefStr]
  rw [hs] at h
  unfold ofNumber
  rw [if_neg hx.1.1, h]

theorem totals_num (x : Rat) : totalCoef [⟨x, one, 1⟩] = x
    ∧ ∀ b, b ≠ one → totalExp [⟨x, one, 1⟩] b = 0 := by
  refine ⟨by simp [totalCoef], ?_⟩
  intro b hb
  rw [totalExp_cons, if_neg (Ne.symm hb)]; simp

theorem printable_totals {a : List Term} (ha : IsExpr a) (hp : Printable a) (b : Name) (hb : b ≠ one)
    (hne : totalExp a b ≠ 0) : (totalExp a b).den < 10 ∧ ValidName b := by
  obtain ⟨t, ht, rfl⟩ := totalExp_ne_zero_mem hne
  obtain ⟨h1, h2, h3⟩ := hp t ht
  refine ⟨?_, h3.resolve_left hb⟩
  obtain ⟨c, vars, rfl, hc, hv⟩ := isExpr_assemble ha
  rw [totalExp_assemble hb]
  have htv : t ∈ vars := by
    unfold assemble at ht
    split at ht
    · simp at ht; rw [ht] at hb; exact absurd rfl hb
    · split at ht
      · exact ht
      · rcases List.mem_cons.1 ht with h | h
        · rw [h] at hb; exact absurd rfl hb
        · exact h
  rw [totalExp_of_mem hv.2.1 htv]
  exact h2

/-- **C205 (partial).** Multiplying an expression by a number, from either side, dividing it by a
number and dividing a number by it multiply or divide the value. The number is not zero, and it and
the coefficient of the result are floats with denominators of one digit. -/
theorem c205_number_partial (a : List Term) (ha : IsExpr a) (hp : Printable a) (x : Rat)
    (hx : WritableNum x) :
    (WritableNum (totalCoef a * x) → ∃ r, mulNumber a x = .ok r ∧ numberMul x a = .ok r
      ∧ ∀ v, value v r = value v a * x)
    ∧ (WritableNum (totalCoef a / x) → ∃ r, divNumber a x = .ok r ∧ ∀ v, value v r = value v a / x)
    ∧ (WritableNum (x / totalCoef a) → ∃ r, numberDiv x a = .ok r ∧ ∀ v, value v r = x / value v a) := by
  have hn := isExpr_num hx.1.1
  obtain ⟨n1, n2⟩ := totals_num x
  have hval : ∀ v, value v [⟨x, one, 1⟩] = (x : ℝ) := by
    intro v; rw [value_cons, value_nil, value_const, mul_one]
  have hx0 : (x : ℝ) ≠ 0 := by exact_mod_cast hx.1.1
  refine ⟨?_, ?_, ?_⟩
  · intro hd
    obtain ⟨r, h1, h2, h3, h4, h5⟩ := exprMul_spec ha hn
    have hpr : Printable r := printable_of_totals h1 (by rw [h3, n1]; exact ⟨hd.1.2, hd.2⟩) (by
      intro b hb hne
      rw [h4 b hb, n2 b hb, add_zero] at hne ⊢
      exact printable_totals ha hp b hb hne)
    refine ⟨r, ?_, ?_, fun v => by rw [value_of_totals v h3 h4, hval]⟩
    · simp [mulNumber, ofNumber_eq hx, bind, Except.bind, h5 hpr]
    · simp [numberMul, ofNumber_eq hx, bind, Except.bind, c19_mul_comm _ _ hn ha, h5 hpr]
  · intro hd
    obtain ⟨r, h1, h3, h4, h5⟩ := exprDiv_spec ha hn
    have hpr : Printable r := printable_of_totals h1 (by rw [h3, n1]; exact ⟨hd.1.2, hd.2⟩) (by
      intro b hb hne
      rw [h4 b hb, n2 b hb, sub_zero] at hne ⊢
      exact printable_totals ha hp b hb hne)
    refine ⟨r, by simp [divNumber, ofNumber_eq hx, bind, Except.bind, h5 hpr], ?_⟩
    intro v
    have : value v a = value v r * value v [⟨x, one, 1⟩] := value_of_totals v
      (by rw [h3, n1]; rw [div_mul_cancel₀ _ hx.1.1])
      (fun b hb => by rw [h4 b hb]; ring)
    rw [this, hval, mul_div_assoc, div_self hx0, mul_one]
  · intro hd
    obtain ⟨r, h1, h3, h4, h5⟩ := exprDiv_spec hn ha
    have hpr : Printable r := printable_of_totals h1 (by rw [h3, n1]; exact ⟨hd.1.2, hd.2⟩) (by
      intro b hb hne
      rw [h4 b hb, n2 b hb, zero_sub] at hne ⊢
      rw [Rat.neg_den]
      exact printable_totals ha hp b hb (by simpa using hne))
    refine ⟨r, by simp [numberDiv, ofNumber_eq hx, bind, Except.bind, h5 hpr], ?_⟩
    intro v
    have hra : value v [⟨x, one, 1⟩] = value v r * value v a := value_of_totals v
      (by rw [h3, n1]; rw [div_mul_cancel₀ _ (totalCoef_expr_ne ha)])
      (fun b hb => by rw [h4 b hb]; ring)
    have hva : value v a ≠ 0 := by
      intro h0; rw [h0, mul_zero, hval] at hra; exact hx0 hra
    rw [← hval v, hra, mul_div_assoc, div_self hva, mul_one]

/-- **C205 (counterexample).** Zero counts as 1, for every expression; a fraction with a
denominator of two digits is misread: a twelfth of `a` is `2a`; and a third of `3a` is not `a`, since the
third is rounded and the text of the product is misread. -/
theorem c205_number_counterexample :
    (∀ a, mulNumber a 0 = mulNumber a 1 ∧ numberMul 0 a = numberMul 1 a
      ∧ divNumber a 0 = divNumber a 1 ∧ numberDiv 0 a = numberDiv 1 a)
    ∧ mulNumber [⟨1, ['a'], 1⟩] 0 = .ok [⟨1, ['a'], 1⟩]
    ∧ mulNumber [⟨1, ['a'], 1⟩] (1/12) = .ok [⟨2, one, 1⟩, ⟨1, ['a'], 1⟩]
    ∧ mulNumber [⟨3, one, 1⟩, ⟨1, ['a'], 1⟩] (1/3)
      = .ok [⟨18014398509481984 * 8014398509481984, one, 1⟩, ⟨1, ['a'], 1⟩] := by
  have h : ofNumber 0 = ofNumber 1 := by decide +kernel
  refine ⟨fun a => ?_, by decide +kernel, by decide +kernel, by decide +kernel⟩
  unfold mulNumber numberMul divNumber numberDiv
  rw [h]
  exact ⟨rfl, rfl, rfl, rfl⟩

example : IsExpr [⟨2, one, 1⟩, ⟨1, ['a'], 1⟩] ∧ WritableNum (3/2)
    ∧ mulNumber [⟨2, one, 1⟩, ⟨1, ['a'], 1⟩] (3/2) = .ok [⟨3, one, 1⟩, ⟨1, ['a'], 1⟩]
    ∧ numberDiv (3/2) [⟨2, one, 1⟩, ⟨1, ['a'], 1⟩] = .ok [⟨3/4, one, 1⟩, ⟨1, ['a'], -1⟩] := by
  refine ⟨⟨[⟨2, one, 1⟩, ⟨1, ['a'], 1⟩], by simp, by simp [one], by decide +kernel⟩,
    ⟨⟨by norm_num, by decide +kernel⟩, by decide +kernel⟩, by decide +kernel, by decide +kernel⟩

/-! ## C206: evaluating, casting and indexing -/

/-- **C206 (partial), evaluation.** A variable term with an integral exponent, evaluated at a number
that is not zero, is a constant that can be cast to the value of the term there; constant terms
cannot be evaluated. -/
theorem c206_eval_partial (t : Term) (x : Rat) (hc : t.coef ≠ 0) (hx : x ≠ 0) (he : t.exp.den = 1) :
    (t.base ≠ one → ∃ r, evalTerm t x = .ok r ∧ castFloat r = .ok (t.coef * x ^ t.exp.num)
      ∧ eqNumber r (t.coef * x ^ t.exp.num) = .ok true
      ∧ ∀ v : Assignment, v.val t.base = x → ((t.coef * x ^ t.exp.num : Rat) : ℝ) = termValue v t)
    ∧ (t.base = one → evalTerm t x = .error .typeError) := by
  constructor
  · intro hb
    have hpow : powCoef x t.exp = .ok (x ^ t.exp.num) := by simp [powCoef, he, hx]
    have h0 : t.coef * x ^ t.exp.num ≠ 0 := mul_ne_zero hc (zpow_ne_zero _ hx)
    refine ⟨⟨t.coef * x ^ t.exp.num, one, 1⟩, ?_, ?_, ?_, ?_⟩
    · simp only [evalTerm, ne_eq, hb, not_false_iff, if_true, bind, Except.bind, hpow, pure,
        Except.pure, mkOperand, orOne, h0, if_false]
      simp [one]
    · simp [castFloat]
    · simp [eqNumber, castFloat, bind, Except.bind, pure, Except.pure]
    · intro v hv
      unfold termValue
      have : (t.exp : ℝ) = ((t.exp.num : ℤ) : ℝ) := by
        conv_lhs => rw [← Rat.coe_int_num_of_den_eq_one he]
        simp
      rw [hv, this, Real.rpow_intCast]
      push_cast
      rfl
  · intro hb; simp [evalTerm, hb]

/-- **C206 (counterexample), evaluation.** At zero every variable term with a positive exponent
evaluates to 1. -/
theorem c206_eval_counterexample (t : Term) (hb : t.base ≠ one) (he : 0 < t.exp)
    (hd : t.exp.den = 1) : ∃ r, evalTerm t 0 = .ok r ∧ castFloat r = .ok 1 := by
  have hnum : 0 < t.exp.num := Rat.num_pos.2 he
  have hpow : powCoef 0 t.exp = .ok 0 := by
    unfold powCoef
    rw [if_pos hd, if_neg (by rintro ⟨_, h⟩; exact absurd h (not_lt.2 he.le)),
      zero_zpow _ hnum.ne']
  refine ⟨⟨1, one, 1⟩, ?_, by simp [castFloat]⟩
  simp only [evalTerm, ne_eq, hb, not_false_iff, if_true, bind, Except.bind, hpow, pure,
    Except.pure]
  simp [mkOperand, orOne, one]

/-- **C206, casts.** `int` truncates the constant towards zero; both casts refuse variables. -/
theorem c206_cast (t : Term) :
    (t.base = one → ∃ n : Int, castInt t = .ok n ∧ castFloat t = .ok t.coef
      ∧ |(n : Rat)| ≤ |t.coef| ∧ |t.coef - n| < 1 ∧ 0 ≤ (n : Rat) * t.coef)
    ∧ (t.base ≠ one → castInt t = .error .typeError ∧ castFloat t = .error .typeError) := by
  constructor
  · intro hb
    refine ⟨t.coef.num.tdiv t.coef.den, by simp [castInt, hb], by simp [castFloat, hb], ?_⟩
    have hd : (0 : Rat) < t.coef.den := by exact_mod_cast t.coef.den_pos
    have hq : t.coef = (t.coef.num : Rat) / t.coef.den := (Rat.num_div_den t.coef).symm
    generalize t.coef = q at *
    generalize hn : q.num = n at *
    generalize hdd : q.den = d at *
    have hd' : 0 < d := by exact_mod_cast hd
    rcases le_total 0 n with h | h
    · have e1 : n.tdiv d = n / (d : Int) := Int.tdiv_eq_ediv_of_nonneg h
      have hk0 : 0 ≤ n / (d : Int) := Int.ediv_nonneg h (by omega)
      have hle : (n / (d : Int)) * d ≤ n := Int.ediv_mul_le n (by omega)
      have hlt : n < (n / (d : Int) + 1) * d := Int.lt_ediv_add_one_mul_self n (by omega)
      rw [e1]
      generalize n / (d : Int) = k at *
      have hle' : (k : Rat) * d ≤ n := by exact_mod_cast hle
      have hlt' : (n : Rat) < (k + 1) * d := by exact_mod_cast hlt
      have h1 : (k : Rat) ≤ q := by rw [hq, le_div_iff₀ hd]; exact hle'
      have h2 : q < k + 1 := by rw [hq, div_lt_iff₀ hd]; exact hlt'
      have hk : (0 : Rat) ≤ k := by exact_mod_cast hk0
      refine ⟨?_, ?_, mul_nonneg hk (le_trans hk h1)⟩
      · rw [abs_of_nonneg hk, abs_of_nonneg (le_trans hk h1)]; exact h1
      · rw [abs_lt]; constructor <;> linarith
    · have e1 : n.tdiv d = -((-n) / (d : Int)) := by
        have : n = -(-n) := by ring
        conv_lhs => rw [this]
        rw [Int.neg_tdiv, Int.tdiv_eq_ediv_of_nonneg (by omega)]
      have hk0 : 0 ≤ (-n) / (d : Int) := Int.ediv_nonneg (by omega) (by omega)
      have hle : ((-n) / (d : Int)) * d ≤ -n := Int.ediv_mul_le (-n) (by omega)
      have hlt : -n < ((-n) / (d : Int) + 1) * d := Int.lt_ediv_add_one_mul_self (-n) (by omega)
      rw [e1]
      generalize (-n) / (d : Int) = k at *
      have hle' : (k : Rat) * d ≤ -n := by exact_mod_cast hle
      have hlt' : -(n : Rat) < (k + 1) * d := by exact_mod_cast hlt
      have h1 : (k : Rat) ≤ -q := by
        rw [hq, ← neg_div, le_div_iff₀ hd]; exact hle'
      have h2 : -q < k + 1 := by rw [hq, ← neg_div, div_lt_iff₀ hd]; exact hlt'
      have hk : (0 : Rat) ≤ k := by exact_mod_cast hk0
      push_cast
      refine ⟨?_, ?_, ?_⟩
      · rw [abs_neg, abs_of_nonneg hk, abs_of_nonpos (by linarith)]; exact h1
      · rw [abs_lt]; constructor <;> linarith
      · nlinarith
  · intro hb; simp [castInt, castFloat, hb]

/-- **C206 (partial), indexing.** Within the bounds of a list, an expression is indexed like the list
of its terms; from the length on and below minus twice the length it raises `IndexError`. -/
theorem c206_item_partial (ts : List Term) (i : Int) :
    (∀ h : 0 ≤ i ∧ i < ts.length, item ts i = .ok (ts[i.toNat]'(by omega)))
    ∧ (∀ h : -(ts.length : Int) ≤ i ∧ i < 0, item ts i = .ok (ts[(i + ts.length).toNat]'(by omega)))
    ∧ (i ≥ ts.length → item ts i = .error .indexError)
    ∧ (i < -(2 * ts.length : Int) → item ts i = .error .indexError) := by
  refine ⟨?_, ?_, ?_, ?_⟩
  · intro h
    simp only [item, Py.getItem]
    rw [if_neg (by omega), if_neg (by omega), if_neg (by omega), if_neg (by omega),
      List.getElem?_eq_getElem (by omega)]
  · intro h
    simp only [item, Py.getItem]
    rw [if_neg (by omega), if_pos h.2, if_neg (by omega), if_neg (by omega),
      List.getElem?_eq_getElem (by omega)]
  · intro h
    simp only [item]
    by_cases h1 : i > ts.length
    · rw [if_pos h1]
    · rw [if_neg h1, if_neg (by omega)]
      simp only [Py.getItem]
      rw [if_neg (by omega), if_neg (by omega), List.getElem?_eq_none (by omega)]
  · intro h
    have h1 : ¬ i > (ts.length : Int) := by omega
    have h2 : i < 0 := by omega
    have h3 : i + (ts.length : Int) < 0 := by omega
    have h4 : i + (ts.length : Int) + (ts.length : Int) < 0 := by omega
    simp only [item, Py.getItem, if_neg h1, if_pos h2, if_pos h3, if_pos h4]

/-- **C206 (counterexample), indexing.** Below the bounds of a list, down to minus twice the length,
an index wraps around a second time instead of raising `IndexError`. -/
theorem c206_item_counterexample (ts : List Term) (i : Int)
    (h : -(2 * ts.length : Int) ≤ i ∧ i < -(ts.length : Int)) :
    item ts i = .ok (ts[(i + 2 * ts.length).toNat]'(by omega)) := by
  have h1 : ¬ i > (ts.length : Int) := by omega
  have h2 : i < 0 := by omega
  have h3 : i + (ts.length : Int) < 0 := by omega
  have h4 : ¬ i + (ts.length : Int) + (ts.length : Int) < 0 := by omega
  simp only [item, Py.getItem, if_neg h1, if_pos h2, if_pos h3, if_neg h4]
  have : i + (ts.length : Int) + (ts.length : Int) = i + 2 * ts.length := by ring
  rw [this, List.getElem?_eq_getElem (by omega)]

example : item [⟨1, ['a'], 1⟩, ⟨1, ['b'], -2⟩] (-1) = .ok ⟨1, ['b'], -2⟩
    ∧ item [⟨1, ['a'], 1⟩, ⟨1, ['b'], -2⟩] (-3) = .ok ⟨1, ['b'], -2⟩
    ∧ evalTerm ⟨2, ['a'], -3⟩ 2 = .ok ⟨1/4, one, 1⟩ ∧ castInt ⟨-7/2, one, 1⟩ = .ok (-3) := by
  decide +kernel

end Verif.Terms
