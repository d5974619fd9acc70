import Verif.Metric.ExprConvert
import Mathlib.Tactic.LinearCombination
import Mathlib.Algebra.BigOperators.Group.List.Basic

/-!
# Properties of dimensions

C31, C78, C80, C81.
-/

set_option linter.unusedSimpArgs false
set_option linter.unusedSectionVars false

namespace Verif.Metric

open Verif.Py Verif.Symbolic

/-! ## C31: the dimension of a product of units -/

/-- `Unit.__mul__` for different units (metric.py 2065-2069, 2081-2092): the operands are decomposed
before their product is taken. -/
def unitMul (b : Book) (u v : List Term) : Res (List Term) := do
  exprMul (← decompose b u) (← decompose b v)

/-- The dimension of the unit that a string denotes, as a string. -/
def dimensionText (b : Book) (s : System) (unit : Str) : Res (Option Str) := do
  return (← unitDimension b (← ofString unit) s).map exprStr

theorem dimensionText_fast (s : System) (unit : Str) :
    dimensionText actualBook s unit = dimensionText fastBook s unit := by rw [actualBook_eq]

/-- The dimension of the product of two units, as a string. -/
def productText (b : Book) (s : System) (u v : Str) : Res (Option Str) := do
  let r ← unitMul b (← ofString u) (← ofString v)
  return (← unitDimension b r s).map exprStr

/-- **C31, violated.** The unit `J` has no dimension in the CGS system, but both the unit `J erg` and
the product of the units `J` and `erg` have one. -/
theorem c31_counterexample :
    dimensionText actualBook .cgs c!"J" = .ok none ∧
    dimensionText actualBook .cgs c!"erg" = .ok (some c!"L^2 M T^-2") ∧
    dimensionText actualBook .cgs c!"J erg" = .ok (some c!"L^4 M^2 T^-4") ∧
    productText actualBook .cgs c!"J" c!"erg" = .ok (some c!"L^4 M^2 T^-4") := by
  rw [actualBook_eq]
  refine ⟨?_, ?_, ?_, ?_⟩ <;> decide +kernel

/-- An expression without coefficient whose exponents are multiples of 1/2: the dimensions of the
module. -/
def HalfLike (a : List Term) : Prop :=
  IsExpr a ∧ totalCoef a = 1 ∧
  ∀ x, x ≠ one → (∃ n : Int, totalExp a x * 2 = n) ∧ (totalExp a x ≠ 0 → ValidName x)

theorem half_den {q : Rat} (h : ∃ n : Int, q * 2 = n) : q.den < 10 := by
  obtain ⟨n, h⟩ := h
  have : q = (n : Rat) / (2 : Int) := by push_cast; linarith
  rw [this]
  have hd : ((n : Rat) / ((2 : Int) : Rat)).den ∣ (2 : Int).natAbs := by
    have := Rat.den_dvd n 2
    rw [Rat.divInt_eq_div] at this
    exact Int.natCast_dvd_natCast.1 (by simpa using this)
  have := Nat.le_of_dvd (by decide) hd
  have h2 : (2 : Int).natAbs = 2 := rfl
  omega

theorem HalfLike.printable {a : List Term} (h : HalfLike a) : Printable a :=
  printable_of_totals h.1 (by rw [h.2.1]; exact ⟨by decide, isDouble_one⟩)
    (fun x hx hne => ⟨half_den (h.2.2 x hx).1, (h.2.2 x hx).2 hne⟩)

theorem half_one : HalfLike [⟨1, one, 1⟩] := by
  refine ⟨isExpr_one, by simp [totalCoef], ?_⟩
  intro x hx
  have : totalExp [⟨1, one, 1⟩] x = 0 := by
    apply totalExp_of_not_mem
    intro t ht; simp at ht; rw [ht]; exact Ne.symm hx
  rw [this]
  exact ⟨⟨0, by simp⟩, fun h => absurd rfl h⟩

theorem half_mul {a b : List Term} (ha : HalfLike a) (hb : HalfLike b) :
    ∃ r, exprMul a b = .ok r ∧ HalfLike r ∧
      ∀ x, x ≠ one → totalExp r x = totalExp a x + totalExp b x := by
  obtain ⟨r, hr, _, hc, he, hm⟩ := exprMul_spec ha.1 hb.1
  have hh : HalfLike r := by
    refine ⟨hr, by rw [hc, ha.2.1, hb.2.1, mul_one], ?_⟩
    intro x hx
    obtain ⟨⟨m, hm⟩, ha'⟩ := ha.2.2 x hx
    obtain ⟨⟨n, hn⟩, hb'⟩ := hb.2.2 x hx
    rw [he x hx]
    refine ⟨⟨m + n, by push_cast; rw [← hm, ← hn]; ring⟩, ?_⟩
    intro hne
    by_cases h : totalExp a x = 0
    · exact hb' (fun h' => hne (by rw [h, h', add_zero]))
    · exact ha' h
  exact ⟨r, hm hh.printable, hh, he⟩

/-- Exponents so small that all products of exponents are floats. -/
def Small (k : Nat) (a : List Term) : Prop := ∀ t ∈ a, |t.exp| ≤ 2 ^ k

theorem isDouble_half {q : Rat} (h : ∃ n : Int, q * 2 = n) (hb : |q| ≤ 2 ^ 52) : IsDouble q := by
  obtain ⟨n, h⟩ := h
  have hq : q = n * (2 : Rat) ^ (-1 : Int) := by
    rw [← h, zpow_neg_one]; ring
  refine ⟨⟨n, -1, ?_, by norm_num, hq⟩, lt_of_le_of_lt hb (pow_lt_pow_right₀ (by norm_num) (by norm_num))⟩
  have : |(n : Rat)| ≤ 2 ^ 53 := by
    rw [← h, abs_mul]
    have h2 : |(2 : Rat)| = 2 := abs_of_pos two_pos
    rw [h2]; linarith
  exact_mod_cast this

theorem HalfLike.floatPow {a : List Term} (h : HalfLike a) (hs : Small 10 a) {p : Rat}
    (hp : p.den = 1) (hb : |p| ≤ 2 ^ 40) : FloatPow a p := by
  obtain ⟨k, rfl⟩ := (den_one_iff p).1 hp
  refine ⟨isDouble_of_den hp (hb.trans (by norm_num)), fun t ht => ?_⟩
  have hhalf : ∃ n : Int, t.exp * 2 = n := by
    by_cases hb1 : t.base = one
    · exact ⟨2, by rw [(expr_term h.1 ht).1 hb1]; norm_num⟩
    · obtain ⟨n, hn⟩ := (h.2.2 t.base hb1).1
      exact ⟨n, by rw [← hn, (expr_term h.1 ht).2 hb1]⟩
  have hcoef : t.coef = 1 := by
    obtain ⟨c, vars, rfl, hc0, hv⟩ := isExpr_assemble h.1
    have h1 := h.2.1
    rw [totalCoef_assemble hv] at h1
    subst h1
    unfold assemble at ht
    split at ht
    · simp at ht; rw [ht]
    · simp at ht; exact (hv.1 t ht).1
  refine ⟨by rw [hcoef, ratPow_one]; exact ⟨isDouble_one, isDouble_one⟩,
    isDouble_half hhalf ((hs t ht).trans (by norm_num)), isDouble_half ?_ ?_⟩
  · obtain ⟨n, hn⟩ := hhalf
    exact ⟨n * k, by push_cast; rw [← hn]; ring⟩
  · rw [abs_mul]
    calc |t.exp| * |(k : Rat)| ≤ 2 ^ 10 * 2 ^ 40 :=
          mul_le_mul (hs t ht) hb (abs_nonneg _) (by norm_num)
      _ ≤ 2 ^ 52 := by norm_num

theorem half_pow {a : List Term} (ha : HalfLike a) (hs : Small 10 a) {p : Rat} (hp0 : p ≠ 0)
    (hp : p.den = 1) (hb : |p| ≤ 2 ^ 40) :
    ∃ r, exprPow a p = .ok r ∧ HalfLike r ∧ ∀ x, x ≠ one → totalExp r x = totalExp a x * p := by
  obtain ⟨r, hr, hc, he, hm⟩ := exprPow_spec ha.1 hp0 (Or.inl hp) (ha.floatPow hs hp hb)
  obtain ⟨k, rfl⟩ := (den_one_iff p).1 hp
  have hh : HalfLike r := by
    refine ⟨hr, ?_, ?_⟩
    · rw [hc, ha.2.1]; simp [ratPow]
    · intro x hx
      obtain ⟨⟨m, hm⟩, ha'⟩ := ha.2.2 x hx
      rw [he x hx]
      refine ⟨⟨m * k, by push_cast; rw [← hm]; ring⟩, ?_⟩
      intro hne
      exact ha' (left_ne_zero_of_mul hne)
  exact ⟨r, hm hh.printable, hh, he⟩

/-- What is known about a named unit: in which systems it is allowed, and its dimensions. -/
abbrev Info := Name → Res (PerSystem Bool × PerSystem (List Term))

/-- The dimension that `Dimension.fromunit` uses for a named unit (metric.py 2378-2382). -/
def usedDimension (i : PerSystem Bool × PerSystem (List Term)) (s : System) : List Term :=
  if i.1.mks ∧ i.1.cgs then i.2.get s else if i.1.mks then i.2.mks else i.2.cgs

/-- The exponent of a base dimension in the dimension used for a named unit. -/
def dimExp (info : Info) (s : System) (x : Name) (n : Name) : Rat :=
  match info n with
  | .ok i => totalExp (usedDimension i s) x
  | .error _ => 0

/-- Specification: the exponent of a base dimension in the dimension of a unit is the sum, over the
terms of the unit, of the exponent of the term times the exponent in the dimension of its base. -/
def expectedExp (info : Info) (s : System) (x : Name) (unit : List Term) : Rat :=
  (unit.map (fun t => t.exp * dimExp info s x t.base)).sum

theorem fromUnit_fold (info : Info) (s : System)
    (hinfo : ∀ n i, info n = .ok i → HalfLike (usedDimension i s) ∧ Small 10 (usedDimension i s)) :
    ∀ (unit : List Term) (acc r : List Term × PerSystem Bool), HalfLike acc.1 →
    (∀ t ∈ unit, t.exp ≠ 0 ∧ t.exp.den = 1 ∧ |t.exp| ≤ 2 ^ 40) →
    unit.foldlM (fromUnitStep info s) acc = .ok r →
    HalfLike r.1 ∧ ∀ x, x ≠ one → totalExp r.1 x = totalExp acc.1 x + expectedExp info s x unit := by
  intro unit
  induction unit with
  | nil =>
    intro acc r ha _ h
    simp only [List.foldlM_nil, pure, Except.pure, Except.ok.injEq] at h
    rw [← h]
    exact ⟨ha, fun x _ => by simp [expectedExp]⟩
  | cons t ts ih =>
    intro acc r ha hu h
    rw [List.foldlM_cons] at h
    cases hi : info t.base with
    | error z => simp only [fromUnitStep, hi] at h; simp [bind, Except.bind] at h
    | ok i =>
      obtain ⟨allowed, dims⟩ := i
      obtain ⟨h0, h1, h1b⟩ := hu t (by simp)
      have hhalf := hinfo _ _ hi
      obtain ⟨p, hp, hph, hpe⟩ := half_pow hhalf.1 hhalf.2 h0 h1 h1b
      obtain ⟨q, hq, hqh, hqe⟩ := half_mul ha hph
      have hstep : fromUnitStep info s acc t
          = .ok (q, ⟨acc.2.mks || allowed.mks, acc.2.cgs || allowed.cgs⟩) := by
        unfold fromUnitStep
        rw [hi]
        show (do
          let p ← exprPow (usedDimension (allowed, dims) s) t.exp
          let q ← exprMul acc.1 p
          return (q, _)) = _
        rw [hp]
        show (do
          let q ← exprMul acc.1 p
          return (q, _)) = _
        rw [hq]
        rfl
      rw [hstep] at h
      obtain ⟨h2, h3⟩ := ih _ r hqh (fun u hu' => hu u (List.mem_cons_of_mem _ hu')) h
      refine ⟨h2, ?_⟩
      intro x hx
      rw [h3 x hx]
      show totalExp q x + _ = _
      rw [hqe x hx, hpe x hx]
      have : dimExp info s x t.base = totalExp (usedDimension (allowed, dims) s) x := by
        unfold dimExp; rw [hi]
      unfold expectedExp
      rw [List.map_cons, List.sum_cons, this]
      ring

/-- A sum over terms of a function of the base depends only on the total exponents. -/
theorem sum_terms (g : Name → Rat) (F : Finset Name) : ∀ ts : List Term, (∀ t ∈ ts, t.base ∈ F) →
    (ts.map (fun t => t.exp * g t.base)).sum = ∑ b ∈ F, totalExp ts b * g b := by
  intro ts
  induction ts with
  | nil => intro _; simp
  | cons t ts ih =>
    intro h
    rw [List.map_cons, List.sum_cons, ih (fun u hu => h u (List.mem_cons_of_mem _ hu))]
    have : ∀ b ∈ F, totalExp (t :: ts) b * g b
        = (if t.base = b then t.exp * g b else 0) + totalExp ts b * g b := by
      intro b _
      rw [totalExp_cons]
      split <;> ring
    rw [Finset.sum_congr rfl this, Finset.sum_add_distrib, Finset.sum_ite_eq, if_pos (h t (by simp))]

theorem expectedExp_congr (info : Info) (s : System) (x : Name) (hone : dimExp info s x one = 0)
    {u v r : List Term} (h : ∀ y, y ≠ one → totalExp r y = totalExp u y + totalExp v y) :
    expectedExp info s x r = expectedExp info s x u + expectedExp info s x v := by
  let F : Finset Name := ((u ++ v ++ r).map (·.base)).toFinset
  have hF : ∀ t ∈ u ++ v ++ r, t.base ∈ F := fun t ht =>
    List.mem_toFinset.2 (List.mem_map_of_mem ht)
  unfold expectedExp
  rw [sum_terms _ F r (fun t ht => hF t (by simp [ht])), sum_terms _ F u (fun t ht => hF t (by simp [ht])),
    sum_terms _ F v (fun t ht => hF t (by simp [ht])), ← Finset.sum_add_distrib]
  apply Finset.sum_congr rfl
  intro b _
  by_cases hb : b = one
  · rw [hb, hone]; ring
  · rw [h b hb]; ring

/-- **C31.** In a given system, when the dimension of a unit is defined then its exponents are the
weighted sums of the exponents in the dimensions of the named units; and when the dimensions of two
units and of a unit whose exponents are the sums of theirs are all defined, then the last dimension is
the product of the first two. The tables are arbitrary: for every named unit the dimension is an
expression without coefficient with half-integer exponents, and that of `1` is trivial. Exponents are so
small (1024 in the tables, 2^40 in the units) that their products are floats. -/
theorem c31_partial (info : Info) (s : System)
    (hinfo : ∀ n i, info n = .ok i → HalfLike (usedDimension i s) ∧ Small 10 (usedDimension i s))
    (hone : ∀ x, x ≠ one → dimExp info s x one = 0) (u v r : List Term)
    (hu : ∀ t ∈ u, t.exp ≠ 0 ∧ t.exp.den = 1 ∧ |t.exp| ≤ 2 ^ 40)
    (hv : ∀ t ∈ v, t.exp ≠ 0 ∧ t.exp.den = 1 ∧ |t.exp| ≤ 2 ^ 40)
    (hr : ∀ t ∈ r, t.exp ≠ 0 ∧ t.exp.den = 1 ∧ |t.exp| ≤ 2 ^ 40)
    (h : ∀ y, y ≠ one → totalExp r y = totalExp u y + totalExp v y) (du dv dr : List Term)
    (h1 : fromUnit info u s = .ok du) (h2 : fromUnit info v s = .ok dv)
    (h3 : fromUnit info r s = .ok dr) :
    (∀ x, x ≠ one → totalExp du x = expectedExp info s x u) ∧ exprMul du dv = .ok dr := by
  have key : ∀ (w d : List Term), (∀ t ∈ w, t.exp ≠ 0 ∧ t.exp.den = 1 ∧ |t.exp| ≤ 2 ^ 40) →
      fromUnit info w s = .ok d →
      HalfLike d ∧ ∀ x, x ≠ one → totalExp d x = expectedExp info s x w := by
    intro w d hw hd
    unfold fromUnit at hd
    cases hf : w.foldlM (fromUnitStep info s) ([mkOperand 1 one 1], ⟨false, false⟩) with
    | error z => rw [hf] at hd; simp [bind, Except.bind] at hd
    | ok q =>
      obtain ⟨e, systems⟩ := q
      rw [hf] at hd
      simp only [bind, Except.bind, pure, Except.pure] at hd
      split at hd
      · simp only [Except.ok.injEq] at hd
        obtain ⟨k1, k2⟩ := fromUnit_fold info s hinfo w _ _ (by exact half_one) hw hf
        rw [← hd]
        refine ⟨k1, ?_⟩
        intro x hx
        rw [k2 x hx]
        have : totalExp [mkOperand 1 one 1] x = 0 := by
          apply totalExp_of_not_mem
          intro t ht; simp at ht; rw [ht]; exact Ne.symm hx
        show totalExp [mkOperand 1 one 1] x + _ = _
        rw [this, zero_add]
      · simp at hd
  obtain ⟨u1, u2⟩ := key u du hu h1
  obtain ⟨v1, v2⟩ := key v dv hv h2
  obtain ⟨r1, r2⟩ := key r dr hr h3
  refine ⟨u2, ?_⟩
  obtain ⟨q, hq, hqh, hqe⟩ := half_mul u1 v1
  rw [hq]
  congr 1
  apply expr_ext hqh.1 r1.1 (by rw [hqh.2.1, r1.2.1])
  intro x hx
  rw [hqe x hx, r2 x hx, u2 x hx, v2 x hx, expectedExp_congr info s x (hone x hx) h]

/-- The tables of the module meet the hypotheses for newton and meter, whose product has the
dimension of energy. -/
example : dimensionText actualBook .mks c!"N" = .ok (some c!"L M T^-2") ∧
    dimensionText actualBook .mks c!"m" = .ok (some c!"L") ∧
    dimensionText actualBook .mks c!"N m" = .ok (some c!"L^2 M T^-2") := by
  rw [actualBook_eq]
  refine ⟨?_, ?_, ?_⟩ <;> decide +kernel

/-- A small table: the unit `f` has dimension `L`, the unit `g` has dimension `L / T`. -/
def smallInfo : Info := fun n =>
  if n = c!"f" then .ok (⟨true, true⟩, ⟨[⟨1, c!"L", 1⟩], [⟨1, c!"L", 1⟩]⟩)
  else if n = c!"g" then
    .ok (⟨true, true⟩, ⟨[⟨1, c!"L", 1⟩, ⟨1, c!"T", -1⟩], [⟨1, c!"L", 1⟩, ⟨1, c!"T", -1⟩]⟩)
  else .error .keyError

example : fromUnit smallInfo [⟨1, c!"f", 2⟩, ⟨1, c!"g", -1⟩] .mks
    = .ok [⟨1, c!"L", 1⟩, ⟨1, c!"T", 1⟩] := by decide +kernel

/-! ## C78: the dimension of a quantity is that of its canonical unit -/

/-- Whether the dimension listed for a quantity and the dimension of its canonical unit agree. -/
def dimensionAgrees (b : Book) (q : Str) (s : System) : Res Bool := do
  let u ← orKeyError (b.units q)
  let d ← orKeyError (b.dims q)
  match ← unitDimension b (← ofString (u.get s)) s with
  | some x => return exprEq x (← ofString (d.get s))
  | none => return false

/-- The quantities for which the dimensions differ in some system. -/
def disagreeing : List Str :=
  [c!"illumunance", c!"luminous flux", c!"luminous intensity", c!"permittivity"]

/-- **C78, violated.** The permittivity is listed with a dimension other than that of its unit
`F / m`; the luminous intensity is listed as `J`, but its unit `cd` denotes the centiday. -/
theorem c78_counterexample :
    dimensionAgrees actualBook c!"permittivity" .mks = .ok false ∧
    dimensionAgrees actualBook c!"luminous intensity" .mks = .ok false ∧
    dimensionText actualBook .mks c!"F / m" = .ok (some c!"T^4 I^2 M^-1 L^-3") ∧
    dimensionText actualBook .mks c!"cd" = .ok (some c!"T") := by
  rw [actualBook_eq]
  refine ⟨?_, ?_, ?_, ?_⟩ <;> decide +kernel

/-- The outcome is `True`. -/
def isTrue : Res Bool → Bool
  | .ok b => b
  | .error _ => false

theorem isTrue_iff {r : Res Bool} : isTrue r = true ↔ r = .ok true := by
  cases r with
  | error _ => simp [isTrue]
  | ok b => simp [isTrue]

theorem dimension_table : canonicalUnits.all (fun p => decide (p.1 ∈ disagreeing) ||
    (isTrue (dimensionAgrees fastBook p.1 .mks) && isTrue (dimensionAgrees fastBook p.1 .cgs))) = true := by
  decide +kernel

/-- **C78.** For every other quantity of the table (the whole table is checked), in both systems, the
listed dimension is that of the canonical unit. -/
theorem c78_partial (p : Str × PerSystem Str) (hp : p ∈ canonicalUnits) (hn : p.1 ∉ disagreeing)
    (s : System) : dimensionAgrees actualBook p.1 s = .ok true := by
  rw [actualBook_eq]
  have h := List.all_eq_true.1 dimension_table p hp
  simp only [Bool.or_eq_true, decide_eq_true_eq, Bool.and_eq_true, isTrue_iff] at h
  have h' := h.resolve_left hn
  cases s
  · exact h'.1
  · exact h'.2

example : (c!"energy density") ∉ disagreeing ∧
    (c!"energy density") ∈ canonicalUnits.map (·.1) := by decide +kernel

/-! ## C80: the quantity of every base unit is in the table -/

/-- **C80, violated.** The quantity of the unit `lx` is `illuminance`, which the table lists as
`illumunance`; asking for the dimension of the unit raises `KeyError`. -/
theorem c80_counterexample :
    (⟨c!"lx", c!"lux", c!"illuminance"⟩ : BaseUnit) ∈ units ∧
    findProperty canonicalUnits c!"illuminance" = none ∧
    dimensionText actualBook .mks c!"lx" = .error .keyError := by
  rw [actualBook_eq]
  refine ⟨?_, ?_, ?_⟩ <;> decide +kernel

/-- **C80.** For every other unit of the table, the quantity has a canonical unit and a dimension. -/
theorem c80_partial : ∀ u ∈ units, u.symbol ≠ c!"lx" →
    (findProperty canonicalUnits u.quantity).isSome ∧
    (findProperty canonicalDimensions u.quantity).isSome := by
  decide +kernel

example : ∃ u ∈ units, u.symbol = c!"Pa" := by decide +kernel

/-! ## C81: looking up an unknown quantity -/

/-- **C81, violated.** Looking up a quantity that is not in the table does not raise `KeyError`: the
lookup calls itself with the same name, so it exceeds every recursion limit. -/
theorem c81_counterexample (limit : Nat) (p : Property) :
    findQuantity quantities c!"viscosty" = none ∧
    getProperty quantities p limit c!"viscosty" = .error (.named "RecursionError") := by
  have h0 : findQuantity quantities c!"viscosty" = none := by decide +kernel
  have h1 : ofString (joinWords (quantities.map (·.1)) c!"viscosty") = .ok [⟨1, c!"viscosty", 1⟩] := by
    decide +kernel
  have h2 : pyReplace c!"viscosty" c!"_" c!" " = c!"viscosty" := by decide +kernel
  refine ⟨h0, ?_⟩
  induction limit with
  | zero => rfl
  | succ limit ih =>
    rw [getProperty, h0]
    have key : ∀ get : Str → Res (PerSystem Str), get c!"viscosty" = .error (.named "RecursionError") →
        parseProperty (quantities.map (·.1)) get c!"viscosty" = .error (.named "RecursionError") := by
      intro get hg
      rw [parseProperty, h1]
      show (do
        let parts ← [(⟨1, c!"viscosty", 1⟩ : Term)].mapM (expandTerm get)
        _) = _
      rw [List.mapM_cons]
      have : expandTerm get ⟨1, c!"viscosty", 1⟩ = .error (.named "RecursionError") := by
        rw [expandTerm]
        show (do let v ← get (pyReplace c!"viscosty" c!"_" c!" "); _) = _
        rw [h2, hg]
        rfl
      rw [this]
      rfl
    exact key _ ih

theorem mapM_mono {α β : Type _} {f g : α → Res β} (h : ∀ a b, f a = .ok b → g a = .ok b) :
    ∀ (l : List α) (r : List β), l.mapM f = .ok r → l.mapM g = .ok r := by
  intro l
  induction l with
  | nil => intro r hr; simpa using hr
  | cons a l ih =>
    intro r hr
    rw [List.mapM_cons] at hr ⊢
    cases hf : f a with
    | error z => rw [hf] at hr; simp [bind, Except.bind] at hr
    | ok b =>
      rw [hf] at hr
      rw [h a b hf]
      cases hm : l.mapM f with
      | error z => rw [hm] at hr; simp [bind, Except.bind] at hr
      | ok bs =>
        rw [hm] at hr
        rw [ih bs hm]
        exact hr

theorem expandTerm_mono {get get' : Str → Res (PerSystem Str)}
    (h : ∀ q v, get q = .ok v → get' q = .ok v) (t : Term) (r : Part × Part)
    (hr : expandTerm get t = .ok r) : expandTerm get' t = .ok r := by
  unfold expandTerm at hr ⊢
  cases hg : get (pyReplace t.base c!"_" c!" ") with
  | error z => rw [hg] at hr; simp [bind, Except.bind] at hr
  | ok v => rw [hg] at hr; rw [h _ _ hg]; exact hr

theorem parseProperty_mono {names : List Str} {get get' : Str → Res (PerSystem Str)}
    (h : ∀ q v, get q = .ok v → get' q = .ok v) (s : Str) (v : PerSystem Str)
    (hv : parseProperty names get s = .ok v) : parseProperty names get' s = .ok v := by
  unfold parseProperty at hv ⊢
  cases ho : ofString (joinWords names s) with
  | error z => rw [ho] at hv; simp [bind, Except.bind] at hv
  | ok ts =>
    rw [ho] at hv
    show (do let parts ← ts.mapM (expandTerm get'); _) = _
    have hv' : (do
        let parts ← ts.mapM (expandTerm get)
        return (⟨← mergeParts (parts.map (·.1)), ← mergeParts (parts.map (·.2))⟩ : PerSystem Str))
          = (.ok v : Res _) := hv
    cases hm : ts.mapM (expandTerm get) with
    | error z => rw [hm] at hv'; simp [bind, Except.bind] at hv'
    | ok ps =>
      rw [hm] at hv'
      rw [mapM_mono (expandTerm_mono h) _ _ hm]
      exact hv'

theorem getProperty_succ (table : List (Str × Quantity)) (p : Property) :
    ∀ (fuel : Nat) (q : Str) (v : PerSystem Str), getProperty table p fuel q = .ok v →
    getProperty table p (fuel + 1) q = .ok v := by
  intro fuel
  induction fuel with
  | zero => intro q v h; simp [getProperty] at h
  | succ fuel ih =>
    intro q v h
    unfold getProperty at h ⊢
    split at h
    · exact h
    · exact parseProperty_mono ih _ _ h
    · exact parseProperty_mono ih _ _ h

theorem getProperty_mono (table : List (Str × Quantity)) (p : Property) (fuel more : Nat) (q : Str)
    (v : PerSystem Str) (h : getProperty table p fuel q = .ok v) :
    getProperty table p (fuel + more) q = .ok v := by
  induction more with
  | zero => exact h
  | succ more ih => exact getProperty_succ table p _ q v ih

theorem row_of_table {table : List (Str × Quantity)} {rows : List (Str × PerSystem Str)}
    {f : Str → Res (PerSystem Str)}
    (h : table.map (fun e => (e.1, f e.1)) = rows.map (fun e => (e.1, .ok e.2))) {q : Str}
    (hq : q ∈ table.map (·.1)) : ∃ v, (q, v) ∈ rows ∧ f q = .ok v := by
  obtain ⟨e, he, rfl⟩ := List.mem_map.1 hq
  have : (e.1, f e.1) ∈ rows.map (fun e => (e.1, Except.ok e.2)) := by
    rw [← h]; exact List.mem_map_of_mem (f := fun e => (e.1, f e.1)) he
  obtain ⟨r, hr, hre⟩ := List.mem_map.1 this
  simp only [Prod.mk.injEq] at hre
  exact ⟨r.2, by rw [← hre.1]; exact hr, hre.2.symm⟩

/-- **C81.** For a quantity of the table the lookup succeeds for every recursion limit of at least
eight, with the tabulated result. -/
theorem c81_partial (q : Str) (h : q ∈ quantities.map (·.1)) (more : Nat) :
    (∃ v, (q, v) ∈ canonicalDimensions ∧ getProperty quantities .dimensions (8 + more) q = .ok v) ∧
    (∃ v, (q, v) ∈ canonicalUnits ∧ getProperty quantities .units (8 + more) q = .ok v) := by
  obtain ⟨v, h1, h2⟩ := row_of_table canonicalDimensions_eq h
  obtain ⟨w, h3, h4⟩ := row_of_table canonicalUnits_eq h
  exact ⟨⟨v, h1, getProperty_mono _ _ _ more _ _ h2⟩, ⟨w, h3, getProperty_mono _ _ _ more _ _ h4⟩⟩

example : (c!"thermal conductivity", (⟨c!"W K^-1 m^-1", c!"erg K^-1 cm^-1 s^-1"⟩ : PerSystem Str))
    ∈ canonicalUnits := by decide +kernel

end Verif.Metric
