import Verif.Systems.NormProps

/-!
# C156-C157: norms of norms, and norms of products
-/

set_option linter.unusedSimpArgs false

namespace Verif.Systems

open Verif.Py Verif.Symbolic Verif.Metric

attribute [local irreducible] units allUnits prefixes identify canonicalUnits quantities

/-! ## Checks of the tables -/

/-- The quantities of the table of units that are not about light. -/
def dark : List Str := measured.filter (fun q => q ≠ c!"luminous intensity" && q ≠ c!"luminous flux")

/-- Every name in the canonical unit of a quantity measures a quantity of which it is itself the canonical unit. -/
def selfNamed (s : System) (q : Str) : Bool :=
  (canonicalExpr s q).all (fun t => t.base = one ||
    (match (orUnknown (lookupFast t.base)).toOption.map NamedUnit.quantity with
      | some p => p ∈ dark && canonicalExpr s p = [⟨1, t.base, 1⟩]
      | none => false))

theorem selfNamed_all : ∀ q ∈ dark, selfNamed .mks q = true ∧ selfNamed .cgs q = true := by decide +kernel

theorem selfNamed_spec {s : System} {q : Str} (hq : q ∈ dark) {t : Term} (ht : t ∈ canonicalExpr s q)
    (h1 : t.base ≠ one) : ∃ p, quantityOf t.base = some p ∧ p ∈ dark ∧ canonicalExpr s p = [⟨1, t.base, 1⟩] := by
  have h : selfNamed s q = true := by
    cases s
    · exact (selfNamed_all q hq).1
    · exact (selfNamed_all q hq).2
  unfold selfNamed at h
  have h2 := List.all_eq_true.1 h t ht
  simp only [← quantityOf_eq, Bool.or_eq_true, decide_eq_true_eq, h1, false_or] at h2
  revert h2
  generalize quantityOf t.base = o
  intro h2
  cases o with
  | none => cases h2
  | some p =>
    simp only [Bool.and_eq_true, decide_eq_true_eq] at h2
    exact ⟨p, rfl, h2⟩

theorem dark_ne {q : Str} (h : q ∈ dark) : q ≠ c!"illuminance" := by
  have : ∀ q ∈ dark, q ≠ c!"illuminance" := by decide +kernel
  exact this q h

theorem mem_dark {x : Name} (h : Dark x) : ∃ q, quantityOf x = some q ∧ q ∈ dark := by
  obtain ⟨q, h1, h2, h3, h4⟩ := h
  obtain ⟨_, _, _, hm⟩ := quantityOf_some h1
  refine ⟨q, h1, ?_⟩
  unfold dark
  rw [List.mem_filter]
  exact ⟨hm h2, by simp [h3, h4]⟩

/-! ## The norm of a norm -/

theorem quantityOf_one : quantityOf one = some c!"identity" := by rw [quantityOf_eq]; decide +kernel

theorem canonical_identity (s : System) : canonicalExpr s c!"identity" = [⟨1, one, 1⟩] := by
  cases s <;> decide +kernel

theorem canonicalExp_one (s : System) {x : Name} (hx : x ≠ one) : canonicalExp s one x = 0 := by
  rw [canonicalExp_eq quantityOf_one, canonical_identity, totalExp_cons, if_neg (Ne.symm hx), totalExp_nil, add_zero]

/-- Units in which every name is the canonical unit of the quantity that it measures. -/
def SelfCanonical (s : System) (r : List Term) : Prop :=
  ∀ t ∈ r, t.base ≠ one → ∃ p, quantityOf t.base = some p ∧ p ∈ dark ∧ canonicalExpr s p = [⟨1, t.base, 1⟩]

/-- The norm of a unit always consists of such names. -/
theorem norm_selfCanonical {u r : List Term} {s : System} (hd : ∀ t ∈ u, Dark t.base) (hr : UnitLike r)
    (he : ∀ x, x ≠ one → totalExp r x = normExp s u x) : SelfCanonical s r := by
  intro t ht h1
  have hnz : totalExp r t.base ≠ 0 := by
    by_cases hno : ∃ x, x ≠ one ∧ totalExp r x ≠ 0
    · rw [(hr.no_one hno t ht).2]
      exact (hr.terms.2.1 t ht).2.1
    · push Not at hno
      have : r = [⟨1, one, 1⟩] := expr_ext hr.1 isExpr_one (by rw [hr.totals.1]; simp [totalCoef])
        (fun x hx => by rw [hno x hx, totalExp_cons, if_neg (Ne.symm hx), totalExp_nil, add_zero])
      rw [this, List.mem_singleton] at ht
      rw [ht] at h1
      exact absurd rfl h1
  rw [he _ h1] at hnz
  obtain ⟨y, hy, hy0⟩ := sum_ne_zero hnz
  obtain ⟨w, hw, rfl⟩ := List.mem_map.1 hy
  obtain ⟨q, hq, hqd⟩ := mem_dark (hd w hw)
  rw [canonicalExp_eq hq] at hy0
  obtain ⟨c, hc, hcb⟩ := totalExp_ne_zero_mem (right_ne_zero_of_mul hy0)
  have := selfNamed_spec hqd hc (by rw [hcb]; exact h1)
  rw [hcb] at this
  exact this

theorem quantityTotal_self {s : System} {r : List Term} (h : SelfCanonical s r) (hone : ∀ t ∈ r, t.base ≠ one)
    {x : Name} {p : Str} (hp : quantityOf x = some p) (hc : canonicalExpr s p = [⟨1, x, 1⟩]) :
    quantityTotal r p = totalExp r x := by
  induction r with
  | nil => rw [quantityTotal_nil, totalExp_nil]
  | cons t r ih =>
    rw [quantityTotal_cons, totalExp_cons, ih (fun t ht => h t (List.mem_cons_of_mem _ ht))
      (fun t ht => hone t (List.mem_cons_of_mem _ ht))]
    obtain ⟨p', h1, h2, h3⟩ := h t (by simp) (hone t (by simp))
    have hiff : quantityOf t.base = some p ↔ t.base = x := by
      constructor
      · intro he
        rw [he] at h1
        injection h1 with h1
        rw [← h1, hc] at h3
        injection h3 with h3
        injection h3 with _ h3
        exact h3.symm
      · intro he
        rw [he]; exact hp
    by_cases hb : t.base = x
    · rw [if_pos hb, if_pos (hiff.2 hb)]
    · rw [if_neg hb, if_neg (fun h => hb (hiff.1 h))]

/-- The exponents of the quantities of such a unit are among its exponents. -/
theorem self_bound {s : System} {r : List Term} (hr : UnitLike r) (hs : SelfCanonical s r)
    (hb : ∀ t ∈ r, |t.exp| ≤ 2 ^ 48) (p : Str) : |quantityTotal r p| ≤ 2 ^ 48 := by
  by_cases hno : ∃ x, x ≠ one ∧ totalExp r x ≠ 0
  · by_cases hz : quantityTotal r p = 0
    · rw [hz]; norm_num
    · have hone := fun t ht => (hr.no_one hno t ht).1
      obtain ⟨y, hy, hy0⟩ := sum_ne_zero hz
      obtain ⟨t, ht, rfl⟩ := List.mem_map.1 hy
      by_cases he : quantityOf t.base = some p
      · obtain ⟨p', h1, _, h3⟩ := hs t ht (hone t ht)
        rw [he] at h1
        injection h1 with h1
        rw [← h1] at h3
        rw [quantityTotal_self hs hone he h3, (hr.no_one hno t ht).2]
        exact hb t ht
      · exact absurd (if_neg he) hy0
  · push Not at hno
    have : r = [⟨1, one, 1⟩] := expr_ext hr.1 isExpr_one (by rw [hr.totals.1]; simp [totalCoef])
      (fun x hx => by rw [hno x hx, totalExp_cons, if_neg (Ne.symm hx), totalExp_nil, add_zero])
    refine (quantityTotal_le r p).trans ?_
    rw [this]
    norm_num [size]

/-- The norm of a unit of this kind, in either system. -/
theorem norm_second {limit : Nat} (h8 : 8 ≤ limit) {s : System} {r : List Term} (hr : UnitLike r)
    (hs : SelfCanonical s r) (hb : ∀ t ∈ r, |t.exp| ≤ 2 ^ 48) :
    ∃ m, norm actualBook (lookupUnits limit) r = .ok m ∧
      ∀ s', UnitLike (m.get s') ∧ ∀ x, x ≠ one → totalExp (m.get s') x = normExp s' r x := by
  have hk : KnownUnit r := by
    refine ⟨hr.terms.1, fun t ht => ⟨(hr.terms.2.1 t ht).2.1, ?_, ?_⟩⟩
    · by_cases h1 : t.base = one
      · rcases hr.terms.2.2 t ht with ⟨_, he, _⟩ | ⟨_, hv, _⟩
        · rw [he]; rfl
        · exact absurd h1 hv.ne_one
      · exact (hr.2.2 t ht h1).2
    · by_cases h1 : t.base = one
      · rw [h1]; exact ⟨_, quantityOf_one, by decide⟩
      · obtain ⟨p, hp, hpd, _⟩ := hs t ht h1
        exact ⟨p, hp, dark_ne hpd⟩
  refine c155_norm_partial limit h8 r hk ?_ (self_bound hr hs hb)
  by_cases hno : ∃ x, x ≠ one ∧ totalExp r x ≠ 0
  · have hone := fun t ht => (hr.no_one hno t ht).1
    obtain ⟨x, hx, hne⟩ := hno
    obtain ⟨t, ht, hb⟩ := totalExp_ne_zero_mem hne
    obtain ⟨p, hp, _, hc⟩ := hs t ht (by rw [hb]; exact hx)
    rw [hb] at hp hc
    exact ⟨p, by rw [quantityTotal_self hs hone hp hc]; exact hne⟩
  · push Not at hno
    have : r = [⟨1, one, 1⟩] := expr_ext hr.1 isExpr_one (by rw [hr.totals.1]; simp [totalCoef])
      (fun x hx => by rw [hno x hx, totalExp_cons, if_neg (Ne.symm hx), totalExp_nil, add_zero])
    refine ⟨c!"identity", ?_⟩
    rw [this, quantityTotal_cons, quantityTotal_nil, quantityOf_one, if_pos rfl, add_zero]
    exact one_ne_zero

theorem normExp_cons (s : System) (t : Term) (u : List Term) (x : Name) :
    normExp s (t :: u) x = t.exp * canonicalExp s t.base x + normExp s u x := by
  rw [normExp, List.map_cons, List.sum_cons, normExp]

theorem normExp_nil (s : System) (x : Name) : normExp s [] x = 0 := by
  rw [normExp, List.map_nil, List.sum_nil]

theorem normExp_self {s : System} {r : List Term} (hs : SelfCanonical s r) {x : Name} (hx : x ≠ one) :
    normExp s r x = totalExp r x := by
  induction r with
  | nil => rw [normExp_nil, totalExp_nil]
  | cons t r ih =>
    rw [normExp_cons, totalExp_cons, ih (fun t ht => hs t (List.mem_cons_of_mem _ ht))]
    congr 1
    by_cases h1 : t.base = one
    · rw [h1, canonicalExp_one s hx, if_neg (Ne.symm hx), mul_zero]
    · obtain ⟨p, hp, _, hc⟩ := hs t (by simp) h1
      rw [canonicalExp_eq hp, hc, totalExp_cons, totalExp_nil, add_zero, mul_ite, mul_one, mul_zero]

theorem canonicalExp_le {s : System} {y : Name} (h : Known y) (x : Name) (hx : x ≠ one) : |canonicalExp s y x| ≤ 16 := by
  obtain ⟨q, hq, hqi⟩ := h
  obtain ⟨_, _, _, hm⟩ := quantityOf_some hq
  have hrow := rows q (hm hqi)
  rw [canonicalExp_eq hq]
  by_cases hz : totalExp (canonicalExpr s q) x = 0
  · rw [hz]; norm_num
  · obtain ⟨t, ht, hbase⟩ := totalExp_ne_zero_mem hz
    have := (expr_term (row_of hrow s).2.1.1 ht).2 (by rw [hbase]; exact hx)
    rw [hbase] at this
    rw [this]
    exact row_small hrow s t ht

theorem normExp_le {s : System} {u : List Term} (h : ∀ t ∈ u, Known t.base) {x : Name} (hx : x ≠ one) :
    |normExp s u x| ≤ size u * 16 := by
  induction u with
  | nil => rw [normExp_nil]; simp [size]
  | cons t u ih =>
    have hs : size (t :: u) = |t.exp| + size u := by simp [size]
    rw [normExp_cons, hs, add_mul]
    refine (abs_add_le _ _).trans (add_le_add ?_ (ih (fun t ht => h t (List.mem_cons_of_mem _ ht))))
    rw [abs_mul]
    exact mul_le_mul_of_nonneg_left (canonicalExp_le (h t (by simp)) x hx) (abs_nonneg _)

theorem norm_bound {s : System} {u r : List Term} (hu : KnownUnit u) (hb : size u ≤ 2 ^ 40) (hr : UnitLike r)
    (he : ∀ x, x ≠ one → totalExp r x = normExp s u x) : ∀ t ∈ r, |t.exp| ≤ 2 ^ 48 := by
  intro t ht
  by_cases h1 : t.base = one
  · rw [(expr_term hr.1 ht).1 h1]; norm_num
  · rw [← (expr_term hr.1 ht).2 h1, he _ h1]
    refine (normExp_le (fun t ht => (hu.2 t ht).2.2) h1).trans ?_
    calc size u * 16 ≤ 2 ^ 40 * 16 := mul_le_mul_of_nonneg_right hb (by norm_num)
      _ ≤ 2 ^ 48 := by norm_num

theorem total_bound {u : List Term} (hb : size u ≤ 2 ^ 40) (q : Str) : |quantityTotal u q| ≤ 2 ^ 48 :=
  (quantityTotal_le u q).trans (hb.trans (by norm_num))

/-- **C156.** Normalizing is idempotent: the norm of a unit in a system, normalized again in that system, is the same
expression. This holds for all units for which C155 gives a norm, other than those about light and with exponents so large
that they cease to be exact floats. -/
theorem c156_idempotent_partial (limit : Nat) (h8 : 8 ≤ limit) (u : List Term) (hu : KnownUnit u)
    (hnc : ∃ q, quantityTotal u q ≠ 0) (hb : size u ≤ 2 ^ 40) (hd : ∀ t ∈ u, Dark t.base) :
    ∃ n, norm actualBook (lookupUnits limit) u = .ok n ∧
      ∀ s, ∃ m, norm actualBook (lookupUnits limit) (n.get s) = .ok m ∧ m.get s = n.get s := by
  obtain ⟨n, h1, h2⟩ := c155_norm_partial limit h8 u hu hnc (total_bound hb)
  refine ⟨n, h1, fun s => ?_⟩
  have hs := norm_selfCanonical hd (h2 s).1 (h2 s).2
  obtain ⟨m, m1, m2⟩ := norm_second h8 (h2 s).1 hs (norm_bound hu hb (h2 s).1 (h2 s).2)
  refine ⟨m, m1, ?_⟩
  exact expr_ext (m2 s).1.1 (h2 s).1.1 (by rw [(m2 s).1.totals.1, (h2 s).1.totals.1])
    (fun x hx => by rw [(m2 s).2 x hx, normExp_self hs hx])

/-- **C156, violated.** For the units of light normalizing is not idempotent: the canonical unit of luminous intensity is
written `cd`, which is read as the hundredth part of a day. -/
theorem c156_idempotent_counterexample :
    normText actualBook 8 .mks c!"candela" = .ok c!"cd" ∧ normText actualBook 8 .mks c!"cd" = .ok c!"s" ∧
    normText actualBook 8 .cgs c!"lm" = .ok c!"cd sr" ∧ normText actualBook 8 .cgs c!"cd sr" = .ok c!"s sr" := by
  rw [actualBook_eq]
  refine ⟨?_, ?_, ?_, ?_⟩ <;> decide +kernel

/-- A unit of several names that meets the hypotheses, and its norms. -/
example : (∀ x ∈ [c!"P", c!"statV", c!"eV"], Dark x) ∧
    normText actualBook 8 .mks c!"P statV / eV" = .ok c!"V kg J^-1 m^-1 s^-1" ∧
    normText actualBook 8 .mks c!"V kg J^-1 m^-1 s^-1" = .ok c!"V kg J^-1 m^-1 s^-1" := by
  refine ⟨?_, ?_, ?_⟩
  · have h : ∀ x ∈ [c!"P", c!"statV", c!"eV"], ∃ q ∈ measured, quantityOf x = some q ∧ q ≠ c!"illuminance" ∧
        q ≠ c!"luminous intensity" ∧ q ≠ c!"luminous flux" := by
      simp only [quantityOf_eq]
      decide +kernel
    intro x hx
    obtain ⟨q, _, hq⟩ := h x hx
    exact ⟨q, hq⟩
  · rw [actualBook_eq]; decide +kernel
  · rw [actualBook_eq]; decide +kernel

/-! ## C157: from one system to the other -/

/-- The quantities whose canonical unit in each system is a single name, of which the quantity is that quantity, or `1`. -/
def simple : List Str :=
  [c!"length", c!"mass", c!"mass number", c!"time", c!"current", c!"temperature", c!"amount", c!"number",
    c!"plane angle", c!"solid angle", c!"frequency", c!"energy", c!"force", c!"charge", c!"potential", c!"magnetic flux",
    c!"induction", c!"radioactivity", c!"identity"]

/-- The check, for arbitrary tables: the canonical unit is a single name, and its quantity has the same canonical units. -/
def singleIn (canon : System → Str → List Term) (quantity : Name → Option Str) (s : System) (q : Str) : Bool :=
  match canon s q with
  | [t] => t.coef = 1 && t.exp = 1 && (match quantity t.base with
    | some p => canon .mks p = canon .mks q && canon .cgs p = canon .cgs q
    | none => false)
  | _ => false

theorem singleIn_spec {canon : System → Str → List Term} {quantity : Name → Option Str} {s : System} {q : Str}
    (h : singleIn canon quantity s q = true) :
    ∃ y p, canon s q = [⟨1, y, 1⟩] ∧ quantity y = some p ∧ ∀ s', canon s' p = canon s' q := by
  unfold singleIn at h
  cases he : canon s q with
  | nil => rw [he] at h; cases h
  | cons t ts =>
    rw [he] at h
    cases ts with
    | cons _ _ => cases h
    | nil =>
      simp only [Bool.and_eq_true, decide_eq_true_eq] at h
      obtain ⟨c, y, e⟩ := t
      simp only at h
      obtain ⟨⟨rfl, rfl⟩, h⟩ := h
      cases ho : quantity y with
      | none => rw [ho] at h; cases h
      | some p =>
        rw [ho] at h
        simp only [Bool.and_eq_true, decide_eq_true_eq] at h
        refine ⟨y, p, rfl, ho, ?_⟩
        rintro (_ | _)
        · exact h.1
        · exact h.2

/-- `quantityOf` in a form that is faster to evaluate. -/
def fastQuantity (x : Name) : Option Str := (orUnknown (lookupFast x)).toOption.map NamedUnit.quantity

theorem fastQuantity_eq : fastQuantity = quantityOf := funext fun x => (quantityOf_eq x).symm

theorem single_all : ∀ q ∈ simple, singleIn canonicalExpr fastQuantity .mks q = true ∧
    singleIn canonicalExpr fastQuantity .cgs q = true := by decide +kernel

theorem single_spec {s : System} {q : Str} (hq : q ∈ simple) :
    ∃ y p, canonicalExpr s q = [⟨1, y, 1⟩] ∧ quantityOf y = some p ∧ ∀ s', canonicalExpr s' p = canonicalExpr s' q := by
  have h : singleIn canonicalExpr fastQuantity s q = true := by
    cases s
    · exact (single_all q hq).1
    · exact (single_all q hq).2
  rw [fastQuantity_eq] at h
  exact singleIn_spec h

theorem sum_names (qn : Name → Name) (f : Name → Rat) (hf : f one = 0) {u r : List Term}
    (h : ∀ x, x ≠ one → totalExp r x = quantityExp qn u x) :
    (r.map (fun t => t.exp * f t.base)).sum = (u.map (fun t => t.exp * f (qn t.base))).sum := by
  let v : List Term := u.map (fun t => (⟨1, qn t.base, t.exp⟩ : Term))
  let F : Finset Name := ((r ++ v).map (·.base)).toFinset
  have hF : ∀ t ∈ r ++ v, t.base ∈ F := fun t ht => List.mem_toFinset.2 (List.mem_map_of_mem ht)
  have hv : (u.map (fun t => t.exp * f (qn t.base))).sum = (v.map (fun t => t.exp * f t.base)).sum := by
    rw [List.map_map]; rfl
  rw [hv, sum_terms f F r (fun t ht => hF t (by simp [ht])), sum_terms f F v (fun t ht => hF t (by simp [ht]))]
  apply Finset.sum_congr rfl
  intro x _
  by_cases hx : x = one
  · rw [hx, hf, mul_zero, mul_zero]
  · rw [h x hx]
    rfl

/-- **C157.** For units of quantities whose canonical unit is a single name in each system (`simple`), it does not matter
in which system a unit was normalized before: the norm in the other system is the same. -/
theorem c157_between_partial (limit : Nat) (h8 : 8 ≤ limit) (u : List Term) (hu : KnownUnit u)
    (hnc : ∃ q, quantityTotal u q ≠ 0) (hb : size u ≤ 2 ^ 40)
    (hsimple : ∀ t ∈ u, ∃ q, quantityOf t.base = some q ∧ q ∈ simple) :
    ∃ n, norm actualBook (lookupUnits limit) u = .ok n ∧
      ∀ s, ∃ m, norm actualBook (lookupUnits limit) (n.get s) = .ok m ∧ ∀ s', m.get s' = n.get s' := by
  have hd : ∀ t ∈ u, Dark t.base := by
    intro t ht
    obtain ⟨q, hq, hqs⟩ := hsimple t ht
    have : ∀ q ∈ simple, q ≠ c!"illuminance" ∧ q ≠ c!"luminous intensity" ∧ q ≠ c!"luminous flux" := by decide +kernel
    exact ⟨q, hq, this q hqs⟩
  obtain ⟨n, h1, h2⟩ := c155_norm_partial limit h8 u hu hnc (total_bound hb)
  refine ⟨n, h1, fun s => ?_⟩
  have hs := norm_selfCanonical hd (h2 s).1 (h2 s).2
  obtain ⟨m, m1, m2⟩ := norm_second h8 (h2 s).1 hs (norm_bound hu hb (h2 s).1 (h2 s).2)
  refine ⟨m, m1, fun s' => ?_⟩
  refine expr_ext (m2 s').1.1 (h2 s').1.1 (by rw [(m2 s').1.totals.1, (h2 s').1.totals.1]) (fun x hx => ?_)
  rw [(m2 s').2 x hx, (h2 s').2 x hx]
  let qn : Name → Name := fun y => match quantityOf y with
    | some q => ((canonicalExpr s q).map (·.base)).headD one
    | none => one
  have hqn : ∀ t ∈ u, ∃ q y p, quantityOf t.base = some q ∧ qn t.base = y ∧ canonicalExpr s q = [⟨1, y, 1⟩] ∧
      quantityOf y = some p ∧ ∀ s', canonicalExpr s' p = canonicalExpr s' q := by
    intro t ht
    obtain ⟨q, hq, hqs⟩ := hsimple t ht
    obtain ⟨y, p, g1, g2, g3⟩ := single_spec (s := s) hqs
    refine ⟨q, y, p, hq, ?_, g1, g2, g3⟩
    simp only [qn, hq, g1]
    rfl
  have hsum : ∀ x, x ≠ one → totalExp (n.get s) x = quantityExp qn u x := by
    intro x hx
    rw [(h2 s).2 x hx]
    clear h1 h2 m1 m2 hs hu hnc hb hsimple hd
    induction u with
    | nil => rw [normExp_nil, quantityExp_nil]
    | cons t u ih =>
      rw [normExp_cons, quantityExp_cons, ih (fun t ht => hqn t (List.mem_cons_of_mem _ ht))]
      obtain ⟨q, y, p, g1, g2, g3, _⟩ := hqn t (by simp)
      rw [canonicalExp_eq g1, g3, g2, totalExp_cons, totalExp_nil, add_zero, mul_ite, mul_one, mul_zero]
  have := sum_names qn (fun y => canonicalExp s' y x) (canonicalExp_one s' hx) hsum
  unfold normExp
  rw [this]
  congr 1
  apply List.map_congr_left
  intro t ht
  obtain ⟨q, y, p, g1, g2, g3, g4, g5⟩ := hqn t ht
  rw [g2, canonicalExp_eq g4, canonicalExp_eq g1, g5]

/-- **C157, violated.** In general it does matter: normalized in `cgs` a farad is a centimeter, and the norm of that in `mks`
is a meter. Likewise for a pascal and others. -/
theorem c157_between_counterexample :
    normText actualBook 8 .cgs c!"F" = .ok c!"cm" ∧ normText actualBook 8 .mks c!"cm" = .ok c!"m" ∧
    normText actualBook 8 .mks c!"F" = .ok c!"F" ∧
    normText actualBook 8 .mks c!"Oe" = .ok c!"A m^-1" ∧ normText actualBook 8 .cgs c!"A m^-1" = .ok c!"statA cm^-1" ∧
    normText actualBook 8 .cgs c!"Oe" = .ok c!"Oe" := by
  rw [actualBook_eq]
  refine ⟨?_, ?_, ?_, ?_, ?_, ?_⟩ <;> decide +kernel

example : (∀ x ∈ [c!"km", c!"G", c!"nuc"], ∃ q ∈ simple, quantityOf x = some q) ∧
    normText actualBook 8 .cgs c!"T km / nuc" = .ok c!"G cm" ∧ normText actualBook 8 .mks c!"G cm" = .ok c!"T m" ∧
    normText actualBook 8 .mks c!"T km / nuc" = .ok c!"T m" := by
  rw [actualBook_eq]
  simp only [quantityOf_eq]
  refine ⟨?_, ?_, ?_, ?_⟩ <;> decide +kernel

/-! ## C158: products -/

theorem normExp_sum (s : System) {x : Name} (hx : x ≠ one) {u v r : List Term}
    (h : ∀ y, y ≠ one → totalExp r y = totalExp u y + totalExp v y) :
    normExp s r x = normExp s u x + normExp s v x := by
  have := sum_names id (fun y => canonicalExp s y x) (canonicalExp_one s hx) (u := u ++ v) (r := r) (by
    intro y hy
    have e : (u ++ v).map (fun t => (⟨1, id t.base, t.exp⟩ : Term)) = (u ++ v).map (fun t => (⟨1, t.base, t.exp⟩ : Term)) := rfl
    have hc : ∀ l : List Term, totalExp (l.map (fun t => (⟨1, t.base, t.exp⟩ : Term))) y = totalExp l y := by
      intro l
      induction l with
      | nil => rfl
      | cons t l ih => rw [List.map_cons, totalExp_cons, totalExp_cons, ih]
    rw [quantityExp, e, hc, totalExp_append, h y hy])
  unfold normExp
  rw [this, List.map_append, List.sum_append]
  rfl

/-- **C158.** Norms respect products: when two units and a unit with the sums of their exponents (their product) all have a
norm, then in each system the norm of the product is the product of the norms. -/
theorem c158_product_partial (limit : Nat) (h8 : 8 ≤ limit) (u v r : List Term)
    (hu : KnownUnit u) (hv : KnownUnit v) (hr : KnownUnit r)
    (hcu : ∃ q, quantityTotal u q ≠ 0) (hcv : ∃ q, quantityTotal v q ≠ 0) (hcr : ∃ q, quantityTotal r q ≠ 0)
    (hb : ∀ q, |quantityTotal u q| ≤ 2 ^ 48 ∧ |quantityTotal v q| ≤ 2 ^ 48 ∧ |quantityTotal r q| ≤ 2 ^ 48)
    (h : ∀ y, y ≠ one → totalExp r y = totalExp u y + totalExp v y) :
    ∃ nu nv nr, norm actualBook (lookupUnits limit) u = .ok nu ∧ norm actualBook (lookupUnits limit) v = .ok nv ∧
      norm actualBook (lookupUnits limit) r = .ok nr ∧ ∀ s, exprMul (nu.get s) (nv.get s) = .ok (nr.get s) := by
  obtain ⟨nu, u1, u2⟩ := c155_norm_partial limit h8 u hu hcu (fun q => (hb q).1)
  obtain ⟨nv, v1, v2⟩ := c155_norm_partial limit h8 v hv hcv (fun q => (hb q).2.1)
  obtain ⟨nr, r1, r2⟩ := c155_norm_partial limit h8 r hr hcr (fun q => (hb q).2.2)
  refine ⟨nu, nv, nr, u1, v1, r1, fun s => ?_⟩
  obtain ⟨p, p1, p2, p3, p4, p5⟩ := exprMul_spec (u2 s).1.1 (v2 s).1.1
  have hpu := unitLike_mul (u2 s).1 (v2 s).1 p1 p3 p4
  rw [p5 hpu.printable]
  congr 1
  refine expr_ext p1 (r2 s).1.1 (by rw [hpu.totals.1, (r2 s).1.totals.1]) (fun x hx => ?_)
  rw [p4 x hx, (u2 s).2 x hx, (v2 s).2 x hx, (r2 s).2 x hx, normExp_sum s hx h]

/-- **C158, violated.** A product of units with norms need not have one: `m * cm^-1`. -/
theorem c158_product_counterexample (limit : Nat) : normText actualBook 8 .mks c!"m" = .ok c!"m" ∧
    normText actualBook 8 .mks c!"cm^-1" = .ok c!"m^-1" ∧
    exprMul [⟨1, c!"m", 1⟩] [⟨1, c!"cm", -1⟩] = .ok [⟨1, c!"m", 1⟩, ⟨1, c!"cm", -1⟩] ∧
    norm actualBook (lookupUnits limit) [⟨1, c!"m", 1⟩, ⟨1, c!"cm", -1⟩] = .error (.named "RecursionError") := by
  refine ⟨?_, ?_, ?_, c155_norm_counterexample limit _ ratio_cancels.1 ratio_cancels.2⟩
  · rw [actualBook_eq]; decide +kernel
  · rw [actualBook_eq]; decide +kernel
  · decide +kernel

example : normText actualBook 8 .cgs c!"km / h" = .ok c!"cm s^-1" ∧ normText actualBook 8 .cgs c!"N" = .ok c!"dyn" ∧
    normText actualBook 8 .cgs c!"km N / h" = .ok c!"cm dyn s^-1" := by
  rw [actualBook_eq]
  refine ⟨?_, ?_, ?_⟩ <;> decide +kernel

end Verif.Systems
