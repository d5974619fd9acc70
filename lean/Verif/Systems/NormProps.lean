import Verif.Systems.Lemmas
import Verif.Systems.Spec

/-!
# C155-C156: norms of units
-/

set_option linter.unusedSimpArgs false

namespace Verif.Systems

open Verif.Py Verif.Symbolic Verif.Metric

attribute [local irreducible] units allUnits prefixes identify canonicalUnits quantities

/-! ## Checks of the tables -/

/-- Whether a name is one that the parser reads as a name. -/
def nameOk (n : Name) : Bool :=
  n.takeWhile isLetter ≠ [] && (n.dropWhile isLetter).all isDigit && !(c!"sqrt").isPrefixOf n

theorem validName_of {n : Name} (h : nameOk n = true) : ValidName n := by
  simp only [nameOk, Bool.and_eq_true, decide_eq_true_eq, Bool.not_eq_true', List.all_eq_true] at h
  obtain ⟨⟨h1, h2⟩, h3⟩ := h
  refine ⟨n.takeWhile isLetter, n.dropWhile isLetter, (List.takeWhile_append_dropWhile).symm, h1, ?_, h2, ?_⟩
  · intro c hc
    exact List.mem_takeWhile_imp hc
  · rw [← List.isPrefixOf_iff_prefix]
    rw [h3]; simp

/-- Whether an expression is like those of units. -/
def unitLikeB (e : List Term) : Bool :=
  e ≠ [] && e.all (fun t => t.coef = 1 && t.exp ≠ 0 && t.base ≠ [] && (t.base = one || (nameOk t.base && t.exp.den = 1)))
    && (match reduce e with | .ok r => r = e | .error _ => false)

theorem unitLike_of {e : List Term} (h : unitLikeB e = true) : UnitLike e := by
  simp only [unitLikeB, Bool.and_eq_true, decide_eq_true_eq, List.all_eq_true, Bool.or_eq_true] at h
  obtain ⟨⟨h1, h2⟩, h3⟩ := h
  refine ⟨⟨e, h1, ?_, ?_⟩, fun t ht => (h2 t ht).1.1.1, ?_⟩
  · intro t ht
    obtain ⟨⟨⟨a, b⟩, c⟩, _⟩ := h2 t ht
    exact ⟨by rw [a]; exact one_ne_zero, b, c⟩
  · cases hr : reduce e with
    | ok r => rw [hr] at h3; simp only [decide_eq_true_eq] at h3; rw [h3]
    | error _ => rw [hr] at h3; cases h3
  · intro t ht hne
    obtain ⟨_, h4⟩ := h2 t ht
    rcases h4 with h4 | h4
    · exact absurd h4 hne
    · exact ⟨validName_of h4.1, h4.2⟩

/-- The name of a quantity as a base of a term. -/
def joined (q : Str) : Name := pyReplace q c!" " c!"_"

/-- What `UNITS[name]` gives for one system, parsed. -/
def parsedUnits (s : System) (name : Str) : List Term :=
  match lookupUnits 8 name with
  | .ok v => match ofString (v.get s) with
    | .ok e => e
    | .error _ => []
  | .error _ => []

/-- The quantities of the table of units other than illuminance, each once. -/
def measured : List Str :=
  [c!"length", c!"mass", c!"mass number", c!"time", c!"current", c!"temperature", c!"amount", c!"number",
    c!"luminous intensity", c!"plane angle", c!"solid angle", c!"frequency", c!"energy", c!"force", c!"pressure",
    c!"power", c!"charge", c!"potential", c!"resistance", c!"conductance", c!"capacitance", c!"magnetic flux",
    c!"magnetic intensity", c!"inductance", c!"induction", c!"luminous flux", c!"radioactivity", c!"dosage",
    c!"viscosity", c!"identity"]

theorem mem_measured : ∀ u ∈ units, u.quantity ≠ c!"illuminance" → u.quantity ∈ measured := by decide +kernel

theorem joined_injective : ∀ q ∈ measured, pyReplace (joined q) c!"_" c!" " = q := by decide +kernel

/-- The check of one quantity of the table of units. -/
def rowOk (q : Str) : Bool :=
  (canonicalExpr .mks q ++ canonicalExpr .cgs q).all (fun t => |t.exp| ≤ 16) && nameOk (joined q) && unitLikeB (canonicalExpr .mks q) && unitLikeB (canonicalExpr .cgs q) &&
    (match lookupUnits 8 (joined q) with
      | .ok v => (match ofString v.mks, ofString v.cgs with
        | .ok e, .ok f => e = canonicalExpr .mks q && f = canonicalExpr .cgs q
        | _, _ => false)
      | .error _ => false)

theorem rows : ∀ q ∈ measured, rowOk q = true := by decide +kernel

theorem mem_units {x : Name} {n : NamedUnit} (h : identify x = .ok n) : n.base ∈ units := by
  have := (lookup_some (identify_ok h)).1
  rw [allUnits] at this
  obtain ⟨p, _, hp⟩ := List.mem_flatMap.1 this
  obtain ⟨u, hu, rfl⟩ := List.mem_map.1 hp
  exact hu

theorem toOption_some {r : Res NamedUnit} {q : Str} (h : r.toOption.map NamedUnit.quantity = some q) :
    ∃ n, r = .ok n ∧ n.quantity = q := by
  cases r with
  | error e => cases h
  | ok n => injection h with h; exact ⟨n, rfl, h⟩

theorem quantityOf_some {x : Name} {q : Str} (h : quantityOf x = some q) :
    ∃ n, identify x = .ok n ∧ n.quantity = q ∧ (q ≠ c!"illuminance" → q ∈ measured) := by
  rw [quantityOf] at h
  obtain ⟨n, h1, h2⟩ := toOption_some h
  refine ⟨n, h1, h2, fun hne => ?_⟩
  subst h2
  exact mem_measured n.base (mem_units h1) hne

theorem row_of {q : Str} (h : rowOk q = true) (s : System) :
    ValidName (joined q) ∧ UnitLike (canonicalExpr s q) ∧
      ∃ v, lookupUnits 8 (joined q) = .ok v ∧ ofString (v.get s) = .ok (canonicalExpr s q) := by
  simp only [rowOk, Bool.and_eq_true] at h
  obtain ⟨⟨⟨⟨_, h1⟩, h2⟩, h2'⟩, h3⟩ := h
  refine ⟨validName_of h1, unitLike_of (by cases s <;> assumption), ?_⟩
  cases hl : lookupUnits 8 (joined q) with
  | error e => rw [hl] at h3; cases h3
  | ok v =>
    rw [hl] at h3
    refine ⟨v, rfl, ?_⟩
    cases ho : ofString v.mks with
    | error e => simp only [ho] at h3; cases h3
    | ok e =>
      cases ho' : ofString v.cgs with
      | error e => simp only [ho, ho'] at h3; cases h3
      | ok f =>
        simp only [ho, ho', Bool.and_eq_true, decide_eq_true_eq] at h3
        cases s
        · exact ho.trans (by rw [h3.1])
        · exact ho'.trans (by rw [h3.2])

theorem row_small {q : Str} (h : rowOk q = true) (s : System) : ∀ t ∈ canonicalExpr s q, |t.exp| ≤ 16 := by
  simp only [rowOk, Bool.and_eq_true] at h
  obtain ⟨⟨⟨⟨h0, _⟩, _⟩, _⟩, _⟩ := h
  intro t ht
  have := List.all_eq_true.1 h0 t (by cases s <;> simp [ht])
  exact of_decide_eq_true this

/-! ## C155: the norm of a unit -/

/-- The name under which the quantity of a unit is looked up. -/
def baseName (x : Name) : Name := ((quantityOf x).map joined).getD []

theorem baseName_eq {x : Name} {q : Str} (h : quantityOf x = some q) : baseName x = joined q := by
  rw [baseName, h]; rfl

theorem canonicalExp_eq {y : Name} {q : Str} (h : quantityOf y = some q) (s : System) (x : Name) :
    canonicalExp s y x = totalExp (canonicalExpr s q) x := by
  rw [canonicalExp, h]; rfl

theorem quantityExp_step {t : Term} (h : Known t.base) {q : Str} (hq : q ∈ measured) :
    (if baseName t.base = joined q then t.exp else 0) = if quantityOf t.base = some q then t.exp else 0 := by
  obtain ⟨p, hp, hpi⟩ := h
  obtain ⟨_, _, _, hm⟩ := quantityOf_some hp
  have hiff : baseName t.base = joined q ↔ quantityOf t.base = some q := by
    rw [baseName_eq hp, hp, Option.some.injEq]
    constructor
    · intro hj
      rw [← joined_injective p (hm hpi), ← joined_injective q hq, hj]
    · intro he
      rw [he]
  by_cases hb : baseName t.base = joined q
  · rw [if_pos hb, if_pos (hiff.1 hb)]
  · rw [if_neg hb, if_neg (fun h => hb (hiff.2 h))]

theorem quantityExp_cons (qn : Name → Name) (t : Term) (u : List Term) (x : Name) :
    quantityExp qn (t :: u) x = (if qn t.base = x then t.exp else 0) + quantityExp qn u x := by
  rw [quantityExp, List.map_cons, totalExp_cons]
  rfl

theorem quantityTotal_cons (t : Term) (u : List Term) (q : Str) :
    quantityTotal (t :: u) q = (if quantityOf t.base = some q then t.exp else 0) + quantityTotal u q := by
  rw [quantityTotal, List.map_cons, List.sum_cons, quantityTotal]

theorem quantityExp_nil (qn : Name → Name) (x : Name) : quantityExp qn [] x = 0 := rfl

theorem quantityTotal_nil (q : Str) : quantityTotal [] q = 0 := by
  rw [quantityTotal, List.map_nil, List.sum_nil]

theorem quantityExp_eq {u : List Term} (h : ∀ t ∈ u, Known t.base) {q : Str} (hq : q ∈ measured) :
    quantityExp baseName u (joined q) = quantityTotal u q := by
  induction u with
  | nil => rw [quantityExp_nil, quantityTotal_nil]
  | cons t u ih =>
    rw [quantityExp_cons, quantityTotal_cons, quantityExp_step (h t (by simp)) hq,
      ih (fun t ht => h t (List.mem_cons_of_mem _ ht))]

theorem lookupUnits_mono {limit : Nat} (h8 : 8 ≤ limit) {q : Str} {v : PerSystem Str}
    (h : lookupUnits 8 q = .ok v) : lookupUnits limit q = .ok v := by
  obtain ⟨more, rfl⟩ := Nat.exists_eq_add_of_le h8
  exact getProperty_mono _ _ _ more _ _ h

/-- What is needed of the tables, for the units in question. -/
theorem known_spec {limit : Nat} (h8 : 8 ≤ limit) {u : List Term} (hu : KnownUnit u) :
    (∀ t ∈ u, ∃ n, actualBook.ident t.base = .ok n ∧ quantityName n = baseName t.base) ∧
    (∀ t ∈ u, ValidName (baseName t.base)) ∧
    (∀ s, ∀ t ∈ u, ∃ v, lookupUnits limit (baseName t.base) = .ok v
      ∧ ofString (v.get s) = .ok (parsedUnits s (baseName t.base)) ∧ UnitLike (parsedUnits s (baseName t.base))) ∧
    (∀ s, ∀ t ∈ u, ∀ x, totalExp (parsedUnits s (baseName t.base)) x = canonicalExp s t.base x) ∧
    (∀ s, ∀ t ∈ u, ∀ c ∈ parsedUnits s (baseName t.base), |c.exp| ≤ 16) := by
  have key : ∀ t ∈ u, ∃ n q, identify t.base = .ok n ∧ quantityName n = joined q ∧ quantityOf t.base = some q
      ∧ baseName t.base = joined q ∧ rowOk q = true := by
    intro t ht
    obtain ⟨_, _, q, hq, hne⟩ := hu.2 t ht
    obtain ⟨n, h1, h2, hm⟩ := quantityOf_some hq
    exact ⟨n, q, h1, by rw [quantityName, h2]; rfl, hq, baseName_eq hq, rows q (hm hne)⟩
  have hparsed : ∀ (s : System) (q : Str), rowOk q = true → parsedUnits s (joined q) = canonicalExpr s q := by
    intro s q h
    obtain ⟨_, _, v, h1, h2⟩ := row_of h s
    unfold parsedUnits
    rw [h1]
    simp only [h2]
  refine ⟨?_, ?_, ?_, ?_, ?_⟩
  · intro t ht
    obtain ⟨n, q, h1, h2, _, h4, _⟩ := key t ht
    exact ⟨n, h1, by rw [h4]; exact h2⟩
  · intro t ht
    obtain ⟨n, q, h1, h2, _, h4, h5⟩ := key t ht
    rw [h4]; exact (row_of h5 .mks).1
  · intro s t ht
    obtain ⟨n, q, h1, h2, _, h4, h5⟩ := key t ht
    obtain ⟨_, r2, v, r3, r4⟩ := row_of h5 s
    rw [h4, hparsed s q h5]
    exact ⟨v, lookupUnits_mono h8 r3, r4, r2⟩
  · intro s t ht x
    obtain ⟨n, q, h1, h2, h3, h4, h5⟩ := key t ht
    rw [h4, hparsed s q h5]
    exact (canonicalExp_eq h3 s x).symm
  · intro s t ht
    obtain ⟨n, q, h1, h2, h3, h4, h5⟩ := key t ht
    rw [h4, hparsed s q h5]
    exact row_small h5 s

theorem quantityExp_le {u : List Term} (hu : KnownUnit u) (hb : ∀ q, |quantityTotal u q| ≤ 2 ^ 48) (x : Name) :
    |quantityExp baseName u x| ≤ 2 ^ 48 := by
  by_cases hne : quantityExp baseName u x = 0
  · rw [hne]; norm_num
  · obtain ⟨t, ht, hbase⟩ := totalExp_ne_zero_mem hne
    obtain ⟨w, hw, rfl⟩ := List.mem_map.1 ht
    obtain ⟨q, hq, hqi⟩ := (hu.2 w hw).2.2
    obtain ⟨_, _, _, hv⟩ := quantityOf_some hq
    have hx : x = joined q := by
      rw [← hbase]; exact baseName_eq hq
    rw [hx, quantityExp_eq (fun t ht => (hu.2 t ht).2.2) (hv hqi)]
    exact hb q

theorem quantityTotal_le (u : List Term) (q : Str) : |quantityTotal u q| ≤ size u := by
  induction u with
  | nil => rw [quantityTotal_nil]; simp [size]
  | cons t u ih =>
    rw [quantityTotal_cons]
    have hs : size (t :: u) = |t.exp| + size u := by simp [size]
    rw [hs]
    refine (abs_add_le _ _).trans (add_le_add ?_ ih)
    split
    · exact le_refl _
    · rw [abs_zero]; exact abs_nonneg _

/-- **C155.** A unit made of known names with integer exponents, whatever its coefficient and in whatever order, has a
norm in both systems unless all its quantities cancel; the norm has no coefficient, and its exponents are those that result
from replacing every name by the canonical unit of its quantity. The recursion limit is arbitrary, from 8 up. The
exponents of a norm are floats, hence the bound on those of the quantities. -/
theorem c155_norm_partial (limit : Nat) (h8 : 8 ≤ limit) (u : List Term) (hu : KnownUnit u)
    (hnc : ∃ q, quantityTotal u q ≠ 0) (hb : ∀ q, |quantityTotal u q| ≤ 2 ^ 48) :
    ∃ n, norm actualBook (lookupUnits limit) u = .ok n ∧
      ∀ s, UnitLike (n.get s) ∧ ∀ x, x ≠ one → totalExp (n.get s) x = normExp s u x := by
  obtain ⟨k1, k2, k3, k4, k5⟩ := known_spec h8 hu
  have hnc' : ∃ x, quantityExp baseName u x ≠ 0 := by
    obtain ⟨q, hq⟩ := hnc
    refine ⟨joined q, ?_⟩
    have : q ∈ measured := by
      obtain ⟨y, hy, hy0⟩ := sum_ne_zero hq
      obtain ⟨t, ht, rfl⟩ := List.mem_map.1 hy
      by_cases he : quantityOf t.base = some q
      · obtain ⟨_, _, _, h⟩ := quantityOf_some he
        obtain ⟨_, _, p, hp, hpi⟩ := hu.2 t ht
        rw [he] at hp
        injection hp with hp
        exact h (by rw [hp]; exact hpi)
      · exact absurd (if_neg he) hy0
    rw [quantityExp_eq (fun t ht => (hu.2 t ht).2.2) this]
    exact hq
  obtain ⟨n, h1, h2⟩ := norm_spec actualBook (lookupUnits limit) baseName parsedUnits hu.1
    (fun t ht => ⟨(hu.2 t ht).1, (hu.2 t ht).2.1⟩) k1 k2 k3 (quantityExp_le hu hb) k5 hnc'
  refine ⟨n, h1, fun s => ⟨(h2 s).1, fun x hx => ?_⟩⟩
  rw [(h2 s).2 x hx]
  unfold normExp
  congr 1
  apply List.map_congr_left
  intro t ht
  rw [k4 s t ht x]

/-- `UNITS['1']` exceeds every recursion limit. -/
theorem lookupUnits_one (limit : Nat) : lookupUnits limit one = .error (.named "RecursionError") := by
  unfold lookupUnits
  have h0 : findQuantity quantities one = none := by decide +kernel
  have h1 : ofString (joinWords (quantities.map (·.1)) one) = .ok [⟨1, one, 1⟩] := by decide +kernel
  have h2 : pyReplace one c!"_" c!" " = one := by decide +kernel
  induction limit with
  | zero => rfl
  | succ limit ih =>
    rw [getProperty, h0]
    have key : ∀ get : Str → Res (PerSystem Str), get one = .error (.named "RecursionError") →
        parseProperty (quantities.map (·.1)) get one = .error (.named "RecursionError") := by
      intro get hg
      rw [parseProperty, h1]
      show (do
        let parts ← [(⟨1, one, 1⟩ : Term)].mapM (expandTerm get)
        _) = _
      rw [List.mapM_cons]
      have : expandTerm get ⟨1, one, 1⟩ = .error (.named "RecursionError") := by
        rw [expandTerm]
        show (do let v ← get (pyReplace one c!"_" c!" "); _) = _
        rw [h2, hg]
        rfl
      rw [this]
      rfl
    exact key _ ih

/-- **C155, violated.** A unit whose quantities all cancel, such as `m / cm`, has no norm: `UNITS['1']` exceeds every
recursion limit. -/
theorem c155_norm_counterexample (limit : Nat) (u : List Term) (hu : KnownUnit u)
    (hc : ∀ q, quantityTotal u q = 0) :
    norm actualBook (lookupUnits limit) u = .error (.named "RecursionError") := by
  obtain ⟨k1, k2, _, _, _⟩ := known_spec (limit := 8) (le_refl _) hu
  have hc' : ∀ x, quantityExp baseName u x = 0 := by
    intro x
    by_contra hne
    obtain ⟨t, ht, hb⟩ := totalExp_ne_zero_mem hne
    obtain ⟨w, hw, rfl⟩ := List.mem_map.1 ht
    obtain ⟨q, hq, hqi⟩ := (hu.2 w hw).2.2
    obtain ⟨_, _, _, hv⟩ := quantityOf_some hq
    have hx : x = joined q := by
      rw [← hb]; exact baseName_eq hq
    rw [hx, quantityExp_eq (fun t ht => (hu.2 t ht).2.2) (hv hqi)] at hne
    exact hne (hc q)
  unfold norm
  rw [unitQuantity_cancel actualBook baseName hu.1 (fun t ht => ⟨(hu.2 t ht).1, (hu.2 t ht).2.1⟩) k1 k2 hc']
  have : normIn (lookupUnits limit) [⟨1, one, 1⟩] .mks = .error (.named "RecursionError") := by
    unfold normIn
    rw [List.mapM_cons]
    have : normTerm (lookupUnits limit) .mks ⟨1, one, 1⟩ = .error (.named "RecursionError") := by
      unfold normTerm
      show (do let v ← lookupUnits limit one; _) = _
      rw [lookupUnits_one]
      rfl
    rw [this]
    rfl
  show (do
    let m ← normIn (lookupUnits limit) [⟨1, one, 1⟩] .mks
    let c ← normIn (lookupUnits limit) [⟨1, one, 1⟩] .cgs
    return (⟨m, c⟩ : PerSystem (List Term))) = _
  rw [this]
  rfl

theorem quantityOf_eq (x : Name) : quantityOf x = (orUnknown (lookupFast x)).toOption.map NamedUnit.quantity := by
  rw [quantityOf, identify_eq, lookup_fast]

/-- The hypotheses of `c155_norm_partial` hold for `2 km / h` in terms; the norm is `m / s` and `cm / s`. -/
example : KnownUnit [⟨2, one, 1⟩, ⟨1, c!"km", 1⟩, ⟨1, c!"h", -1⟩] ∧
    quantityTotal [⟨2, one, 1⟩, ⟨1, c!"km", 1⟩, ⟨1, c!"h", -1⟩] c!"length" ≠ 0 ∧
    (∀ q, |quantityTotal [⟨2, one, 1⟩, ⟨1, c!"km", 1⟩, ⟨1, c!"h", -1⟩] q| ≤ 2 ^ 48) ∧
    normExp .cgs [⟨2, one, 1⟩, ⟨1, c!"km", 1⟩, ⟨1, c!"h", -1⟩] c!"cm" = 1 ∧
    normText actualBook 8 .cgs c!"2 km / h" = .ok c!"cm s^-1" := by
  refine ⟨⟨by simp, ?_⟩, ?_, fun q => (quantityTotal_le _ q).trans (by norm_num [size]), ?_, ?_⟩
  · have h : ∀ x ∈ [one, c!"km", c!"h"], ∃ q ∈ [c!"identity", c!"length", c!"time"],
        quantityOf x = some q ∧ q ≠ c!"illuminance" := by
      simp only [quantityOf_eq]
      decide +kernel
    have h' : ∀ x ∈ [one, c!"km", c!"h"], Known x := fun x hx => by
      obtain ⟨q, _, hq⟩ := h x hx
      exact ⟨q, hq⟩
    intro t ht
    rcases List.mem_cons.1 ht with rfl | ht
    · exact ⟨by decide, by decide, h' _ (by simp)⟩
    · rcases List.mem_cons.1 ht with rfl | ht
      · exact ⟨by decide, by decide, h' _ (by simp)⟩
      · rw [List.mem_singleton.1 ht]
        exact ⟨by decide, by decide, h' _ (by simp)⟩
  · simp only [quantityTotal, quantityOf_eq]
    decide +kernel
  · simp only [normExp, canonicalExp, quantityOf_eq]
    decide +kernel
  · rw [actualBook_eq]
    decide +kernel

/-- The hypotheses of `c155_norm_counterexample` hold for `m / cm`. -/
theorem ratio_cancels : KnownUnit [⟨1, c!"m", 1⟩, ⟨1, c!"cm", -1⟩] ∧ ∀ q, quantityTotal [⟨1, c!"m", 1⟩, ⟨1, c!"cm", -1⟩] q = 0 := by
  have hm : quantityOf c!"m" = some c!"length" := by rw [quantityOf_eq]; decide +kernel
  have hc : quantityOf c!"cm" = some c!"length" := by rw [quantityOf_eq]; decide +kernel
  refine ⟨⟨by simp, ?_⟩, ?_⟩
  · intro t ht
    rcases List.mem_cons.1 ht with rfl | ht
    · exact ⟨by decide, by decide, _, hm, by decide⟩
    · rw [List.mem_singleton.1 ht]
      exact ⟨by decide, by decide, _, hc, by decide⟩
  · intro q
    rw [quantityTotal_cons, quantityTotal_cons, quantityTotal_nil, hm, hc]
    split <;> simp

end Verif.Systems
