import Verif.Systems.Model
import Verif.Systems.Spec

/-!
# C159-C160: searching for a unit in a metric system
-/

set_option linter.unusedSimpArgs false

namespace Verif.Systems

open Verif.Py Verif.Symbolic Verif.Metric

attribute [local irreducible] units allUnits prefixes identify canonicalUnits canonicalDimensions quantities

/-! ## C159: what is tried, and in which order -/

/-- **C159, a unit is given.** The result is the norm of the given unit, or the exception that computing the norm raises,
whatever the other arguments are. -/
theorem c159_unit (b : Book) (limit : Nat) (s : System) (u : Target) (hu : u.truthy = true) (h1 : u.str ≠ one)
    (dimension quantity : Option Target) :
    getUnit b limit s (some u) dimension quantity = (do
      let n ← norm b (lookupUnits limit) (← u.terms)
      return n.get s) := by
  unfold getUnit
  simp only [List.filterMap_cons, Option.map_some, List.filter_cons, hu, if_true, tryWays, h1, if_false, method]
  cases u.terms with
  | error e => rfl
  | ok ts =>
    show (do
      let r ← (do return some ((← norm b (lookupUnits limit) ts).get s))
      match r with
      | some u => return u
      | none => tryWays b limit s _) = (do
        let n ← norm b (lookupUnits limit) ts
        return n.get s)
    cases norm b (lookupUnits limit) ts <;> rfl

/-- **C159, nothing is given.** Without arguments, or with empty strings, the search fails with `SearchError`. -/
theorem c159_nothing (b : Book) (limit : Nat) (s : System) (unit dimension quantity : Option Target)
    (h : ∀ t, unit = some t ∨ dimension = some t ∨ quantity = some t → t.truthy = false) :
    getUnit b limit s unit dimension quantity = .error (.named "SearchError") := by
  unfold getUnit
  have hnil : ((([(Way.unit, unit), (Way.dimension, dimension), (Way.quantity, quantity)].filterMap
      (fun p => p.2.map (fun t => (p.1, t))))).filter (fun p => p.2.truthy)) = [] := by
    rw [List.filter_eq_nil_iff]
    intro p hp
    obtain ⟨a, ha, hpa⟩ := List.mem_filterMap.1 hp
    simp only [List.mem_cons, List.not_mem_nil, or_false] at ha
    rcases ha with rfl | rfl | rfl
    all_goals
      rw [Option.map_eq_some_iff] at hpa
      obtain ⟨t, ht, rfl⟩ := hpa
      simp only at ht
      have := h t (by simp [ht])
      simp [this]
  rw [hnil]
  rfl

/-- Only a dimension is given. -/
theorem getUnit_dimension (b : Book) (limit : Nat) (s : System) (d : Target) (hd : d.truthy = true) (h1 : d.str ≠ one) :
    getUnit b limit s none (some d) none = (do
      match ← searchDimension b.units s d canonicalDimensions with
      | some r => return r
      | none => .error (.named "SearchError")) := by
  unfold getUnit
  simp only [List.filterMap_cons, Option.map_some, Option.map_none, List.filterMap_nil, List.filter_cons, hd, if_true,
    List.filter_nil, tryWays, h1, if_false, method]
  rfl

/-- Only a quantity is given. -/
theorem getUnit_quantity (b : Book) (limit : Nat) (s : System) (q : Target) (hq : q.truthy = true) (h1 : q.str ≠ one) :
    getUnit b limit s none none (some q) = quantityUnit limit s q.str := by
  unfold getUnit
  simp only [List.filterMap_cons, Option.map_some, Option.map_none, List.filterMap_nil, List.filter_cons, hq, if_true,
    List.filter_nil, tryWays, h1, if_false, method]
  cases quantityUnit limit s q.str <;> rfl

/-! ## Searching by dimension -/

/-- The row of the table that a search by dimension should find: the first whose dimension is the given one. -/
def FirstWith (rows : List (Str × PerSystem Str)) (s : System) (ts : List Term) (e : Str × PerSystem Str) : Prop :=
  ∃ before after, rows = before ++ e :: after ∧ (∃ d, ofString (e.2.get s) = .ok d ∧ d.Perm ts) ∧
    ∀ e' ∈ before, ¬ ∃ d, ofString (e'.2.get s) = .ok d ∧ d.Perm ts

theorem searchDimension_spec (units : Str → Option (PerSystem Str)) (s : System) (ts : List Term) :
    ∀ rows : List (Str × PerSystem Str), (∀ e ∈ rows, ∃ d, ofString (e.2.get s) = .ok d) →
      (∀ e ∈ rows, ∃ w r, units e.1 = some w ∧ ofString (w.get s) = .ok r) →
      (∃ e w r, FirstWith rows s ts e ∧ units e.1 = some w ∧ ofString (w.get s) = .ok r ∧
        searchDimension units s (.expr ts) rows = .ok (some r)) ∨
      ((∀ e ∈ rows, ¬ ∃ d, ofString (e.2.get s) = .ok d ∧ d.Perm ts) ∧
        searchDimension units s (.expr ts) rows = .ok none) := by
  intro rows
  induction rows with
  | nil => intro _ _; exact Or.inr ⟨by simp, rfl⟩
  | cons e rows ih =>
    intro hd hu
    obtain ⟨d, hde⟩ := hd e (by simp)
    obtain ⟨w, r, hw, hr⟩ := hu e (by simp)
    have hstep : searchDimension units s (.expr ts) (e :: rows) =
        if exprEq ts d then .ok (some r) else searchDimension units s (.expr ts) rows := by
      obtain ⟨q, dd⟩ := e
      simp only at hde hw
      rw [searchDimension]
      simp only [sameAs, hde, hw, orKeyError, hr, bind, Except.bind, pure, Except.pure]
    rw [hstep]
    by_cases he : exprEq ts d = true
    · left
      exact ⟨e, w, r, ⟨[], rows, rfl, ⟨d, hde, ((exprEq_iff_perm ts d).1 he).symm⟩, by simp⟩, hw, hr, if_pos he⟩
    · have hno : ¬ ∃ d, ofString (e.2.get s) = .ok d ∧ d.Perm ts := by
        rintro ⟨d', h1, h2⟩
        rw [hde] at h1
        injection h1 with h1
        rw [← h1] at h2
        exact he ((exprEq_iff_perm ts d).2 h2.symm)
      rw [if_neg he]
      rcases ih (fun e he => hd e (List.mem_cons_of_mem _ he)) (fun e he => hu e (List.mem_cons_of_mem _ he)) with
        ⟨e', w', r', ⟨bf, af, h1, h2, h3⟩, h4, h5, h6⟩ | ⟨h1, h2⟩
      · left
        refine ⟨e', w', r', ⟨e :: bf, af, by rw [h1]; rfl, h2, ?_⟩, h4, h5, h6⟩
        intro x hx
        rcases List.mem_cons.1 hx with rfl | hx
        · exact hno
        · exact h3 x hx
      · right
        refine ⟨?_, h2⟩
        intro x hx
        rcases List.mem_cons.1 hx with rfl | hx
        · exact hno
        · exact h1 x hx

/-- Whether a computation succeeds. -/
def succeeds {α : Type _} : Res α → Bool
  | .ok _ => true
  | .error _ => false

theorem succeeds_iff {α : Type _} {r : Res α} : succeeds r = true ↔ ∃ a, r = .ok a := by
  cases r <;> simp [succeeds]

theorem parse_dimensions : ∀ e ∈ canonicalDimensions,
    succeeds (ofString e.2.mks) = true ∧ succeeds (ofString e.2.cgs) = true := by decide +kernel

/-- Whether a quantity has a canonical unit in each system. -/
def hasUnits (units : Str → Option (PerSystem Str)) (q : Str) : Bool :=
  match units q with
  | some w => succeeds (ofString w.mks) && succeeds (ofString w.cgs)
  | none => false

theorem hasUnits_spec {units : Str → Option (PerSystem Str)} {q : Str} (h : hasUnits units q = true) (s : System) :
    ∃ w r, units q = some w ∧ ofString (w.get s) = .ok r := by
  unfold hasUnits at h
  cases hu : units q with
  | none => rw [hu] at h; cases h
  | some w =>
    rw [hu] at h
    simp only [Bool.and_eq_true, succeeds_iff] at h
    cases s
    · obtain ⟨r, hr⟩ := h.1; exact ⟨w, r, rfl, hr⟩
    · obtain ⟨r, hr⟩ := h.2; exact ⟨w, r, rfl, hr⟩

theorem parse_units : ∀ e ∈ canonicalDimensions, hasUnits (findProperty canonicalUnits) e.1 = true := by decide +kernel

theorem parses {e : Str × PerSystem Str} (h : e ∈ canonicalDimensions) (s : System) :
    ∃ d, ofString (e.2.get s) = .ok d := by
  obtain ⟨h1, h2⟩ := parse_dimensions e h
  cases s
  · exact succeeds_iff.1 h1
  · exact succeeds_iff.1 h2

/-- **C159, a dimension is given.** When some quantity of the table has the given dimension in the system, the result is the
canonical unit of the first of them, whatever the order of the terms of the dimension; when there is none, the search fails
with `SearchError`. The dimension is an expression other than `1`. -/
theorem c159_dimension_partial (limit : Nat) (s : System) (ts : List Term) (hne : ts ≠ []) (h1 : exprStr ts ≠ one) :
    (∃ e w r, FirstWith canonicalDimensions s ts e ∧ findProperty canonicalUnits e.1 = some w ∧
      ofString (w.get s) = .ok r ∧ getUnit actualBook limit s none (some (.expr ts)) none = .ok r) ∨
    ((∀ e ∈ canonicalDimensions, ¬ ∃ d, ofString (e.2.get s) = .ok d ∧ d.Perm ts) ∧
      getUnit actualBook limit s none (some (.expr ts)) none = .error (.named "SearchError")) := by
  rw [getUnit_dimension actualBook limit s (.expr ts) (by simp [Target.truthy, hne]) h1]
  have hb : actualBook.units = findProperty canonicalUnits := rfl
  rw [hb]
  rcases searchDimension_spec (findProperty canonicalUnits) s ts canonicalDimensions (fun e he => parses he s)
    (fun e he => hasUnits_spec (parse_units e he) s) with ⟨e, w, r, g1, g2, g3, g4⟩ | ⟨g1, g2⟩
  · left
    refine ⟨e, w, r, g1, g2, g3, ?_⟩
    rw [g4]
    rfl
  · right
    refine ⟨g1, ?_⟩
    rw [g2]
    rfl

/-- **C159, violated for strings.** A dimension given as a string is compared as text: `L / T` is not found in `mks`, where
the table says `L T^-1`, although it is found in `cgs`, where the conductance is listed as `L / T`, and although the
corresponding expression is found in both. -/
theorem c159_text_counterexample :
    getUnit actualBook 8 .mks none (some (.text c!"L / T")) none = .error (.named "SearchError") ∧
    getUnit actualBook 8 .mks none (some (.text c!"L T^-1")) none = .ok [⟨1, c!"m", 1⟩, ⟨1, c!"s", -1⟩] ∧
    getUnit actualBook 8 .cgs none (some (.text c!"L / T")) none = .ok [⟨1, c!"cm", 1⟩, ⟨1, c!"s", -1⟩] ∧
    ofString c!"L / T" = .ok [⟨1, c!"L", 1⟩, ⟨1, c!"T", -1⟩] ∧
    getUnit actualBook 8 .mks none (some (.expr [⟨1, c!"L", 1⟩, ⟨1, c!"T", -1⟩])) none
      = .ok [⟨1, c!"m", 1⟩, ⟨1, c!"s", -1⟩] := by
  rw [actualBook_eq]
  refine ⟨?_, ?_, ?_, ?_, ?_⟩ <;> decide +kernel

theorem c159_identity (b : Book) (limit : Nat) (h8 : 8 ≤ limit) (s : System) (d : Target) (h : d.str = one) :
    getUnit b limit s none (some d) none = .ok [⟨1, one, 1⟩] := by
  have hd : d.truthy = true := by
    cases d with
    | text t =>
      have : t = one := h
      rw [this]; rfl
    | expr ts =>
      cases ts with
      | nil => cases h
      | cons t ts => rfl
  unfold getUnit
  simp only [List.filterMap_cons, Option.map_some, Option.map_none, List.filterMap_nil, List.filter_cons, hd, if_true,
    List.filter_nil, tryWays, h]
  have hq : quantityUnit 8 s c!"identity" = .ok [⟨1, one, 1⟩] := by cases s <;> decide +kernel
  have hl : quantityUnit limit s c!"identity" = .ok [⟨1, one, 1⟩] := by
    obtain ⟨more, rfl⟩ := Nat.exists_eq_add_of_le h8
    have hu : lookupUnits 8 (lower c!"identity") = .ok ⟨one, one⟩ := by decide +kernel
    have hv : lookupDims 8 (lower c!"identity") = .ok ⟨one, one⟩ := by decide +kernel
    have hu' : lookupUnits (8 + more) (lower c!"identity") = .ok ⟨one, one⟩ := getProperty_mono _ _ _ more _ _ hu
    have hv' : lookupDims (8 + more) (lower c!"identity") = .ok ⟨one, one⟩ := getProperty_mono _ _ _ more _ _ hv
    unfold quantityUnit
    rw [hu', hv']
    cases s <;> decide +kernel
  rw [hl]
  show ofString (exprStr [⟨1, one, 1⟩]) = _
  decide +kernel

/-- **C159, a quantity is given.** For every quantity of the table, in whatever case its name is written, the result is its
canonical unit. -/
theorem c159_quantity (b : Book) (limit : Nat) (h8 : 8 ≤ limit) (s : System) (name : Str)
    (h : lower name ∈ quantities.map (·.1)) :
    ∃ w r, (lower name, w) ∈ canonicalUnits ∧ ofString (w.get s) = .ok r ∧
      getUnit b limit s none none (some (.text name)) = .ok r := by
  obtain ⟨more, rfl⟩ := Nat.exists_eq_add_of_le h8
  have hne : ∀ q ∈ quantities.map (·.1), q ≠ [] ∧ q ≠ one := by decide +kernel
  have hn : name ≠ [] := by
    rintro rfl
    exact (hne _ h).1 rfl
  have h1 : name ≠ one := by
    rintro rfl
    exact (hne _ h).2 (by decide)
  obtain ⟨⟨v, hv1, hv2⟩, ⟨w, hw1, hw2⟩⟩ := c81_partial (lower name) h more
  have hq : getUnit b (8 + more) s none none (some (.text name)) = quantityUnit (8 + more) s name :=
    getUnit_quantity b (8 + more) s (.text name) (by simp [Target.truthy, hn]) h1
  have hp : ∀ e ∈ canonicalUnits, succeeds (ofString e.2.mks) = true ∧ succeeds (ofString e.2.cgs) = true := by
    decide +kernel
  have hr : ∃ r, ofString (w.get s) = .ok r := by
    obtain ⟨g1, g2⟩ := hp _ hw1
    cases s
    · exact succeeds_iff.1 g1
    · exact succeeds_iff.1 g2
  obtain ⟨r, hr⟩ := hr
  refine ⟨w, r, hw1, hr, ?_⟩
  rw [hq]
  unfold quantityUnit lookupUnits lookupDims
  rw [hw2, hv2]
  exact hr

example : lower c!"Mass Density" ∈ quantities.map (·.1) ∧
    (c!"mass density", (⟨c!"kg m^-3", c!"g cm^-3"⟩ : PerSystem Str)) ∈ canonicalUnits := by decide +kernel

/-! ## C160: the unit has the dimension that was asked for -/

theorem unit_row : ∀ e ∈ canonicalDimensions, e.1 ∈ canonicalUnits.map (·.1) := by decide +kernel

theorem find_dimensions : ∀ e ∈ canonicalDimensions, findProperty canonicalDimensions e.1 = some e.2 := by decide +kernel

/-- `dimensionAgrees`, for arbitrary tables, says that the dimension of the canonical unit is the listed one. -/
theorem agrees_spec {b : Book} {q : Str} {s : System} {w d : PerSystem Str} {r ts : List Term}
    (hw : b.units q = some w) (hd : b.dims q = some d) (hr : ofString (w.get s) = .ok r)
    (ht : ∃ e, ofString (d.get s) = .ok e ∧ e.Perm ts) (h : dimensionAgrees b q s = .ok true) :
    ∃ e, unitDimension b r s = .ok (some e) ∧ e.Perm ts := by
  obtain ⟨e, he, hp⟩ := ht
  unfold dimensionAgrees at h
  simp only [hw, hd, orKeyError, bind, Except.bind, hr, he, pure, Except.pure] at h
  cases hx : unitDimension b r s with
  | error e' => rw [hx] at h; cases h
  | ok o =>
    rw [hx] at h
    cases o with
    | none => cases h
    | some x =>
      simp only [Except.ok.injEq] at h
      exact ⟨x, rfl, ((exprEq_iff_perm x e).1 h).trans hp⟩

/-- **C160.** The unit that is found for a dimension has that dimension, unless the quantity that was found is one of the
four whose listed dimension is not that of their unit (C78). -/
theorem c160_has_dimension_partial (limit : Nat) (s : System) (ts r : List Term) (hne : ts ≠ []) (h1 : exprStr ts ≠ one)
    (h : getUnit actualBook limit s none (some (.expr ts)) none = .ok r) :
    ∃ e, FirstWith canonicalDimensions s ts e ∧
      (e.1 ∉ disagreeing → ∃ d, unitDimension actualBook r s = .ok (some d) ∧ d.Perm ts) := by
  rcases c159_dimension_partial limit s ts hne h1 with ⟨e, w, r', g1, g2, g3, g4⟩ | ⟨_, g2⟩
  · rw [h] at g4
    injection g4 with g4
    subst g4
    refine ⟨e, g1, fun hn => ?_⟩
    have g1' := g1
    obtain ⟨bf, af, k1, k2, _⟩ := g1
    have hmem : e ∈ canonicalDimensions := by rw [k1]; simp
    obtain ⟨p, hp, hpe⟩ := List.mem_map.1 (unit_row e hmem)
    have ha := c78_partial p hp (by rw [hpe]; exact hn) s
    rw [hpe] at ha
    exact agrees_spec (b := actualBook) g2 (find_dimensions e hmem) g3 k2 ha
  · rw [h] at g2
    cases g2

/-- **C160, violated.** In `mks`, the unit found for the dimension listed for the permittivity has another dimension; so do
the unit found for luminous intensity and, in `cgs`, a unit for the dimension of the magnetic induction that is not even
written in units of `cgs`. -/
theorem c160_has_dimension_counterexample :
    getUnit actualBook 8 .mks none (some (.expr [⟨1, c!"T", 4⟩, ⟨1, c!"I", 1⟩, ⟨1, c!"M", -1⟩, ⟨1, c!"L", -3⟩])) none
      = .ok [⟨1, c!"F", 1⟩, ⟨1, c!"m", -1⟩] ∧
    dimensionText actualBook .mks c!"F m^-1" = .ok (some c!"T^4 I^2 M^-1 L^-3") ∧
    getUnit actualBook 8 .mks none (some (.expr [⟨1, c!"J", 1⟩])) none = .ok [⟨1, c!"cd", 1⟩, ⟨1, c!"sr", 1⟩] ∧
    dimensionText actualBook .mks c!"cd sr" = .ok (some c!"T") ∧
    getUnit actualBook 8 .cgs none (some (.expr [⟨1, c!"M", 1/2⟩, ⟨1, c!"L", -1/2⟩, ⟨1, c!"T", -1⟩])) none
      = .ok [⟨1, c!"statC", 1⟩, ⟨1, c!"m", -2⟩] := by
  rw [actualBook_eq]
  refine ⟨?_, ?_, ?_, ?_, ?_⟩ <;> decide +kernel

/-- A dimension that meets the hypotheses, with its terms in another order than in the table. -/
example : getUnit actualBook 8 .cgs none (some (.expr [⟨1, c!"L", 2⟩, ⟨1, c!"T", -2⟩, ⟨1, c!"M", 1⟩])) none
      = .ok [⟨1, c!"erg", 1⟩] ∧ exprStr [⟨1, c!"L", 2⟩, ⟨1, c!"T", -2⟩, ⟨1, c!"M", 1⟩] ≠ one := by
  rw [actualBook_eq]
  refine ⟨?_, ?_⟩ <;> decide +kernel

end Verif.Systems
