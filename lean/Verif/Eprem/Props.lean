import Verif.Eprem.Model
import Verif.Runtime.Props
import Verif.Symbolic.Props

/-!
# EPREM datasets: properties C54, C55, C56, C97, C98
-/

set_option linter.unusedSimpArgs false
set_option linter.unusedSectionVars false

namespace Verif.Eprem

open Verif.Py Verif.Runtime

/-! ## C54: standard unit strings -/

theorem splitSlash_append {a b : Str} (h : '/' ∉ a) : splitSlash (a ++ '/' :: b) = some (a, b) := by
  induction a with
  | nil => simp [splitSlash]
  | cons c a ih =>
    simp only [List.mem_cons, not_or] at h
    simp [splitSlash, Ne.symm h.1, ih h.2]

theorem splitSlash_none {a : Str} (h : '/' ∉ a) : splitSlash a = none := by
  induction a with
  | nil => rfl
  | cons c a ih =>
    simp only [List.mem_cons, not_or] at h
    simp [splitSlash, Ne.symm h.1, ih h.2]

/-- The standard form of a quotient: numerator over bracketed denominator. -/
def quotient (a d : Symbolic.Tree) : Symbolic.Tree := .bin .slash a (.group d 1)

theorem quotient_render (a d : Symbolic.Tree) :
    (quotient a d).render = a.render ++ c!" / " ++ ('(' :: d.render ++ [')']) := by
  simp [quotient, Symbolic.Tree.render, Symbolic.Sep.str, Symbolic.powStr]

/-- **C54 (part).** For every unit written as a numerator `a` without slash, a slash, and a
denominator `d` (any expression; any white space around them) that is not one of the known
non-standard units: the standard form is `a / (d)`, which is read as the quotient of the two, under
every assignment of values to the base units; standardising again does not change what it means.
A unit without slash is left alone, and every known non-standard unit is replaced. -/
theorem c54_partial :
    (∀ (a d : Symbolic.Tree) (w1 w2 w3 w4 : Str), a.Ok → d.Ok → a.Exact 1 → d.Exact (-1) →
      a.Positive → d.Positive → '/' ∉ a.render → Trimmed a.render → Trimmed d.render →
      (∀ c ∈ w1 ++ w2 ++ w3 ++ w4, isSpace c = true) →
      ∀ u, u = (w1 ++ a.render ++ w2) ++ '/' :: (w3 ++ d.render ++ w4) → unitMap.get? u = none →
      standardize u = a.render ++ c!" / " ++ ('(' :: d.render ++ [')'])
      ∧ (∃ r, Symbolic.ofString (standardize u) = .ok r ∧ Symbolic.IsExpr r
          ∧ ∀ v, Symbolic.value v r = a.denote v / d.denote v)
      ∧ ∃ r, Symbolic.ofString (standardize (standardize u)) = .ok r
          ∧ ∀ v, Symbolic.value v r = a.denote v / d.denote v)
    ∧ (∀ u, '/' ∉ u → unitMap.get? u = none → standardize u = u)
    ∧ (∀ e ∈ unitMap, (e.2 = c!"# / cm^2 s sr MeV/nuc" ∨ '/' ∉ e.2)
        ∧ (standardize e.1 = e.2 ∨ standardize e.1 = c!"# / (cm^2 s sr MeV/nuc)")) := by
  refine ⟨?_, ?_, by decide +kernel⟩
  · intro a d w1 w2 w3 w4 ha hd hea hed hpa hpd hs ta td hw u hu hm
    have hspace : ∀ w : Str, (∀ c ∈ w, isSpace c = true) → '/' ∉ w := by
      intro w h h'
      exact absurd (h _ h') (by decide)
    have key : ∀ (d : Symbolic.Tree) (w1 w2 w3 w4 : Str), Trimmed d.render →
        (∀ c ∈ w1 ++ w2 ++ w3 ++ w4, isSpace c = true) →
        ∀ u, u = (w1 ++ a.render ++ w2) ++ '/' :: (w3 ++ d.render ++ w4) →
        unitMap.get? u = none → standardize u = (quotient a d).render := by
      intro d w1 w2 w3 w4 td hw u hu hm
      have h1 : '/' ∉ w1 ++ a.render ++ w2 := by
        have a1 := hspace w1 (fun c h => hw c (by simp [h]))
        have a2 := hspace w2 (fun c h => hw c (by simp [h]))
        simp only [List.mem_append, not_or]
        exact ⟨⟨a1, hs⟩, a2⟩
      rw [quotient_render, standardize, hm, Option.getD_none, hu]
      rw [splitSlash_append h1]
      simp only
      rw [strip_of w1 a.render w2 (fun c h => hw c (by simp [h])) (fun c h => hw c (by simp [h])) ta,
        strip_of w3 d.render w4 (fun c h => hw c (by simp [h])) (fun c h => hw c (by simp [h])) td]
    have hone : Symbolic.Writable 1 := by unfold Symbolic.Writable; decide
    have mean : ∀ d : Symbolic.Tree, d.Ok → d.Exact (-1) → d.Positive →
        ∃ r, Symbolic.ofString (quotient a d).render = .ok r ∧ Symbolic.IsExpr r
          ∧ ∀ v, Symbolic.value v r = a.denote v / d.denote v := by
      intro d hd hed hpd
      have hok : (quotient a d).Ok := ⟨ha, ⟨hd, hone⟩, trivial⟩
      have hex : (quotient a d).Exact 1 := by
        refine ⟨hea, ?_⟩
        simp only [Symbolic.Sep.sign, Symbolic.Tree.Exact, one_mul]
        exact hed
      obtain ⟨ts, r, _, h2, h3, h4⟩ :=
        Symbolic.c71_parse_meaning_partial (quotient a d) hok hex ⟨hpa, hpd⟩
      refine ⟨r, h2, h3, fun v => ?_⟩
      rw [(h4 v).2]
      simp [quotient, Symbolic.Tree.denote]
    have e1 := key d w1 w2 w3 w4 td hw u hu hm
    refine ⟨by rw [e1, quotient_render], by rw [e1]; exact mean d hd hed hpd, ?_⟩
    have hm2 : unitMap.get? (quotient a d).render = none := by
      have hne : ∀ e ∈ unitMap, e.1.getLast? ≠ some ')' ∨ e.1 = c!"cos(mu)" := by decide +kernel
      have hlast : (quotient a d).render.getLast? = some ')' := by
        rw [quotient_render]
        have : a.render ++ c!" / " ++ ('(' :: d.render ++ [')'])
            = (a.render ++ c!" / " ++ ('(' :: d.render)) ++ [')'] := by simp
        rw [this, List.getLast?_append]; rfl
      have hmem : '/' ∈ (quotient a d).render := by rw [quotient_render]; simp
      cases hg : unitMap.get? (quotient a d).render with
      | none => rfl
      | some x =>
        have := hne _ (Dict.mem_of_get? hg)
        rcases this with h | h
        · exact absurd hlast h
        · simp only at h
          rw [h] at hmem
          exact absurd hmem (by decide)
    have e2 : standardize (quotient a d).render = (quotient a (.group d 1)).render := by
      apply key (.group d 1) [] [' '] [' '] []
      · refine ⟨?_, ?_⟩
        · intro c hc
          simp [Symbolic.Tree.render] at hc
          subst hc; decide
        · intro c hc
          have : (Symbolic.Tree.group d 1).render.getLast? = some ')' := by
            have : (Symbolic.Tree.group d 1).render = ('(' :: d.render) ++ [')'] := by
              simp [Symbolic.Tree.render, Symbolic.powStr]
            rw [this, List.getLast?_append]; rfl
          rw [this] at hc
          injection hc with hc; subst hc; decide
      · decide
      · rw [quotient_render]; simp [Symbolic.Tree.render, Symbolic.powStr]
      · exact hm2
    rw [e1, e2]
    obtain ⟨r, h1, _, h3⟩ := mean (.group d 1) ⟨hd, hone⟩
      (by simp only [Symbolic.Tree.Exact, one_mul]; exact hed) hpd
    refine ⟨r, h1, fun v => ?_⟩
    rw [h3 v]
    simp [Symbolic.Tree.denote]
  · intro u hs hm
    rw [standardize, hm, Option.getD_none, splitSlash_none hs]

example : standardize c!"cm^-3 s / km  s^2" = c!"cm^-3 s / (km  s^2)"
    ∧ standardize c!"julian date" = c!"day" ∧ standardize c!"erg" = c!"erg" := by decide +kernel

/-- The hypotheses hold for the unit `erg / cm^3 s`. -/
example : let a := Symbolic.Tree.var c!"erg" 1
    let d := Symbolic.Tree.bin .blank (.var c!"cm" 3) (.var c!"s" 1)
    a.Ok ∧ d.Ok ∧ a.Exact 1 ∧ d.Exact (-1) ∧ a.Positive ∧ d.Positive ∧ '/' ∉ a.render
    ∧ d.render = c!"cm^3 s" ∧ unitMap.get? (a.render ++ c!" / " ++ d.render) = none := by
  have w1 : Symbolic.Writable 1 := by unfold Symbolic.Writable; decide
  have w3 : Symbolic.Writable 3 := by unfold Symbolic.Writable; decide
  refine ⟨⟨⟨c!"erg", [], rfl, by simp, by decide, by simp, by decide⟩, w1⟩,
    ⟨⟨⟨c!"cm", [], rfl, by simp, by decide, by simp, by decide⟩, w3⟩,
      ⟨⟨c!"s", [], rfl, by simp, by decide, by simp, by decide⟩, w1⟩, trivial⟩,
    trivial, ⟨trivial, trivial⟩, trivial, ⟨trivial, trivial⟩, by decide +kernel, by decide +kernel,
    by decide +kernel⟩

/-- **C54 fails in the code** for a slash within an exponent: the square root of a metre becomes
half a metre. -/
theorem c54_counterexample :
    standardize c!"m^1/2" = c!"m^1 / (2)"
    ∧ Symbolic.ofString c!"m^1/2" = .ok [⟨1, ['m'], 1/2⟩]
    ∧ Symbolic.ofString (standardize c!"m^1/2") = .ok [⟨1/2, Symbolic.one, 1⟩, ⟨1, ['m'], 1⟩] := by
  decide +kernel

/-! ## C55: order of dimensions -/

/-- **C55.** For every axis order and every set of names: in strict mode the result is the requested
names known to the dataset, in dataset order; in append mode these are followed by the unknown
names; nothing is lost or repeated; any other mode is rejected as soon as there is an unknown
name. -/
theorem c55_resolve (axes names : List Str) (ha : axes.Nodup) (hn : names.Nodup) :
    (∃ r, resolve axes names c!"strict" = .ok r ∧ r.Nodup ∧ r.Sublist axes
      ∧ ∀ d, d ∈ r ↔ d ∈ axes ∧ d ∈ names)
    ∧ (∃ known extra, resolve axes names c!"append" = .ok (known ++ extra)
      ∧ resolve axes names c!"strict" = .ok known
      ∧ (known ++ extra).Perm names ∧ extra.Sublist names ∧ ∀ d ∈ extra, d ∉ axes)
    ∧ (∀ mode, mode ≠ c!"strict" → mode ≠ c!"append" →
      (resolve axes names mode = .error .valueError ↔ ∃ d ∈ names, d ∉ axes)) := by
  have hmem : ∀ d, d ∈ axes.filter (· ∈ names) ↔ d ∈ axes ∧ d ∈ names := by
    intro d; simp [List.mem_filter]
  have hstrict : resolve axes names c!"strict" = .ok (axes.filter (· ∈ names)) := by
    simp [resolve]
  have hextra : ∀ d, d ∈ names.filter (· ∉ axes.filter (· ∈ names)) ↔ d ∈ names ∧ d ∉ axes := by
    intro d
    simp only [List.mem_filter, decide_eq_true_eq, not_and]
    tauto
  refine ⟨⟨_, hstrict, ha.sublist List.filter_sublist, List.filter_sublist, hmem⟩, ?_, ?_⟩
  · refine ⟨_, names.filter (· ∉ axes.filter (· ∈ names)), ?_, hstrict, ?_, List.filter_sublist, ?_⟩
    · unfold resolve
      rw [if_neg (by decide)]
      simp only
      split
      · next h => rw [h, List.append_nil]
      · rfl
    · rw [List.perm_ext_iff_of_nodup]
      · intro d
        rw [List.mem_append, hmem, hextra]
        tauto
      · rw [List.nodup_append]
        refine ⟨ha.sublist List.filter_sublist, hn.sublist List.filter_sublist, ?_⟩
        rintro x hx y hy rfl
        exact ((hextra x).1 hy).2 ((hmem x).1 hx).1
      · exact hn
    · intro d hd; exact ((hextra d).1 hd).2
  · intro mode h1 h2
    unfold resolve
    rw [if_neg h1]
    simp only
    rw [if_neg h2]
    constructor
    · intro h
      split at h
      · cases h
      · next hne =>
        obtain ⟨d, hd⟩ := List.exists_mem_of_ne_nil _ hne
        exact ⟨d, (hextra d).1 hd⟩
    · rintro ⟨d, hd⟩
      rw [if_neg]
      intro h
      have := (hextra d).2 hd
      rw [h] at this
      simp at this

example : resolve [c!"time", c!"shell", c!"energy"] [c!"new", c!"energy", c!"time"] c!"append"
    = .ok [c!"time", c!"energy", c!"new"] := by decide +kernel

/-! ## C56: dimensions of computed quantities -/

/-- `p` is an argument in the list `ps`, or an argument of a computed quantity in it, and so on. -/
inductive Uses (T : Tables) : List Str → Str → Prop
  | here {ps p} : p ∈ ps → Uses T ps p
  | through {ps q m p} : q ∈ ps → T.vars.get? q = none → T.methods.get? q = some m →
      Uses T m.parameters p → Uses T ps p

/-- Dimensions of the variables used. -/
def InputDim (T : Tables) (ps : List Str) (d : Str) : Prop :=
  ∃ p dims, Uses T ps p ∧ T.vars.get? p = some dims ∧ d ∈ dims

/-- Dimensions removed by a computed quantity used. -/
def RemovedDim (T : Tables) (ps : List Str) (d : Str) : Prop :=
  ∃ p m, Uses T ps p ∧ T.vars.get? p = none ∧ T.methods.get? p = some m ∧ d ∈ m.removed

/-- Dimensions added by a computed quantity used. -/
def AddedDim (T : Tables) (ps : List Str) (d : Str) : Prop :=
  ∃ p m, Uses T ps p ∧ T.vars.get? p = none ∧ T.methods.get? p = some m ∧ d ∈ m.added

/-- Computed quantities only use computed quantities of lower rank. -/
def AcyclicTables (T : Tables) (rank : Str → Nat) : Prop :=
  ∀ k m, T.methods.get? k = some m → ∀ p ∈ m.parameters, T.vars.get? p = none →
    (T.methods.get? p).isSome → rank p < rank k

theorem uses_nil {T : Tables} {p : Str} : ¬ Uses T [] p := by
  intro h
  cases h with
  | here h => simp at h
  | through h => simp at h

theorem uses_cons {T : Tables} {q : Str} {ps : List Str} {p : Str} :
    Uses T (q :: ps) p ↔ p = q ∨ Uses T ps p
      ∨ ∃ m, T.vars.get? q = none ∧ T.methods.get? q = some m ∧ Uses T m.parameters p := by
  constructor
  · intro h
    cases h with
    | here h =>
      rcases List.mem_cons.1 h with h | h
      · exact Or.inl h
      · exact Or.inr (Or.inl (.here h))
    | through h h1 h2 h3 =>
      rcases List.mem_cons.1 h with h | h
      · subst h; exact Or.inr (Or.inr ⟨_, h1, h2, h3⟩)
      · exact Or.inr (Or.inl (.through h h1 h2 h3))
  · rintro (rfl | h | ⟨m, h1, h2, h3⟩)
    · exact .here (by simp)
    · cases h with
      | here h => exact .here (by simp [h])
      | through h h1 h2 h3 => exact .through (List.mem_cons_of_mem _ h) h1 h2 h3
    · exact .through (by simp) h1 h2 h3

theorem inputDim_cons (T : Tables) (q : Str) (ps : List Str) (d : Str) :
    InputDim T (q :: ps) d ↔ (∃ dims, T.vars.get? q = some dims ∧ d ∈ dims)
      ∨ (∃ m, T.vars.get? q = none ∧ T.methods.get? q = some m ∧ InputDim T m.parameters d)
      ∨ InputDim T ps d := by
  constructor
  · rintro ⟨p, dims, h, hv, hd⟩
    rcases uses_cons.1 h with rfl | h | ⟨m, h1, h2, h3⟩
    · exact Or.inl ⟨dims, hv, hd⟩
    · exact Or.inr (Or.inr ⟨p, dims, h, hv, hd⟩)
    · exact Or.inr (Or.inl ⟨m, h1, h2, p, dims, h3, hv, hd⟩)
  · rintro (⟨dims, hv, hd⟩ | ⟨m, h1, h2, p, dims, h3, hv, hd⟩ | ⟨p, dims, h, hv, hd⟩)
    · exact ⟨q, dims, uses_cons.2 (Or.inl rfl), hv, hd⟩
    · exact ⟨p, dims, uses_cons.2 (Or.inr (Or.inr ⟨m, h1, h2, h3⟩)), hv, hd⟩
    · exact ⟨p, dims, uses_cons.2 (Or.inr (Or.inl h)), hv, hd⟩

theorem removedDim_cons (T : Tables) (q : Str) (ps : List Str) (d : Str) :
    RemovedDim T (q :: ps) d
      ↔ (∃ m, T.vars.get? q = none ∧ T.methods.get? q = some m
          ∧ (d ∈ m.removed ∨ RemovedDim T m.parameters d))
      ∨ RemovedDim T ps d := by
  constructor
  · rintro ⟨p, m, h, hv, hm, hd⟩
    rcases uses_cons.1 h with rfl | h | ⟨m', h1, h2, h3⟩
    · exact Or.inl ⟨m, hv, hm, Or.inl hd⟩
    · exact Or.inr ⟨p, m, h, hv, hm, hd⟩
    · exact Or.inl ⟨m', h1, h2, Or.inr ⟨p, m, h3, hv, hm, hd⟩⟩
  · rintro (⟨m, h1, h2, hd | ⟨p, m', h3, hv, hm, hd⟩⟩ | ⟨p, m, h, hv, hm, hd⟩)
    · exact ⟨q, m, uses_cons.2 (Or.inl rfl), h1, h2, hd⟩
    · exact ⟨p, m', uses_cons.2 (Or.inr (Or.inr ⟨m, h1, h2, h3⟩)), hv, hm, hd⟩
    · exact ⟨p, m, uses_cons.2 (Or.inr (Or.inl h)), hv, hm, hd⟩

theorem addedDim_cons (T : Tables) (q : Str) (ps : List Str) (d : Str) :
    AddedDim T (q :: ps) d
      ↔ (∃ m, T.vars.get? q = none ∧ T.methods.get? q = some m
          ∧ (d ∈ m.added ∨ AddedDim T m.parameters d))
      ∨ AddedDim T ps d := by
  constructor
  · rintro ⟨p, m, h, hv, hm, hd⟩
    rcases uses_cons.1 h with rfl | h | ⟨m', h1, h2, h3⟩
    · exact Or.inl ⟨m, hv, hm, Or.inl hd⟩
    · exact Or.inr ⟨p, m, h, hv, hm, hd⟩
    · exact Or.inl ⟨m', h1, h2, Or.inr ⟨p, m, h3, hv, hm, hd⟩⟩
  · rintro (⟨m, h1, h2, hd | ⟨p, m', h3, hv, hm, hd⟩⟩ | ⟨p, m, h, hv, hm, hd⟩)
    · exact ⟨q, m, uses_cons.2 (Or.inl rfl), h1, h2, hd⟩
    · exact ⟨p, m', uses_cons.2 (Or.inr (Or.inr ⟨m, h1, h2, h3⟩)), hv, hm, hd⟩
    · exact ⟨p, m, uses_cons.2 (Or.inr (Or.inl h)), hv, hm, hd⟩

theorem mem_unique (a : Acc) (d : Str) :
    d ∈ a.unique ↔ (d ∈ a.accumulated ∧ d ∉ a.removed) ∨ d ∈ a.added := by
  simp [Acc.unique, List.mem_dedup, List.mem_append, List.mem_filter]

theorem nodup_unique (a : Acc) : a.unique.Nodup := List.nodup_dedup _

/-- What the shared attributes contain after the loop over `ps`, starting from `a`. -/
structure Grown (T : Tables) (ps : List Str) (a a' : Acc) : Prop where
  removed : ∀ d, d ∈ a'.removed ↔ d ∈ a.removed ∨ RemovedDim T ps d
  added : ∀ d, d ∈ a'.added ↔ d ∈ a.added ∨ AddedDim T ps d
  lower : ∀ d, d ∈ a.accumulated ∨ InputDim T ps d → d ∈ a'.accumulated
  upper : ∀ d, d ∈ a'.accumulated → d ∈ a.accumulated ∨ InputDim T ps d ∨ d ∈ a'.added

theorem grown_nil (T : Tables) (a : Acc) : Grown T [] a a := by
  have h1 : ∀ d, ¬ RemovedDim T [] d := fun d ⟨_, _, h, _⟩ => uses_nil h
  have h2 : ∀ d, ¬ AddedDim T [] d := fun d ⟨_, _, h, _⟩ => uses_nil h
  have h3 : ∀ d, ¬ InputDim T [] d := fun d ⟨_, _, h, _⟩ => uses_nil h
  constructor <;> intro d <;> simp [h1, h2, h3]
  exact fun h => Or.inl h

theorem resolve_append {axes names : List Str} (ha : axes.Nodup) (hn : names.Nodup) :
    ∃ r, resolve axes names c!"append" = .ok r ∧ r.Nodup ∧ (∀ d, d ∈ r ↔ d ∈ names)
      ∧ ∃ known extra, r = known ++ extra ∧ known.Sublist axes ∧ ∀ d ∈ extra, d ∉ axes := by
  obtain ⟨⟨r0, s1, s2, s3, _⟩, ⟨known, extra, h1, h2, h3, h4, h5⟩, _⟩ := c55_resolve axes names ha hn
  rw [s1] at h2
  injection h2 with h2
  subst h2
  exact ⟨_, h1, (h3.nodup_iff).2 hn, fun d => h3.mem_iff, r0, extra, rfl, s3, h5⟩

theorem gatherAll_grown {T : Tables} {g : Method → Acc → Res (List Str × Acc)}
    {ok : Str → Prop} (hg : ∀ q m, ok q → T.vars.get? q = none → T.methods.get? q = some m →
      ∀ a, ∃ dims a', g m a = .ok (dims, a') ∧ Grown T m.parameters a a'
        ∧ ∀ d, d ∈ dims ↔ (d ∈ a'.accumulated ∧ d ∉ a'.removed) ∨ d ∈ a'.added) :
    ∀ (ps : List Str) (a : Acc), (∀ q ∈ ps, ok q) →
      ∃ a', gatherAll T g ps a = .ok a' ∧ Grown T ps a a' := by
  intro ps
  induction ps with
  | nil => intro a _; exact ⟨a, rfl, grown_nil T a⟩
  | cons p ps ih =>
    intro a hok
    have hps : ∀ q ∈ ps, ok q := fun q hq => hok q (by simp [hq])
    cases hv : T.vars.get? p with
    | some dims =>
      obtain ⟨a', h1, h2⟩ := ih { a with accumulated := a.accumulated ++ dims } hps
      refine ⟨a', by simp only [gatherAll, hv, h1], ?_⟩
      constructor
      · intro d; rw [h2.removed, removedDim_cons]; simp [hv]
      · intro d; rw [h2.added, addedDim_cons]; simp [hv]
      · intro d hd
        apply h2.lower
        rw [inputDim_cons] at hd
        simp only [hv, Option.some.injEq, exists_eq_left', reduceCtorEq, false_and, exists_false,
          false_or] at hd
        simp only [List.mem_append]
        tauto
      · intro d hd
        rw [inputDim_cons]
        simp only [hv, Option.some.injEq, exists_eq_left', reduceCtorEq, false_and, exists_false,
          false_or]
        have := h2.upper d hd
        simp only [List.mem_append] at this
        tauto
    | none =>
      cases hm : T.methods.get? p with
      | none =>
        obtain ⟨a', h1, h2⟩ := ih a hps
        refine ⟨a', by simp only [gatherAll, hv, hm, h1], ?_⟩
        constructor
        · intro d; rw [h2.removed, removedDim_cons]; simp [hv, hm]
        · intro d; rw [h2.added, addedDim_cons]; simp [hv, hm]
        · intro d hd
          apply h2.lower
          rw [inputDim_cons] at hd
          simpa [hv, hm] using hd
        · intro d hd
          rw [inputDim_cons]
          simpa [hv, hm] using h2.upper d hd
      | some m =>
        obtain ⟨dims, a2, e2, g2, d2⟩ := hg p m (hok p (by simp)) hv hm
          { a with removed := a.removed ++ m.removed, added := a.added ++ m.added }
        obtain ⟨a', h1, h2⟩ := ih { a2 with accumulated := a2.accumulated ++ dims } hps
        refine ⟨a', by simp only [gatherAll, hv, hm, e2, h1], ?_⟩
        constructor
        · intro d
          rw [h2.removed, removedDim_cons]
          simp only [g2.removed, List.mem_append, hv, hm, Option.some.injEq, exists_eq_left',
            true_and]
          tauto
        · intro d
          rw [h2.added, addedDim_cons]
          simp only [g2.added, List.mem_append, hv, hm, Option.some.injEq, exists_eq_left',
            true_and]
          tauto
        · intro d hd
          apply h2.lower
          rw [inputDim_cons] at hd
          simp only [hv, hm, Option.some.injEq, exists_eq_left', true_and, reduceCtorEq, false_and,
            exists_false, false_or] at hd
          have := g2.lower d
          simp only [List.mem_append]
          tauto
        · intro d hd
          rw [inputDim_cons]
          simp only [hv, hm, Option.some.injEq, exists_eq_left', true_and, reduceCtorEq, false_and,
            exists_false, false_or]
          have k1 := h2.upper d hd
          have k2 := g2.upper d
          have k3 := d2 d
          have k4 := h2.added d
          simp only [List.mem_append] at k1 k4
          tauto

theorem gather_grown {T : Tables} {rank : Str → Nat} (hT : T.axes.Nodup)
    (hr : AcyclicTables T rank) : ∀ (fuel : Nat) (m : Method),
    (∀ p ∈ m.parameters, T.vars.get? p = none → (T.methods.get? p).isSome → rank p < fuel) →
    ∀ a, ∃ dims a', gather T (fuel + 1) m a = .ok (dims, a') ∧ Grown T m.parameters a a'
      ∧ (∀ d, d ∈ dims ↔ (d ∈ a'.accumulated ∧ d ∉ a'.removed) ∨ d ∈ a'.added)
      ∧ dims.Nodup ∧ ∃ known extra, dims = known ++ extra ∧ known.Sublist T.axes
        ∧ ∀ d ∈ extra, d ∉ T.axes := by
  intro fuel
  induction fuel with
  | zero =>
    intro m hm a
    obtain ⟨a', h1, h2⟩ := gatherAll_grown (T := T) (g := gather T 0)
      (ok := fun p => T.vars.get? p = none → (T.methods.get? p).isSome → False)
      (fun q m' hq hv hm' => (hq hv (by rw [hm']; rfl)).elim) m.parameters a
      (fun p hp hv hs => by have := hm p hp hv hs; omega)
    obtain ⟨r, r1, r2, r3, r4⟩ := resolve_append hT (nodup_unique a')
    refine ⟨r, a', by rw [gather, h1]; simp only [r1], h2, ?_, r2, r4⟩
    intro d; rw [r3, mem_unique]
  | succ fuel ih =>
    intro m hm a
    obtain ⟨a', h1, h2⟩ := gatherAll_grown (T := T) (g := gather T (fuel + 1))
      (ok := fun p => T.vars.get? p = none → (T.methods.get? p).isSome → rank p < fuel + 1)
      (by
        intro q m' hq hv hm' b
        have hq' := hq hv (by rw [hm']; rfl)
        obtain ⟨dims, b', e1, e2, e3, _⟩ := ih m' (by
          intro p hp hpv hps
          have := hr q m' hm' p hp hpv hps
          omega) b
        exact ⟨dims, b', e1, e2, e3⟩) m.parameters a hm
    obtain ⟨r, r1, r2, r3, r4⟩ := resolve_append hT (nodup_unique a')
    refine ⟨r, a', by rw [gather, h1]; simp only [r1], h2, ?_, r2, r4⟩
    intro d; rw [r3, mem_unique]

/-- The cache holds only what a query with an empty cache gives. -/
def CacheOk (T : Tables) (fuel : Nat) (c : Cache) : Prop :=
  ∀ k dims, c.get? k = some dims → (getDimensions T fuel [] k).1 = .ok dims

/-- The cache after a history of queries. -/
def cacheAfter (T : Tables) (fuel : Nat) (keys : List Str) : Cache :=
  keys.foldl (fun c k => (getDimensions T fuel c k).2) []

theorem getDimensions_cache {T : Tables} {fuel : Nat} {c : Cache} (h : CacheOk T fuel c) (k : Str) :
    (getDimensions T fuel c k).1 = (getDimensions T fuel [] k).1
      ∧ CacheOk T fuel (getDimensions T fuel c k).2 := by
  cases hc : c.get? k with
  | some dims =>
    have e : getDimensions T fuel c k = (.ok dims, c) := by simp only [getDimensions, hc]
    rw [e]
    exact ⟨(h k dims hc).symm, h⟩
  | none =>
    cases hm : T.methods.get? k with
    | none =>
      have e : ∀ c' : Cache, c'.get? k = none →
          getDimensions T fuel c' k = (.error .attributeError, c') := by
        intro c' h'; simp only [getDimensions, h', hm]
      rw [e c hc, e [] rfl]
      exact ⟨rfl, h⟩
    | some m =>
      cases hgm : gather T fuel m ⟨[], m.removed, m.added⟩ with
      | error err =>
        have e : ∀ c' : Cache, c'.get? k = none → getDimensions T fuel c' k = (.error err, c') := by
          intro c' h'; simp only [getDimensions, h', hm, hgm]
        rw [e c hc, e [] rfl]
        exact ⟨rfl, h⟩
      | ok p =>
        obtain ⟨dims, a'⟩ := p
        have e : ∀ c' : Cache, c'.get? k = none →
            getDimensions T fuel c' k = (.ok dims, c'.set k dims) := by
          intro c' h'; simp only [getDimensions, h', hm, hgm]
        rw [e c hc, e [] rfl]
        refine ⟨rfl, ?_⟩
        intro k' d' h'
        simp only [Dict.get?_set] at h'
        split at h'
        · next hk => subst hk; injection h' with h'; rw [e [] rfl, h']
        · exact h k' d' h'

/-- **C56.** For every acyclic set of computed quantities, and after any history of queries (however
often, in whatever order): the dimensions of a computed quantity are the dimensions of the
variables that it uses, directly or through other computed quantities, without those that it or
any computed quantity it uses removes, and with those that any of these adds; each dimension occurs
once, those known to the dataset first, in dataset order. -/
theorem c56_dimensions (T : Tables) (rank : Str → Nat) (hT : T.axes.Nodup)
    (hr : AcyclicTables T rank) (fuel : Nat) (history : List Str) (key : Str) (m : Method)
    (hm : T.methods.get? key = some m) (hf : rank key < fuel) :
    ∃ dims, (getDimensions T fuel (cacheAfter T fuel history) key).1 = .ok dims ∧ dims.Nodup
      ∧ (∀ d, d ∈ dims ↔
          (InputDim T m.parameters d ∧ ¬ (d ∈ m.removed ∨ RemovedDim T m.parameters d))
          ∨ d ∈ m.added ∨ AddedDim T m.parameters d)
      ∧ ∃ known extra, dims = known ++ extra ∧ known.Sublist T.axes ∧ ∀ d ∈ extra, d ∉ T.axes := by
  have hcache : ∀ (hist : List Str) (c : Cache), CacheOk T fuel c →
      CacheOk T fuel (hist.foldl (fun c k => (getDimensions T fuel c k).2) c) := by
    intro hist
    induction hist with
    | nil => intro c h; exact h
    | cons k ks ih => intro c h; exact ih _ (getDimensions_cache h k).2
  have h0 : CacheOk T fuel (cacheAfter T fuel history) :=
    hcache history [] (by intro k d h; simp at h)
  rw [(getDimensions_cache h0 key).1]
  obtain ⟨f, rfl⟩ : ∃ f, fuel = f + 1 := ⟨fuel - 1, by omega⟩
  obtain ⟨dims, a', e1, e2, e3, e4, e5⟩ := gather_grown hT hr f m (by
    intro p hp hv hs
    have := hr key m hm p hp hv hs
    omega) ⟨[], m.removed, m.added⟩
  refine ⟨dims, by simp only [getDimensions, Dict.get?_nil, hm, e1], e4, ?_, e5⟩
  intro d
  rw [e3, e2.removed, e2.added]
  have k1 := e2.lower d
  have k2 := e2.upper d
  have k3 := e2.added d
  simp only [List.not_mem_nil, false_or] at k1 k2 k3
  tauto

/-- Some of the registered quantities (computed.py 254-353). -/
def sampleTables : Tables where
  axes := [c!"time", c!"shell", c!"species", c!"energy", c!"mu"]
  vars := [(c!"dist", [c!"time", c!"shell", c!"species", c!"energy", c!"mu"]),
    (c!"energy", [c!"species", c!"energy"]), (c!"time", [c!"time"])]
  methods := [(c!"isodist", ⟨[c!"dist"], [c!"mu"], []⟩), (c!"flux", ⟨[c!"energy", c!"isodist"], [], []⟩),
    (c!"fluence", ⟨[c!"flux", c!"time"], [c!"time"], []⟩),
    (c!"intflux", ⟨[c!"energies", c!"flux"], [c!"energy"], [c!"minimum energy"]⟩)]

example : (getDimensions sampleTables 3 [] c!"fluence").1 = .ok [c!"shell", c!"species", c!"energy"]
    ∧ (getDimensions sampleTables 3 (cacheAfter sampleTables 3 [c!"flux", c!"fluence"]) c!"intflux").1
      = .ok [c!"time", c!"shell", c!"species", c!"minimum energy"] := by decide +kernel

example : AcyclicTables sampleTables (fun n => if n = c!"isodist" then 0 else if n = c!"flux" then 1 else 2) := by
  intro k m hk
  have hmem := Dict.mem_of_get? hk
  revert hk
  simp only [sampleTables, List.mem_cons, List.not_mem_nil, or_false, Prod.mk.injEq] at hmem
  rcases hmem with ⟨rfl, rfl⟩ | ⟨rfl, rfl⟩ | ⟨rfl, rfl⟩ | ⟨rfl, rfl⟩ <;> intro _ <;> decide +kernel

/-! ## C97: arguments of computed quantities -/

/-- The value handed over for a dependency. -/
def argOf {A F : Type} : Dep A F → Option (A ⊕ F)
  | .array a => some (.inl a)
  | .scalar x => some (.inr x)
  | _ => none

theorem parseLoop_arrays {A F : Type} (deps : Dict Str (Dep A F)) : ∀ (ns : List Str) (as : List A)
    (rest : List Str) (arrays : List A) (floats : List F),
    ns.map deps.get? = as.map (fun a => some (.array a)) →
    parseLoop deps (ns ++ rest) arrays floats = parseLoop deps rest (arrays ++ as) floats := by
  intro ns
  induction ns with
  | nil =>
    intro as rest arrays floats h
    cases as with
    | nil => simp
    | cons a as => simp at h
  | cons n ns ih =>
    intro as rest arrays floats h
    cases as with
    | nil => simp at h
    | cons a as =>
      simp only [List.map_cons, List.cons.injEq] at h
      simp only [List.cons_append, parseLoop, h.1]
      rw [ih as rest _ _ h.2]
      simp

theorem parseLoop_scalars {A F : Type} (deps : Dict Str (Dep A F)) : ∀ (ns : List Str) (xs : List F)
    (rest : List Str) (arrays : List A) (floats : List F),
    ns.map deps.get? = xs.map (fun x => some (.scalar x)) →
    parseLoop deps (ns ++ rest) arrays floats = parseLoop deps rest arrays (floats ++ xs) := by
  intro ns
  induction ns with
  | nil =>
    intro xs rest arrays floats h
    cases xs with
    | nil => simp
    | cons a as => simp at h
  | cons n ns ih =>
    intro xs rest arrays floats h
    cases xs with
    | nil => simp at h
    | cons a as =>
      simp only [List.map_cons, List.cons.injEq] at h
      simp only [List.cons_append, parseLoop, h.1]
      rw [ih as rest _ _ h.2]
      simp

/-- **C97 (part).** When the function's array arguments come first, its single scalars next, and at
most one collection of scalars last (as in `integral_flux`), every positional argument is the value
of the dependency of that name, and a trailing collection is spread over the remaining positions. -/
theorem c97_partial {A F : Type} (deps : Dict Str (Dep A F)) (an sn : List Str) (as : List A)
    (xs : List F) (ha : an.map deps.get? = as.map (fun a => some (.array a)))
    (hx : sn.map deps.get? = xs.map (fun x => some (.scalar x))) :
    (∃ args, parseArgs deps (an ++ sn) = .ok args ∧ args.length = (an ++ sn).length
      ∧ ∀ (i : Nat) (n : Str), (an ++ sn)[i]? = some n →
          args[i]? = (deps.get? n).bind argOf ∧ args[i]?.isSome)
    ∧ ∀ last ys, deps.get? last = some (.scalars ys) →
      parseArgs deps (an ++ sn ++ [last]) = .ok (as.map .inl ++ xs.map .inr ++ ys.map .inr) := by
  constructor
  · have h : parseArgs deps (an ++ sn) = .ok (as.map .inl ++ xs.map .inr) := by
      have e1 := parseLoop_arrays deps an as sn [] [] ha
      have e2 := parseLoop_scalars deps sn xs [] as [] hx
      rw [List.append_nil] at e2
      simp only [List.nil_append] at e1 e2
      unfold parseArgs
      rw [e1, e2]
      rfl
    have hla : an.length = as.length := by simpa using congrArg List.length ha
    have hlx : sn.length = xs.length := by simpa using congrArg List.length hx
    refine ⟨_, h, by simp [hla, hlx], ?_⟩
    intro i n hi
    have key : ((an ++ sn).map deps.get?)[i]? = ((as.map (fun a => some (Dep.array a))) ++
        xs.map (fun x => some (Dep.scalar x)))[i]? := by
      rw [List.map_append, ha, hx]
    rw [List.getElem?_map, hi] at key
    simp only [Option.map_some] at key
    by_cases hlt : i < as.length
    · rw [List.getElem?_append_left (by simpa using hlt)] at key ⊢
      rw [List.getElem?_map, List.getElem?_eq_getElem hlt] at key ⊢
      simp only [Option.map_some, Option.some.injEq] at key
      rw [key]
      simp [argOf]
    · rw [List.getElem?_append_right (by simpa using hlt)] at key ⊢
      simp only [List.length_map] at key ⊢
      have hb : i - as.length < xs.length := by
        have : i < (an ++ sn).length := by
          by_contra hge
          rw [List.getElem?_eq_none (by omega)] at hi
          cases hi
        simp [hla, hlx] at this
        omega
      rw [List.getElem?_map, List.getElem?_eq_getElem hb] at key ⊢
      simp only [Option.map_some, Option.some.injEq] at key
      rw [key]
      simp [argOf]
  · intro last ys hl
    have e1 := parseLoop_arrays deps an as (sn ++ [last]) [] [] ha
    have e2 := parseLoop_scalars deps sn xs [last] as [] hx
    simp only [List.nil_append] at e1 e2
    unfold parseArgs
    rw [List.append_assoc, e1, e2]
    simp [parseLoop, hl, Except.map]

/-- **C97, missing dependencies.** For every signature and every set of dependencies: a name without a dependency
raises `KeyError`, wherever it stands, and otherwise there are arguments. -/
theorem c97_partial_missing {A F : Type} (deps : Dict Str (Dep A F)) (names : List Str) :
    ((∃ n ∈ names, deps.get? n = none) → parseArgs deps names = .error .keyError) ∧
    ((∀ n ∈ names, deps.get? n ≠ none) → ∃ args, parseArgs deps names = .ok args) := by
  have key : ∀ (names : List Str) (as : List A) (xs : List F),
      ((∃ n ∈ names, deps.get? n = none) → parseLoop deps names as xs = .error .keyError) ∧
      ((∀ n ∈ names, deps.get? n ≠ none) → ∃ r, parseLoop deps names as xs = .ok r) := by
    intro names
    induction names with
    | nil => intro as xs; exact ⟨fun ⟨_, h, _⟩ => by simp at h, fun _ => ⟨_, rfl⟩⟩
    | cons n ns ih =>
      intro as xs
      unfold parseLoop
      cases h : deps.get? n with
      | none => exact ⟨fun _ => rfl, fun h' => absurd h (h' n (by simp))⟩
      | some d =>
        have tail : ∀ as xs, ((∃ m ∈ n :: ns, deps.get? m = none) → parseLoop deps ns as xs = .error .keyError) ∧
            ((∀ m ∈ n :: ns, deps.get? m ≠ none) → ∃ r, parseLoop deps ns as xs = .ok r) := by
          intro as xs
          refine ⟨fun ⟨m, hm, hn⟩ => (ih as xs).1 ⟨m, ?_, hn⟩, fun h' => (ih as xs).2 (fun m hm => h' m (by simp [hm]))⟩
          rcases List.mem_cons.1 hm with rfl | hm
          · rw [h] at hn; cases hn
          · exact hm
        cases d <;> exact tail _ _
  unfold parseArgs
  refine ⟨fun h => ?_, fun h => ?_⟩
  · rw [(key names [] []).1 h]; rfl
  · obtain ⟨r, hr⟩ := (key names [] []).2 h
    rw [hr]; exact ⟨_, rfl⟩

example : parseArgs (A := Nat) (F := Nat) [(c!"energy", .scalar 7), (c!"isodist", .array 3)]
    [c!"energy", c!"mass", c!"isodist"] = .error .keyError :=
  (c97_partial_missing _ _).1 ⟨c!"mass", by decide +kernel, by decide +kernel⟩

/-- **C97 fails in the code.** A scalar before an array changes places with it: calling a function
of `(energy, isodist)` with a scalar energy hands over the distribution first.  A dependency of any
other kind is dropped, so that the following arguments move up. -/
theorem c97_counterexample :
    parseArgs (A := Nat) (F := Nat) [(c!"energy", .scalar 7), (c!"isodist", .array 3)]
        [c!"energy", c!"isodist"] = .ok [.inl 3, .inr 7]
    ∧ parseArgs (A := Nat) (F := Nat) [(c!"r", .other), (c!"energy", .array 3)]
        [c!"r", c!"energy"] = .ok [.inl 3] := by decide +kernel

example : parseArgs (A := Nat) (F := Nat) [(c!"mfp", .scalar 7), (c!"r", .array 3)]
    [c!"r", c!"mfp"] = .ok [.inl 3, .inr 7] := by decide +kernel

/-! ## C98: units of computed quantities -/

/-- A pair of a number and a unit denotes the physical value `scale unit * number`. -/
def physical (scale : Str → Rat) (p : Rat × Str) : Rat := scale p.2 * p.1

/-- **C98 (part).** For every quantity, every requested unit and all magnitudes of units: the result
carries the requested unit, and it has the same physical value exactly when the value is zero or the
two units have the same magnitude (in particular for the unit that the quantity already has). -/
theorem c98_partial (q : Computed Rat Str) (scale : Str → Rat) (u : Str) :
    (q.withUnit u).call.2 = u
    ∧ (physical scale (q.withUnit u).call = physical scale q.call
        ↔ q.compute = 0 ∨ scale u = scale q.unit) := by
  have h : (q.withUnit u).call = (q.compute, u) := by
    unfold Computed.withUnit Computed.call
    split
    · rfl
    · next h => simp only [ne_eq, not_not] at h; rw [h]
  rw [h]
  refine ⟨rfl, ?_⟩
  simp only [physical, Computed.call]
  rw [mul_eq_mul_right_iff, or_comm]

/-- **C98 fails in the code.** Requesting another unit only replaces the label: a length of 3 m
requested in cm is reported as 3 cm. -/
theorem c98_counterexample :
    let scale : Str → Rat := fun u => if u = c!"cm" then 1/100 else 1
    let q : Computed Rat Str := ⟨3, c!"m"⟩
    (q.withUnit c!"cm").call = (3, c!"cm")
    ∧ physical scale (q.withUnit c!"cm").call ≠ physical scale q.call := by
  decide +kernel

end Verif.Eprem
