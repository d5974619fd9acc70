import Verif.Runtime.EvalProps

/-!
# The parameter interface: property C96
-/

set_option linter.unusedSimpArgs false
set_option linter.unusedSectionVars false

namespace Verif.Runtime

open Verif.Py

section
variable {K : Type} [Field K] [DecidableEq K]

/-- `dict(runtime)` (runtime.py 850): every parameter is evaluated. -/
def evaluateEach (P : Params K) (fuel : Nat) : List Str → Res (Dict Str (Val K))
  | [] => .ok []
  | n :: ns =>
    match P.lookup fuel n with
    | .error e => .error e
    | .ok v => match evaluateEach P fuel ns with
      | .error e => .error e
      | .ok vs => .ok ((n, v) :: vs)

/-- The parts of an `Interface` object that hold parameter values (runtime.py 848-859): the values
by parameter name (units and aliases left out) and the user's entries. -/
structure Interface (K : Type) where
  values : Dict Str (Val K)
  user : Dict Str Str
  deriving DecidableEq

/-- `comments or ['#']` (runtime.py 513). -/
def commentsOr (comments : List Char) : List Char := if comments = [] then ['#'] else comments

/-- `Interface.__init__` (runtime.py 828-860) for a configuration file with contents `text`, the
packaged definitions `R` and the additional parameters `locals` (`_LOCAL`).  The values come from
`Runtime(config_path=path)`, which is not given the options. -/
def Interface.create (R : Params K) (fuel : Nat) (locals : Dict Str (Val K)) (comments : List Char)
    (text : Str) : Res (Interface K) :=
  match parseConfig (commentsOr []) text with
  | .error e => .error e
  | .ok u =>
    match evaluateEach { R with user := u } fuel R.reference.keys with
    | .error e => .error e
    | .ok vs =>
      match parseConfig (commentsOr comments) text with
      | .error e => .error e
      | .ok u' => .ok ⟨locals.update vs, u'⟩

/-- `Interface.__getitem__(name).value`, for a parameter's own name (runtime.py 862-868). -/
def Interface.value (I : Interface K) (n : Str) : Res (Val K) :=
  match I.values.get? n with
  | some v => .ok v
  | none => .error .keyError

/-- `Interface.config` (runtime.py 875-877). -/
def Interface.config (I : Interface K) (n : Str) : Option (Val K) :=
  if I.user.has n then I.values.get? n else none

theorem parseConfig_markers {cs ds : List Char} (h : ∀ c, c ∈ ds ↔ c ∈ cs) (text : Str) :
    parseConfig ds text = parseConfig cs text := by
  have hl : ∀ line, parseLine ds line = parseLine cs line := by
    intro line
    cases line with
    | nil => rfl
    | cons c t =>
      have hs : ∀ v, stripComments v ds = stripComments v cs :=
        fun v => (c49_strip_comments v cs).2.2.2 ds h
      simp only [parseLine, h c, hs]
  have hls : ∀ (ls : List Str) (d : Dict Str Str), parseLines ds ls d = parseLines cs ls d := by
    intro ls
    induction ls with
    | nil => intro d; rfl
    | cons l ls ih => intro d; simp only [parseLines, hl, ih]
  exact hls _ _

theorem evaluateEach_get {P : Params K} {fuel : Nat} : ∀ {ns : List Str} {vs : Dict Str (Val K)},
    ns.Nodup → evaluateEach P fuel ns = .ok vs → vs.keys = ns
      ∧ ∀ n ∈ ns, ∃ v, vs.get? n = some v ∧ P.lookup fuel n = .ok v := by
  intro ns
  induction ns with
  | nil =>
    intro vs _ h
    simp only [evaluateEach, Except.ok.injEq] at h
    subst h
    simp [Dict.keys]
  | cons m ns ih =>
    intro vs hnd h
    simp only [evaluateEach] at h
    split at h
    · cases h
    · next v hv =>
      split at h
      · cases h
      · next vs' hvs =>
        simp only [Except.ok.injEq] at h
        subst h
        rw [List.nodup_cons] at hnd
        obtain ⟨hk, hg⟩ := ih hnd.2 hvs
        refine ⟨by simp only [Dict.keys, List.map_cons] at hk ⊢; rw [hk], ?_⟩
        intro n hn
        rcases List.mem_cons.1 hn with rfl | hn'
        · exact ⟨v, by simp [Dict.get?], hv⟩
        · have hne : m ≠ n := by rintro rfl; exact hnd.1 hn'
          obtain ⟨w, h1, h2⟩ := hg n hn'
          exact ⟨w, by simp only [Dict.get?, hne, if_false]; exact h1, h2⟩

/-- **C96 (part).** When the markers given are `#` alone (however often, or none, which stands for
`#`), then for every file and every set of definitions: whenever an interface can be made, the value
of each parameter is the one defined by the file as read with these markers. -/
theorem c96_partial (R : Params K) (hR : R.reference.keys.Nodup) (fuel : Nat)
    (locals : Dict Str (Val K)) (comments : List Char) (hc : ∀ c ∈ comments, c = '#') (text : Str)
    (I : Interface K) (h : Interface.create R fuel locals comments text = .ok I) :
    ∃ d, parseConfig (commentsOr comments) text = .ok d ∧ I.user = d
      ∧ ∀ n ∈ R.reference.keys, I.value n = ({ R with user := d } : Params K).lookup fuel n
          ∧ (I.config n = none ↔ n ∉ d.keys) := by
  have hm : ∀ c, c ∈ commentsOr comments ↔ c ∈ commentsOr [] := by
    intro c
    unfold commentsOr
    by_cases h0 : comments = []
    · simp [h0]
    · simp only [h0, if_false, if_true, List.mem_singleton]
      constructor
      · exact hc c
      · rintro rfl
        obtain ⟨x, hx⟩ := List.exists_mem_of_ne_nil _ h0
        rwa [← hc x hx]
  have hp := parseConfig_markers hm text
  unfold Interface.create at h
  cases hu : parseConfig (commentsOr []) text with
  | error e => rw [hu] at h; cases h
  | ok u =>
    rw [hu] at h hp
    simp only at h
    split at h
    · cases h
    · next vs hvs =>
      rw [hp] at h
      simp only [Except.ok.injEq] at h
      subst h
      refine ⟨u, hp, rfl, ?_⟩
      intro n hn
      obtain ⟨hk, hg⟩ := evaluateEach_get hR hvs
      obtain ⟨v, h1, h2⟩ := hg n hn
      have hnd : vs.keys.Nodup := by rw [hk]; exact hR
      have hget : (locals.update vs).get? n = some v := by
        rw [Dict.get?_update]
        have : Dict.get? vs.reverse n = some v := by
          have hmem : (n, v) ∈ vs.reverse := by
            rw [List.mem_reverse]; exact Dict.mem_of_get? h1
          have hnd' : (Dict.keys vs.reverse).Nodup := by
            have : Dict.keys vs.reverse = (Dict.keys vs).reverse := by simp [Dict.keys]
            rw [this, List.nodup_reverse]; exact hnd
          exact Dict.get?_of_mem hnd' hmem
        rw [this]; rfl
      refine ⟨by simp only [Interface.value, hget, h2], ?_⟩
      simp only [Interface.config, hget]
      rw [← Dict.has_iff_mem_keys]
      split <;> simp_all

end

/-- **C96 fails in the code** for other markers: with `!` as the marker, the text after `!` stays
part of the parameter's value although the user's entry ends before it; and a file whose comment
lines begin with `!` cannot be opened at all. -/
theorem c96_counterexample :
    let R := rationalParams [(c!"warningsFile", (c!"warningsXXX.txt", .str))] [] []
    (∃ I, Interface.create R 9 [] ['!'] c!"warningsFile=a.txt ! name" = .ok I
      ∧ I.user = [(c!"warningsFile", c!"a.txt")]
      ∧ I.value c!"warningsFile" = .ok (.text c!"a.txt ! name")
      ∧ ({ R with user := I.user } : Params Rat).lookup 9 c!"warningsFile" = .ok (.text c!"a.txt"))
    ∧ parseConfig ['!'] c!"! note\nwarningsFile=a" = .ok [(c!"warningsFile", c!"a")]
    ∧ Interface.create R 9 [] ['!'] c!"! note\nwarningsFile=a" = .error .valueError :=
  ⟨⟨⟨[(c!"warningsFile", .text c!"a.txt ! name")], [(c!"warningsFile", c!"a.txt")]⟩,
    by rfl, by rfl, by rfl, by decide +kernel⟩, by decide +kernel, by rfl⟩

example : ∃ I, Interface.create (rationalParams [(c!"eMin", (c!"10.0", .float))] [] []) 9
      [(c!"mass", .num 1)] ['#', '#'] c!"eMin=5.0 # low" = .ok I
    ∧ I.value c!"eMin" = .ok (.num 5) ∧ I.value c!"mass" = .ok (.num 1) :=
  ⟨⟨[(c!"mass", .num 1), (c!"eMin", .num 5)], [(c!"eMin", c!"5.0")]⟩, by decide +kernel, by decide +kernel,
    by decide +kernel⟩

end Verif.Runtime
