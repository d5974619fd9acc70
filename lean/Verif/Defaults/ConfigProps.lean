import Verif.Defaults.AliasProps
import Verif.Runtime.InterfaceProps

/-!
# Parameters that the configuration file sets: property C259
-/

set_option linter.unusedSimpArgs false

namespace Verif.Defaults

open Verif.Py Verif.Runtime Verif.Aliased

/-- `Interface.config(name)` (runtime.py 875-877) for the interface behind which is the mapping `m` and
whose file has the entries `user`: `none` is the given default.  (`aliased.Mapping.get`, and so
`Interface.get`, 872-873, gives the default for a name that is no key.) -/
def config {ν : Type} (m : AMap Str ν) (user : Dict Str Str) (x : Str) : Option ν :=
  if user.has x then
    match getItem m x with
    | .ok v => some v
    | .error _ => none
  else none

/-- **C259, what the code does.**  For every collection of values for the parameters of the package,
enumerated in any order, every file, every parameter and each of its names: `config` gives the value of
the parameter exactly if *that very name* is in the file, whatever the file says about the parameter's
own name. -/
theorem c259_exact {ν : Type} (entries : List (Str × ν))
    (h : (entries.map (·.1)).Perm parameterNames) (user : Dict Str Str) :
    ∃ m, interfaceMap entries = .ok m
      ∧ ∀ e ∈ entries, ∀ x ∈ namesVia mergedGroups e.1,
          config m user x = if x ∈ user.keys then some e.2 else none := by
  obtain ⟨m, hm, _, hr, _⟩ := c136_unambiguous entries h
  refine ⟨m, hm, ?_⟩
  intro e he x hx
  have hg : getItem m x = .ok e.2 := hr.1 e he x hx
  unfold config
  by_cases hu : x ∈ user.keys
  · rw [if_pos ((Dict.has_iff_mem_keys _ _).2 hu), hg, if_pos hu]
  · have : ¬ user.has x = true := fun hh => hu ((Dict.has_iff_mem_keys _ _).1 hh)
    rw [if_neg this, if_neg hu]

/-- **C259 (part).**  Under the parameter's own name, `config` gives the value of the parameter if the
file sets it and the default otherwise. -/
theorem c259_partial {ν : Type} (entries : List (Str × ν))
    (h : (entries.map (·.1)).Perm parameterNames) (user : Dict Str Str) :
    ∃ m, interfaceMap entries = .ok m
      ∧ ∀ e ∈ entries, config m user e.1 = if e.1 ∈ user.keys then some e.2 else none := by
  obtain ⟨m, hm, hx⟩ := c259_exact entries h user
  exact ⟨m, hm, fun e he => hx e he e.1 (by simp [namesVia])⟩

/-- **C259 fails in the code**, for every collection of values.  A file that sets `lamo` does not set
`lam0`, although both names have the same value.  And a file with an entry `lam0 = 3.0` is said to set
`lam0`, but what `config` gives is the value of `lamo`, which does not depend on that entry. -/
theorem c259_counterexample {ν : Type} (entries : List (Str × ν))
    (h : (entries.map (·.1)).Perm parameterNames) (s : Str) (v : ν) (hv : (c!"lamo", v) ∈ entries) :
    ∃ m, interfaceMap entries = .ok m
      ∧ getItem m c!"lam0" = .ok v ∧ getItem m c!"lamo" = .ok v
      ∧ config m [(c!"lamo", s)] c!"lamo" = some v ∧ config m [(c!"lamo", s)] c!"lam0" = none
      ∧ config m [(c!"lam0", s)] c!"lamo" = none ∧ config m [(c!"lam0", s)] c!"lam0" = some v
      ∧ (rationalParams shippedReference [(c!"lam0", c!"3.0")] []).lookup 9 c!"lamo"
          = (rationalParams shippedReference [] []).lookup 9 c!"lamo"
      ∧ (rationalParams shippedReference [] []).lookup 9 c!"lamo" ≠ .ok (.num 3)
      ∧ (rationalParams shippedReference [(c!"lamo", c!"3.0")] []).lookup 9 c!"lamo" = .ok (.num 3) := by
  obtain ⟨m, hm, _, hr, _⟩ := c136_unambiguous entries h
  have n1 : c!"lam0" ∈ namesVia mergedGroups c!"lamo" := by decide +kernel
  have n2 : c!"lamo" ∈ namesVia mergedGroups c!"lamo" := by decide +kernel
  have g1 : getItem m c!"lam0" = .ok v := hr.1 _ hv _ n1
  have g2 : getItem m c!"lamo" = .ok v := hr.1 _ hv _ n2
  have d : (c!"lamo" : Str) ≠ c!"lam0" := by decide
  refine ⟨m, hm, g1, g2, ?_, ?_, ?_, ?_, by decide +kernel, by decide +kernel, by decide +kernel⟩
  · simp [config, Dict.has, Dict.get?, g2]
  · simp [config, Dict.has, Dict.get?, d]
  · simp [config, Dict.has, Dict.get?, d.symm]
  · simp [config, Dict.has, Dict.get?, g1]

/-- An instance of the hypotheses: every parameter with its own name as value. -/
example : ((parameterNames.map (fun n => (n, n))).map (·.1)).Perm parameterNames
    ∧ (c!"lamo", c!"lamo") ∈ parameterNames.map (fun n => (n, n)) := by
  refine ⟨?_, List.mem_map.2 ⟨c!"lamo", by decide +kernel, rfl⟩⟩
  simp [Function.comp_def]

end Verif.Defaults
