import Verif.Defaults.DefaultProps
import Verif.Aliased.Props

/-!
# The names of runtime parameters

Aliases of parameters are unambiguous (C136).
-/

set_option linter.unusedSimpArgs false

namespace Verif.Defaults

open Verif.Py Verif.Runtime Verif.Aliased

/-- `keysfrom(_metadata, aliases='aliases')` (runtime.py 1519, 1528; aliased.py 253-256): the groups
of names of `{**_LOCAL, **_CONFIGURATION_C, **_BASETYPES_H}`.  Constants have no aliases. -/
def metadataGroups : List (Aliased.Group Str) :=
  localMeta.map (fun e => Aliased.Group.union [e.1] e.2.1) ++ configMeta.map (fun e => Aliased.Group.union [e.1] e.2.1)
    ++ baseMeta.map (fun e => [e.1])

/-- `reference.ALIASES` (reference.py 149). -/
def referenceGroups : List (Aliased.Group Str) := referenceBase.map (fun e => e.1.dedup)

/-- `reference.ALIASES.merge(*ALIASES)` (runtime.py 856). -/
def interfaceGroups : Res (List (Aliased.Group Str)) := merge referenceGroups metadataGroups

/-- The merged groups. -/
def mergedGroups : List (Aliased.Group Str) :=
  match interfaceGroups with
  | .ok gs => gs
  | .error _ => []

/-- `set(tuple(_LOCAL) + tuple(runtime))` (runtime.py 851), in some order. -/
def parameterNames : List Str := localMeta.map (·.1) ++ shippedReference.keys

/-- The mapping behind an `Interface` (runtime.py 852-856), for parameters with their values in the
order in which the set of names happens to be enumerated. -/
def interfaceMap {ν : Type} (entries : List (Str × ν)) : Res (AMap Str ν) :=
  interfaceGroups.map (fun gs => buildFromGroups gs entries)

/-- The metadata dictionaries have no key in common, so joining them loses nothing. -/
theorem metadata_keys : (localMeta.map (·.1) ++ configMeta.map (·.1) ++ baseMeta.map (·.1)).Nodup := by
  decide +kernel

theorem interfaceGroups_eq : interfaceGroups = .ok mergedGroups := by
  have h : (match interfaceGroups with | .ok _ => true | .error _ => false) = true := by decide +kernel
  unfold mergedGroups
  cases hi : interfaceGroups with
  | ok gs => rfl
  | error e => rw [hi] at h; cases h

/-- Whether two lists have no name in common. -/
def apart (a b : List Str) : Bool := a.all (fun x => !b.contains x)

/-- All the names of every parameter. -/
def allNames : List (List Str) := parameterNames.map (namesVia mergedGroups)

theorem names_apart : allNames.Pairwise (fun a b => apart a b = true) := by decide +kernel

/-- The aliases that the package documents for a parameter: those in the metadata of `runtime.py`. -/
def documented : Dict Str (List Str) :=
  localMeta.map (fun e => (e.1, e.2.1)) ++ configMeta.map (fun e => (e.1, e.2.1))

theorem documented_names : ∀ e ∈ documented, e.1 ∈ parameterNames →
    ∀ a ∈ e.2, a ∈ namesVia mergedGroups e.1 := by decide +kernel

theorem apart_iff (a b : List Str) : apart a b = true ↔ ∀ x, x ∈ a → x ∉ b := by
  simp [apart]

/-- **C136.** For every collection of values for the parameters of the package, enumerated in any
order: the interface can be built; every parameter is found under its own name, under every alias that
the package documents for it, and under every name grouped with these, always with its own value; and
no name leads to two parameters. -/
theorem c136_unambiguous {ν : Type} (entries : List (Str × ν))
    (h : (entries.map (·.1)).Perm parameterNames) :
    ∃ m, interfaceMap entries = .ok m
      ∧ (∀ e ∈ entries, getItem m e.1 = .ok e.2
          ∧ ∀ as, documented.get? e.1 = some as → ∀ a ∈ as, getItem m a = .ok e.2)
      ∧ Represents m entries (fun e => namesVia mergedGroups e.1) (·.2)
      ∧ ∀ e ∈ entries, ∀ e' ∈ entries, ∀ x ∈ namesVia mergedGroups e.1,
          x ∈ namesVia mergedGroups e'.1 → e.1 = e'.1 := by
  have hsym : ∀ {a b : Str}, (∀ x, x ∈ namesVia mergedGroups a → x ∉ namesVia mergedGroups b) →
      (∀ x, x ∈ namesVia mergedGroups b → x ∉ namesVia mergedGroups a) :=
    fun h x hb ha => h x ha hb
  have hpair : parameterNames.Pairwise
      (fun a b => ∀ x, x ∈ namesVia mergedGroups a → x ∉ namesVia mergedGroups b) := by
    have := names_apart
    unfold allNames at this
    rw [List.pairwise_map] at this
    exact this.imp (fun h => (apart_iff _ _).1 h)
  have hpair' := (h.pairwise_iff (R := fun a b => ∀ x, x ∈ namesVia mergedGroups a →
    x ∉ namesVia mergedGroups b) hsym).2 hpair
  have hd : DisjointEntries (fun p : Str × ν => namesVia mergedGroups p.1) entries := by
    unfold DisjointEntries
    rw [List.pairwise_map] at hpair'
    exact hpair'
  have hr := c15_build_from_groups mergedGroups entries hd
  refine ⟨buildFromGroups mergedGroups entries, ?_, ?_, hr, ?_⟩
  · rw [interfaceMap, interfaceGroups_eq]; rfl
  · intro e he
    refine ⟨hr.1 e he e.1 (by simp [namesVia]), ?_⟩
    intro as has a ha
    refine hr.1 e he a ?_
    exact documented_names _ (Dict.mem_of_get? has)
      (h.mem_iff.1 (List.mem_map.2 ⟨e, he, rfl⟩)) a ha
  · intro e he e' he' x hx hx'
    by_contra hne
    have h1 : e.1 ∈ parameterNames := h.mem_iff.1 (List.mem_map.2 ⟨e, he, rfl⟩)
    have h2 : e'.1 ∈ parameterNames := h.mem_iff.1 (List.mem_map.2 ⟨e', he', rfl⟩)
    have hall : ∀ {l : List Str}, l.Pairwise (fun a b => ∀ x, x ∈ namesVia mergedGroups a →
        x ∉ namesVia mergedGroups b) → ∀ a ∈ l, ∀ b ∈ l, a ≠ b → ∀ x, x ∈ namesVia mergedGroups a →
        x ∉ namesVia mergedGroups b := by
      intro l hl
      induction hl with
      | nil => intro a ha; cases ha
      | cons hx _ ih =>
        intro a ha b hb hab
        rcases List.mem_cons.1 ha with h1 | h1
        · rcases List.mem_cons.1 hb with h2 | h2
          · exact absurd (h1.trans h2.symm) hab
          · rw [h1]; exact hx b h2
        · rcases List.mem_cons.1 hb with h2 | h2
          · rw [h2]; exact hsym (hx a h1)
          · exact ih a h1 b h2 hab
    exact hall hpair e.1 h1 e'.1 h2 hne x hx hx'

/-- Every parameter with its own name as value: an instance of C136. -/
example : (parameterNames.map (fun n => (n, n))).map (·.1) = parameterNames := by
  simp [Function.comp_def]

example : documented.get? c!"lamo" = some [c!"lam0", c!"lambda0"]
    ∧ c!"q" ∈ namesVia mergedGroups c!"charge" ∧ c!"m" ∈ namesVia mergedGroups c!"mass" := by
  decide +kernel

end Verif.Defaults
