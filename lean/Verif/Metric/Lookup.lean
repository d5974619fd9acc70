import Verif.Metric.UnitsLemmas

/-!
# Looking up units by name

What `identify` returns, and the invariant of the cache of `NamedUnit` instances.
-/

set_option linter.unusedSimpArgs false
set_option linter.unusedSectionVars false

namespace Verif.Metric

open Verif.Py Verif.Aliased

attribute [local irreducible] prefixes units allUnits

/-- The last unit of the table with the given alias. -/
def lookup (s : Str) : Option NamedUnit :=
  allUnits.reverse.find? (fun u => s ∈ aliasesOf u.pre u.base)

theorem getItem_build (us : List NamedUnit)
    (hnd : (us.map (fun u => (aliasesOf u.pre u.base).dedup)).Nodup) (s : Str)
    (p : NamedUnit → Bool) (hp : ∀ u, p u = true ↔ s ∈ aliasesOf u.pre u.base) :
    Aliased.getItem (buildFromAliases
        (us.map (fun u => ((.inr (aliasesOf u.pre u.base) : Str ⊕ List Str), u)))) s
      = match us.reverse.find? p with
        | some u => .ok u
        | none => .error .keyError := by
  have h := getItem_tuples (us.map (fun u => (aliasesOf u.pre u.base, u)))
    (by simpa [Function.comp_def] using hnd) s
  simp only [List.map_map, Function.comp_def] at h
  rw [h, ← List.map_reverse, List.find?_map]
  generalize hq : ((_ : List Str × NamedUnit → Bool) ∘
    fun u : NamedUnit => (aliasesOf u.pre u.base, u)) = q
  have e : q = p := by
    subst hq
    funext u
    rw [Bool.eq_iff_iff, hp]
    simp
  rw [e]
  cases us.reverse.find? p <;> rfl

/-- The outcome of `identify` for the result of a search. -/
def orUnknown : Option NamedUnit → Res NamedUnit
  | some u => .ok u
  | none => .error (.named "UnitParsingError")

theorem identifyIn_build (us : List NamedUnit)
    (hnd : (us.map (fun u => (aliasesOf u.pre u.base).dedup)).Nodup) (s : Str)
    (p : NamedUnit → Bool) (hp : ∀ u, p u = true ↔ s ∈ aliasesOf u.pre u.base) :
    identifyIn (buildFromAliases
        (us.map (fun u => ((.inr (aliasesOf u.pre u.base) : Str ⊕ List Str), u)))) s
      = orUnknown (us.reverse.find? p) := by
  unfold identifyIn
  rw [getItem_build us hnd s p hp]
  cases us.reverse.find? p <;> rfl

theorem identify_eq (s : Str) : identify s = orUnknown (lookup s) :=
  identifyIn_build allUnits nodup_aliases s (fun u => s ∈ aliasesOf u.pre u.base)
    (by intro u; simp)

/-- A faster way to compute `lookup`: first the prefixes. -/
def lookupFast (s : Str) : Option NamedUnit :=
  prefixes.reverse.findSome? (fun p =>
    (units.reverse.find? (fun u => strip? p.name s = some u.name ∨ strip? p.symbol s = some u.symbol
      ∨ (p.symbol = c!"μ" ∧ strip? c!"u" s = some u.symbol))).map (fun u => ⟨p, u⟩))

theorem lookup_fast (s : Str) : lookup s = lookupFast s := by
  have hmem : ∀ (p : Prefix) (u : BaseUnit), (s ∈ aliasesOf p u) ↔
      (strip? p.name s = some u.name ∨ strip? p.symbol s = some u.symbol
      ∨ (p.symbol = c!"μ" ∧ strip? c!"u" s = some u.symbol)) := by
    intro p u
    simp only [strip?_eq_some, aliasesOf, List.mem_append, List.mem_cons, List.not_mem_nil, or_false]
    by_cases h : p.symbol = c!"μ" <;> simp [h, or_assoc]
  unfold lookup lookupFast
  rw [allUnits]
  generalize prefixes = ps
  induction ps with
  | nil => rfl
  | cons p ps ih =>
    rw [List.flatMap_cons, List.reverse_append, List.find?_append, ih, List.reverse_cons,
      List.findSome?_append]
    congr 1
    rw [← List.map_reverse, List.find?_map]
    simp only [Function.comp_def, hmem, List.findSome?_cons, List.findSome?_nil]
    cases List.find? _ units.reverse <;> rfl

theorem lookup_some {s : Str} {u : NamedUnit} (h : lookup s = some u) :
    u ∈ allUnits ∧ s ∈ aliasesOf u.pre u.base := by
  unfold lookup at h
  exact ⟨List.mem_reverse.1 (List.mem_of_find?_eq_some h), by simpa using List.find?_some h⟩

theorem lookup_isSome {s : Str} {u : NamedUnit} (hu : u ∈ allUnits)
    (h : s ∈ aliasesOf u.pre u.base) : ∃ v, lookup s = some v := by
  unfold lookup
  rw [← Option.isSome_iff_exists, List.find?_isSome]
  exact ⟨u, List.mem_reverse.2 hu, by simpa using h⟩

/-! ## The singleton cache -/

/-- Invariant of the cache: each key consists of the name and the symbol of its value. -/
def CacheOk (c : AMap Str NamedUnit) : Prop :=
  ∀ e ∈ c, e.2 ∈ allUnits ∧ ∀ x ∈ e.1, x = e.2.name ∨ x = e.2.symbol

theorem mem_set_cases {κ ν : Type _} [DecidableEq κ] {d : Dict κ ν} {k : κ} {v : ν} {e : κ × ν}
    (h : e ∈ d.set k v) : e = (k, v) ∨ e ∈ d := by
  induction d with
  | nil => simp [Dict.set] at h; exact Or.inl h
  | cons p d ih =>
    obtain ⟨a, b⟩ := p
    simp only [Dict.set] at h
    split at h
    · next hk =>
      rcases List.mem_cons.1 h with h | h
      · left; rw [h, hk]
      · exact Or.inr (List.mem_cons_of_mem _ h)
    · rcases List.mem_cons.1 h with h | h
      · exact Or.inr (by rw [h]; simp)
      · rcases ih h with h | h
        · exact Or.inl h
        · exact Or.inr (List.mem_cons_of_mem _ h)

theorem getItem_mem {α ν : Type _} [DecidableEq α] {m : AMap α ν} {x : α} {v : ν}
    (h : Aliased.getItem m x = .ok v) : ∃ e ∈ m, x ∈ e.1 ∧ e.2 = v := by
  unfold Aliased.getItem at h
  split at h
  · next a g hr =>
    split at h
    · next w hw =>
      injection h with h; subst h
      rw [resolve_last] at hr
      have hx := List.find?_some hr
      exact ⟨_, Dict.mem_of_get? hw, by simpa using hx, rfl⟩
    · cases h
  · cases h

theorem callIn_cacheOk {ident : Str → Res NamedUnit} (hid : ∀ s u, ident s = .ok u → u ∈ allUnits)
    {c : AMap Str NamedUnit} (hc : CacheOk c) (s : Str) : CacheOk (callIn ident c s).1 := by
  unfold callIn
  split
  · exact hc
  · split
    · exact hc
    · next u hu =>
      intro e he
      rcases mem_set_cases he with h | h
      · subst h
        refine ⟨hid _ _ hu, ?_⟩
        intro x hx
        simpa using List.mem_dedup.1 hx
      · exact hc e h

theorem identify_ok {s : Str} {u : NamedUnit} (h : identify s = .ok u) : lookup s = some u := by
  rw [identify_eq] at h
  revert h
  generalize lookup s = o
  intro h
  cases o with
  | none => cases h
  | some v => injection h with h; rw [h]

theorem callNamed_cacheOk {c : AMap Str NamedUnit} (hc : CacheOk c) (s : Str) :
    CacheOk (callNamed c s).1 :=
  callIn_cacheOk (fun _ _ h => (lookup_some (identify_ok h)).1) hc s

theorem cacheAfter_ok (h : List Str) : CacheOk (cacheAfter h) := by
  unfold cacheAfter
  suffices H : ∀ c, CacheOk c → CacheOk (h.foldl (fun c s => (callNamed c s).1) c) from
    H [] (by intro e he; cases he)
  induction h with
  | nil => intro c hc; exact hc
  | cons s h ih => intro c hc; exact ih _ (callNamed_cacheOk hc s)

end Verif.Metric
