import Verif.Metric.Units
import Verif.Aliased.Lemmas

/-!
# Lemmas on named units
-/

set_option linter.unusedSimpArgs false
set_option linter.unusedSectionVars false

namespace Verif.Metric

open Verif.Py Verif.Aliased

/-- The two or three ways in which a prefix is written in front of a unit: the prefix, how it is
written, and whether the name (or the symbol) of the unit follows. -/
def forms : List (Prefix × Str × Bool) :=
  prefixes.flatMap (fun p => [(p, p.name, true), (p, p.symbol, false)]
    ++ (if p.symbol = c!"μ" then [(p, c!"u", false)] else []))

def field (b : Bool) (u : BaseUnit) : Str := if b then u.name else u.symbol

theorem mem_aliasesOf {p : Prefix} (hp : p ∈ prefixes) (u : BaseUnit) (s : Str) :
    s ∈ aliasesOf p u ↔ ∃ f ∈ forms, f.1 = p ∧ s = f.2.1 ++ field f.2.2 u := by
  constructor
  · intro h
    simp only [aliasesOf, List.mem_append, List.mem_cons, List.not_mem_nil, or_false] at h
    have key : ∀ f, f ∈ [(p, p.name, true), (p, p.symbol, false)]
        ++ (if p.symbol = c!"μ" then [(p, c!"u", false)] else []) → f ∈ forms := by
      intro f hf
      exact List.mem_flatMap.2 ⟨p, hp, hf⟩
    rcases h with (rfl | rfl) | h
    · exact ⟨_, key (p, p.name, true) (by simp), rfl, by simp [field]⟩
    · exact ⟨_, key (p, p.symbol, false) (by simp), rfl, by simp [field]⟩
    · by_cases hm : p.symbol = c!"μ"
      · rw [if_pos hm] at h
        simp only [List.mem_singleton] at h
        exact ⟨(p, c!"u", false), key _ (by simp [hm]), rfl, by simp [field, h]⟩
      · rw [if_neg hm] at h; cases h
  · rintro ⟨f, hf, rfl, rfl⟩
    obtain ⟨q, hq, hf⟩ := List.mem_flatMap.1 hf
    rcases List.mem_append.1 hf with h | h
    · simp only [List.mem_cons, List.not_mem_nil, or_false] at h
      rcases h with rfl | rfl <;> simp [aliasesOf, field]
    · split at h
      · next hm =>
        simp only [List.mem_singleton] at h
        subst h
        simp [aliasesOf, field, hm]
      · cases h

/-- What remains of `s` after `p`, if it starts with it. -/
def strip? : Str → Str → Option Str
  | [], s => some s
  | _ :: _, [] => none
  | a :: p, b :: s => if a = b then strip? p s else none

theorem strip?_eq_some {p s r : Str} : strip? p s = some r ↔ s = p ++ r := by
  induction p generalizing s with
  | nil => simp [strip?, eq_comm]
  | cons a p ih =>
    cases s with
    | nil => simp [strip?]
    | cons b s =>
      unfold strip?
      split
      · next h => subst h; simp [ih]
      · next h => simp [Ne.symm h, eq_comm]; intro h'; exact absurd h' h

/-- Check of all pairs of aliases in which the prefix of the first is an initial part of that of
the second. -/
def checkPair (f g : Prefix × Str × Bool) : Bool :=
  match strip? f.2.1 g.2.1 with
  | none => true
  | some r => units.all (fun u =>
      match strip? r (field f.2.2 u) with
      | none => true
      | some rest => units.all (fun v =>
          if rest = field g.2.2 v then decide ((f.1 = g.1 ∧ u = v) ∨ f.2.1 ++ field f.2.2 u = c!"cd")
          else true))

set_option maxRecDepth 100000 in
theorem check_all : forms.all (fun f => forms.all (fun g => checkPair f g)) = true := by
  decide +kernel

theorem checkPair_sound {f g : Prefix × Str × Bool} (h : checkPair f g = true) {u v : BaseUnit}
    (hu : u ∈ units) (hv : v ∈ units) (hle : f.2.1 <+: g.2.1)
    (he : f.2.1 ++ field f.2.2 u = g.2.1 ++ field g.2.2 v) :
    (f.1 = g.1 ∧ u = v) ∨ f.2.1 ++ field f.2.2 u = c!"cd" := by
  obtain ⟨r, hr⟩ := hle
  have h1 : strip? f.2.1 g.2.1 = some r := strip?_eq_some.2 hr.symm
  unfold checkPair at h
  rw [h1] at h
  simp only at h
  have h2 := List.all_eq_true.1 h u hu
  have h3 : field f.2.2 u = r ++ field g.2.2 v := by
    rw [← hr, List.append_assoc] at he
    exact List.append_cancel_left he
  rw [strip?_eq_some.2 h3] at h2
  simp only at h2
  have h4 := List.all_eq_true.1 h2 v hv
  simpa using h4

theorem prefix_total {x y a b : Str} (h : x ++ a = y ++ b) : x <+: y ∨ y <+: x := by
  rcases List.append_eq_append_iff.1 h with ⟨c, h1, h2⟩ | ⟨c, h1, h2⟩
  · exact Or.inl ⟨c, h1.symm⟩
  · exact Or.inr ⟨c, h1.symm⟩

theorem mem_allUnits {u : NamedUnit} : u ∈ allUnits ↔ u.pre ∈ prefixes ∧ u.base ∈ units := by
  obtain ⟨p, b⟩ := u
  simp [allUnits]

/-- Two units share the alias `s` only if they are the same, or `s` is `'cd'`. -/
theorem alias_unique {u v : NamedUnit} (hu : u ∈ allUnits) (hv : v ∈ allUnits) {s : Str}
    (h1 : s ∈ aliasesOf u.pre u.base) (h2 : s ∈ aliasesOf v.pre v.base) : u = v ∨ s = c!"cd" := by
  obtain ⟨hu1, hu2⟩ := mem_allUnits.1 hu
  obtain ⟨hv1, hv2⟩ := mem_allUnits.1 hv
  obtain ⟨f, hf, hf1, rfl⟩ := (mem_aliasesOf hu1 _ _).1 h1
  obtain ⟨g, hg, hg1, he⟩ := (mem_aliasesOf hv1 _ _).1 h2
  have hc := fun f hf g hg => List.all_eq_true.1 (List.all_eq_true.1 check_all f hf) g hg
  have hext : ∀ {a b : NamedUnit}, a.pre = b.pre → a.base = b.base → a = b := by
    rintro ⟨_, _⟩ ⟨_, _⟩ rfl rfl; rfl
  rcases prefix_total he with hp | hp
  · rcases checkPair_sound (hc f hf g hg) hu2 hv2 hp he with ⟨h, h'⟩ | h
    · exact Or.inl (hext (by rw [← hf1, ← hg1, h]) h')
    · exact Or.inr h
  · rcases checkPair_sound (hc g hg f hf) hv2 hu2 hp he.symm with ⟨h, h'⟩ | h
    · exact Or.inl (hext (by rw [← hf1, ← hg1, h]) h'.symm)
    · exact Or.inr (he.trans h)

set_option maxRecDepth 100000 in
theorem name_ne_cd : prefixes.all (fun p => units.all (fun u => p.name ++ u.name ≠ c!"cd")) = true := by
  decide +kernel

theorem nodup_units : units.Nodup := by decide +kernel
theorem nodup_prefixes : prefixes.Nodup := by decide +kernel

theorem nodup_allUnits : allUnits.Nodup := by
  unfold allUnits
  rw [List.nodup_flatMap]
  refine ⟨?_, ?_⟩
  · intro p _
    apply List.Nodup.map _ nodup_units
    intro a b h; injection h
  · apply List.Nodup.pairwise_of_forall_ne nodup_prefixes
    intro p _ q _ hne
    simp only [Function.onFun, List.Disjoint]
    intro u hu hv
    obtain ⟨_, _, rfl⟩ := List.mem_map.1 hu
    obtain ⟨_, _, h⟩ := List.mem_map.1 hv
    injection h with h1 h2
    exact hne h1.symm

theorem name_mem_aliases (u : NamedUnit) : u.name ∈ aliasesOf u.pre u.base := by
  simp [aliasesOf, NamedUnit.name]

theorem symbol_mem_aliases (u : NamedUnit) : u.symbol ∈ aliasesOf u.pre u.base := by
  simp [aliasesOf, NamedUnit.symbol]

/-- No two entries of the table have the same aliases. -/
theorem nodup_aliases : (allUnits.map (fun u => (aliasesOf u.pre u.base).dedup)).Nodup := by
  apply List.Nodup.map_on _ nodup_allUnits
  intro u hu v hv h
  have hm : u.name ∈ aliasesOf v.pre v.base := by
    have h1 : u.name ∈ (aliasesOf u.pre u.base).dedup := List.mem_dedup.2 (name_mem_aliases u)
    rw [h] at h1
    exact List.mem_dedup.1 h1
  rcases alias_unique hu hv (name_mem_aliases u) hm with h | h
  · exact h
  · obtain ⟨hu1, hu2⟩ := mem_allUnits.1 hu
    have := List.all_eq_true.1 (List.all_eq_true.1 name_ne_cd _ hu1) _ hu2
    simp only [decide_eq_true_eq] at this
    exact absurd h this

/-! ## Lookup in an aliased mapping with tuple keys -/

section
variable {α ν : Type _} [DecidableEq α]

theorem build_tuples (es : List (List α × ν)) (hnd : (es.map (fun p => p.1.dedup)).Nodup) :
    buildFromAliases (es.map (fun p => ((.inr p.1 : α ⊕ List α), p.2)))
      = es.map (fun p => (p.1.dedup, p.2)) := by
  suffices H : ∀ (out : AMap α ν) (es : List (List α × ν)),
      (out.keys ++ es.map (fun p => p.1.dedup)).Nodup →
      (es.map (fun p => ((.inr p.1 : α ⊕ List α), p.2))).foldl buildStep out
        = out ++ es.map (fun p => (p.1.dedup, p.2)) by
    have := H [] es (by simpa using hnd)
    simpa [buildFromAliases] using this
  intro out es
  induction es generalizing out with
  | nil => intro _; simp
  | cons e es ih =>
    intro h
    simp only [List.map_cons, List.foldl_cons, buildStep]
    have hnot : e.1.dedup ∉ out.keys := by
      intro hm
      simp only [List.map_cons] at h
      exact (List.disjoint_of_nodup_append h) hm (by simp)
    rw [Dict.set_of_not_mem hnot, ih]
    · simp
    · simpa [List.append_assoc] using h

theorem get?_append' {κ : Type _} [DecidableEq κ] (xs ys : List (κ × ν)) (k : κ) :
    Dict.get? (xs ++ ys) k = (Dict.get? xs k).or (Dict.get? ys k) := by
  induction xs with
  | nil => simp
  | cons q xs ih => obtain ⟨a, b⟩ := q; simp only [List.cons_append, Dict.get?, ih]; split <;> simp

theorem get?_pairs (g : Aliased.Group α) (h : Aliased.Group α) (x : α) :
    Dict.get? ((g.map (fun a => (a, h))).reverse) x = if x ∈ g then some h else none := by
  induction g with
  | nil => simp
  | cons a g ih =>
    rw [List.map_cons, List.reverse_cons, get?_append', ih]
    by_cases hx : x ∈ g
    · simp [hx]
    · by_cases ha : a = x
      · simp [hx, ha, Dict.get?]
      · simp [hx, ha, Dict.get?, Ne.symm ha]

/-- A name is resolved to the last group that contains it. -/
theorem resolve_last (m : AMap α ν) (x : α) :
    resolve m x = m.keys.reverse.find? (fun g => x ∈ g) := by
  unfold resolve flatDict Dict.ofPairs
  rw [Dict.get?_update]
  simp only [Dict.get?_nil, Option.or_none]
  induction m.keys with
  | nil => rfl
  | cons g gs ih =>
    rw [List.flatMap_cons, List.reverse_append, get?_append', ih, get?_pairs, List.reverse_cons,
      List.find?_append]
    congr 1
    by_cases h : x ∈ g <;> simp [h]

/-- The last entry whose aliases contain the key. -/
theorem getItem_tuples (es : List (List α × ν)) (hnd : (es.map (fun p => p.1.dedup)).Nodup)
    (x : α) :
    Aliased.getItem (buildFromAliases (es.map (fun p => ((.inr p.1 : α ⊕ List α), p.2)))) x
      = match es.reverse.find? (fun p => x ∈ p.1) with
        | some p => .ok p.2
        | none => .error .keyError := by
  rw [build_tuples es hnd]
  have hkeys : Dict.keys (es.map (fun p => (p.1.dedup, p.2))) = es.map (fun p => p.1.dedup) := by
    simp [Dict.keys, Function.comp_def]
  have hres : resolve (es.map (fun p => (p.1.dedup, p.2))) x
      = (es.reverse.find? (fun p => x ∈ p.1)).map (fun p => p.1.dedup) := by
    rw [resolve_last, hkeys, ← List.map_reverse, List.find?_map]
    congr 2
    funext p
    simp
  unfold Aliased.getItem
  rw [hres]
  cases hf : es.reverse.find? (fun p => x ∈ p.1) with
  | none => simp
  | some p =>
    have hmem : p ∈ es := List.mem_reverse.1 (List.mem_of_find?_eq_some hf)
    have hx : x ∈ p.1 := by simpa using List.find?_some hf
    have hne : p.1.dedup ≠ [] := by
      intro h
      have := List.mem_dedup.2 hx
      rw [h] at this; cases this
    have hget : Dict.get? (es.map (fun p => (p.1.dedup, p.2))) p.1.dedup = some p.2 := by
      apply Dict.get?_of_mem
      · rw [hkeys]; exact hnd
      · exact List.mem_map.2 ⟨p, hmem, rfl⟩
    simp only [Option.map_some]
    obtain ⟨a, g, hag⟩ := List.exists_cons_of_ne_nil hne
    rw [hag] at hget ⊢
    simp only [hget]
end

end Verif.Metric
