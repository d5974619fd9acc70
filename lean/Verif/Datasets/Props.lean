import Verif.Datasets.Model
import Verif.Aliased.ViewProps
import Verif.Defaults.AliasProps

/-!
# C194-C199: variables and axes of a dataset
-/

set_option linter.unusedSimpArgs false

namespace Verif.Datasets

open Verif.Py Verif.Aliased

variable {δ U : Type}

/-- Specification: `x` is another name for `n`, or `n` itself. -/
def Names (groups : List (Aliased.Group Str)) (n x : Str) : Prop := x = n ∨ ∃ g ∈ groups, n ∈ g ∧ x ∈ g

/-- Specification: no two entries of a dataset are called by names of the same group. -/
def Distinct {ν : Type} (groups : List (Aliased.Group Str)) (members : Dict Str ν) : Prop :=
  members.keys.Nodup ∧ ∀ a ∈ members.keys, ∀ b ∈ members.keys, a ≠ b → ∀ g ∈ groups, a ∈ g → b ∉ g

theorem mem_namesVia {groups : List (Aliased.Group Str)} (hg : Disjoint' groups) (n x : Str) :
    x ∈ namesVia groups n ↔ Names groups n x := by
  unfold namesVia Names
  rw [List.mem_cons]
  apply or_congr_right
  cases hf : find groups n with
  | none =>
    simp only [Option.getD_none, List.not_mem_nil, false_iff]
    rintro ⟨g, hgm, hn, _⟩
    have := List.find?_eq_none.1 hf g hgm
    simp [hn] at this
  | some f =>
    have h1 : f ∈ groups := List.mem_of_find?_eq_some hf
    have h2 : n ∈ f := by simpa using List.find?_some hf
    simp only [Option.getD_some]
    constructor
    · intro hx; exact ⟨f, h1, h2, hx⟩
    · rintro ⟨g, hgm, hn, hx⟩
      rw [group_unique hg h1 hgm h2 hn]; exact hx

theorem disjointEntries {ν μ : Type} {groups : List (Aliased.Group Str)} (hg : Disjoint' groups) {members : Dict Str ν}
    (hd : Distinct groups members) (f : Str × ν → μ) :
    DisjointEntries (fun p : Str × μ => namesVia groups p.1) (members.map (fun p => (p.1, f p))) := by
  unfold DisjointEntries
  rw [List.pairwise_map]
  have hp : members.Pairwise (fun p q => p.1 ≠ q.1) := by
    have := hd.1
    unfold Dict.keys at this
    rw [List.Nodup, List.pairwise_map] at this
    exact this
  refine hp.imp_of_mem ?_
  intro p q hpm hqm hne x hx hx'
  rw [mem_namesVia hg] at hx hx'
  have hpk : p.1 ∈ members.keys := List.mem_map.2 ⟨p, hpm, rfl⟩
  have hqk : q.1 ∈ members.keys := List.mem_map.2 ⟨q, hqm, rfl⟩
  rcases hx with rfl | ⟨g, h1, h2, h3⟩
  · rcases hx' with h | ⟨g, h1, h2, h3⟩
    · exact hne h
    · exact hd.2 _ hpk _ hqk hne g h1 h3 h2
  · rcases hx' with rfl | ⟨g', h1', h2', h3'⟩
    · exact hd.2 _ hpk _ hqk hne g h1 h2 h3
    · rw [group_unique hg h1 h1' h3 h3'] at h2
      exact hd.2 _ hpk _ hqk hne g' h1' h2 h2'

/-- What a mapping of the entries of a dataset is. -/
theorem build_eq {ν μ : Type} {groups : List (Aliased.Group Str)} (hg : Disjoint' groups) {members : Dict Str ν}
    (hd : Distinct groups members) (f : Str × ν → μ) :
    buildFromGroups groups (members.map (fun p => (p.1, f p))) =
      members.map (fun p => (Aliased.Group.union [p.1] ((find groups p.1).getD []), f p)) ∧
    Inv (buildFromGroups groups (members.map (fun p => (p.1, f p)))) := by
  have h := represents_of_pairs (members.map (fun p => (p.1, f p))) (fun p => namesVia groups p.1) (·.2)
    (fun p : Str × μ => Aliased.Group.union [p.1] ((find groups p.1).getD []))
    (fun e x => by rw [Group.mem_union, namesVia]; simp) (fun e => Group.nodup_union (by simp) _) (disjointEntries hg hd f)
    (fun e _ => by simp [namesVia])
  unfold buildFromGroups
  rw [List.map_map] at h
  rw [List.map_map]
  have h1 := ofPairs_of_inv h.1
  refine ⟨h1, ?_⟩
  rw [h1]
  exact h.1

/-! ## C194: names of variables and axes -/

theorem build_lookup {ν μ : Type} {groups : List (Aliased.Group Str)} (hg : Disjoint' groups) {members : Dict Str ν}
    (hd : Distinct groups members) (f : Str × ν → μ) :
    (∀ n r, members.get? n = some r → ∀ x, Names groups n x →
      Aliased.getItem (buildFromGroups groups (members.map (fun p => (p.1, f p)))) x = .ok (f (n, r))) ∧
    ∀ x, (∀ n ∈ members.keys, ¬ Names groups n x) →
      Aliased.getItem (buildFromGroups groups (members.map (fun p => (p.1, f p)))) x = .error .keyError := by
  obtain ⟨h1, h2, _⟩ := c15_build_from_groups groups (members.map (fun p => (p.1, f p))) (disjointEntries hg hd f)
  constructor
  · intro n r hr x hx
    exact h1 (n, f (n, r)) (List.mem_map.2 ⟨(n, r), Dict.mem_of_get? hr, rfl⟩) x ((mem_namesVia hg n x).2 hx)
  · intro x hx
    refine h2 x (fun e he => ?_)
    obtain ⟨p, hp, rfl⟩ := List.mem_map.1 he
    rw [mem_namesVia hg]
    exact hx p.1 (List.mem_map.2 ⟨p, hp, rfl⟩)

/-- **C194.** If no two variables of a dataset have names of the same group, then each is found under its name and its aliases, with its
own data, dimensions and unit, and nothing else is found. -/
theorem c194_variables_partial (groups : List (Aliased.Group Str)) (hg : Disjoint' groups) (members : Dict Str (Raw δ))
    (hd : Distinct groups members) :
    (∀ n r, members.get? n = some r → ∀ x, Names groups n x → ∃ v, Aliased.getItem (variablesOf groups members) x = .ok v ∧
      v.name = n ∧ v.data = r.data ∧ v.shape = r.shape ∧ (∀ d, r.dimensions = some d → v.dimensions = d) ∧
      (∀ u, r.unit = some u → v.unit = some u) ∧ (r.unit = none → v.unit = r.units)) ∧
    ∀ x, (∀ n ∈ members.keys, ¬ Names groups n x) → Aliased.getItem (variablesOf groups members) x = .error .keyError := by
  obtain ⟨h1, h2⟩ := build_lookup hg hd (fun p => toVariable p.1 p.2)
  refine ⟨fun n r hr x hx => ⟨_, h1 n r hr x hx, rfl, rfl, rfl, ?_, ?_, ?_⟩, h2⟩
  · intro d hd; simp [toVariable, dimensionsFromData, hd]
  · intro u hu; simp [toVariable, unitFromData, hu]
  · intro hu; simp [toVariable, unitFromData, hu]

/-- **C194**, for axes. -/
theorem c194_axes_partial (groups : List (Aliased.Group Str)) (hg : Disjoint' groups) (members : Dict Str (Option Nat))
    (hd : Distinct groups members) :
    (∀ n s, members.get? n = some s → ∀ x, Names groups n x → Aliased.getItem (axesOf groups members) x = .ok ⟨s, n⟩) ∧
    ∀ x, (∀ n ∈ members.keys, ¬ Names groups n x) → Aliased.getItem (axesOf groups members) x = .error .keyError :=
  build_lookup hg hd (fun p => (⟨p.2, p.1⟩ : Axis))

/-- **C194**, for the two ways to reach a variable or an axis: by the name that it has in the dataset, the viewer gives the
same as the interface; it has no entry for other names. -/
theorem c194_view_partial (groups : List (Aliased.Group Str)) (hg : Disjoint' groups) :
    (∀ members : Dict Str (Raw δ), Distinct groups members → ∀ n,
      (n ∈ members.keys → viewVariable members n = Aliased.getItem (variablesOf groups members) n) ∧
      (n ∉ members.keys → viewVariable members n = .error .keyError)) ∧
    ∀ members : Dict Str (Option Nat), Distinct groups members → ∀ n,
      (n ∈ members.keys → viewAxis members n = Aliased.getItem (axesOf groups members) n) ∧
      (n ∉ members.keys → viewAxis members n = .error .keyError) := by
  refine ⟨fun members hd n => ⟨fun h => ?_, fun h => ?_⟩, fun members hd n => ⟨fun h => ?_, fun h => ?_⟩⟩
  · obtain ⟨r, hr⟩ := Option.isSome_iff_exists.1 ((Dict.get?_isSome_iff members n).2 h)
    have := (build_lookup hg hd (fun p => toVariable p.1 p.2)).1 n r hr n (Or.inl rfl)
    unfold viewVariable
    rw [hr]
    exact this.symm
  · unfold viewVariable
    rw [(Dict.get?_eq_none_iff members n).2 h]
  · obtain ⟨r, hr⟩ := Option.isSome_iff_exists.1 ((Dict.get?_isSome_iff members n).2 h)
    have := (build_lookup hg hd (fun p => (⟨p.2, p.1⟩ : Axis))).1 n r hr n (Or.inl rfl)
    unfold viewAxis
    rw [hr]
    exact this.symm
  · unfold viewAxis
    rw [(Dict.get?_eq_none_iff members n).2 h]

/-- The aliases in `reference.py` are disjoint, so that the theorems apply to every dataset. -/
theorem reference_disjoint : Disjoint' Defaults.referenceGroups := by
  have h : Defaults.referenceGroups.Pairwise (fun a b => Defaults.apart a b = true) := by decide +kernel
  refine h.imp ?_
  intro a b hab x hx hx'
  unfold Defaults.apart at hab
  have := List.all_eq_true.1 hab x hx
  simp at this
  exact this hx'

theorem get?_update_const {ν : Type} (h : ν) (a : Str) : ∀ (l : List Str) (d : Dict Str ν),
    (d.update (l.map (fun x => (x, h)))).get? a = if a ∈ l then some h else d.get? a := by
  intro l
  induction l with
  | nil => intro d; simp
  | cons x l ih =>
    intro d
    rw [List.map_cons, Dict.update_cons, ih, Dict.get?_set]
    by_cases h1 : a ∈ l
    · simp [h1]
    · by_cases h2 : x = a
      · subst h2; simp [h1]
      · have h3 : a ≠ x := fun h => h2 h.symm
        simp [h1, h2, h3]

/-- **C194, violated.** If a dataset has two variables with names of the same group, then the first is not found under its own name,
but the second is. -/
theorem c194_counterexample (g : Aliased.Group Str) (a b : Str) (ha : a ∈ g) (hb : b ∈ g) (hab : a ≠ b) (r s : Raw δ) :
    Aliased.getItem (variablesOf [g] [(a, r), (b, s)]) a = .ok (toVariable b s) := by
  have hfa : find [g] a = some g := by simp [find, ha]
  have hfb : find [g] b = some g := by simp [find, hb]
  have hm : variablesOf [g] [(a, r), (b, s)] =
      [(Aliased.Group.union [a] g, toVariable a r), (Aliased.Group.union [b] g, toVariable b s)] := by
    unfold variablesOf buildFromGroups
    simp only [List.map_cons, List.map_nil, hfa, hfb, Option.getD_some]
    apply Dict.ofPairs_of_nodup
    simp [Aliased.Group.union, hab]
  have hab2 : a ∈ Aliased.Group.union [b] g := (Group.mem_union _ _ _).2 (Or.inr ha)
  have hr : resolve (variablesOf [g] [(a, r), (b, s)]) a = some (Aliased.Group.union [b] g) := by
    rw [hm]
    unfold resolve flatDict
    simp only [Dict.keys_cons, List.flatMap_cons]
    show (Dict.ofPairs _).get? a = _
    unfold Dict.ofPairs
    simp only [List.flatMap_nil, Dict.keys, List.map_nil, List.append_nil]
    rw [Dict.update_append, get?_update_const, if_pos hab2]
  unfold Aliased.getItem
  rw [hr, hm]
  simp [Aliased.Group.union, Dict.get?_cons, hab]


example : Distinct Defaults.referenceGroups [(c!"time", (some 4)), (c!"R", some 5), (c!"Br", none)] ∧
    Names Defaults.referenceGroups c!"R" c!"radius" := by
  refine ⟨⟨by decide, ?_⟩, Or.inr ⟨[c!"radius", c!"R", c!"r"], ?_, ?_, ?_⟩⟩
  · intro a ha b hb hab g hg
    have : ∀ g ∈ Defaults.referenceGroups, ∀ a ∈ [c!"time", c!"R", c!"Br"], ∀ b ∈ [c!"time", c!"R", c!"Br"], a ≠ b → a ∈ g → b ∉ g := by
      decide +kernel
    exact this g hg a ha b hb hab
  · decide +kernel
  · decide
  · decide

/-! ## C195: units by name -/

theorem getItem_map {ν μ : Type} {m : AMap Str ν} (hm : Inv m) (f : ν → μ) (x : Str) :
    Aliased.getItem (m.map (fun p => (p.1, f p.2)) : AMap Str μ) x = (Aliased.getItem m x).map f := by
  have hk : Dict.keys (m.map (fun p => (p.1, f p.2)) : AMap Str μ) = m.keys := by
    unfold Dict.keys; rw [List.map_map]; rfl
  have hi : Inv (m.map (fun p => (p.1, f p.2)) : AMap Str μ) := by
    unfold Aliased.Inv flatKeys; rw [hk]; exact hm
  rcases getItem_ne_ok hm x with ⟨v, hv⟩ | he
  · rw [hv]
    obtain ⟨g, hg, hx⟩ := (getItem_ok_iff hm x v).1 hv
    exact (getItem_ok_iff hi x (f v)).2 ⟨g, List.mem_map.2 ⟨_, hg, rfl⟩, hx⟩
  · rw [he]
    refine (getItem_error_iff hi x).2 ?_
    have := (getItem_error_iff hm x).1 he
    unfold flatKeys at this ⊢
    rw [hk]; exact this

/-- **C195.** If no two variables have names of the same group, then the unit listed under a name is the unit of the variable under
this name, and no other names are listed. -/
theorem c195_partial (groups : List (Aliased.Group Str)) (hg : Disjoint' groups) (members : Dict Str (Raw δ))
    (hd : Distinct groups members) :
    ∃ us, unitsOf (variablesOf groups members) = .ok us ∧
      ∀ x, Aliased.getItem us x = (Aliased.getItem (variablesOf groups members) x).map (·.unit) := by
  have hi : Inv (variablesOf groups members) := (build_eq hg hd (fun p => toVariable p.1 p.2)).2
  have hk : Dict.keys ((variablesOf groups members).map (fun p => (p.1, p.2.unit)) : AMap Str (Option Str)) =
      (variablesOf groups members).keys := by
    unfold Dict.keys; rw [List.map_map]; rfl
  refine ⟨(variablesOf groups members).map (fun p => (p.1, p.2.unit)), ?_, fun x => getItem_map hi (·.unit) x⟩
  unfold unitsOf
  rw [itemsAliased_ok hi]
  show Except.ok (ofGroups (Dict.ofPairs _)) = _
  rw [Dict.ofPairs_of_nodup (by rw [hk]; exact hi.nodup_keys), ofGroups_eq]
  · intro g hgm
    rw [hk] at hgm
    exact ((nodup_flatten_iff _).1 hi.1).1 g hgm
  · rw [hk]; exact hi.nodup_keys

/-- **C195, violated.** For two variables in the same group, `units` gives the unit of the first, but `variables` gives the second. -/
theorem c195_counterexample :
    let m := variablesOf [[c!"radius", c!"R", c!"r"]] [(c!"r", (⟨0, some c!"au", none, none, []⟩ : Raw Nat)), (c!"R", ⟨1, some c!"cm", none, none, []⟩)]
    (Aliased.getItem m c!"r").map (·.unit) = .ok (some c!"cm") ∧
    (unitsOf m).bind (fun us => Aliased.getItem us c!"r") = .ok (some c!"au") := by decide +kernel

/-! ## C196: available names -/

/-- **C196.** The names on disk are listed in order as canonical names; `full` lists each name that can be looked up once; `grouped` has
one group for each variable, which together have the names in `full`; every canonical name can be looked up. -/
theorem c196_partial (groups : List (Aliased.Group Str)) (hg : Disjoint' groups) (vs : Dict Str (Raw δ))
    (as : Dict Str (Option Nat)) (hd : Distinct groups vs) (key : Str) (hk : key = c!"variable" ∨ key = c!"variables") :
    ∃ keys, ((State.new vs as).available groups key).1 = some keys ∧ keys.canonical = vs.keys ∧ keys.full.Nodup ∧
      (∀ x, x ∈ keys.full ↔ ∃ v, Aliased.getItem (variablesOf groups vs) x = .ok v) ∧
      (∀ x, x ∈ keys.full ↔ ∃ g ∈ keys.grouped, x ∈ g) ∧
      keys.grouped.length = vs.length ∧ ∀ n ∈ keys.canonical, n ∈ keys.full := by
  obtain ⟨he, hi⟩ := build_eq hg hd (fun p => toVariable p.1 p.2)
  have hi : Inv (variablesOf groups vs) := hi
  have he : variablesOf groups vs = _ := he
  have ha : ((State.new vs as).available groups key).1 = some (subsetKeys (variablesOf groups vs) vs) := by
    rcases hk with rfl | rfl <;> rfl
  refine ⟨_, ha, rfl, hi.1, mem_flatKeys_iff hi, fun x => ?_, ?_, fun n hn => ?_⟩
  · show x ∈ flatKeys _ ↔ ∃ g ∈ Dict.keys _, _
    unfold flatKeys
    rw [List.mem_flatten]
  · show (Dict.keys _).length = _
    rw [he]; unfold Dict.keys; simp
  · show n ∈ flatKeys _
    have hn : n ∈ vs.keys := hn
    obtain ⟨r, hr⟩ := Option.isSome_iff_exists.1 ((Dict.get?_isSome_iff vs n).2 hn)
    exact (mem_flatKeys_iff hi n).2 ⟨_, (build_lookup hg hd (fun p => toVariable p.1 p.2)).1 n r hr n (Or.inl rfl)⟩

/-- **C196**, for axes. -/
theorem c196_axes_partial (groups : List (Aliased.Group Str)) (hg : Disjoint' groups) (vs : Dict Str (Raw δ))
    (as : Dict Str (Option Nat)) (hd : Distinct groups as) (key : Str)
    (hk : key ∈ [c!"axis", c!"axes", c!"dimension", c!"dimensions"]) :
    ∃ keys, ((State.new vs as).available groups key).1 = some keys ∧ keys.canonical = as.keys ∧ keys.full.Nodup ∧
      (∀ x, x ∈ keys.full ↔ ∃ v, Aliased.getItem (axesOf groups as) x = .ok v) ∧
      (∀ x, x ∈ keys.full ↔ ∃ g ∈ keys.grouped, x ∈ g) ∧
      keys.grouped.length = as.length ∧ ∀ n ∈ keys.canonical, n ∈ keys.full := by
  obtain ⟨he, hi⟩ := build_eq hg hd (fun p => (⟨p.2, p.1⟩ : Axis))
  have hi : Inv (axesOf groups as) := hi
  have he : axesOf groups as = _ := he
  have hv : key ∉ [c!"variable", c!"variables"] := by
    intro hc
    revert hk
    rcases List.mem_cons.1 hc with rfl | hc
    · decide
    · rw [List.mem_singleton] at hc; subst hc; decide
  have ha : ((State.new vs as).available groups key).1 = some (subsetKeys (axesOf groups as) as) := by
    unfold State.available
    rw [if_neg hv, if_pos hk]
    rfl
  refine ⟨_, ha, rfl, hi.1, mem_flatKeys_iff hi, fun x => ?_, ?_, fun n hn => ?_⟩
  · show x ∈ flatKeys _ ↔ ∃ g ∈ Dict.keys _, _
    unfold flatKeys
    rw [List.mem_flatten]
  · show (Dict.keys _).length = _
    rw [he]; unfold Dict.keys; simp
  · show n ∈ flatKeys _
    have hn : n ∈ as.keys := hn
    obtain ⟨r, hr⟩ := Option.isSome_iff_exists.1 ((Dict.get?_isSome_iff as n).2 hn)
    exact (mem_flatKeys_iff hi n).2 ⟨_, (build_lookup hg hd (fun p => (⟨p.2, p.1⟩ : Axis))).1 n r hr n (Or.inl rfl)⟩

/-- **C196, violated.** Names are listed more than once, if two variables have names of the same group. -/
theorem c196_counterexample :
    (((State.new [(c!"r", (⟨0, none, none, none, []⟩ : Raw Nat)), (c!"R", ⟨1, none, none, none, []⟩)] []).available
      [[c!"R", c!"r"]] c!"variables").1).map (·.full) = some [c!"r", c!"R", c!"R", c!"r"] := by decide +kernel

/-! ## C197: other viewers -/

/-- **C197.** Other viewers are used for variables, if the variables have not been asked for. -/
theorem c197_partial (groups : List (Aliased.Group Str)) (s : State δ) (vs : Dict Str (Raw δ)) (h : s.varMap = none) :
    ((s.useVariables vs).getVariables groups).1 = variablesOf groups vs := by
  unfold State.getVariables State.useVariables
  simp only [h]

/-- **C197, violated.** Once the variables have been asked for, other viewers change nothing but the canonical names, for all viewers. -/
theorem c197_counterexample (groups : List (Aliased.Group Str)) (s : State δ) (vs : Dict Str (Raw δ)) :
    let t := (s.getVariables groups).2.useVariables vs
    (t.getVariables groups).1 = (s.getVariables groups).1 ∧
    (t.available groups c!"variables").1 = some ⟨flatKeys (s.getVariables groups).1, (s.getVariables groups).1.keys, vs.keys⟩ := by
  obtain ⟨v, a, mv, ma⟩ := s
  cases mv with
  | none => exact ⟨rfl, rfl⟩
  | some m => exact ⟨rfl, rfl⟩

/-! ## C198: variable quantities -/

/-- What a new interface gives for a name. -/
def fresh (build : Var δ → Res (Qty δ U)) (m : AMap Str (Var δ)) (key : Str) : Res (Qty δ U) := (lookup build m [] key).1

theorem lookup_fresh {build : Var δ → Res (Qty δ U)} {m : AMap Str (Var δ)} {cache : Dict Str (Qty δ U)}
    (hc : ∀ k q, cache.get? k = some q → fresh build m k = .ok q) (key : Str) :
    (lookup build m cache key).1 = fresh build m key ∧
    ∀ k q, (lookup build m cache key).2.get? k = some q → fresh build m k = .ok q := by
  cases hk : cache.get? key with
  | some q =>
    unfold lookup
    rw [hk]
    exact ⟨(hc key q hk).symm, hc⟩
  | none =>
    have hf : (lookup build m cache key).1 = fresh build m key := by
      unfold fresh lookup
      rw [hk, Dict.get?_nil]
      simp only
      split <;> rfl
    refine ⟨hf, ?_⟩
    intro k q hq
    have : (lookup build m cache key).2 = cache ∨
        ∃ q', (lookup build m cache key).1 = .ok q' ∧ (lookup build m cache key).2 = cache.set key q' := by
      unfold lookup
      rw [hk]
      simp only
      split
      · exact Or.inl rfl
      · exact Or.inl rfl
      · exact Or.inr ⟨_, rfl, rfl⟩
    rcases this with h | ⟨q', h1, h2⟩
    · rw [h] at hq; exact hc k q hq
    · rw [h2, Dict.get?_set] at hq
      by_cases hkk : key = k
      · subst hkk
        rw [if_pos rfl] at hq
        injection hq with hq
        subst hq
        rw [← hf]; exact h1
      · rw [if_neg hkk] at hq
        exact hc k q hq

/-- **C198.** What is found under a name does not depend on what was looked up before. -/
theorem c198_history (build : Var δ → Res (Qty δ U)) (m : AMap Str (Var δ)) (keys : List Str) (key : Str) :
    (lookup build m (lookups build m keys) key).1 = fresh build m key := by
  have h : ∀ (ks : List Str) (c : Dict Str (Qty δ U)), (∀ k q, c.get? k = some q → fresh build m k = .ok q) →
      ∀ k q, (ks.foldl (fun c k => (lookup build m c k).2) c).get? k = some q → fresh build m k = .ok q := by
    intro ks
    induction ks with
    | nil => intro c hc; exact hc
    | cons k ks ih => intro c hc; exact ih _ (lookup_fresh hc k).2
  exact (lookup_fresh (h keys [] (fun k q hq => by cases hq)) key).1

/-- The names of the axes of a quantity. -/
def axisNames (v : Var δ) : List Str := if v.dimensions = [] then defaultNames v.shape.length else v.dimensions

theorem fresh_ok_iff {build : Var δ → Res (Qty δ U)} {m : AMap Str (Var δ)} {key : Str} {v : Var δ}
    (hv : Aliased.getItem m key = .ok v) (q : Qty δ U) :
    fresh build m key = .ok q ↔ build v = .ok q ∧ truth q = .ok true := by
  unfold fresh lookup
  rw [Dict.get?_nil]
  simp only [hv]
  cases hb : build v with
  | error e => simp [hb, bind, Except.bind]
  | ok q' =>
    cases ht : truth q' with
    | error e =>
      simp only [hb, ht, bind, Except.bind, Except.ok.injEq, reduceCtorEq, false_iff, not_and]
      rintro rfl
      rw [ht]; simp
    | ok b =>
      cases b with
      | false =>
        simp only [hb, ht, bind, Except.bind, pure, Except.pure, Except.ok.injEq, reduceCtorEq, false_iff, not_and]
        rintro rfl
        rw [ht]; simp
      | true =>
        simp only [hb, ht, bind, Except.bind, pure, Except.pure, Except.ok.injEq]
        constructor
        · rintro rfl; exact ⟨rfl, ht⟩
        · rintro ⟨rfl, _⟩; rfl

theorem truth_iff (q : Qty δ U) : truth q = .ok true ↔ ∃ n rest, q.shape = n :: rest ∧ n ≠ 0 := by
  unfold truth
  cases hs : q.shape with
  | nil => simp
  | cons n rest => simp

theorem newQty_ok_iff {parse : Str → Res U} {data : δ} {shape : List Nat} {dims : List Str} {unit : Str} (q : Qty δ U) :
    newQty parse data shape dims unit = .ok q ↔ ∃ u, parse (if unit = [] then c!"1" else unit) = .ok u ∧
      (if dims = [] then defaultNames shape.length else dims).length = shape.length ∧
      q = ⟨data, shape, if dims = [] then defaultNames shape.length else dims, u⟩ := by
  unfold newQty
  cases hp : parse (if unit = [] then c!"1" else unit) with
  | error e => simp [bind, Except.bind]
  | ok u =>
    by_cases hl : (if dims = [] then defaultNames shape.length else dims).length = shape.length
    · simp only [bind, Except.bind, hl, ne_eq, not_true_eq_false, if_false, pure, Except.pure, Except.ok.injEq, true_and]
      constructor
      · rintro rfl; exact ⟨u, rfl, rfl⟩
      · rintro ⟨u', rfl, rfl⟩; rfl
    · simp [bind, Except.bind, hl, throw, throwThe, MonadExceptOf.throw]

theorem buildEprem_ok_iff {parse : Str → Res U} {convert : Str → U → Res U} (v : Var δ) (q : Qty δ U) :
    buildEprem parse convert v = .ok q ↔ ∃ unit q', v.unit = some unit ∧
      newQty parse v.data v.shape v.dimensions (Eprem.standardize unit) = .ok q' ∧ ∃ w, convert v.name q'.unit = .ok w ∧
        q = { q' with unit := w } := by
  unfold buildEprem
  cases v.unit with
  | none => simp
  | some unit =>
    cases hq : newQty parse v.data v.shape v.dimensions (Eprem.standardize unit) with
    | error e => simp [bind, Except.bind, hq]
    | ok q' =>
      cases hc : convert v.name q'.unit with
      | error e => simp [bind, Except.bind, hq, hc]
      | ok w =>
        simp only [bind, Except.bind, hq, hc, pure, Except.pure, Except.ok.injEq, Option.some.injEq]
        constructor
        · rintro rfl; exact ⟨unit, q', rfl, hq, w, hc, rfl⟩
        · rintro ⟨unit', q'', rfl, h1, w', h2, rfl⟩
          rw [hq] at h1
          injection h1 with h1
          subst h1
          rw [hc] at h2
          injection h2 with h2
          rw [h2]

/-- **C198.** A variable is available as a quantity just if it has a unit that can be read and converted, a name for each axis, at least
one axis, and its first axis is not empty; the quantity has the data, the shape and the dimensions of the variable. -/
theorem c198_quantity_partial (parse : Str → Res U) (convert : Str → U → Res U) (m : AMap Str (Var δ)) (key : Str) (v : Var δ)
    (hv : Aliased.getItem m key = .ok v) (q : Qty δ U) :
    fresh (buildEprem parse convert) m key = .ok q ↔
      ∃ unit u, v.unit = some unit ∧ parse (if Eprem.standardize unit = [] then c!"1" else Eprem.standardize unit) = .ok u ∧
        convert v.name u = .ok q.unit ∧ (axisNames v).length = v.shape.length ∧ (∃ n rest, v.shape = n :: rest ∧ n ≠ 0) ∧
        q.data = v.data ∧ q.shape = v.shape ∧ q.dimensions = axisNames v := by
  rw [fresh_ok_iff hv, buildEprem_ok_iff, truth_iff]
  constructor
  · rintro ⟨⟨unit, q', h1, h2, w, h3, rfl⟩, h4⟩
    obtain ⟨u, h5, h6, rfl⟩ := (newQty_ok_iff q').1 h2
    exact ⟨unit, u, h1, h5, h3, h6, h4, rfl, rfl, rfl⟩
  · rintro ⟨unit, u, h1, h2, h3, h4, h5, h6, h7, h8⟩
    refine ⟨⟨unit, ⟨v.data, v.shape, axisNames v, u⟩, h1, (newQty_ok_iff _).2 ⟨u, h2, h4, rfl⟩, q.unit, h3, ?_⟩, ?_⟩
    · rw [← h6, ← h7, ← h8]
    · rw [h7]; exact h5

/-- **C198, violated.** A variable without a unit, and one without axes, raise `TypeError`, and one with an empty axis raises `KeyError`,
although the dataset has them. -/
theorem c198_counterexample (parse : Str → Res U) (convert : Str → U → Res U) (m : AMap Str (Var δ)) (key : Str) (v : Var δ)
    (hv : Aliased.getItem m key = .ok v) :
    (v.unit = none → fresh (buildEprem parse convert) m key = .error .typeError) ∧
    (∀ q, buildEprem parse convert v = .ok q → q.shape = [] → fresh (buildEprem parse convert) m key = .error .typeError) ∧
    (∀ q rest, buildEprem parse convert v = .ok q → q.shape = 0 :: rest → fresh (buildEprem parse convert) m key = .error .keyError) := by
  unfold fresh lookup
  rw [Dict.get?_nil]
  simp only [hv]
  refine ⟨fun hu => ?_, fun q hq hs => ?_, fun q rest hq hs => ?_⟩
  · simp [buildEprem, hu, bind, Except.bind]
  · simp [hq, truth, hs, bind, Except.bind]
  · simp [hq, truth, hs, bind, Except.bind, pure, Except.pure]

/-! ## C199: the base class -/

/-- **C199, violated.** `variable.Interface` gives no variable at all: each lookup raises an exception. -/
theorem c199_counterexample (m : AMap Str (Var δ)) (keys : List Str) (key : Str) :
    ∃ e, (lookup (buildBase : Var δ → Res (Qty δ U)) m (lookups buildBase m keys) key).1 = .error e ∧
      (∀ v, Aliased.getItem m key = .ok v → e = .attributeError) := by
  rw [c198_history]
  unfold fresh lookup
  rw [Dict.get?_nil]
  cases hv : Aliased.getItem m key with
  | error e => exact ⟨e, rfl, fun v h => by cases h⟩
  | ok v => exact ⟨.attributeError, rfl, fun _ _ => rfl⟩

/-- **C199.** What remains: a name that the dataset does not have is reported with `KeyError`. -/
theorem c199_partial (m : AMap Str (Var δ)) (hm : Inv m) (key : Str) (h : ∀ v, Aliased.getItem m key ≠ .ok v) :
    (lookup (buildBase : Var δ → Res (Qty δ U)) m [] key).1 = .error .keyError := by
  unfold lookup
  rw [Dict.get?_nil]
  rcases getItem_ne_ok hm key with ⟨v, hv⟩ | he
  · exact absurd hv (h v)
  · rw [he]; rfl

/-! ## Examples -/

/-- A dataset with two variables. -/
def sample : Dict Str (Raw Nat) :=
  [(c!"R", ⟨0, none, some c!"au", some [c!"time", c!"shell"], [4, 5]⟩), (c!"Br", ⟨1, some c!"G", some c!"T", some [c!"time"], [4]⟩)]

example : (Aliased.getItem (variablesOf Defaults.referenceGroups sample) c!"radius").map (fun v => (v.name, v.unit)) =
    .ok (c!"R", some c!"au") ∧
    (Aliased.getItem (variablesOf Defaults.referenceGroups sample) c!"br").map (fun v => (v.name, v.unit)) = .ok (c!"Br", some c!"G") := by
  decide +kernel

example : fresh (buildEprem (fun s => .ok s) (fun _ u => .ok u)) (variablesOf Defaults.referenceGroups sample) c!"r" =
    .ok ⟨0, [4, 5], [c!"time", c!"shell"], c!"au"⟩ := by decide +kernel

end Verif.Datasets
