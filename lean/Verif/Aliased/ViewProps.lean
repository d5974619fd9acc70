import Verif.Aliased.Views
import Verif.Aliased.Props
import Verif.Metric.UnitsLemmas
import Mathlib.Data.List.Perm.Subperm

/-!
# C170-C175: merging, equality, copies and inversion of aliased mappings
-/

set_option linter.unusedSimpArgs false
set_option linter.unusedSectionVars false

namespace Verif.Aliased

open Verif.Py

variable {α ν : Type} [DecidableEq α]

/-! ## Items of well-formed mappings -/

theorem mapM_ok {β γ : Type} {f : β → Res γ} {g : β → γ} : ∀ {l : List β}, (∀ x ∈ l, f x = .ok (g x)) →
    l.mapM f = .ok (l.map g)
  | [], _ => rfl
  | x :: l, h => by
    rw [List.mapM_cons, h x (by simp), mapM_ok (fun y hy => h y (List.mem_cons_of_mem _ hy))]
    rfl

theorem same_of_mem {m : AMap α ν} (hm : Inv m) {g h : Group α} (hg : g ∈ m.keys) (hh : h ∈ m.keys)
    (hs : g.same h = true) : g = h := by
  have hne := hm.2 g hg
  cases g with
  | nil => exact absurd rfl hne
  | cons a g =>
    exact group_unique hm.disjoint hg hh (x := a) (by simp) (((Group.same_iff _ _).1 hs a).1 (by simp))

theorem getGroup_ok {m : AMap α ν} (hm : Inv m) {e : Group α × ν} (he : e ∈ m) : getGroup m e.1 = .ok e.2 := by
  unfold getGroup
  have hk : e.1 ∈ m.keys := List.mem_map.2 ⟨_, he, rfl⟩
  have hsome : (m.find? (fun x => x.1.same e.1)).isSome := by
    rw [List.find?_isSome]
    exact ⟨e, he, (Group.same_iff _ _).2 (fun _ => Iff.rfl)⟩
  obtain ⟨x, hx⟩ := Option.isSome_iff_exists.1 hsome
  have hxm := List.mem_of_find?_eq_some hx
  have hxs : x.1.same e.1 = true := by simpa using List.find?_some hx
  have hxk : x.1 ∈ m.keys := List.mem_map.2 ⟨_, hxm, rfl⟩
  have heq := same_of_mem hm hxk hk hxs
  have hv : x.2 = e.2 := by
    have h1 := Dict.get?_of_mem hm.nodup_keys (k := x.1) (v := x.2) hxm
    have h2 := Dict.get?_of_mem hm.nodup_keys (k := e.1) (v := e.2) he
    rw [heq, h2] at h1; injection h1 with h1; exact h1.symm
  rw [hx]
  obtain ⟨g, v⟩ := x
  cases g with
  | nil => exact absurd rfl (hm.2 _ hxk)
  | cons a g => simp only at hv; rw [hv]

theorem itemsAliased_ok {m : AMap α ν} (hm : Inv m) : itemsAliased m = .ok m := by
  unfold itemsAliased
  have h : ∀ (l : AMap α ν), (∀ e ∈ l, e ∈ m) →
      l.keys.mapM (fun g => do return (g, ← getGroup m g)) = (.ok l : Res (List (Group α × ν))) := by
    intro l
    induction l with
    | nil => intro _; rfl
    | cons e l ih =>
      intro h
      rw [Dict.keys_cons, List.mapM_cons, getGroup_ok hm (h e (by simp)), ih (fun x hx => h x (List.mem_cons_of_mem _ hx))]
      rfl
  exact h m (fun _ h => h)

/-- `items()` lists every name with its value. -/
theorem items_ok {m : AMap α ν} (hm : Inv m) : ∃ ps, items m = .ok ps ∧ ps.map (·.1) = flatKeys m ∧
    ∀ p ∈ ps, getItem m p.1 = .ok p.2 := by
  unfold items
  have h : ∀ l : List α, (∀ x ∈ l, x ∈ flatKeys m) → ∃ ps : List (α × ν),
      l.mapM (fun k => do return (k, ← getItem m k)) = (.ok ps : Res (List (α × ν))) ∧ ps.map (·.1) = l ∧
      ∀ p ∈ ps, getItem m p.1 = .ok p.2 := by
    intro l
    induction l with
    | nil => intro _; exact ⟨[], rfl, rfl, by simp⟩
    | cons x l ih =>
      intro hx
      obtain ⟨ps, h1, h2, h3⟩ := ih (fun y hy => hx y (List.mem_cons_of_mem _ hy))
      rcases getItem_ne_ok hm x with ⟨v, hv⟩ | he
      · refine ⟨(x, v) :: ps, ?_, by simp [h2], ?_⟩
        · rw [List.mapM_cons, hv, h1]; rfl
        · intro p hp
          rcases List.mem_cons.1 hp with hp | hp
          · subst hp; exact hv
          · exact h3 p hp
      · exact absurd (hx x (by simp)) ((getItem_error_iff hm x).1 he)
  exact h _ (fun _ h => h)

theorem flatMap_ok {m : AMap α ν} (hm : Inv m) : ∃ d : Dict α ν, flatMap m = .ok d ∧ d.keys = flatKeys m ∧
    ∀ x v, d.get? x = some v ↔ getItem m x = .ok v := by
  obtain ⟨ps, h1, h2, h3⟩ := items_ok hm
  have hnd : (Dict.keys ps).Nodup := by unfold Dict.keys; rw [h2]; exact hm.1
  refine ⟨ps, ?_, h2, ?_⟩
  · unfold flatMap; rw [h1]
    show Except.ok (Dict.ofPairs ps) = _
    rw [Dict.ofPairs_of_nodup hnd]
  · intro x v
    constructor
    · intro h; exact h3 _ (Dict.mem_of_get? h)
    · intro h
      have hx : x ∈ ps.map (·.1) := by
        rw [h2]
        by_contra hc
        rw [(getItem_error_iff hm x).2 hc] at h; cases h
      obtain ⟨p, hp, rfl⟩ := List.mem_map.1 hx
      have := h3 p hp
      rw [h] at this; injection this with this
      exact Dict.get?_of_mem hnd (by rw [this]; exact hp)

theorem contains_iff {m : AMap α ν} (hm : Inv m) (x : α) : contains m x = true ↔ ∃ v, getItem m x = .ok v := by
  unfold contains
  rw [Option.isSome_iff_ne_none, Ne, resolve_eq_none_iff hm]
  constructor
  · intro h
    rcases getItem_ne_ok hm x with h1 | h1
    · exact h1
    · exact absurd ((getItem_error_iff hm x).1 h1) h
  · rintro ⟨v, hv⟩ hx
    rw [(getItem_error_iff hm x).2 hx] at hv; cases hv

/-! ## C170: merging -/

theorem ofGroups_eq {d : Dict (Group α) ν} (hn : ∀ g ∈ d.keys, g.Nodup) (hd : d.keys.Nodup) : ofGroups d = d := by
  have h1 : d.map (fun p => (p.1.dedup, p.2)) = d := by
    have : ∀ p ∈ d, (p.1.dedup, p.2) = p := by
      intro p hp
      have h : p.1.Nodup := hn p.1 (List.mem_map.2 ⟨_, hp, rfl⟩)
      rw [h.dedup]
    exact (List.map_congr_left this).trans (List.map_id d)
  have h2 : (d.map (fun p => p.1.dedup)).Nodup := by
    have : d.map (fun p => p.1.dedup) = d.keys := by
      unfold Dict.keys
      apply List.map_congr_left
      intro p hp
      exact (hn p.1 (List.mem_map.2 ⟨_, hp, rfl⟩) : p.1.Nodup).dedup
    rw [this]; exact hd
  unfold ofGroups
  rw [Metric.build_tuples d h2, h1]

theorem keys_update_nodup {κ : Type} [DecidableEq κ] : ∀ (b a : Dict κ ν), b.keys.Nodup →
    (a.update b).keys = a.keys ++ b.keys.filter (fun k => k ∉ a.keys) := by
  intro b
  induction b with
  | nil => intro a _; simp
  | cons p b ih =>
    intro a hb
    rw [Dict.keys_cons, List.nodup_cons] at hb
    rw [Dict.update_cons, ih _ hb.2, Dict.keys_set, Dict.keys_cons, List.filter_cons]
    by_cases h : p.1 ∈ a.keys
    · simp [h]
    · simp only [h, if_false, not_false_eq_true, decide_true, if_true, List.append_assoc, List.singleton_append]
      congr 2
      apply List.filter_congr
      intro x hx
      have : x ≠ p.1 := fun hc => hb.1 (hc ▸ hx)
      simp [this]

theorem find_disjoint {ks : List (Group α)} (hd : Disjoint' ks) {g : Group α} (hg : g ∈ ks) {x : α} (hx : x ∈ g) :
    ks.reverse.find? (fun h => x ∈ h) = some g := by
  have : (ks.reverse.find? (fun h => x ∈ h)).isSome := by
    rw [List.find?_isSome]; exact ⟨g, List.mem_reverse.2 hg, by simpa using hx⟩
  obtain ⟨h, hh⟩ := Option.isSome_iff_exists.1 this
  rw [hh]
  have h1 : x ∈ h := by simpa using List.find?_some hh
  rw [group_unique hd (List.mem_reverse.1 (List.mem_of_find?_eq_some hh)) hg h1 hx]

theorem merged_eq {a b : AMap α ν} (ha : Inv a) (hb : Inv b) : merged a b = .ok (a.update b) := by
  unfold merged
  rw [itemsAliased_ok ha, itemsAliased_ok hb]
  show Except.ok (ofGroups (Dict.ofPairs (a ++ b))) = _
  have h : Dict.ofPairs (a ++ b) = a.update b := by
    unfold Dict.ofPairs
    rw [Dict.update_append]
    have := ofPairs_of_inv (ps := a) ha
    unfold Dict.ofPairs at this
    rw [this]
  rw [h, ofGroups_eq]
  · intro g hg
    rw [keys_update_nodup b a hb.nodup_keys] at hg
    rcases List.mem_append.1 hg with hg | hg
    · exact ((nodup_flatten_iff _).1 ha.1).1 g hg
    · exact ((nodup_flatten_iff _).1 hb.1).1 g (List.mem_of_mem_filter hg)
  · exact Dict.nodup_keys_update ha.nodup_keys b

/-- **C170.** In `a | b` each name has the value that it has in `b`, or in `a` if it is no name of `b`. -/
theorem c170_lookup (a b : AMap α ν) (ha : Inv a) (hb : Inv b) :
    ∃ m, merged a b = .ok m ∧ ∀ x, getItem m x = match getItem b x with
      | .ok v => .ok v
      | .error _ => getItem a x := by
  refine ⟨_, merged_eq ha hb, ?_⟩
  intro x
  have hkeys : (a.update b).keys = a.keys ++ b.keys.filter (fun k => k ∉ a.keys) := by
    rw [keys_update_nodup b a hb.nodup_keys]; congr; funext k; congr
  have hget : ∀ g, (a.update b).get? g = (b.get? g).or (a.get? g) := by
    intro g
    rw [Dict.get?_update]
    congr 1
    have h1 : ∀ v, Dict.get? (List.reverse b) g = some v ↔ b.get? g = some v := by
      intro v
      have hr : (Dict.keys b.reverse).Nodup := by
        unfold Dict.keys; rw [List.map_reverse]; exact List.nodup_reverse.2 hb.nodup_keys
      rw [Dict.get?_eq_some_iff hr, Dict.get?_eq_some_iff hb.nodup_keys, List.mem_reverse]
    cases h : b.get? g with
    | some v => exact (h1 v).2 h
    | none =>
      cases h2 : Dict.get? (List.reverse b) g with
      | none => rfl
      | some v => rw [(h1 v).1 h2] at h; cases h
  have hdis : Disjoint' (b.keys.filter (fun k => k ∉ a.keys)) := by
    unfold Disjoint'
    exact (hb.disjoint).sublist List.filter_sublist
  have hres : resolve (a.update b) x = match b.keys.find? (fun g => x ∈ g) with
      | some g => some g
      | none => a.keys.reverse.find? (fun g => x ∈ g) := by
    rw [Metric.resolve_last, hkeys, List.reverse_append, List.find?_append]
    cases hf : b.keys.find? (fun g => x ∈ g) with
    | some g =>
      have hgb := List.mem_of_find?_eq_some hf
      have hxg : x ∈ g := by simpa using List.find?_some hf
      by_cases hga : g ∈ a.keys
      · have hnone : (b.keys.filter (fun k => k ∉ a.keys)).reverse.find? (fun g => x ∈ g) = none := by
          rw [List.find?_eq_none]
          intro h hh
          have hh := List.mem_filter.1 (List.mem_reverse.1 hh)
          intro hxh
          have hxh : x ∈ h := by simpa using hxh
          have := group_unique hb.disjoint hh.1 hgb hxh hxg
          subst this
          simp at hh; exact hh.2 hga
        rw [hnone, Option.none_or, find_disjoint ha.disjoint hga hxg]
      · rw [find_disjoint hdis (List.mem_filter.2 ⟨hgb, by simpa using hga⟩) hxg]
        rfl
    | none =>
      have hnone : (b.keys.filter (fun k => k ∉ a.keys)).reverse.find? (fun g => x ∈ g) = none := by
        rw [List.find?_eq_none]
        intro h hh
        have hh := List.mem_filter.1 (List.mem_reverse.1 hh)
        exact (List.find?_eq_none.1 hf) h hh.1
      rw [hnone, Option.none_or]
  cases hbx : getItem b x with
  | ok v =>
    obtain ⟨g, hg, hxg⟩ := (getItem_ok_iff hb x v).1 hbx
    have hgk : g ∈ b.keys := List.mem_map.2 ⟨_, hg, rfl⟩
    have hfind : b.keys.find? (fun g => x ∈ g) = some g := by
      have : (b.keys.find? (fun h => x ∈ h)).isSome := by
        rw [List.find?_isSome]; exact ⟨g, hgk, by simpa using hxg⟩
      obtain ⟨h, hh⟩ := Option.isSome_iff_exists.1 this
      rw [hh]
      have h1 : x ∈ h := by simpa using List.find?_some hh
      rw [group_unique hb.disjoint (List.mem_of_find?_eq_some hh) hgk h1 hxg]
    unfold getItem
    rw [hres, hfind]
    cases g with
    | nil => simp at hxg
    | cons c g => simp only [hget, Dict.get?_of_mem hb.nodup_keys hg, Option.some_or]
  | error e =>
    have hxb : x ∉ flatKeys b := by
      rcases getItem_ne_ok hb x with ⟨v, hv⟩ | he
      · rw [hbx] at hv; cases hv
      · exact (getItem_error_iff hb x).1 he
    have hfind : b.keys.find? (fun g => x ∈ g) = none := by
      rw [List.find?_eq_none]
      intro h hh hxh
      exact hxb (List.mem_flatten.2 ⟨h, hh, by simpa using hxh⟩)
    unfold getItem
    rw [hres, hfind, ← Metric.resolve_last]
    simp only
    cases hr : resolve a x with
    | none => rfl
    | some g =>
      obtain ⟨hga, hxg⟩ := (resolve_eq_some_iff ha x g).1 hr
      have hgb : b.get? g = none := by
        rw [Dict.get?_eq_none_iff]
        intro h; exact hxb (List.mem_flatten.2 ⟨g, h, hxg⟩)
      cases g with
      | nil => rfl
      | cons c g => simp only [hget, hgb, Option.none_or]

/-- **C170.** If each two groups are equal or have no name in common, then the result is well-formed: all names of an
entry have the same value, and every name counts once. -/
theorem c170_groups_partial (a b : AMap α ν) (ha : Inv a) (hb : Inv b)
    (h : ∀ g ∈ a.keys, ∀ k ∈ b.keys, g = k ∨ ∀ x ∈ g, x ∉ k) :
    ∃ m, merged a b = .ok m ∧ Inv m := by
  refine ⟨_, merged_eq ha hb, ?_⟩
  have hkeys := keys_update_nodup b a hb.nodup_keys
  constructor
  · unfold flatKeys
    rw [hkeys, List.flatten_append, List.nodup_append]
    refine ⟨ha.1, ?_, ?_⟩
    · exact (nodup_flatten_iff _).2 ⟨fun g hg => ((nodup_flatten_iff _).1 hb.1).1 g (List.mem_of_mem_filter hg),
        (hb.disjoint).sublist List.filter_sublist⟩
    · intro x hx y hy hxy
      subst hxy
      obtain ⟨g, hg, hxg⟩ := List.mem_flatten.1 hx
      obtain ⟨k, hk, hxk⟩ := List.mem_flatten.1 hy
      obtain ⟨hk1, hk2⟩ := List.mem_filter.1 hk
      rcases h g hg k hk1 with h | h
      · subst h; simp at hk2; exact hk2 hg
      · exact h x hxg hxk
  · intro g hg
    rw [hkeys] at hg
    rcases List.mem_append.1 hg with hg | hg
    · exact ha.2 g hg
    · exact hb.2 g (List.mem_of_mem_filter hg)

/-- **C170, violated.** Groups that overlap are not merged: the names `a` and `b` of one entry then have different
values, and a name counts twice. -/
theorem c170_overlap_counterexample :
    let a : AMap String Nat := [(["a", "b"], 1)]
    let b : AMap String Nat := [(["b", "c"], 2)]
    Inv a ∧ Inv b ∧ ∃ m, merged a b = .ok m ∧ getItem m "a" = .ok 1 ∧ getItem m "b" = .ok 2 ∧
      otherNames m "a" = .ok ["b"] ∧ length m = 4 := by
  refine ⟨⟨by decide, by decide⟩, ⟨by decide, by decide⟩, [(["a", "b"], 1), (["b", "c"], 2)], ?_, ?_, ?_, ?_, ?_⟩ <;>
    decide

example : ∃ m, merged [(["a", "b"], 1), (["c"], 2)] [(["a", "b"], 5), (["d"], 3)] = .ok m ∧
    getItem m "b" = .ok 5 ∧ getItem m "c" = .ok 2 ∧ getItem m "d" = .ok 3 ∧ length m = 4 := by
  refine ⟨[(["a", "b"], 5), (["c"], 2), (["d"], 3)], ?_⟩; decide

/-! ## C171: equality -/

theorem mem_flatKeys_iff {m : AMap α ν} (hm : Inv m) (x : α) : x ∈ flatKeys m ↔ ∃ v, getItem m x = .ok v := by
  constructor
  · intro h
    rcases getItem_ne_ok hm x with h1 | h1
    · exact h1
    · exact absurd h ((getItem_error_iff hm x).1 h1)
  · rintro ⟨v, hv⟩
    by_contra hc
    rw [(getItem_error_iff hm x).2 hc] at hv; cases hv

theorem getItem_ext {a b : AMap α ν} (ha : Inv a) (hb : Inv b) (h : ∀ x v, getItem a x = .ok v ↔ getItem b x = .ok v)
    (x : α) : getItem a x = getItem b x := by
  rcases getItem_ne_ok ha x with ⟨v, hv⟩ | he
  · rw [hv, (h x v).1 hv]
  · rcases getItem_ne_ok hb x with ⟨v, hv⟩ | he'
    · rw [(h x v).2 hv] at he; cases he
    · rw [he, he']

/-- **C171.** Two aliased mappings are equal just if every lookup gives the same result, whatever the groups. -/
theorem c171_equal [DecidableEq ν] (a b : AMap α ν) (ha : Inv a) (hb : Inv b) :
    ∃ r, mapEq a b = .ok r ∧ (r = true ↔ ∀ x, getItem a x = getItem b x) := by
  obtain ⟨ps, h1, h2, h3⟩ := items_ok ha
  unfold mapEq
  by_cases hl : length a = length b
  · rw [if_neg (by simpa using hl), h1]
    refine ⟨_, rfl, ?_⟩
    rw [List.all_eq_true]
    constructor
    · intro h
      have hsub : ∀ x v, getItem a x = .ok v → getItem b x = .ok v := by
        intro x v hv
        have hx : x ∈ ps.map (·.1) := by rw [h2]; exact (mem_flatKeys_iff ha x).2 ⟨v, hv⟩
        obtain ⟨p, hp, rfl⟩ := List.mem_map.1 hx
        have := h p hp
        rw [decide_eq_true_iff] at this
        rw [this, ← hv, h3 p hp]
      have hss : flatKeys a ⊆ flatKeys b := by
        intro x hx
        obtain ⟨v, hv⟩ := (mem_flatKeys_iff ha x).1 hx
        exact (mem_flatKeys_iff hb x).2 ⟨v, hsub x v hv⟩
      have hperm : (flatKeys a).Perm (flatKeys b) :=
        ((List.subperm_of_subset ha.1 hss).perm_of_length_le (by unfold length at hl; omega))
      apply getItem_ext ha hb
      intro x v
      refine ⟨hsub x v, fun hv => ?_⟩
      obtain ⟨w, hw⟩ := (mem_flatKeys_iff ha x).1 (hperm.mem_iff.2 ((mem_flatKeys_iff hb x).2 ⟨v, hv⟩))
      rw [hsub x w hw] at hv; rw [hw, hv]
    · intro h p hp
      rw [decide_eq_true_iff, ← h, h3 p hp]
  · rw [if_pos (by simpa using hl)]
    refine ⟨false, rfl, by simp, fun h => absurd ?_ hl⟩
    unfold length
    apply List.Perm.length_eq
    rw [List.perm_ext_iff_of_nodup ha.1 hb.1]
    intro x
    rw [mem_flatKeys_iff ha, mem_flatKeys_iff hb, h]

/-- **C171.** An aliased mapping is equal to a dictionary just if the dictionary has the same keys and values. -/
theorem c171_equal_dict [DecidableEq ν] (a : AMap α ν) (d : Dict α ν) (ha : Inv a) (hd : d.keys.Nodup) :
    ∃ r, dictEq a d = .ok r ∧ (r = true ↔ ∀ x v, getItem a x = .ok v ↔ d.get? x = some v) := by
  obtain ⟨f, h1, h2, h3⟩ := flatMap_ok ha
  unfold dictEq
  rw [h1]
  refine ⟨_, rfl, ?_⟩
  have hfn : f.keys.Nodup := by rw [h2]; exact ha.1
  rw [decide_eq_true_iff]
  constructor
  · rintro ⟨hl, hall⟩
    rw [List.all_eq_true] at hall
    have hsub : ∀ x v, getItem a x = .ok v → d.get? x = some v := by
      intro x v hv
      have := hall (x, v) (Dict.mem_of_get? ((h3 x v).2 hv))
      rwa [decide_eq_true_iff] at this
    have hss : f.keys ⊆ d.keys := by
      intro x hx
      rw [h2] at hx
      obtain ⟨v, hv⟩ := (mem_flatKeys_iff ha x).1 hx
      exact List.mem_map.2 ⟨_, Dict.mem_of_get? (hsub x v hv), rfl⟩
    have hperm : f.keys.Perm d.keys :=
      ((List.subperm_of_subset hfn hss).perm_of_length_le (by simp [Dict.keys]; omega))
    intro x v
    refine ⟨hsub x v, fun hv => ?_⟩
    have hx : x ∈ f.keys := hperm.mem_iff.2 (List.mem_map.2 ⟨_, Dict.mem_of_get? hv, rfl⟩)
    rw [h2] at hx
    obtain ⟨w, hw⟩ := (mem_flatKeys_iff ha x).1 hx
    have := hsub x w hw
    rw [hv] at this; injection this with this; rw [hw, this]
  · intro h
    have hmem : ∀ p, p ∈ f ↔ p ∈ d := by
      intro p
      rw [← Dict.get?_eq_some_iff hfn p.1 p.2, ← Dict.get?_eq_some_iff hd p.1 p.2, h3, h]
    constructor
    · have hf : f.Nodup := List.Nodup.of_map _ hfn
      have hdd : d.Nodup := List.Nodup.of_map _ hd
      exact ((List.perm_ext_iff_of_nodup hf hdd).2 hmem).length_eq
    · rw [List.all_eq_true]
      intro p hp
      rw [decide_eq_true_iff]
      exact (Dict.get?_eq_some_iff hd p.1 p.2).2 ((hmem p).1 hp)

example : mapEq [(["a", "b"], 1)] [(["b"], 1), (["a"], 1)] = .ok true ∧
    mapEq [(["a", "b"], 1)] [(["b"], 1), (["a"], 2)] = .ok false ∧
    mapEq [(["a", "b"], 1)] [(["b"], 1), (["a"], 1), (["c"], 1)] = .ok false ∧
    dictEq [(["a", "b"], 1)] [("b", 1), ("a", 1)] = .ok true ∧ dictEq [(["a", "b"], 1)] [("b", 1)] = .ok false := by
  decide

/-! ## C172: equal mappings stay equal -/

theorem sameEntry_setItem {m : AMap α ν} (hm : Inv m) (k : α) (v : ν) (x y : α) :
    SameEntry (setItem m k v) x y ↔ SameEntry m x y ∨ (x = k ∧ y = k) := by
  rw [sameEntry_iff (setItem_inv hm k v), sameEntry_iff hm]
  by_cases hk : k ∈ flatKeys m
  · obtain ⟨g, hg, hkg⟩ := List.mem_flatten.1 hk
    have hr := (resolve_eq_some_iff hm k g).2 ⟨hg, hkg⟩
    have hset : setItem m k v = m.set g v := by
      unfold setItem
      cases g with
      | nil => simp at hkg
      | cons a g => rw [hr]
    rw [hset, Dict.keys_set, if_pos hg]
    constructor
    · exact Or.inl
    · rintro (h | ⟨rfl, rfl⟩)
      · exact h
      · exact ⟨g, hg, hkg, hkg⟩
  · have hr := (resolve_eq_none_iff hm k).2 hk
    have hset : setItem m k v = m.set [k] v := by unfold setItem; rw [hr]
    have hnew : [k] ∉ m.keys := fun h => hk (List.mem_flatten.2 ⟨_, h, by simp⟩)
    rw [hset, Dict.keys_set, if_neg hnew]
    simp only [List.mem_append, List.mem_singleton]
    constructor
    · rintro ⟨g, hg | rfl, hx, hy⟩
      · exact Or.inl ⟨g, hg, hx, hy⟩
      · exact Or.inr ⟨by simpa using hx, by simpa using hy⟩
    · rintro (⟨g, hg, hx, hy⟩ | ⟨rfl, rfl⟩)
      · exact ⟨g, Or.inl hg, hx, hy⟩
      · exact ⟨_, Or.inr rfl, by simp, by simp⟩

theorem sameEntry_delItem {m m' : AMap α ν} (hm : Inv m) (k : α) (h : delItem m k = .ok m') (x y : α) :
    SameEntry m' x y ↔ SameEntry m x y ∧ ¬ SameEntry m k x := by
  rw [sameEntry_iff (delItem_inv hm k h), sameEntry_iff hm, sameEntry_iff hm]
  unfold delItem at h
  cases hr : resolve m k with
  | none => rw [hr] at h; cases h
  | some g =>
    obtain ⟨hg, hkg⟩ := (resolve_eq_some_iff hm k g).1 hr
    have hd : m' = m.del g := by
      rw [hr] at h
      cases g with
      | nil => simp at hkg
      | cons a g => simp only [Except.ok.injEq] at h; exact h.symm
    rw [hd, Dict.keys_del]
    simp only [List.mem_filter, decide_eq_true_eq]
    constructor
    · rintro ⟨j, ⟨hj, hne⟩, hx, hy⟩
      refine ⟨⟨j, hj, hx, hy⟩, ?_⟩
      rintro ⟨i, hi, hki, hxi⟩
      have h1 := group_unique hm.disjoint hi hg hki hkg
      have h2 := group_unique hm.disjoint hi hj hxi hx
      exact hne (h2 ▸ h1)
    · rintro ⟨⟨j, hj, hx, hy⟩, hn⟩
      exact ⟨j, ⟨hj, fun hc => hn ⟨g, hg, hkg, hc ▸ hx⟩⟩, hx, hy⟩

theorem sameEntry_alias {m : AMap α ν} (hm : Inv m) {key a : α} {g : Group α} {v : ν}
    (hg : (g, v) ∈ m) (hk : key ∈ g) (ha : a ∉ flatKeys m) (x y : α) :
    SameEntry ((m.set (g.union [a]) v).del g) x y ↔
      SameEntry m (if x = a then key else x) (if y = a then key else y) := by
  rw [sameEntry_iff (alias_step_inv hm hg hk ha), sameEntry_iff hm, alias_step hg ha, Dict.keys_append, Dict.keys_del]
  have hgk : g ∈ m.keys := List.mem_map.2 ⟨_, hg, rfl⟩
  have hin : ∀ j ∈ m.keys, a ∉ j := fun j hj h => ha (List.mem_flatten.2 ⟨j, hj, h⟩)
  simp only [List.mem_append, List.mem_filter, decide_eq_true_eq, Dict.keys_cons, Dict.keys_nil, List.mem_singleton]
  have hu : ∀ z, z ∈ g.union [a] ↔ (if z = a then key else z) ∈ g := by
    intro z
    rw [Group.mem_union]
    by_cases hz : z = a
    · simp [hz, hk]
    · simp [hz]
  have ho : ∀ j ∈ m.keys, j ≠ g → ∀ z, z ∈ j ↔ (if z = a then key else z) ∈ j := by
    intro j hj hne z
    by_cases hz : z = a
    · subst hz
      simp only [if_true]
      exact ⟨fun h => absurd h (hin j hj), fun h => absurd (group_unique hm.disjoint hj hgk h hk) hne⟩
    · simp [hz]
  constructor
  · rintro ⟨j, (⟨hj, hne⟩ | rfl), hx, hy⟩
    · exact ⟨j, hj, (ho j hj hne x).1 hx, (ho j hj hne y).1 hy⟩
    · exact ⟨g, hgk, (hu x).1 hx, (hu y).1 hy⟩
  · rintro ⟨j, hj, hx, hy⟩
    by_cases hne : j = g
    · subst hne; exact ⟨_, Or.inr rfl, (hu x).2 hx, (hu y).2 hy⟩
    · exact ⟨j, Or.inl ⟨hj, hne⟩, (ho j hj hne x).2 hx, (ho j hj hne y).2 hy⟩

/-- Specification: every lookup gives the same result, and the same names are aliases of each other. -/
def Alike (a b : AMap α ν) : Prop :=
  (∀ x, getItem a x = getItem b x) ∧ ∀ x y, SameEntry a x y ↔ SameEntry b x y

theorem alike_aliasLoop (key : α) (as : List α) : ∀ (a b : AMap α ν), Inv a → Inv b → Alike a b →
    Alike (aliasLoop key a as).1 (aliasLoop key b as).1 ∧ (aliasLoop key a as).2 = (aliasLoop key b as).2 := by
  induction as with
  | nil => intro a b _ _ h; exact ⟨h, rfl⟩
  | cons z as ih =>
    intro a b ha hb h
    have hmem : ∀ x, x ∈ flatKeys a ↔ x ∈ flatKeys b := by
      intro x; rw [mem_flatKeys_iff ha, mem_flatKeys_iff hb, h.1]
    unfold aliasLoop
    by_cases hz : z = key
    · rw [if_pos hz, if_pos hz]; exact ih a b ha hb h
    · rw [if_neg hz, if_neg hz]
      by_cases hza : z ∈ flatKeys a
      · rw [if_pos hza, if_pos ((hmem z).1 hza)]; exact ⟨h, rfl⟩
      · have hzb : z ∉ flatKeys b := fun hc => hza ((hmem z).2 hc)
        rw [if_neg hza, if_neg hzb]
        rcases getItem_ne_ok ha key with ⟨v, hv⟩ | he
        · obtain ⟨g, hg, hkg⟩ := (getItem_ok_iff ha key v).1 hv
          have hv' : getItem b key = .ok v := by rw [← h.1]; exact hv
          obtain ⟨g', hg', hkg'⟩ := (getItem_ok_iff hb key v).1 hv'
          have hgk : g ∈ Dict.keys a := List.mem_map.2 ⟨_, hg, rfl⟩
          have hgk' : g' ∈ Dict.keys b := List.mem_map.2 ⟨_, hg', rfl⟩
          rw [(resolve_eq_some_iff ha key g).2 ⟨hgk, hkg⟩, (resolve_eq_some_iff hb key g').2 ⟨hgk', hkg'⟩]
          simp only [hv, hv']
          apply ih _ _ (alias_step_inv ha hg hkg hza) (alias_step_inv hb hg' hkg' hzb)
          constructor
          · intro x
            rw [getItem_alias_step ha hg hkg hza, getItem_alias_step hb hg' hkg' hzb, h.1]
          · intro x y
            rw [sameEntry_alias ha hg hkg hza, sameEntry_alias hb hg' hkg' hzb, h.2]
        · have hka := (getItem_error_iff ha key).1 he
          have hkb : key ∉ flatKeys b := fun hc => hka ((hmem key).2 hc)
          rw [(resolve_eq_none_iff ha key).2 hka, (resolve_eq_none_iff hb key).2 hkb]
          exact ⟨h, rfl⟩

theorem alike_step (op : Op α ν) {a b : AMap α ν} (ha : Inv a) (hb : Inv b) (h : Alike a b) :
    Alike (step a op) (step b op) := by
  have hmem : ∀ x, x ∈ flatKeys a ↔ x ∈ flatKeys b := by
    intro x; rw [mem_flatKeys_iff ha, mem_flatKeys_iff hb, h.1]
  cases op with
  | set k v =>
    refine ⟨fun x => ?_, fun x y => ?_⟩
    · have h1 := getItem_setItem ha k v x
      have h2 := getItem_setItem hb k v x
      show getItem (setItem a k v) x = getItem (setItem b k v) x
      by_cases hc : x = k ∨ SameEntry a k x
      · rw [h1.1 hc, h2.1 (by rwa [h.2] at hc)]
      · rw [h1.2 hc, h2.2 (by rwa [h.2] at hc), h.1]
    · show SameEntry (setItem a k v) x y ↔ SameEntry (setItem b k v) x y
      rw [sameEntry_setItem ha, sameEntry_setItem hb, h.2]
  | del k =>
    by_cases hk : k ∈ flatKeys a
    · obtain ⟨a', ha', hga⟩ := (delItem_spec ha k).1 hk
      obtain ⟨b', hb', hgb⟩ := (delItem_spec hb k).1 ((hmem k).1 hk)
      have e1 : step a (.del k) = a' := by simp only [step, ha']
      have e2 : step b (.del k) = b' := by simp only [step, hb']
      rw [e1, e2]
      refine ⟨fun x => ?_, fun x y => ?_⟩
      · by_cases hc : SameEntry a k x
        · rw [(hga x).1 hc, (hgb x).1 ((h.2 k x).1 hc)]
        · rw [(hga x).2 hc, (hgb x).2 (fun hh => hc ((h.2 k x).2 hh)), h.1]
      · rw [sameEntry_delItem ha k ha', sameEntry_delItem hb k hb', h.2, h.2]
    · have e1 : step a (.del k) = a := by simp only [step, (delItem_spec ha k).2 hk]
      have e2 : step b (.del k) = b := by
        simp only [step, (delItem_spec hb k).2 (fun hc => hk ((hmem k).2 hc))]
      rw [e1, e2]; exact h
  | addAlias k as =>
    show Alike (addAliases a k as).1 (addAliases b k as).1
    cases as with
    | nil =>
      have e : ∀ m : AMap α ν, (addAliases m k []).1 = m := by
        intro m; unfold addAliases; simp only; split <;> rfl
      rw [e, e]; exact h
    | cons z as => exact (alike_aliasLoop k (z :: as) a b ha hb h).1

/-- **C172.** Two aliased mappings with equal lookups and the same aliases stay so under every history of assignments,
deletions and new aliases, and so stay equal. -/
theorem c172_partial [DecidableEq ν] (a b : AMap α ν) (ha : Inv a) (hb : Inv b) (h : Alike a b) (ops : List (Op α ν)) :
    Alike (run a ops) (run b ops) ∧ mapEq (run a ops) (run b ops) = .ok true := by
  have hal : Alike (run a ops) (run b ops) := by
    unfold run
    induction ops generalizing a b with
    | nil => exact h
    | cons op ops ih =>
      exact ih _ _ (run_inv ha [op]) (run_inv hb [op]) (alike_step op ha hb h)
  refine ⟨hal, ?_⟩
  obtain ⟨r, h1, h2⟩ := c171_equal _ _ (run_inv ha ops) (run_inv hb ops)
  rw [h1, h2.2 hal.1]

/-- **C172, violated.** Equal mappings do not stay equal under the same assignment: `==` does not compare aliases. -/
theorem c172_counterexample :
    let a : AMap String Nat := [(["a", "b"], 1)]
    let b : AMap String Nat := [(["a"], 1), (["b"], 1)]
    Inv a ∧ Inv b ∧ mapEq a b = .ok true ∧ mapEq (setItem a "a" 2) (setItem b "a" 2) = .ok false := by
  refine ⟨⟨by decide, by decide⟩, ⟨by decide, by decide⟩, ?_, ?_⟩ <;> decide

example : mapEq (run [(["a", "b"], 1), (["c"], 2)] [.set "a" 5, .addAlias "c" ["d"], .del "b"])
    (run [(["c"], 2), (["b", "a"], 1)] [.set "a" 5, .addAlias "c" ["d"], .del "b"]) = .ok true := by decide

/-! ## C173: squeezing -/

section
variable {κ : Type} [DecidableEq κ]

/-- **C173.** If every interior mapping has one key, then squeezing makes each name give the interior value; otherwise it
changes nothing. -/
theorem c173_squeeze (m : AMap α (Dict κ ν)) (hm : Inv m) :
    ((∀ x d, getItem m x = .ok d → d.length = 1) → ∃ r, squeeze m false = .ok (.values r) ∧ Inv r ∧
      (∀ x y, SameEntry r x y ↔ SameEntry m x y) ∧
      ∀ x v, getItem r x = .ok v ↔ ∃ k, getItem m x = .ok [(k, v)]) ∧
    ((∃ x d, getItem m x = .ok d ∧ d.length ≠ 1) → ∀ strict, squeeze m strict = .ok (.same m)) := by
  have hval : ∀ d, d ∈ m.values ↔ ∃ x, getItem m x = .ok d := by
    intro d
    constructor
    · intro h
      obtain ⟨p, hp, rfl⟩ := List.mem_map.1 h
      have hne := hm.2 p.1 (List.mem_map.2 ⟨_, hp, rfl⟩)
      obtain ⟨c, g, hcg⟩ := List.exists_cons_of_ne_nil hne
      exact ⟨c, (getItem_ok_iff hm c p.2).2 ⟨p.1, hp, by rw [hcg]; simp⟩⟩
    · rintro ⟨x, hx⟩
      obtain ⟨g, hg, _⟩ := (getItem_ok_iff hm x d).1 hx
      exact List.mem_map.2 ⟨_, hg, rfl⟩
  constructor
  · intro h
    have hall : m.values.all (fun d => d.length = 1) = true := by
      rw [List.all_eq_true]
      intro d hd
      obtain ⟨x, hx⟩ := (hval d).1 hd
      simpa using h x d hx
    have hone : ∀ p ∈ m, ∃ k v, p.2 = [(k, v)] := by
      intro p hp
      have := List.all_eq_true.1 hall p.2 (List.mem_map.2 ⟨_, hp, rfl⟩)
      simp only [decide_eq_true_eq] at this
      obtain ⟨q, hq⟩ := List.length_eq_one_iff.1 this
      exact ⟨q.1, q.2, hq⟩
    set r : AMap α ν := m.filterMap (fun p => p.2.values.head?.map (fun v => (p.1, v))) with hr
    have hkeys : r.keys = m.keys := by
      rw [hr]
      have : ∀ l : AMap α (Dict κ ν), (∀ p ∈ l, ∃ k v, p.2 = [(k, v)]) →
          Dict.keys (l.filterMap (fun p => p.2.values.head?.map (fun v => (p.1, v)))) = Dict.keys l := by
        intro l
        induction l with
        | nil => intro _; rfl
        | cons p l ih =>
          intro hl
          obtain ⟨k, v, hp⟩ := hl p (by simp)
          rw [List.filterMap_cons]
          simp only [hp, Dict.values, List.map_cons, List.map_nil, List.head?_cons, Option.map_some]
          rw [Dict.keys_cons, Dict.keys_cons, ← ih (fun q hq => hl q (List.mem_cons_of_mem _ hq))]
          rfl
      exact this m hone
    have hri : Inv r := by
      refine ⟨?_, ?_⟩
      · unfold flatKeys; rw [hkeys]; exact hm.1
      · rw [hkeys]; exact hm.2
    refine ⟨r, ?_, hri, ?_, ?_⟩
    · unfold squeeze
      rw [if_pos hall]
      rfl
    · intro x y
      rw [sameEntry_iff hri, sameEntry_iff hm, hkeys]
    · intro x v
      rw [getItem_ok_iff hri]
      constructor
      · rintro ⟨g, hg, hx⟩
        obtain ⟨p, hp, hpe⟩ := List.mem_filterMap.1 hg
        obtain ⟨k, w, hkw⟩ := hone p hp
        simp only [hkw, Dict.values, List.map_cons, List.head?_cons, Option.map_some, Option.some.injEq,
          Prod.mk.injEq] at hpe
        obtain ⟨h1, h2⟩ := hpe
        subst h2
        refine ⟨k, (getItem_ok_iff hm x _).2 ⟨g, ?_, hx⟩⟩
        rw [← h1, ← hkw]; exact hp
      · rintro ⟨k, hk⟩
        obtain ⟨g, hg, hx⟩ := (getItem_ok_iff hm x _).1 hk
        exact ⟨g, List.mem_filterMap.2 ⟨_, hg, rfl⟩, hx⟩
  · rintro ⟨x, d, hx, hd⟩ strict
    unfold squeeze
    rw [if_neg]
    · rfl
    · intro hall
      have := List.all_eq_true.1 hall d ((hval d).2 ⟨x, hx⟩)
      simp only [decide_eq_true_eq] at this
      exact hd this

/-- **C173.** Strict squeezing of a mapping with at least one entry, each with one interior key, fails just if two
interior keys differ. -/
theorem c173_strict_partial (m : AMap α (Dict κ ν)) (hm : Inv m) (hne : m ≠ [])
    (h : ∀ x d, getItem m x = .ok d → d.length = 1) :
    (squeeze m true = squeeze m false ∧ ∀ x y k l v w, getItem m x = .ok [(k, v)] → getItem m y = .ok [(l, w)] → k = l) ∨
    (squeeze m true = .error .typeError ∧
      ∃ x y k l v w, getItem m x = .ok [(k, v)] ∧ getItem m y = .ok [(l, w)] ∧ k ≠ l) := by
  have hval : ∀ d, d ∈ m.values ↔ ∃ x, getItem m x = .ok d := by
    intro d
    constructor
    · intro h
      obtain ⟨p, hp, rfl⟩ := List.mem_map.1 h
      have hne := hm.2 p.1 (List.mem_map.2 ⟨_, hp, rfl⟩)
      obtain ⟨c, g, hcg⟩ := List.exists_cons_of_ne_nil hne
      exact ⟨c, (getItem_ok_iff hm c p.2).2 ⟨p.1, hp, by rw [hcg]; simp⟩⟩
    · rintro ⟨x, hx⟩
      obtain ⟨g, hg, _⟩ := (getItem_ok_iff hm x d).1 hx
      exact List.mem_map.2 ⟨_, hg, rfl⟩
  have hone : ∀ d ∈ m.values, ∃ k v, d = [(k, v)] := by
    intro d hd
    obtain ⟨x, hx⟩ := (hval d).1 hd
    obtain ⟨q, hq⟩ := List.length_eq_one_iff.1 (h x d hx)
    exact ⟨q.1, q.2, hq⟩
  have hall : m.values.all (fun d => d.length = 1) = true := by
    rw [List.all_eq_true]
    intro d hd
    obtain ⟨x, hx⟩ := (hval d).1 hd
    simpa using h x d hx
  unfold squeeze
  rw [if_pos hall, if_pos hall]
  cases hv : m.values with
  | nil => exact absurd (List.map_eq_nil_iff.1 hv) hne
  | cons d ds =>
    obtain ⟨k, v, hkv⟩ := hone d (by rw [hv]; simp)
    by_cases hany : ds.any (fun e => e.keys.head? ≠ d.keys.head?) = true
    · right
      simp only [if_true, hany]
      refine ⟨rfl, ?_⟩
      obtain ⟨e, he, hne⟩ := List.any_eq_true.1 hany
      obtain ⟨l, w, hlw⟩ := hone e (by rw [hv]; exact List.mem_cons_of_mem _ he)
      subst hkv; subst hlw
      obtain ⟨x, hx⟩ := (hval _).1 (by rw [hv]; exact List.mem_cons_self)
      obtain ⟨y, hy⟩ := (hval _).1 (by rw [hv]; exact List.mem_cons_of_mem _ he)
      refine ⟨x, y, k, l, v, w, hx, hy, ?_⟩
      simp [Dict.keys] at hne
      exact fun hc => hne hc.symm
    · left
      simp only [if_true, hany]
      refine ⟨rfl, ?_⟩
      have hsame : ∀ x j u, getItem m x = .ok [(j, u)] → j = k := by
        intro x j u hx
        have hmem := (hval _).2 ⟨x, hx⟩
        rw [hv] at hmem
        rcases List.mem_cons.1 hmem with he | he
        · rw [← he] at hkv; simp at hkv; exact hkv.1
        · by_contra hc
          apply hany
          rw [List.any_eq_true]
          refine ⟨_, he, ?_⟩
          subst hkv
          simpa [Dict.keys] using hc
      intro x y j l u w hx hy
      rw [hsame x j u hx, hsame y l w hy]

end

/-- **C173, violated.** A strict squeeze of an empty mapping is an `IndexError`. -/
theorem c173_counterexample : squeeze ([] : AMap String (Dict String Nat)) true = .error .indexError := rfl

example : ∃ r, squeeze [(["a", "b"], [("n", 1)]), (["c"], [("m", 2)])] false = .ok (.values r) ∧
    getItem r "b" = .ok 1 ∧ getItem r "c" = .ok 2 :=
  ⟨[(["a", "b"], 1), (["c"], 2)], rfl, by decide, by decide⟩

example : squeeze [(["a", "b"], [("n", 1)]), (["c"], [("m", 2)])] true = .error .typeError := rfl

example : squeeze [(["a", "b"], [("n", 1), ("k", 5)]), (["c"], [("m", 2)])] true =
    .ok (.same [(["a", "b"], [("n", 1), ("k", 5)]), (["c"], [("m", 2)])]) := rfl

/-! ## C174: copies -/

/-- **C174.** A copy has the same lookups and the same aliases. -/
theorem c174_copy (m : AMap α ν) (hm : Inv m) : Alike (copy m) m ∧ length (copy m) = length m := by
  have : copy m = m := ofGroups_eq ((nodup_flatten_iff _).1 hm.1).1 hm.nodup_keys
  rw [this]; exact ⟨⟨fun _ => rfl, fun _ _ => Iff.rfl⟩, rfl⟩

/-- **C174.** A copy is equal to the original. -/
theorem c174_copy_equal [DecidableEq ν] (m : AMap α ν) (hm : Inv m) : mapEq (copy m) m = .ok true := by
  have : copy m = m := ofGroups_eq ((nodup_flatten_iff _).1 hm.1).1 hm.nodup_keys
  rw [this]
  obtain ⟨r, h1, h2⟩ := c171_equal m m hm hm
  rw [h1, h2.2 (fun _ => rfl)]

/-- **C174.** `fromkeys` maps exactly the given names to the value; names of one group are aliases. -/
theorem c174_fromkeys (keys : List (α ⊕ List α)) (value : ν)
    (hd : keys.Pairwise (fun a b => ∀ x, x ∈ keyNames a → x ∉ keyNames b)) (hne : ∀ k ∈ keys, keyNames k ≠ []) :
    Inv (fromKeys keys value) ∧
    (∀ x v, getItem (fromKeys keys value) x = .ok v ↔ v = value ∧ ∃ k ∈ keys, x ∈ keyNames k) ∧
    ∀ x y, SameEntry (fromKeys keys value) x y ↔ ∃ k ∈ keys, x ∈ keyNames k ∧ y ∈ keyNames k := by
  have heq : fromKeys keys value = keys.map (fun k => ((keyNames k).dedup, value)) := by
    unfold fromKeys
    rw [buildFromAliases_eq]
    · rw [List.map_map]; rfl
    · unfold DisjointEntries
      rw [List.pairwise_map]; exact hd
    · intro p hp
      obtain ⟨k, hk, rfl⟩ := List.mem_map.1 hp
      exact hne k hk
  have hinv : Inv (fromKeys keys value) := by
    rw [heq]
    apply inv_of_pairs
    · intro p hp
      obtain ⟨k, hk, rfl⟩ := List.mem_map.1 hp
      exact List.nodup_dedup _
    · intro p hp
      obtain ⟨k, hk, rfl⟩ := List.mem_map.1 hp
      simpa using hne k hk
    · rw [List.pairwise_map]
      apply hd.imp
      intro a b h x hx
      simp only [List.mem_dedup] at hx ⊢
      exact h x hx
  have hmemk : ∀ g, g ∈ (fromKeys keys value).keys ↔ ∃ k ∈ keys, (keyNames k).dedup = g := by
    intro g
    rw [heq]; unfold Dict.keys; rw [List.map_map, List.mem_map]; rfl
  refine ⟨hinv, ?_, ?_⟩
  · intro x v
    rw [getItem_ok_iff hinv]
    constructor
    · rintro ⟨g, hg, hx⟩
      rw [heq] at hg
      obtain ⟨k, hk, hke⟩ := List.mem_map.1 hg
      injection hke with h1 h2
      subst h1
      exact ⟨h2.symm, k, hk, List.mem_dedup.1 hx⟩
    · rintro ⟨rfl, k, hk, hx⟩
      refine ⟨(keyNames k).dedup, ?_, List.mem_dedup.2 hx⟩
      rw [heq]; exact List.mem_map.2 ⟨k, hk, rfl⟩
  · intro x y
    rw [sameEntry_iff hinv]
    constructor
    · rintro ⟨g, hg, hx, hy⟩
      obtain ⟨k, hk, rfl⟩ := (hmemk g).1 hg
      exact ⟨k, hk, List.mem_dedup.1 hx, List.mem_dedup.1 hy⟩
    · rintro ⟨k, hk, hx, hy⟩
      exact ⟨_, (hmemk _).2 ⟨k, hk, rfl⟩, List.mem_dedup.2 hx, List.mem_dedup.2 hy⟩

/-- **C174.** `alias(key)` lists the other names of the entry; for a name that the mapping does not have it is a
`TypeError` rather than a `KeyError`. -/
theorem c174_other_names (m : AMap α ν) (hm : Inv m) (x : α) :
    (x ∈ flatKeys m → ∃ g, otherNames m x = .ok g ∧ ∀ y, y ∈ g ↔ SameEntry m x y ∧ y ≠ x) ∧
    (x ∉ flatKeys m → otherNames m x = .error .typeError) := by
  constructor
  · intro hx
    obtain ⟨g, hg, hxg⟩ := List.mem_flatten.1 hx
    have hr := (resolve_eq_some_iff hm x g).2 ⟨hg, hxg⟩
    refine ⟨g.filter (· ≠ x), by unfold otherNames; rw [hr], ?_⟩
    intro y
    rw [List.mem_filter]
    unfold SameEntry
    rw [hr]
    simp
  · intro hx
    unfold otherNames
    rw [(resolve_eq_none_iff hm x).2 hx]

example : getItem (fromKeys [.inl "a", .inr ["b", "c"]] 7) "c" = .ok 7 ∧
    otherNames (fromKeys [.inl "a", .inr ["b", "c"]] 7) "c" = .ok ["b"] := by decide

example : mapEq (copy [(["a", "b"], 1), (["c"], 2)]) [(["a", "b"], 1), (["c"], 2)] = .ok true := by decide

/-! ## C175: inverted name maps -/

/-- Every name map has the canonical name in its own group. -/
def Canonical (m : AMap α α) : Prop := ∀ p ∈ m, p.2 ∈ p.1

theorem aliasLoop_canonical (key : α) (as : List α) : ∀ {m : AMap α α}, Inv m → Canonical m →
    Canonical (aliasLoop key m as).1 := by
  induction as with
  | nil => intro m _ h; exact h
  | cons a as ih =>
    intro m hm h
    unfold aliasLoop
    split
    · exact ih hm h
    · split
      · exact h
      · next ha =>
        split
        · exact h
        · next g hr =>
          have hr' := (resolve_eq_some_iff hm key g).1 hr
          split
          · exact h
          · next v hv =>
            obtain ⟨g', hg', hk'⟩ := (getItem_ok_iff hm key v).1 hv
            have : g' = g := group_unique hm.disjoint (List.mem_map.2 ⟨_, hg', rfl⟩) hr'.1 hk' hr'.2
            subst this
            apply ih (alias_step_inv hm hg' hk' ha)
            rw [alias_step hg' ha]
            intro p hp
            rcases List.mem_append.1 hp with hp | hp
            · exact h p (List.mem_of_mem_filter hp)
            · rw [List.mem_singleton] at hp
              subst hp
              exact (Group.mem_union _ _ _).2 (Or.inl (h _ hg'))

theorem addAliases_canonical (key : α) (as : List α) {m : AMap α α} (hm : Inv m) (h : Canonical m) :
    Canonical (addAliases m key as).1 := by
  cases as with
  | nil =>
    have e : (addAliases m key []).1 = m := by unfold addAliases; simp only; split <;> rfl
    rw [e]; exact h
  | cons a as => exact aliasLoop_canonical key (a :: as) hm h

theorem aliasAll_canonical : ∀ (us : List (α × List α)) {m m' : AMap α α}, Inv m → Canonical m →
    aliasAll m us = .ok m' → Inv m' ∧ Canonical m' := by
  intro us
  induction us with
  | nil => intro m m' hm h hr; simp only [aliasAll, Except.ok.injEq] at hr; subst hr; exact ⟨hm, h⟩
  | cons p us ih =>
    intro m m' hm h hr
    unfold aliasAll at hr
    have h1 := addAliases_inv hm p.1 p.2
    have h2 := addAliases_canonical p.1 p.2 hm h
    cases he : addAliases m p.1 p.2 with
    | mk m1 e =>
      rw [he] at hr h1 h2
      cases e with
      | none => exact ih h1 h2 hr
      | some e => cases hr

theorem nameMap_canonical {defs : Dict α (List α)} {refs : Option (List α)} {m : AMap α α}
    (h : nameMap defs refs = .ok m) : Inv m ∧ Canonical m := by
  unfold nameMap at h
  obtain ⟨hi, hid⟩ := identityMap_spec (refs.getD defs.keys)
  refine aliasAll_canonical _ hi ?_ h
  intro p hp
  have hne := hi.2 p.1 (List.mem_map.2 ⟨_, hp, rfl⟩)
  obtain ⟨c, g, hcg⟩ := List.exists_cons_of_ne_nil hne
  have hc : c ∈ p.1 := by rw [hcg]; simp
  have h1 := (hid c p.2).1 ((getItem_ok_iff hi c p.2).2 ⟨p.1, hp, hc⟩)
  rw [← h1.1]; exact hc

theorem invert_spec {m : AMap α α} (hm : Inv m) (hc : Canonical m) :
    ∃ r, invert m = .ok r ∧ Inv r ∧ ∀ n as, getItem r n = .ok as ↔ (as, n) ∈ m := by
  have hv : (Dict.keys (m.map (fun p => (p.2, p.1)))).Nodup := by
    have h1 : m.Nodup := List.Nodup.of_map _ hm.nodup_keys
    unfold Dict.keys
    rw [List.map_map]
    apply List.Nodup.map_on _ h1
    intro p hp q hq hpq
    have hpq : p.2 = q.2 := hpq
    have h2 := group_unique hm.disjoint (List.mem_map.2 ⟨p, hp, rfl⟩) (List.mem_map.2 ⟨q, hq, rfl⟩) (hc p hp)
      (hpq ▸ hc q hq)
    exact Prod.ext h2 hpq
  have heq : invert m = .ok (m.map (fun p => ([p.2], p.1))) := by
    unfold invert
    rw [itemsAliased_ok hm]
    show Except.ok (buildFromAliases ((Dict.ofPairs (m.map (fun p => (p.2, p.1)))).map (fun p => (.inl p.1, p.2)))) = _
    rw [Dict.ofPairs_of_nodup hv, buildFromAliases_eq]
    · rw [List.map_map, List.map_map]
      congr 1
    · unfold DisjointEntries
      rw [List.map_map, List.pairwise_map]
      unfold Dict.keys at hv
      rw [List.map_map, List.Nodup, List.pairwise_map] at hv
      apply hv.imp
      intro p q h x hx
      simp only [Function.comp_apply, keyNames, List.mem_singleton] at hx h ⊢
      rw [hx]; exact h
    · intro p hp
      obtain ⟨q, hq, rfl⟩ := List.mem_map.1 hp
      simp [keyNames]
  have hinv : Inv (m.map (fun p => ([p.2], p.1))) := by
    apply inv_of_pairs
    · intro p hp
      obtain ⟨q, hq, rfl⟩ := List.mem_map.1 hp
      simp
    · intro p hp
      obtain ⟨q, hq, rfl⟩ := List.mem_map.1 hp
      simp
    · rw [List.pairwise_map]
      unfold Dict.keys at hv
      rw [List.map_map, List.Nodup, List.pairwise_map] at hv
      apply hv.imp
      intro p q h x hx
      simp only [Function.comp_apply, List.mem_singleton] at hx h ⊢
      rw [hx]; exact h
  refine ⟨_, heq, hinv, ?_⟩
  intro n as
  rw [getItem_ok_iff hinv]
  constructor
  · rintro ⟨g, hg, hx⟩
    obtain ⟨p, hp, hpe⟩ := List.mem_map.1 hg
    injection hpe with h1 h2
    subst h1; subst h2
    rw [List.mem_singleton] at hx
    subst hx
    exact hp
  · intro h
    exact ⟨[n], List.mem_map.2 ⟨_, h, rfl⟩, by simp⟩

theorem get_inl {init : Dict α (List α) × Option (List α)} {c : List α} {m : AMap α α} (hm : Inv m) (x : α) (r) :
    NameMap.get ⟨init, c, .inl m⟩ x = .ok r ↔ ∃ n, r = .inl n ∧ getItem m x = .ok n := by
  unfold NameMap.get
  simp only
  by_cases h : contains m x = true
  · obtain ⟨v, hv⟩ := (contains_iff hm x).1 h
    rw [if_pos h, hv]
    constructor
    · intro hr
      have hr : Except.ok (Sum.inl v) = (Except.ok r : Res _) := hr
      injection hr with hr
      exact ⟨v, hr.symm, rfl⟩
    · rintro ⟨n, rfl, hn⟩
      injection hn with hn
      subst hn; rfl
  · rw [if_neg h]
    constructor
    · intro hr; cases hr
    · rintro ⟨n, _, hn⟩
      exact absurd ((contains_iff hm x).2 ⟨n, hn⟩) h

theorem get_inr {init : Dict α (List α) × Option (List α)} {c : List α} {m : AMap α (List α)} (hm : Inv m) (x : α) (r) :
    NameMap.get ⟨init, c, .inr m⟩ x = .ok r ↔ ∃ n, r = .inr n ∧ getItem m x = .ok n := by
  unfold NameMap.get
  simp only
  by_cases h : contains m x = true
  · obtain ⟨v, hv⟩ := (contains_iff hm x).1 h
    rw [if_pos h, hv]
    constructor
    · intro hr
      have hr : Except.ok (Sum.inr v) = (Except.ok r : Res _) := hr
      injection hr with hr
      exact ⟨v, hr.symm, rfl⟩
    · rintro ⟨n, rfl, hn⟩
      injection hn with hn
      subst hn; rfl
  · rw [if_neg h]
    constructor
    · intro hr; cases hr
    · rintro ⟨n, _, hn⟩
      exact absurd ((contains_iff hm x).2 ⟨n, hn⟩) h

theorem new_ok {defs : Dict α (List α)} {refs : Option (List α)} {n : NameMap α} (h : NameMap.new defs refs = .ok n) :
    ∃ m, n = ⟨(defs, refs), flatKeys m, .inl m⟩ ∧ Inv m ∧ Canonical m := by
  unfold NameMap.new at h
  cases hm : nameMap defs refs with
  | error e => rw [hm] at h; cases h
  | ok m =>
    rw [hm] at h
    have h : Except.ok (NameMap.mk (defs, refs) (flatKeys m) (.inl m)) = (Except.ok n : Res _) := h
    injection h with h
    exact ⟨m, h.symm, nameMap_canonical hm⟩

/-- **C175.** Inverting a name map swaps its sides: a canonical name gives the list of exactly the names that the map had
sent to it, and each of them once; nothing else can be looked up. -/
theorem c175_invert (defs : Dict α (List α)) (refs : Option (List α)) (n : NameMap α)
    (h : NameMap.new defs refs = .ok n) :
    ∃ r, n.invert = .ok r ∧ ∀ x,
      ((∃ y, n.get y = .ok (.inl x)) →
        ∃ l, r.get x = .ok (.inr l) ∧ l.Nodup ∧ ∀ y, y ∈ l ↔ n.get y = .ok (.inl x)) ∧
      ((¬ ∃ y, n.get y = .ok (.inl x)) → r.get x = .error .keyError) := by
  obtain ⟨m, rfl, hm, hc⟩ := new_ok h
  obtain ⟨r, hr, hri, hget⟩ := invert_spec hm hc
  have hn : ∀ y x, NameMap.get ⟨(defs, refs), flatKeys m, .inl m⟩ y = .ok (.inl x) ↔ getItem m y = .ok x := by
    intro y x
    rw [get_inl hm]
    constructor
    · rintro ⟨z, hz, h⟩; injection hz with hz; rw [hz]; exact h
    · intro h; exact ⟨x, rfl, h⟩
  refine ⟨⟨(defs, refs), flatKeys m, .inr r⟩, ?_, fun x => ⟨?_, ?_⟩⟩
  · unfold NameMap.invert
    simp only [hr]
    rfl
  · rintro ⟨y, hy⟩
    rw [hn] at hy
    obtain ⟨g, hg, hyg⟩ := (getItem_ok_iff hm y x).1 hy
    refine ⟨g, (get_inr hri x _).2 ⟨g, rfl, (hget x g).2 hg⟩,
      ((nodup_flatten_iff _).1 hm.1).1 g (List.mem_map.2 ⟨_, hg, rfl⟩), ?_⟩
    intro z
    rw [hn, getItem_ok_iff hm]
    constructor
    · intro hz; exact ⟨g, hg, hz⟩
    · rintro ⟨g', hg', hz⟩
      have := group_unique hm.disjoint (List.mem_map.2 ⟨_, hg', rfl⟩) (List.mem_map.2 ⟨_, hg, rfl⟩) (hc _ hg') (hc _ hg)
      simp only at this
      rw [← this]; exact hz
  · intro hno
    have hnc : ¬ contains r x = true := by
      intro hcon
      obtain ⟨as, has⟩ := (contains_iff hri x).1 hcon
      have hmem := (hget x as).1 has
      exact hno ⟨x, (hn x x).2 ((getItem_ok_iff hm x x).2 ⟨as, hmem, hc _ hmem⟩)⟩
    unfold NameMap.get
    simp only
    rw [if_neg hnc]

/-- **C175.** As long as it is not inverted, a name map iterates over exactly the names that it can look up, and a copy
is the same map. -/
theorem c175_iter_partial (defs : Dict α (List α)) (refs : Option (List α)) (n : NameMap α)
    (h : NameMap.new defs refs = .ok n) :
    n.iter.Nodup ∧ (∀ x, x ∈ n.iter ↔ ∃ v, n.get x = .ok v) ∧ n.copy = .ok n := by
  have h' := h
  obtain ⟨m, rfl, hm, hc⟩ := new_ok h
  refine ⟨hm.1, ?_, h'⟩
  intro x
  show x ∈ flatKeys m ↔ _
  rw [mem_flatKeys_iff hm]
  constructor
  · rintro ⟨v, hv⟩; exact ⟨_, (get_inl hm x _).2 ⟨v, rfl, hv⟩⟩
  · rintro ⟨v, hv⟩
    obtain ⟨w, _, hw⟩ := (get_inl hm x _).1 hv
    exact ⟨w, hw⟩

/-- **C175, violated.** After inversion, iteration still gives the names of the map before: some of them cannot be looked
up.  A copy of the inverted map is not inverted. -/
theorem c175_counterexample :
    ∃ n r c : NameMap String, NameMap.new [("a", ["A"])] none = .ok n ∧ n.invert = .ok r ∧
      r.get "a" = .ok (.inr ["a", "A"]) ∧ "A" ∈ r.iter ∧ r.get "A" = .error .keyError ∧
      r.copy = .ok c ∧ c.get "a" = .ok (.inl "a") :=
  ⟨⟨([("a", ["A"])], none), ["a", "A"], .inl [(["a", "A"], "a")]⟩,
    ⟨([("a", ["A"])], none), ["a", "A"], .inr [(["a"], ["a", "A"])]⟩,
    ⟨([("a", ["A"])], none), ["a", "A"], .inl [(["a", "A"], "a")]⟩, rfl, rfl, by decide, by decide, by decide, rfl, by decide⟩

example : ∃ n r : NameMap String, NameMap.new [("a", ["A", "x"]), ("b", [])] none = .ok n ∧ n.invert = .ok r ∧
    r.get "a" = .ok (.inr ["a", "A", "x"]) ∧ r.get "b" = .ok (.inr ["b"]) ∧ r.get "x" = .error .keyError :=
  ⟨⟨([("a", ["A", "x"]), ("b", [])], none), ["b", "a", "A", "x"], .inl [(["b"], "b"), (["a", "A", "x"], "a")]⟩,
    ⟨([("a", ["A", "x"]), ("b", [])], none), ["b", "a", "A", "x"], .inr [(["b"], ["b"]), (["a"], ["a", "A", "x"])]⟩,
    rfl, rfl, by decide, by decide, by decide⟩

end Verif.Aliased
