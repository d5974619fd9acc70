import Mathlib.Data.List.Basic
import Mathlib.Data.List.Nodup
import Verif.Aliased.Model

/-! Helper lemmas for the properties of `aliased.py`. -/

set_option linter.unusedSimpArgs false
set_option linter.unusedSectionVars false

namespace Verif.Aliased

open Verif.Py

variable {α ν : Type _} [DecidableEq α]

theorem Group.same_iff (g h : Group α) : g.same h = true ↔ ∀ x, x ∈ g ↔ x ∈ h := by
  simp only [Group.same, Bool.and_eq_true, List.all_eq_true, decide_eq_true_eq]
  constructor
  · rintro ⟨h1, h2⟩ x; exact ⟨h1 x, h2 x⟩
  · intro h'; exact ⟨fun x hx => (h' x).1 hx, fun x hx => (h' x).2 hx⟩

@[simp] theorem Group.same_refl (g : Group α) : g.same g = true := by simp [Group.same_iff]

theorem Group.mem_union (g h : Group α) (x : α) : x ∈ g.union h ↔ x ∈ g ∨ x ∈ h := by
  simp only [Group.union, List.mem_append, List.mem_filter, List.mem_dedup, decide_eq_true_eq]
  tauto

theorem Group.nodup_union {g : Group α} (hg : g.Nodup) (h : Group α) : (g.union h).Nodup := by
  unfold Group.union
  rw [List.nodup_append]
  refine ⟨hg, (List.nodup_dedup h).filter _, ?_⟩
  intro a ha b hb
  simp only [List.mem_filter, decide_eq_true_eq] at hb
  rintro rfl
  exact hb.2 ha

/-- Invariant: all aliases of all groups are distinct. -/
def Inv (m : AMap α ν) : Prop := (flatKeys m).Nodup ∧ ∀ g ∈ m.keys, g ≠ []

/-- Groups that hold no name twice. -/
def Disjoint' (gs : List (Group α)) : Prop :=
  gs.Pairwise (fun g h => ∀ x, x ∈ g → x ∉ h)

theorem nodup_flatten_iff (gs : List (Group α)) :
    gs.flatten.Nodup ↔ (∀ g ∈ gs, g.Nodup) ∧ Disjoint' gs := by
  rw [List.nodup_flatten]
  apply and_congr_right; intro _
  unfold Disjoint'
  constructor <;> intro h <;> apply h.imp <;> intro a b hab
  · intro x hx hx'; exact hab hx hx'
  · intro x hx hx'; exact hab x hx hx'

theorem group_unique {gs : List (Group α)} (hd : Disjoint' gs) {g h : Group α} (hg : g ∈ gs)
    (hh : h ∈ gs) {x : α} (hxg : x ∈ g) (hxh : x ∈ h) : g = h := by
  induction gs with
  | nil => simp at hg
  | cons a gs ih =>
    unfold Disjoint' at hd
    rw [List.pairwise_cons] at hd
    rcases List.mem_cons.1 hg with hga | hga
    · rcases List.mem_cons.1 hh with hha | hha
      · rw [hga, hha]
      · subst hga; exact absurd hxh (hd.1 h hha x hxg)
    · rcases List.mem_cons.1 hh with hha | hha
      · subst hha; exact absurd hxg (hd.1 g hga x hxh)
      · exact ih hd.2 hga hha

theorem Inv.nodup_keys {m : AMap α ν} (hm : Inv m) : m.keys.Nodup := by
  have h1 := hm.2
  have h2 : Disjoint' m.keys := ((nodup_flatten_iff _).1 hm.1).2
  unfold Disjoint' at h2
  revert h1 h2
  generalize m.keys = ks
  intro h1 h2
  induction ks with
  | nil => simp
  | cons g ks ih =>
    rw [List.pairwise_cons] at h2
    rw [List.nodup_cons]
    refine ⟨fun hmem => ?_, ih (fun g hg => h1 g (List.mem_cons_of_mem _ hg)) h2.2⟩
    have hne := h1 g (by simp)
    cases g with
    | nil => exact hne rfl
    | cons a g => exact h2.1 _ hmem a (by simp) (by simp)

theorem Inv.disjoint {m : AMap α ν} (hm : Inv m) : Disjoint' m.keys :=
  ((nodup_flatten_iff _).1 hm.1).2

theorem resolve_eq_some_iff {m : AMap α ν} (hm : Inv m) (x : α) (g : Group α) :
    resolve m x = some g ↔ g ∈ m.keys ∧ x ∈ g := by
  unfold resolve flatDict
  have hk : Dict.keys (m.keys.flatMap (fun g => g.map (fun a => (a, g)))) = flatKeys m := by
    unfold flatKeys
    generalize m.keys = ks
    induction ks with
    | nil => rfl
    | cons g ks ih =>
      rw [List.flatMap_cons, Dict.keys_append, ih, List.flatten_cons]
      simp [Dict.keys, List.map_map, Function.comp_def]
  have hnd : (Dict.keys (m.keys.flatMap (fun g => g.map (fun a => (a, g))))).Nodup := by
    rw [hk]; exact hm.1
  rw [Dict.ofPairs_of_nodup hnd, Dict.get?_eq_some_iff hnd]
  simp only [List.mem_flatMap, List.mem_map, Prod.mk.injEq]
  constructor
  · rintro ⟨g', hg', a, ha, rfl, rfl⟩; exact ⟨hg', ha⟩
  · rintro ⟨hg, hx⟩; exact ⟨g, hg, x, hx, rfl, rfl⟩

theorem resolve_eq_none_iff {m : AMap α ν} (hm : Inv m) (x : α) :
    resolve m x = none ↔ x ∉ flatKeys m := by
  constructor
  · intro h hx
    obtain ⟨g, hg, hxg⟩ := List.mem_flatten.1 hx
    rw [(resolve_eq_some_iff hm x g).2 ⟨hg, hxg⟩] at h
    cases h
  · intro hx
    cases h : resolve m x with
    | none => rfl
    | some g =>
      have := (resolve_eq_some_iff hm x g).1 h
      exact absurd (List.mem_flatten.2 ⟨g, this.1, this.2⟩) hx

theorem getItem_ok_iff {m : AMap α ν} (hm : Inv m) (x : α) (v : ν) :
    getItem m x = .ok v ↔ ∃ g, (g, v) ∈ m ∧ x ∈ g := by
  unfold getItem
  constructor
  · intro h
    split at h
    · next a g hr =>
      have hr' := (resolve_eq_some_iff hm x _).1 hr
      split at h
      · next w hw =>
        injection h with h; subst h
        exact ⟨_, Dict.mem_of_get? hw, hr'.2⟩
      · cases h
    · cases h
  · rintro ⟨g, hg, hx⟩
    have hgk : g ∈ m.keys := List.mem_map.2 ⟨_, hg, rfl⟩
    have hr := (resolve_eq_some_iff hm x g).2 ⟨hgk, hx⟩
    cases g with
    | nil => simp at hx
    | cons a g => simp only [hr, Dict.get?_of_mem hm.nodup_keys hg]

theorem getItem_error_iff {m : AMap α ν} (hm : Inv m) (x : α) :
    getItem m x = .error .keyError ↔ x ∉ flatKeys m := by
  constructor
  · intro h hx
    obtain ⟨g, hg, hxg⟩ := List.mem_flatten.1 hx
    obtain ⟨p, hp, rfl⟩ := List.mem_map.1 hg
    rw [(getItem_ok_iff hm x p.2).2 ⟨p.1, hp, hxg⟩] at h
    cases h
  · intro hx
    unfold getItem
    rw [(resolve_eq_none_iff hm x).2 hx]

theorem getItem_ne_ok {m : AMap α ν} (hm : Inv m) (x : α) :
    (∃ v, getItem m x = .ok v) ∨ getItem m x = .error .keyError := by
  by_cases hx : x ∈ flatKeys m
  · left
    obtain ⟨g, hg, hxg⟩ := List.mem_flatten.1 hx
    obtain ⟨p, hp, rfl⟩ := List.mem_map.1 hg
    exact ⟨p.2, (getItem_ok_iff hm x p.2).2 ⟨p.1, hp, hxg⟩⟩
  · right; exact (getItem_error_iff hm x).2 hx

/-- Two invariant mappings with the same observable entries give the same lookups. -/
theorem getItem_congr {m m' : AMap α ν} (hm : Inv m) (hm' : Inv m') {x y : α}
    (h : ∀ v, (∃ g, (g, v) ∈ m ∧ x ∈ g) ↔ ∃ g, (g, v) ∈ m' ∧ y ∈ g) :
    getItem m x = getItem m' y := by
  have : ∀ v, getItem m x = .ok v ↔ getItem m' y = .ok v := fun v => by
    rw [getItem_ok_iff hm, getItem_ok_iff hm']; exact h v
  rcases getItem_ne_ok hm x with ⟨v, hv⟩ | he
  · rw [hv, (this v).1 hv]
  · rcases getItem_ne_ok hm' y with ⟨v, hv⟩ | he'
    · rw [hv]; exact (this v).2 hv
    · rw [he, he']

theorem inv_of_keys {m m' : AMap α ν} (h : m'.keys = m.keys) (hm : Inv m) : Inv m' := by
  unfold Inv flatKeys at *; rw [h]; exact hm

theorem inv_set_existing {m : AMap α ν} (hm : Inv m) {g : Group α} (hg : g ∈ m.keys) (v : ν) :
    Inv (m.set g v) := by
  apply inv_of_keys _ hm
  rw [Dict.keys_set, if_pos hg]

theorem inv_append {m : AMap α ν} (hm : Inv m) {g : Group α} (hg : g.Nodup) (hne : g ≠ [])
    (hd : ∀ x ∈ g, x ∉ flatKeys m) (v : ν) : Inv (m ++ [(g, v)]) := by
  constructor
  · unfold flatKeys
    rw [Dict.keys_append, List.flatten_append]
    simp only [Dict.keys_cons, Dict.keys_nil, List.flatten_cons, List.flatten_nil, List.append_nil]
    rw [List.nodup_append]
    refine ⟨hm.1, hg, ?_⟩
    intro a ha b hb
    rintro rfl
    exact hd a hb ha
  · intro h hh
    rw [Dict.keys_append] at hh
    rcases List.mem_append.1 hh with hh | hh
    · exact hm.2 h hh
    · simp at hh; subst hh; exact hne

theorem not_mem_keys_of_disjoint {m : AMap α ν} {g : Group α} (hne : g ≠ [])
    (hd : ∀ x ∈ g, x ∉ flatKeys m) : g ∉ m.keys := by
  intro hg
  cases g with
  | nil => exact hne rfl
  | cons a g => exact hd a (by simp) (List.mem_flatten.2 ⟨_, hg, by simp⟩)

theorem flatKeys_sublist_del (m : AMap α ν) (g : Group α) :
    (flatKeys (m.del g)).Sublist (flatKeys m) := by
  unfold flatKeys
  rw [Dict.keys_del]
  generalize m.keys = ks
  induction ks with
  | nil => simp
  | cons k ks ih =>
    rw [List.filter_cons]
    split
    · simp only [List.flatten_cons]; exact List.Sublist.append (List.Sublist.refl _) ih
    · simp only [List.flatten_cons]; exact ih.trans (List.sublist_append_right _ _)

theorem inv_del {m : AMap α ν} (hm : Inv m) (g : Group α) : Inv (m.del g) := by
  constructor
  · exact hm.1.sublist (flatKeys_sublist_del m g)
  · intro h hh
    rw [Dict.keys_del] at hh
    exact hm.2 h (List.mem_of_mem_filter hh)

theorem mem_flatKeys_del {m : AMap α ν} (hm : Inv m) {g : Group α} (hg : g ∈ m.keys) (x : α) :
    x ∈ flatKeys (m.del g) ↔ x ∈ flatKeys m ∧ x ∉ g := by
  unfold flatKeys
  rw [Dict.keys_del]
  simp only [List.mem_flatten, List.mem_filter, decide_eq_true_eq]
  constructor
  · rintro ⟨h, ⟨hh, hne⟩, hx⟩
    exact ⟨⟨h, hh, hx⟩, fun hxg => hne (group_unique hm.disjoint hh hg hx hxg)⟩
  · rintro ⟨⟨h, hh, hx⟩, hxg⟩
    exact ⟨h, ⟨hh, by rintro rfl; exact hxg hx⟩, hx⟩

/-- One iteration of `alias` replaces the group by the extended one. -/
theorem alias_step {m : AMap α ν} {a : α} {g : Group α} {v : ν}
    (hg : (g, v) ∈ m) (ha : a ∉ flatKeys m) :
    (m.set (g.union [a]) v).del g = m.del g ++ [(g.union [a], v)] := by
  have hgk : g ∈ m.keys := List.mem_map.2 ⟨_, hg, rfl⟩
  have hag : a ∉ g := fun h => ha (List.mem_flatten.2 ⟨g, hgk, h⟩)
  have hnew : g.union [a] ∉ m.keys := by
    intro h
    have hmem : a ∈ g.union [a] := by rw [Group.mem_union]; simp
    exact ha (List.mem_flatten.2 ⟨_, h, hmem⟩)
  have hne : g.union [a] ≠ g := by
    intro h
    have hmem : a ∈ g.union [a] := by rw [Group.mem_union]; simp
    rw [h] at hmem; exact hag hmem
  rw [Dict.set_of_not_mem hnew]
  unfold Dict.del
  rw [List.filter_append]
  congr 1
  simp [hne]

theorem alias_step_inv {m : AMap α ν} (hm : Inv m) {key a : α} {g : Group α} {v : ν}
    (hg : (g, v) ∈ m) (hk : key ∈ g) (ha : a ∉ flatKeys m) :
    Inv ((m.set (g.union [a]) v).del g) := by
  rw [alias_step hg ha]
  have hgk : g ∈ m.keys := List.mem_map.2 ⟨_, hg, rfl⟩
  have hgn : g.Nodup := ((nodup_flatten_iff _).1 hm.1).1 g hgk
  apply inv_append (inv_del hm g) (Group.nodup_union hgn _)
  · intro h
    have : key ∈ g.union [a] := by rw [Group.mem_union]; exact Or.inl hk
    rw [h] at this; simp at this
  · intro x hx
    rw [mem_flatKeys_del hm hgk, Group.mem_union] at *
    rcases hx with hx | hx
    · exact fun h => h.2 hx
    · simp at hx; subst hx; exact fun h => ha h.1

theorem aliasLoop_inv (key : α) (as : List α) : ∀ {m : AMap α ν}, Inv m →
    Inv (aliasLoop key m as).1 := by
  induction as with
  | nil => intro m hm; exact hm
  | cons a as ih =>
    intro m hm
    unfold aliasLoop
    split
    · exact ih hm
    · split
      · exact hm
      · next ha =>
        split
        · exact hm
        · next g hr =>
          have hr' := (resolve_eq_some_iff hm key g).1 hr
          split
          · exact hm
          · next v hv =>
            obtain ⟨g', hg', hk'⟩ := (getItem_ok_iff hm key v).1 hv
            have : g' = g := group_unique hm.disjoint (List.mem_map.2 ⟨_, hg', rfl⟩) hr'.1 hk' hr'.2
            subst this
            exact ih (alias_step_inv hm hg' hk' ha)

theorem addAliases_inv {m : AMap α ν} (hm : Inv m) (key : α) (as : List α) :
    Inv (addAliases m key as).1 := by
  unfold addAliases
  cases as with
  | nil => simp only; split <;> exact hm
  | cons a as => exact aliasLoop_inv key (a :: as) hm

theorem setItem_inv {m : AMap α ν} (hm : Inv m) (key : α) (v : ν) : Inv (setItem m key v) := by
  unfold setItem
  split
  · next a g hr => exact inv_set_existing hm ((resolve_eq_some_iff hm _ _).1 hr).1 v
  · next hr =>
    have hk : key ∉ flatKeys m := by
      rw [← resolve_eq_none_iff hm]
      cases h : resolve m key with
      | none => rfl
      | some g =>
        cases g with
        | nil => have := ((resolve_eq_some_iff hm _ _).1 h).2; simp at this
        | cons a g => exact absurd h (hr a g)
    have hd : ∀ x ∈ [key], x ∉ flatKeys m := by intro x hx; simp at hx; subst hx; exact hk
    rw [Dict.set_of_not_mem (not_mem_keys_of_disjoint (by simp) hd)]
    exact inv_append hm (by simp) (by simp) hd v

theorem delItem_inv {m m' : AMap α ν} (hm : Inv m) (key : α) (h : delItem m key = .ok m') :
    Inv m' := by
  unfold delItem at h
  split at h
  · injection h with h; subst h; exact inv_del hm _
  · cases h

theorem getItem_alias_step {m : AMap α ν} (hm : Inv m) {key a : α} {g : Group α} {v : ν}
    (hg : (g, v) ∈ m) (hk : key ∈ g) (ha : a ∉ flatKeys m) (x : α) :
    getItem ((m.set (g.union [a]) v).del g) x = if x = a then .ok v else getItem m x := by
  have hinv := alias_step_inv hm hg hk ha
  have heq := alias_step hg ha
  have hgk : g ∈ m.keys := List.mem_map.2 ⟨_, hg, rfl⟩
  split
  · next h =>
    subst h
    rw [getItem_ok_iff hinv, heq]
    exact ⟨g.union [x], by simp, by rw [Group.mem_union]; simp⟩
  · next h =>
    apply getItem_congr hinv hm
    intro w
    rw [heq]
    constructor
    · rintro ⟨g', hg', hx⟩
      rcases List.mem_append.1 hg' with h1 | h1
      · exact ⟨g', (List.mem_filter.1 h1).1, hx⟩
      · simp only [List.mem_singleton, Prod.mk.injEq] at h1
        obtain ⟨rfl, rfl⟩ := h1
        rw [Group.mem_union] at hx
        rcases hx with hx | hx
        · exact ⟨g, hg, hx⟩
        · simp at hx; exact absurd hx h
    · rintro ⟨g', hg', hx⟩
      by_cases hgg : g' = g
      · subst hgg
        have : w = v := by
          have h1 := Dict.get?_of_mem hm.nodup_keys hg'
          rw [Dict.get?_of_mem hm.nodup_keys hg] at h1
          injection h1 with h1; exact h1.symm
        subst this
        exact ⟨g'.union [a], by simp, by rw [Group.mem_union]; exact Or.inl hx⟩
      · exact ⟨g', List.mem_append_left _ (List.mem_filter.2 ⟨hg', by simpa using hgg⟩), hx⟩

/-- Pairs with distinct, non-empty, disjoint groups form an invariant mapping. -/
theorem inv_of_pairs {ps : List (Group α × ν)} (hn : ∀ p ∈ ps, p.1.Nodup) (hne : ∀ p ∈ ps, p.1 ≠ [])
    (hd : ps.Pairwise (fun p q => ∀ x, x ∈ p.1 → x ∉ q.1)) :
    Inv (ps : AMap α ν) := by
  refine ⟨?_, ?_⟩
  · unfold flatKeys
    rw [nodup_flatten_iff]
    constructor
    · intro g hg
      obtain ⟨p, hp, rfl⟩ := List.mem_map.1 hg
      exact hn p hp
    · unfold Disjoint' Dict.keys
      rw [List.pairwise_map]
      exact hd
  · intro g hg
    obtain ⟨p, hp, rfl⟩ := List.mem_map.1 hg
    exact hne p hp

end Verif.Aliased
