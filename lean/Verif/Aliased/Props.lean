import Verif.Aliased.Lemmas

/-!
# Properties of `aliased.py` (C13–C16)
-/

set_option linter.unusedSimpArgs false
set_option linter.unusedSectionVars false

namespace Verif.Aliased

open Verif.Py

variable {α ν : Type _} [DecidableEq α]

/-! ## C13: `Groups` -/

/-- Specification: no name belongs to two groups (at different positions). -/
def NoSharedName (gs : List (Group α)) : Prop :=
  ∀ (i j : Nat) (g h : Group α) (x : α), gs[i]? = some g → gs[j]? = some h → x ∈ g → x ∈ h → i = j

theorem noSharedName_iff (gs : List (Group α)) : NoSharedName gs ↔ Disjoint' gs := by
  unfold NoSharedName Disjoint'
  rw [List.pairwise_iff_getElem]
  constructor
  · intro h i j hi hj hij x hx hx'
    have := h i j gs[i] gs[j] x (List.getElem?_eq_getElem hi) (List.getElem?_eq_getElem hj) hx hx'
    omega
  · intro h i j g g' x hi hj hx hx'
    obtain ⟨hi', rfl⟩ := List.getElem?_eq_some_iff.1 hi
    obtain ⟨hj', rfl⟩ := List.getElem?_eq_some_iff.1 hj
    rcases Nat.lt_trichotomy i j with hlt | heq | hgt
    · exact absurd hx' (h i j hi' hj' hlt x hx)
    · exact heq
    · exact absurd hx (h j i hj' hi' hgt x hx')

/-- Two groups share a name. -/
def Meets (g h : Group α) : Prop := ∃ x, x ∈ g ∧ x ∈ h

/-- The groups to be merged do not bridge: pairwise disjoint, each meets at most one
existing group, and no two meet the same one. -/
def NoBridge (gs others : List (Group α)) : Prop :=
  Disjoint' others
  ∧ (∀ o ∈ others, ∀ g ∈ gs, ∀ h ∈ gs, Meets o g → Meets o h → g = h)
  ∧ others.Pairwise (fun o o' => ∀ g ∈ gs, Meets o g → ¬ Meets o' g)

/-- The collections of groups reachable from the empty one. -/
inductive Reach : List (Group α) → Prop where
  | empty : Reach []
  | add {gs gs' x} : Reach gs → add gs x = .ok gs' → Reach gs'
  | discard {gs gs' x} : Reach gs → discard gs x = .ok gs' → Reach gs'
  | without {gs} (keys) : Reach gs → Reach (without gs keys)
  | update {gs gs' others} : Reach gs → NoBridge gs others → merge gs others = .ok gs' → Reach gs'

theorem removeGroup_spec {gs : List (Group α)} (hd : Disjoint' gs) {f : Group α} (hf : f ∈ gs)
    (hne : ∃ x, x ∈ f) :
    ∃ r, removeGroup gs f = .ok r ∧ r.Sublist gs ∧ (∀ g, g ∈ r ↔ g ∈ gs ∧ g ≠ f) := by
  induction gs with
  | nil => simp at hf
  | cons a gs ih =>
    have hd' := hd
    unfold Disjoint' at hd'
    rw [List.pairwise_cons] at hd'
    unfold removeGroup
    obtain ⟨x, hx⟩ := hne
    by_cases hs : Group.same a f = true
    · have hxa : x ∈ a := ((Group.same_iff _ _).1 hs x).2 hx
      have haf : a = f := group_unique hd (by simp) hf hxa hx
      subst haf
      refine ⟨gs, by simp [hs], List.sublist_cons_self _ _, ?_⟩
      intro g
      simp only [List.mem_cons]
      constructor
      · intro hg
        refine ⟨Or.inr hg, ?_⟩
        rintro rfl
        exact hd'.1 g hg x hx hx
      · rintro ⟨rfl | hg, hgne⟩
        · exact absurd rfl hgne
        · exact hg
    · have hfa : f ∈ gs := by
        rcases List.mem_cons.1 hf with h | h
        · subst h; simp at hs
        · exact h
      obtain ⟨r, hr, hsub, hmem⟩ := ih hd'.2 hfa
      refine ⟨a :: r, by simp [hs, hr, bind, Except.bind, pure, Except.pure], hsub.cons_cons a, ?_⟩
      intro g
      simp only [List.mem_cons, hmem]
      constructor
      · rintro (rfl | ⟨h1, h2⟩)
        · refine ⟨Or.inl rfl, ?_⟩
          rintro rfl
          exact absurd (Group.same_refl g) hs
        · exact ⟨Or.inr h1, h2⟩
      · rintro ⟨rfl | h1, h2⟩
        · exact Or.inl rfl
        · exact Or.inr ⟨h1, h2⟩

theorem search_some {gs : List (Group α)} {o f : Group α} (h : search gs o = some f) :
    f ∈ gs ∧ Meets o f := by
  unfold search at h
  obtain ⟨m, hm, hf⟩ := List.exists_of_findSome?_eq_some h
  have hfind : find gs m = some f := by
    split at hf
    · cases hf
    · exact hf
  have := List.find?_some hfind
  exact ⟨List.mem_of_find?_eq_some hfind, m, hm, by simpa using this⟩

theorem search_none {gs : List (Group α)} {o : Group α} (h : search gs o = none) :
    ∀ g ∈ gs, ¬ Meets o g := by
  rintro g hg ⟨x, hxo, hxg⟩
  unfold search at h
  rw [List.findSome?_eq_none_iff] at h
  have := h x hxo
  cases hf : find gs x with
  | none =>
    unfold find at hf
    rw [List.find?_eq_none] at hf
    exact hf g hg (by simpa using hxg)
  | some f =>
    rw [hf] at this
    have hxf := List.find?_some hf
    cases f with
    | nil => simp at hxf
    | cons a f => simp at this

theorem disjoint_append_singleton {gs : List (Group α)} (hd : Disjoint' gs) {g : Group α}
    (h : ∀ t ∈ gs, ∀ x, x ∈ t → x ∉ g) : Disjoint' (gs ++ [g]) := by
  unfold Disjoint' at *
  rw [List.pairwise_append]
  refine ⟨hd, by simp, ?_⟩
  intro a ha b hb
  simp at hb; subst hb
  exact h a ha

theorem mergeLoop_spec (self : List (Group α)) :
    ∀ (others these : List (Group α)), Disjoint' these → NoBridge self others →
      (∀ o ∈ others, ∀ t ∈ these, Meets o t → t ∈ self) →
      (∀ o ∈ others, ∀ s ∈ self, Meets o s → s ∈ these) →
      ∃ r, mergeLoop self these others = .ok r ∧ Disjoint' r := by
  intro others
  induction others with
  | nil => intro these hd _ _ _; exact ⟨these, rfl, hd⟩
  | cons o others ih =>
    intro these hd hnb h1 h2
    obtain ⟨hod, hone, hinj⟩ := hnb
    have hnb' : NoBridge self others := by
      refine ⟨?_, fun o' ho' => hone o' (List.mem_cons_of_mem _ ho'), ?_⟩
      · unfold Disjoint' at *; exact (List.pairwise_cons.1 hod).2
      · exact (List.pairwise_cons.1 hinj).2
    unfold mergeLoop
    cases hs : search self o with
    | some f =>
      obtain ⟨hf, hmeet⟩ := search_some hs
      have hfthese : f ∈ these := h2 o (by simp) f hf hmeet
      obtain ⟨x0, hx0o, hx0f⟩ := hmeet
      obtain ⟨r, hr, hsub, hmem⟩ := removeGroup_spec hd hfthese ⟨x0, hx0f⟩
      have hrd : Disjoint' r := by unfold Disjoint' at *; exact hd.sublist hsub
      simp only [hr, bind, Except.bind]
      apply ih _ _ hnb'
      · intro o' ho' t ht hm
        rcases List.mem_append.1 ht with ht | ht
        · exact h1 o' (List.mem_cons_of_mem _ ho') t ((hmem t).1 ht).1 hm
        · simp at ht; subst ht
          obtain ⟨x, hxo', hx⟩ := hm
          rw [Group.mem_union] at hx
          rcases hx with hx | hx
          · exact absurd ⟨x, hxo', hx⟩
              ((List.pairwise_cons.1 hinj).1 o' ho' f hf ⟨x0, hx0o, hx0f⟩)
          · unfold Disjoint' at hod
            exact absurd hxo' ((List.pairwise_cons.1 hod).1 o' ho' x hx)
      · intro o' ho' s hss hm
        apply List.mem_append_left
        rw [hmem]
        refine ⟨h2 o' (List.mem_cons_of_mem _ ho') s hss hm, ?_⟩
        rintro rfl
        exact (List.pairwise_cons.1 hinj).1 o' ho' s hf ⟨x0, hx0o, hx0f⟩ hm
      · apply disjoint_append_singleton hrd
        intro t ht x hxt hxu
        have htm := (hmem t).1 ht
        rw [Group.mem_union] at hxu
        rcases hxu with hx | hx
        · exact htm.2 (group_unique hd htm.1 hfthese hxt hx)
        · have hts := h1 o (by simp) t htm.1 ⟨x, hx, hxt⟩
          exact htm.2 (hone o (by simp) t hts f hf ⟨x, hx, hxt⟩ ⟨x0, hx0o, hx0f⟩)
    | none =>
      have hno := search_none hs
      simp only
      apply ih _ _ hnb'
      · intro o' ho' t ht hm
        rcases List.mem_append.1 ht with ht | ht
        · exact h1 o' (List.mem_cons_of_mem _ ho') t ht hm
        · simp at ht; subst ht
          obtain ⟨x, hxo', hx⟩ := hm
          unfold Disjoint' at hod
          exact absurd hxo' ((List.pairwise_cons.1 hod).1 o' ho' x hx)
      · intro o' ho' s hss hm
        exact List.mem_append_left _ (h2 o' (List.mem_cons_of_mem _ ho') s hss hm)
      · apply disjoint_append_singleton hd
        intro t ht x hxt hxo
        have := h1 o (by simp) t ht ⟨x, hxo, hxt⟩
        exact hno t this ⟨x, hxo, hxt⟩

/-- **C13** (partial: merges that do not bridge, `add` with collections of names). After any
history of additions, removals and non-bridging updates from the empty collection, no name belongs
to two groups; and such an update never fails. -/
theorem c13_groups_partial (gs : List (Group α)) (h : Reach gs) :
    NoSharedName gs ∧ (∀ others, NoBridge gs others → ∃ gs', merge gs others = .ok gs') := by
  have hmerge : ∀ gs : List (Group α), Disjoint' gs → ∀ others, NoBridge gs others →
      ∃ r, merge gs others = .ok r ∧ Disjoint' r := fun gs hd others hnb =>
    mergeLoop_spec gs others gs hd hnb (fun _ _ _ h _ => h) (fun _ _ _ h _ => h)
  have hd : Disjoint' gs := by
    induction h with
    | empty => exact List.Pairwise.nil
    | @add gs gs' x _ hadd ih =>
      unfold add at hadd
      split at hadd
      · cases hadd
      · next hno =>
        injection hadd with hadd; subst hadd
        apply disjoint_append_singleton ih
        intro t ht y hyt hyx
        apply hno
        rw [List.any_eq_true]
        exact ⟨y, List.mem_dedup.1 hyx, by
          simp only [decide_eq_true_eq]; exact List.mem_flatten.2 ⟨t, ht, hyt⟩⟩
    | @discard gs gs' x _ hdis ih =>
      unfold discard at hdis
      split at hdis
      · next y g hf =>
        have hmem := List.mem_of_find?_eq_some hf
        obtain ⟨r, hr, hsub, _⟩ := removeGroup_spec ih hmem ⟨y, by simp⟩
        rw [hr] at hdis
        injection hdis with hdis; subst hdis
        unfold Disjoint' at *; exact ih.sublist hsub
      · injection hdis with hdis; subst hdis; exact ih
    | without keys _ ih => unfold Disjoint' at *; exact ih.sublist List.filter_sublist
    | update _ hnb hm ih =>
      obtain ⟨r, hr, hrd⟩ := hmerge _ ih _ hnb
      rw [hr] at hm; injection hm with hm; subst hm; exact hrd
  refine ⟨(noSharedName_iff gs).2 hd, fun others hnb => ?_⟩
  obtain ⟨r, hr, _⟩ := hmerge gs hd others hnb
  exact ⟨r, hr⟩

/-- With no shared name, the group of a name is well defined: `find` returns the one group that
contains it. -/
theorem c13_find (gs : List (Group α)) (h : NoSharedName gs) (x : α) (g : Group α) :
    find gs x = some g ↔ g ∈ gs ∧ x ∈ g := by
  rw [noSharedName_iff] at h
  constructor
  · intro hf
    exact ⟨List.mem_of_find?_eq_some hf, by simpa using List.find?_some hf⟩
  · rintro ⟨hg, hx⟩
    cases hf : find gs x with
    | none =>
      unfold find at hf
      rw [List.find?_eq_none] at hf
      exact absurd hx (by simpa using hf g hg)
    | some f =>
      have hxf : x ∈ f := by simpa using List.find?_some hf
      rw [group_unique h (List.mem_of_find?_eq_some hf) hg hxf hx]

/-- `without` drops exactly the groups that contain one of the given names. -/
theorem c13_without (gs : List (Group α)) (keys : List α) (g : Group α) :
    g ∈ without gs keys ↔ g ∈ gs ∧ ∀ k ∈ keys, k ∉ g := by
  unfold without
  simp only [List.mem_filter, Bool.and_eq_true, List.all_eq_true, decide_eq_true_eq,
    Bool.not_eq_true', List.any_eq_false]
  constructor
  · rintro ⟨h1, h2, _⟩; exact ⟨h1, h2⟩
  · rintro ⟨h1, h2⟩
    refine ⟨h1, h2, fun k hk hs => h2 k hk ?_⟩
    exact ((Group.same_iff _ _).1 hs k).2 (by simp)

example : Reach [["b"], ["a", "x", "y"]] := by
  refine .update (others := [["x", "y"]]) (gs := [["a", "x"], ["b"]]) ?_ ?_ (by decide)
  · refine .add (x := ["b"]) (gs := [["a", "x"]]) ?_ (by decide)
    exact .add (x := ["a", "x"]) (gs := []) .empty (by decide)
  · refine ⟨List.pairwise_singleton _ _, ?_, List.pairwise_singleton _ _⟩
    intro o ho g hg h hh h1 h2
    simp at ho hg hh
    subst ho
    rcases hg with rfl | rfl <;> rcases hh with rfl | rfl <;> simp_all [Meets]

/-- **C13** fails for a bridging update: the bridge is merged with the first group only. -/
theorem c13_groups_bridge_counterexample :
    merge [["a"], ["b"]] [["a", "b"]] = .ok [["b"], ["a", "b"]]
    ∧ ¬ NoSharedName [["b"], ["a", "b"]] := by
  refine ⟨by decide, fun h => ?_⟩
  have := h 0 1 ["b"] ["a", "b"] "b" rfl rfl (by simp) (by simp)
  omega

/-- Two groups merged into the same existing group in one call make the call fail with
`ValueError`. -/
theorem c13_groups_double_merge_counterexample :
    merge [["a", "b"]] [["a", "x"], ["b", "y"]] = .error .valueError := by decide

/-- **C13** fails for `add` with a bare string: the same name can be added twice. -/
theorem c13_groups_string_counterexample :
    addStr [["ab".toList]] "ab".toList = .ok [["ab".toList], ["ab".toList]] := by decide

/-! ## C14: `MutableMapping` -/

/-- An update of a mutable aliased mapping. -/
inductive Op (α ν : Type _) where
  | set (key : α) (v : ν)
  | del (key : α)
  | addAlias (key : α) (aliases : List α)

/-- The mapping after an update; an update that raises leaves the state it had reached. -/
def step (m : AMap α ν) : Op α ν → AMap α ν
  | .set k v => setItem m k v
  | .del k => match delItem m k with
    | .ok m' => m'
    | .error _ => m
  | .addAlias k as => (addAliases m k as).1

/-- The mapping after a history of updates. -/
def run (m : AMap α ν) (ops : List (Op α ν)) : AMap α ν := ops.foldl step m

/-- Specification: `y` is listed among the aliases of `x`. -/
def SameEntry (m : AMap α ν) (x y : α) : Prop := ∃ g, resolve m x = some g ∧ y ∈ g

theorem run_inv {m : AMap α ν} (hm : Inv m) (ops : List (Op α ν)) : Inv (run m ops) := by
  induction ops generalizing m with
  | nil => exact hm
  | cons op ops ih =>
    apply ih
    cases op with
    | set k v => exact setItem_inv hm k v
    | del k =>
      simp only [step]
      split
      · next m' h => exact delItem_inv hm k h
      · exact hm
    | addAlias k as => exact addAliases_inv hm k as

theorem inv_empty : Inv ([] : AMap α ν) := ⟨by simp [flatKeys], by simp⟩

theorem sameEntry_iff {m : AMap α ν} (hm : Inv m) (x y : α) :
    SameEntry m x y ↔ ∃ g ∈ m.keys, x ∈ g ∧ y ∈ g := by
  unfold SameEntry
  constructor
  · rintro ⟨g, hr, hy⟩
    have := (resolve_eq_some_iff hm x g).1 hr
    exact ⟨g, this.1, this.2, hy⟩
  · rintro ⟨g, hg, hx, hy⟩
    exact ⟨g, (resolve_eq_some_iff hm x g).2 ⟨hg, hx⟩, hy⟩

theorem getItem_setItem {m : AMap α ν} (hm : Inv m) (k : α) (v : ν) (x : α) :
    (x = k ∨ SameEntry m k x → getItem (setItem m k v) x = .ok v)
    ∧ (¬ (x = k ∨ SameEntry m k x) → getItem (setItem m k v) x = getItem m x) := by
  have hinv := setItem_inv hm k v
  by_cases hk : k ∈ flatKeys m
  · obtain ⟨g, hg, hkg⟩ := List.mem_flatten.1 hk
    have hr := (resolve_eq_some_iff hm k g).2 ⟨hg, hkg⟩
    have hne := hm.2 g hg
    have hset : setItem m k v = m.set g v := by
      unfold setItem
      cases g with
      | nil => exact absurd rfl hne
      | cons a g => simp [hr]
    have hmem : ∀ h w, (h, w) ∈ m.set g v ↔ (h = g ∧ w = v) ∨ (h ≠ g ∧ (h, w) ∈ m) := by
      intro h w
      rw [← Dict.get?_eq_some_iff (Dict.nodup_keys_set hm.nodup_keys g v), Dict.get?_set,
        ← Dict.get?_eq_some_iff hm.nodup_keys]
      by_cases hgh : g = h
      · subst hgh; simp [eq_comm]
      · simp [hgh, Ne.symm hgh]
    constructor
    · intro hx
      have hxg : x ∈ g := by
        rcases hx with rfl | ⟨g', hr', hx'⟩
        · exact hkg
        · rw [hr] at hr'; injection hr' with hr'; subst hr'; exact hx'
      rw [hset] at hinv ⊢
      rw [getItem_ok_iff hinv]
      exact ⟨g, (hmem g v).2 (Or.inl ⟨rfl, rfl⟩), hxg⟩
    · intro hx
      have hxg : x ∉ g := fun h => hx (Or.inr ⟨g, hr, h⟩)
      rw [hset] at hinv ⊢
      apply getItem_congr hinv hm
      intro w
      constructor
      · rintro ⟨h, hh, hxh⟩
        rcases (hmem h w).1 hh with ⟨rfl, _⟩ | ⟨_, hh'⟩
        · exact absurd hxh hxg
        · exact ⟨h, hh', hxh⟩
      · rintro ⟨h, hh, hxh⟩
        exact ⟨h, (hmem h w).2 (Or.inr ⟨by rintro rfl; exact hxg hxh, hh⟩), hxh⟩
  · have hr := (resolve_eq_none_iff hm k).2 hk
    have hd : ∀ x ∈ [k], x ∉ flatKeys m := by intro x hx; simp at hx; subst hx; exact hk
    have hset : setItem m k v = m ++ [([k], v)] := by
      unfold setItem
      rw [hr]
      exact Dict.set_of_not_mem (not_mem_keys_of_disjoint (by simp) hd) v
    have hns : ¬ SameEntry m k x := by
      rintro ⟨g, hr', _⟩; rw [hr] at hr'; cases hr'
    rw [hset] at hinv ⊢
    constructor
    · rintro (rfl | h)
      · rw [getItem_ok_iff hinv]; exact ⟨[x], by simp, by simp⟩
      · exact absurd h hns
    · intro hx
      have hxk : x ≠ k := fun h => hx (Or.inl h)
      apply getItem_congr hinv hm
      intro w
      simp only [List.mem_append, List.mem_singleton, Prod.mk.injEq]
      constructor
      · rintro ⟨h, hh | ⟨rfl, rfl⟩, hxh⟩
        · exact ⟨h, hh, hxh⟩
        · simp at hxh; exact absurd hxh hxk
      · rintro ⟨h, hh, hxh⟩; exact ⟨h, Or.inl hh, hxh⟩

theorem delItem_spec {m : AMap α ν} (hm : Inv m) (k : α) :
    (k ∈ flatKeys m → ∃ m', delItem m k = .ok m' ∧ ∀ x,
        (SameEntry m k x → getItem m' x = .error .keyError)
        ∧ (¬ SameEntry m k x → getItem m' x = getItem m x))
    ∧ (k ∉ flatKeys m → delItem m k = .error .keyError) := by
  constructor
  · intro hk
    obtain ⟨g, hg, hkg⟩ := List.mem_flatten.1 hk
    have hr := (resolve_eq_some_iff hm k g).2 ⟨hg, hkg⟩
    have hne := hm.2 g hg
    have hinv := inv_del hm g
    refine ⟨m.del g, ?_, fun x => ⟨?_, ?_⟩⟩
    · unfold delItem
      cases g with
      | nil => exact absurd rfl hne
      | cons a g => simp [hr]
    · rintro ⟨g', hr', hx⟩
      rw [hr] at hr'; injection hr' with hr'; subst hr'
      rw [getItem_error_iff hinv, mem_flatKeys_del hm hg]
      exact fun h => h.2 hx
    · intro hx
      have hxg : x ∉ g := fun h => hx ⟨g, hr, h⟩
      apply getItem_congr hinv hm
      intro w
      constructor
      · rintro ⟨h, hh, hxh⟩; exact ⟨h, (List.mem_filter.1 hh).1, hxh⟩
      · rintro ⟨h, hh, hxh⟩
        exact ⟨h, List.mem_filter.2 ⟨hh, by simp; rintro rfl; exact hxg hxh⟩, hxh⟩
  · intro hk
    unfold delItem
    rw [(resolve_eq_none_iff hm k).2 hk]

/-- **C14.** In every aliased mapping reached from the empty one by any history of assignments,
deletions and alias additions: all aliases of an entry read the same value; assigning through a
name changes exactly that name and its aliases; deleting through a name removes exactly the
entry's aliases, and fails iff the name is unknown; a new alias reads the value of its key and
changes nothing else; a name that is already in use is rejected as alias without effect. -/
theorem c14_mutable (ops : List (Op α ν)) :
    let m := run [] ops
    (∀ x y, SameEntry m x y → SameEntry m y x ∧ getItem m x = getItem m y ∧ ∃ v, getItem m x = .ok v)
    ∧ (∀ k v x, (x = k ∨ SameEntry m k x → getItem (setItem m k v) x = .ok v)
        ∧ (¬ (x = k ∨ SameEntry m k x) → getItem (setItem m k v) x = getItem m x))
    ∧ (∀ k, (SameEntry m k k → ∃ m', delItem m k = .ok m' ∧ ∀ x,
          (SameEntry m k x → getItem m' x = .error .keyError)
          ∧ (¬ SameEntry m k x → getItem m' x = getItem m x))
        ∧ (¬ SameEntry m k k → delItem m k = .error .keyError))
    ∧ (∀ k a v, getItem m k = .ok v → getItem m a = .error .keyError →
        ∃ m', addAliases m k [a] = (m', none)
          ∧ ∀ x, getItem m' x = if x = a then .ok v else getItem m x)
    ∧ (∀ k a as, a ≠ k → SameEntry m a a → addAliases m k (a :: as) = (m, some .keyError)) := by
  intro m
  have hm : Inv m := run_inv inv_empty ops
  have hself : ∀ k, SameEntry m k k ↔ k ∈ flatKeys m := by
    intro k
    rw [sameEntry_iff hm]
    constructor
    · rintro ⟨g, hg, hk, _⟩; exact List.mem_flatten.2 ⟨g, hg, hk⟩
    · intro hk
      obtain ⟨g, hg, hkg⟩ := List.mem_flatten.1 hk
      exact ⟨g, hg, hkg, hkg⟩
  refine ⟨?_, fun k v x => getItem_setItem hm k v x, ?_, ?_, ?_⟩
  · intro x y hxy
    obtain ⟨g, hg, hx, hy⟩ := (sameEntry_iff hm x y).1 hxy
    obtain ⟨p, hp, rfl⟩ := List.mem_map.1 hg
    have h1 : getItem m x = .ok p.2 := (getItem_ok_iff hm x p.2).2 ⟨p.1, hp, hx⟩
    have h2 : getItem m y = .ok p.2 := (getItem_ok_iff hm y p.2).2 ⟨p.1, hp, hy⟩
    exact ⟨(sameEntry_iff hm y x).2 ⟨p.1, hg, hy, hx⟩, by rw [h1, h2], p.2, h1⟩
  · intro k
    rw [hself]
    exact delItem_spec hm k
  · intro k a v hk ha
    obtain ⟨g, hg, hkg⟩ := (getItem_ok_iff hm k v).1 hk
    have hak : a ∉ flatKeys m := (getItem_error_iff hm a).1 ha
    have hne : a ≠ k := by rintro rfl; rw [hk] at ha; cases ha
    have hr := (resolve_eq_some_iff hm k g).2 ⟨List.mem_map.2 ⟨_, hg, rfl⟩, hkg⟩
    refine ⟨(m.set (g.union [a]) v).del g, ?_, fun x => getItem_alias_step hm hg hkg hak x⟩
    simp [addAliases, aliasLoop, hne, hak, hr, hk]
  · intro k a as hne hsa
    have : a ∈ flatKeys m := (hself a).1 hsa
    simp [addAliases, aliasLoop, hne, this]

example : run [] [.set "b" 2, .addAlias "b" ["B", "b0"], .set "B" 3, .set "a" 1]
    = [(["b", "B", "b0"], 3), (["a"], 1)] := by decide

/-- Outside the documented use (a key is one name), assigning through a *tuple* of names creates a
group that shares names with an existing one: afterwards the two aliases `a` and `b` of one entry
read different values. -/
theorem c14_tuple_key_counterexample :
    let m := setTuple (setTuple ([] : AMap String Nat) ["a", "b"] 1) ["a", "x"] 2
    getItem m "a" = .ok 2 ∧ getItem m "b" = .ok 1 ∧ length m = 4 := by decide

/-! ## C15: building a `Mapping` -/

/-- Specification: the names under which an entry can be looked up. -/
def keyNames : α ⊕ List α → List α
  | .inl x => [x]
  | .inr xs => xs

/-- Specification: no name is used by two entries. -/
def DisjointEntries {β : Type _} (names : β → List α) (entries : List β) : Prop :=
  entries.Pairwise (fun p q => ∀ x, x ∈ names p → x ∉ names q)

theorem buildFromAliases_eq (entries : List ((α ⊕ List α) × ν))
    (hd : DisjointEntries (fun p : (α ⊕ List α) × ν => keyNames p.1) entries)
    (hne : ∀ p ∈ entries, keyNames p.1 ≠ []) :
    buildFromAliases entries = entries.map (fun p => ((keyNames p.1).dedup, p.2)) := by
  unfold buildFromAliases
  suffices H : ∀ (entries : List ((α ⊕ List α) × ν)) (out : AMap α ν),
      DisjointEntries (fun p : (α ⊕ List α) × ν => keyNames p.1) entries →
      (∀ p ∈ entries, keyNames p.1 ≠ []) →
      (∀ p ∈ entries, ∀ x ∈ keyNames p.1, x ∉ flatKeys out) →
      entries.foldl buildStep out
      = out ++ entries.map (fun p => ((keyNames p.1).dedup, p.2)) by
    have := H entries [] hd hne (fun p _ x _ => by simp [flatKeys])
    simpa using this
  clear hd hne entries
  intro entries
  induction entries with
  | nil => intro out _ _ _; simp
  | cons p entries ih =>
    intro out hd hne hout
    unfold DisjointEntries at hd
    rw [List.pairwise_cons] at hd
    rw [List.foldl_cons]
    have hp : ∀ x ∈ (keyNames p.1).dedup, x ∉ flatKeys out := by
      intro x hx; exact hout p (by simp) x (List.mem_dedup.1 hx)
    have hpne : (keyNames p.1).dedup ≠ [] := by
      intro h
      obtain ⟨x, hx⟩ := List.exists_mem_of_ne_nil _ (hne p (by simp))
      have := List.mem_dedup.2 hx
      rw [h] at this; simp at this
    have hset := Dict.set_of_not_mem (not_mem_keys_of_disjoint hpne hp) p.2
    have hstep : buildStep out p = out ++ [((keyNames p.1).dedup, p.2)] := by
      unfold buildStep
      rw [← hset]
      cases hk : p.1 with
      | inl x =>
        have : out.keys.find? (fun g => x ∈ g) = none := by
          rw [List.find?_eq_none]
          intro g hg hx
          have hx' : x ∈ keyNames p.1 := by rw [hk]; simp [keyNames]
          exact hout p (by simp) x hx' (List.mem_flatten.2 ⟨g, hg, by simpa using hx⟩)
        simp [this, keyNames]
      | inr xs => rfl
    rw [hstep, ih _ hd.2 (fun q hq => hne q (List.mem_cons_of_mem _ hq))]
    · simp
    · intro q hq x hx hxin
      unfold flatKeys at hxin
      rw [Dict.keys_append, List.flatten_append] at hxin
      rcases List.mem_append.1 hxin with h | h
      · exact hout q (List.mem_cons_of_mem _ hq) x hx h
      · simp at h
        exact hd.1 q hq x h hx

theorem mem_pairs_getItem {ps : AMap α ν} (hinv : Inv ps) (x : α) :
    (∀ v, getItem ps x = .ok v ↔ ∃ g, (g, v) ∈ ps ∧ x ∈ g)
    ∧ ((¬ ∃ g v, (g, v) ∈ ps ∧ x ∈ g) → getItem ps x = .error .keyError) := by
  refine ⟨getItem_ok_iff hinv x, fun h => ?_⟩
  rcases getItem_ne_ok hinv x with ⟨v, hv⟩ | he
  · obtain ⟨g, hg, hx⟩ := (getItem_ok_iff hinv x v).1 hv
    exact absurd ⟨g, v, hg, hx⟩ h
  · exact he

/-- What a correctly built aliased mapping looks like: every alias of an entry reads the entry,
nothing else can be looked up, and the length is the number of aliases. -/
def Represents {β : Type _} (m : AMap α ν) (entries : List β) (names : β → List α)
    (value : β → ν) : Prop :=
  (∀ e ∈ entries, ∀ x ∈ names e, getItem m x = .ok (value e))
  ∧ (∀ x, (∀ e ∈ entries, x ∉ names e) → getItem m x = .error .keyError)
  ∧ length m = (entries.map (fun e => (names e).dedup.length)).sum

theorem represents_of_pairs {β : Type _} (entries : List β) (names : β → List α)
    (value : β → ν) (grp : β → Group α) (hg : ∀ e x, x ∈ grp e ↔ x ∈ names e)
    (hgn : ∀ e, (grp e).Nodup) (hd : DisjointEntries names entries)
    (hne : ∀ e ∈ entries, names e ≠ []) :
    Inv (entries.map (fun e => (grp e, value e)) : AMap α ν)
    ∧ Represents (entries.map (fun e => (grp e, value e)) : AMap α ν) entries names value := by
  have hinv : Inv (entries.map (fun e => (grp e, value e)) : AMap α ν) := by
    apply inv_of_pairs
    · intro p hp
      obtain ⟨e, _, rfl⟩ := List.mem_map.1 hp
      exact hgn e
    · intro p hp
      obtain ⟨e, he, rfl⟩ := List.mem_map.1 hp
      obtain ⟨x, hx⟩ := List.exists_mem_of_ne_nil _ (hne e he)
      intro h
      have := (hg e x).2 hx
      simp only at h
      rw [h] at this; simp at this
    · rw [List.pairwise_map]
      apply List.Pairwise.imp _ hd
      intro e e' h x hx hx'
      exact h x ((hg e x).1 hx) ((hg e' x).1 hx')
  refine ⟨hinv, ?_, ?_, ?_⟩
  · intro e he x hx
    rw [getItem_ok_iff hinv]
    exact ⟨grp e, List.mem_map.2 ⟨e, he, rfl⟩, (hg e x).2 hx⟩
  · intro x hx
    apply (mem_pairs_getItem hinv x).2
    rintro ⟨g, v, hmem, hxg⟩
    obtain ⟨e, he, heq⟩ := List.mem_map.1 hmem
    injection heq with h1 h2
    subst h1
    exact hx e he ((hg e x).1 hxg)
  · unfold length flatKeys Dict.keys
    rw [List.map_map, List.length_flatten, List.map_map]
    congr 1
    apply List.map_congr_left
    intro e _
    have hp : (grp e).Perm (names e).dedup := by
      rw [List.perm_ext_iff_of_nodup (hgn e) (List.nodup_dedup _)]
      intro x; rw [hg, List.mem_dedup]
    simpa [Function.comp] using hp.length_eq

/-- **C15**, keys given as names or tuples of names. -/
theorem c15_build_from_aliases (entries : List ((α ⊕ List α) × ν))
    (hd : DisjointEntries (fun p : (α ⊕ List α) × ν => keyNames p.1) entries)
    (hne : ∀ p ∈ entries, keyNames p.1 ≠ []) :
    Represents (buildFromAliases entries) entries (fun p => keyNames p.1) (·.2) := by
  rw [buildFromAliases_eq entries hd hne]
  exact (represents_of_pairs entries (fun p => keyNames p.1) (·.2) (fun p => (keyNames p.1).dedup)
    (fun e x => List.mem_dedup) (fun e => List.nodup_dedup _) hd hne).2

theorem ofPairs_of_inv {ps : List (Group α × ν)} (h : Inv (ps : AMap α ν)) :
    Dict.ofPairs ps = ps := Dict.ofPairs_of_nodup h.nodup_keys

/-- **C15**, aliases listed in an interior mapping. -/
theorem c15_build_from_key (entries : List ((α × List α) × ν))
    (hd : DisjointEntries (fun p : (α × List α) × ν => p.1.1 :: p.1.2) entries) :
    Represents (buildFromKey entries) entries (fun p => p.1.1 :: p.1.2) (·.2) := by
  have h := represents_of_pairs entries (fun p => p.1.1 :: p.1.2) (·.2)
    (fun p : (α × List α) × ν => Group.union [p.1.1] p.1.2)
    (fun e x => by rw [Group.mem_union]; simp) (fun e => Group.nodup_union (by simp) _) hd
    (fun e _ => by simp)
  unfold buildFromKey
  rw [ofPairs_of_inv h.1]
  exact h.2

/-- Specification: a name together with the aliases that the groups give it. -/
def namesVia (groups : List (Group α)) (k : α) : List α := k :: (find groups k).getD []

/-- **C15**, aliases given by a separate collection of groups. -/
theorem c15_build_from_groups (groups : List (Group α)) (entries : List (α × ν))
    (hd : DisjointEntries (fun p : α × ν => namesVia groups p.1) entries) :
    Represents (buildFromGroups groups entries) entries (fun p => namesVia groups p.1) (·.2) := by
  have h := represents_of_pairs entries (fun p => namesVia groups p.1) (·.2)
    (fun p : α × ν => Group.union [p.1] ((find groups p.1).getD []))
    (fun e x => by rw [Group.mem_union, namesVia]; simp) (fun e => Group.nodup_union (by simp) _) hd
    (fun e _ => by simp [namesVia])
  unfold buildFromGroups
  rw [ofPairs_of_inv h.1]
  exact h.2

example : getItem (buildFromAliases [(.inl "a", 1), (.inr ["b", "B"], 2)]) "B" = .ok 2 := by decide
example : getItem (buildFromKey [(("a", ["A", "a0"]), 1), (("b", ["B"]), 2)]) "a0" = .ok 1 := by
  decide
example : getItem (buildFromGroups [["b", "B"]] [("a", 1), ("B", 2)]) "b" = .ok 2 := by decide

/-- Without disjointness the first alias of an entry may read one value and another alias a
different one, and the length counts a shared alias twice. -/
theorem c15_overlap_counterexample :
    let m := buildFromAliases [(.inr ["a", "b"], 1), (.inr ["b", "c"], 2)]
    getItem m "a" = .ok 1 ∧ getItem m "b" = .ok 2 ∧ length m = 4 := by decide

/-! ## C16: `NameMap` -/

theorem aliasLoop_ok (key : α) (v : ν) : ∀ (as : List α) (m m' : AMap α ν), Inv m →
    getItem m key = .ok v → aliasLoop key m as = (m', none) →
    Inv m' ∧ ∀ x, (x ∈ as → getItem m' x = .ok v) ∧ (x ∉ as → getItem m' x = getItem m x) := by
  intro as
  induction as with
  | nil =>
    intro m m' hm _ h
    simp only [aliasLoop, Prod.mk.injEq, and_true] at h
    subst h
    exact ⟨hm, fun x => ⟨by simp, fun _ => rfl⟩⟩
  | cons a as ih =>
    intro m m' hm hk h
    unfold aliasLoop at h
    split at h
    · next hak =>
      subst hak
      obtain ⟨hi, hx⟩ := ih m m' hm hk h
      refine ⟨hi, fun x => ⟨fun hxm => ?_, fun hxm => (hx x).2 (fun h' => hxm (List.mem_cons_of_mem _ h'))⟩⟩
      by_cases hxas : x ∈ as
      · exact (hx x).1 hxas
      · rcases List.mem_cons.1 hxm with rfl | h'
        · rw [(hx x).2 hxas]; exact hk
        · exact absurd h' hxas
    · next hak =>
      split at h
      · simp at h
      · next ha =>
        obtain ⟨g, hg, hkg⟩ := (getItem_ok_iff hm key v).1 hk
        have hr := (resolve_eq_some_iff hm key g).2 ⟨List.mem_map.2 ⟨_, hg, rfl⟩, hkg⟩
        rw [hr, hk] at h
        simp only at h
        have hstep := getItem_alias_step hm hg hkg ha
        have hk' : getItem ((m.set (g.union [a]) v).del g) key = .ok v := by
          rw [hstep]; simp [Ne.symm hak, hk]
        obtain ⟨hi, hx⟩ := ih _ m' (alias_step_inv hm hg hkg ha) hk' h
        refine ⟨hi, fun x => ⟨fun hxm => ?_, fun hxm => ?_⟩⟩
        · by_cases hxas : x ∈ as
          · exact (hx x).1 hxas
          · rcases List.mem_cons.1 hxm with rfl | h'
            · rw [(hx x).2 hxas, hstep]; simp
            · exact absurd h' hxas
        · rw [(hx x).2 (fun h' => hxm (List.mem_cons_of_mem _ h')), hstep,
            if_neg (by rintro rfl; exact hxm (by simp))]

theorem aliasLoop_succeeds (key : α) (v : ν) : ∀ (as : List α) (m : AMap α ν), Inv m →
    getItem m key = .ok v → as.Nodup → (∀ a ∈ as, a ≠ key → a ∉ flatKeys m) →
    ∃ m', aliasLoop key m as = (m', none) := by
  intro as
  induction as with
  | nil => intro m _ _ _ _; exact ⟨m, rfl⟩
  | cons a as ih =>
    intro m hm hk hnd hfree
    rw [List.nodup_cons] at hnd
    unfold aliasLoop
    split
    · exact ih m hm hk hnd.2 (fun b hb => hfree b (List.mem_cons_of_mem _ hb))
    · next hak =>
      have ha := hfree a (by simp) hak
      obtain ⟨g, hg, hkg⟩ := (getItem_ok_iff hm key v).1 hk
      have hr := (resolve_eq_some_iff hm key g).2 ⟨List.mem_map.2 ⟨_, hg, rfl⟩, hkg⟩
      rw [if_neg ha, hr, hk]
      simp only
      have hstep := getItem_alias_step hm hg hkg ha
      have hi := alias_step_inv hm hg hkg ha
      apply ih _ hi _ hnd.2
      · intro b hb hbk
        rw [← getItem_error_iff hi, hstep, if_neg (by rintro rfl; exact hnd.1 hb),
          getItem_error_iff hm]
        exact hfree b (List.mem_cons_of_mem _ hb) hbk
      · rw [hstep]; simp [Ne.symm hak, hk]

/-- Observable state of a name map under construction. -/
theorem aliasAll_ok : ∀ (us : List (α × List α)) (m m' : AMap α α), Inv m →
    (∀ p ∈ us, getItem m p.1 = .ok p.1) → aliasAll m us = .ok m' →
    Inv m' ∧ (∀ x n, getItem m' x = .ok n ↔ getItem m x = .ok n ∨ ∃ as, (n, as) ∈ us ∧ x ∈ as) := by
  intro us
  induction us with
  | nil =>
    intro m m' hm _ h
    simp only [aliasAll, Except.ok.injEq] at h; subst h
    exact ⟨hm, fun x n => by simp⟩
  | cons p us ih =>
    intro m m' hm hus h
    obtain ⟨k, as⟩ := p
    have hk := hus (k, as) (by simp)
    simp only at hk
    unfold aliasAll at h
    split at h
    · next m1 he =>
      -- what one `alias` call does
      have h1 : Inv m1 ∧ ∀ x, (x ∈ as → getItem m1 x = .ok k) ∧ (x ∉ as → getItem m1 x = getItem m x) := by
        cases as with
        | nil =>
          unfold addAliases at he
          simp only at he
          split at he
          · simp at he
          · simp only [Prod.mk.injEq, and_true] at he; subst he
            exact ⟨hm, fun x => ⟨by simp, fun _ => rfl⟩⟩
        | cons a as => exact aliasLoop_ok k k (a :: as) m m1 hm hk he
      -- an alias that was present before must already have been an alias of the same name
      have hold : ∀ x n, getItem m x = .ok n → getItem m1 x = .ok n := by
        intro x n hx
        by_cases hxa : x ∈ as
        · -- success of the call means `x` was not in use, or is the key itself
          cases as with
          | nil => simp at hxa
          | cons a0 as0 =>
            have hcase : ∀ (as : List α) (m m1 : AMap α α), Inv m → getItem m k = .ok k →
                aliasLoop k m as = (m1, none) → x ∈ as → getItem m x = .ok n → x = k := by
              intro as
              induction as with
              | nil => intro m m1 _ _ _ hx; simp at hx
              | cons b bs ihb =>
                intro m m1 hm hk he hxm hx
                unfold aliasLoop at he
                split at he
                · next hbk =>
                  rcases List.mem_cons.1 hxm with rfl | h'
                  · exact hbk
                  · exact ihb m m1 hm hk he h' hx
                · next hbk =>
                  split at he
                  · simp at he
                  · next hb =>
                    obtain ⟨g, hg, hkg⟩ := (getItem_ok_iff hm k k).1 hk
                    have hr := (resolve_eq_some_iff hm k g).2 ⟨List.mem_map.2 ⟨_, hg, rfl⟩, hkg⟩
                    rw [hr, hk] at he
                    simp only at he
                    have hxb : x ≠ b := by
                      rintro rfl
                      have := (getItem_error_iff hm x).2 hb
                      rw [this] at hx; cases hx
                    have hstep := getItem_alias_step hm hg hkg hb
                    rcases List.mem_cons.1 hxm with rfl | h'
                    · exact absurd rfl hxb
                    · exact ihb _ m1 (alias_step_inv hm hg hkg hb)
                        (by rw [hstep, if_neg (Ne.symm hbk)]; exact hk) he h'
                        (by rw [hstep, if_neg hxb]; exact hx)
            have hxk := hcase (a0 :: as0) m m1 hm hk he hxa hx
            subst hxk
            rw [hk] at hx; injection hx with hx; subst hx
            exact (h1.2 x).1 hxa
        · rw [(h1.2 x).2 hxa]; exact hx
      obtain ⟨hi, hget⟩ := ih m1 m' h1.1 (fun q hq => hold _ _ (hus q (List.mem_cons_of_mem _ hq))) h
      refine ⟨hi, fun x n => ?_⟩
      rw [hget]
      constructor
      · rintro (hx | ⟨bs, hbs, hx⟩)
        · by_cases hxa : x ∈ as
          · rw [(h1.2 x).1 hxa] at hx; injection hx with hx; subst hx
            exact Or.inr ⟨as, by simp, hxa⟩
          · rw [(h1.2 x).2 hxa] at hx; exact Or.inl hx
        · exact Or.inr ⟨bs, List.mem_cons_of_mem _ hbs, hx⟩
      · rintro (hx | ⟨bs, hbs, hx⟩)
        · exact Or.inl (hold x n hx)
        · rcases List.mem_cons.1 hbs with heq | hbs
          · injection heq with h1' h2'; subst h1'; subst h2'
            exact Or.inl ((h1.2 x).1 hx)
          · exact Or.inr ⟨bs, hbs, hx⟩
    · cases h

theorem identityMap_spec (names : List α) :
    Inv (identityMap names)
    ∧ ∀ x n, getItem (identityMap names) x = .ok n ↔ x = n ∧ n ∈ names := by
  unfold identityMap
  generalize hd : Dict.ofPairs (names.map (fun n => (n, n))) = d
  have hnd : d.keys.Nodup := by rw [← hd]; exact Dict.nodup_keys_ofPairs _
  have hmem : ∀ x n, (x, n) ∈ d ↔ x = n ∧ n ∈ names := by
    intro x n
    rw [← Dict.get?_eq_some_iff hnd, ← hd, Dict.ofPairs, Dict.get?_update]
    have hsome : ∀ (l : List α), Dict.get? (l.map (fun n => (n, n))) x = some n ↔ x = n ∧ n ∈ l := by
      intro l
      induction l with
      | nil => simp
      | cons a l ih =>
        rw [List.map_cons, Dict.get?_cons]
        split
        · next h =>
          subst h
          simp only [Option.some.injEq, List.mem_cons]
          constructor
          · rintro rfl; simp
          · rintro ⟨rfl, _⟩; rfl
        · next h =>
          rw [ih]
          constructor
          · rintro ⟨rfl, h'⟩; exact ⟨rfl, List.mem_cons_of_mem _ h'⟩
          · rintro ⟨rfl, h'⟩
            rcases List.mem_cons.1 h' with rfl | h'
            · exact absurd rfl h
            · exact ⟨rfl, h'⟩
    rw [← List.map_reverse]
    have := hsome names.reverse
    simp only [List.mem_reverse] at this
    simp only [Dict.get?_nil, Option.or_none]
    exact this
  have hdis : DisjointEntries (fun p : (α ⊕ List α) × α => keyNames p.1)
      (d.map (fun p => (Sum.inl p.1, p.2))) := by
    unfold DisjointEntries
    rw [List.pairwise_map]
    have : d.Pairwise (fun p q => p.1 ≠ q.1) := by
      have := hnd
      unfold Dict.keys at this
      rw [List.nodup_iff_pairwise_ne, List.pairwise_map] at this
      exact this
    apply this.imp
    intro p q hpq x hx hx'
    simp [keyNames] at hx hx'
    exact hpq (hx.symm.trans hx')
  have hne : ∀ p ∈ d.map (fun p => ((Sum.inl p.1 : α ⊕ List α), p.2)), keyNames p.1 ≠ [] := by
    intro p hp
    obtain ⟨q, _, rfl⟩ := List.mem_map.1 hp
    simp [keyNames]
  rw [buildFromAliases_eq _ hdis hne]
  have h := represents_of_pairs (d.map (fun p => ((Sum.inl p.1 : α ⊕ List α), p.2)))
    (fun p => keyNames p.1) (·.2) (fun p => (keyNames p.1).dedup)
    (fun e x => List.mem_dedup) (fun e => List.nodup_dedup _) hdis hne
  refine ⟨h.1, fun x n => ?_⟩
  rw [getItem_ok_iff h.1]
  constructor
  · rintro ⟨g, hg, hx⟩
    simp only [List.map_map, List.mem_map, Function.comp] at hg
    obtain ⟨q, hq, heq⟩ := hg
    injection heq with h1 h2
    subst h1; subst h2
    simp [keyNames] at hx
    subst hx
    exact (hmem q.1 q.2).1 hq
  · rintro ⟨rfl, hn⟩
    refine ⟨[x], ?_, by simp⟩
    simp only [List.map_map, List.mem_map, Function.comp]
    exact ⟨(x, x), (hmem x x).2 ⟨rfl, hn⟩, by simp [keyNames]⟩

/-- **C16.** Whenever a name map can be built, it maps every canonical name to itself and every
alias of a name to that name; whatever it returns is a canonical name and looking that up again
changes nothing; and any other name raises `KeyError`. -/
theorem c16_name_map (defs : Dict α (List α)) (refs : Option (List α)) (m : AMap α α)
    (hdefs : ∀ k ∈ defs.keys, k ∈ refs.getD defs.keys)
    (h : nameMap defs refs = .ok m) :
    (∀ n ∈ refs.getD defs.keys, getItem m n = .ok n)
    ∧ (∀ n as a, (n, as) ∈ defs → a ∈ as → getItem m a = .ok n)
    ∧ (∀ x n, getItem m x = .ok n → getItem m n = .ok n)
    ∧ (∀ x, x ∉ refs.getD defs.keys → (∀ p ∈ defs, x ∉ p.2) → getItem m x = .error .keyError) := by
  unfold nameMap at h
  obtain ⟨hi0, hid⟩ := identityMap_spec (refs.getD defs.keys)
  have hkeys : ∀ p ∈ aliasesOfMapping defs, getItem (identityMap (refs.getD defs.keys)) p.1 = .ok p.1 := by
    intro p hp
    obtain ⟨q, hq, rfl⟩ := List.mem_map.1 hp
    rw [hid]
    exact ⟨rfl, hdefs _ (List.mem_map.2 ⟨q, hq, rfl⟩)⟩
  obtain ⟨hi, hget⟩ := aliasAll_ok _ _ _ hi0 hkeys h
  have hself : ∀ n ∈ refs.getD defs.keys, getItem m n = .ok n := fun n hn =>
    (hget n n).2 (Or.inl ((hid n n).2 ⟨rfl, hn⟩))
  refine ⟨hself, ?_, ?_, ?_⟩
  · intro n as a hn ha
    by_cases han : a = n
    · subst han; exact hself a (hdefs _ (List.mem_map.2 ⟨_, hn, rfl⟩))
    · rw [hget]
      right
      refine ⟨removeName n as, List.mem_map.2 ⟨(n, as), hn, rfl⟩, ?_⟩
      unfold removeName
      exact List.mem_filter.2 ⟨ha, by simpa using han⟩
  · intro x n hx
    apply hself
    rcases (hget x n).1 hx with h1 | ⟨as, has, _⟩
    · exact ((hid x n).1 h1).2
    · obtain ⟨q, hq, heq⟩ := List.mem_map.1 has
      injection heq with h1 h2; subst h1
      exact hdefs _ (List.mem_map.2 ⟨q, hq, rfl⟩)
  · intro x hx hxa
    rcases getItem_ne_ok hi x with ⟨n, hn⟩ | he
    · exfalso
      rcases (hget x n).1 hn with h1 | ⟨as, has, hxas⟩
      · have := (hid x n).1 h1; exact hx (this.1 ▸ this.2)
      · obtain ⟨q, hq, heq⟩ := List.mem_map.1 has
        injection heq with h1 h2; subst h2
        exact hxa q hq (List.mem_of_mem_filter hxas)
    · exact he

/-- **C16**, when a name map can be built: no alias may be a canonical name of, or an alias
of, another name. -/
theorem c16_name_map_succeeds (defs : Dict α (List α)) (refs : Option (List α))
    (hdefs : ∀ k ∈ defs.keys, k ∈ refs.getD defs.keys)
    (hnd : ∀ p ∈ defs, p.2.Nodup)
    (hcanon : ∀ p ∈ defs, ∀ a ∈ p.2, a ∈ refs.getD defs.keys → a = p.1)
    (hdis : defs.Pairwise (fun p q => ∀ a ∈ p.2, a ∉ q.2)) :
    ∃ m, nameMap defs refs = .ok m := by
  unfold nameMap
  obtain ⟨hi0, hid⟩ := identityMap_spec (refs.getD defs.keys)
  suffices H : ∀ (us : List (α × List α)) (m : AMap α α), Inv m →
      (∀ p ∈ us, p.1 ∈ refs.getD defs.keys) →
      (∀ n ∈ refs.getD defs.keys, getItem m n = .ok n) →
      (∀ p ∈ us, p.2.Nodup) →
      (∀ p ∈ us, ∀ a ∈ p.2, a ∉ flatKeys m) →
      us.Pairwise (fun p q => ∀ a ∈ p.2, a ∉ q.2) → ∃ m', aliasAll m us = .ok m' by
    apply H _ _ hi0
    · intro p hp
      obtain ⟨q, hq, rfl⟩ := List.mem_map.1 hp
      exact hdefs _ (List.mem_map.2 ⟨q, hq, rfl⟩)
    · intro n hn; exact (hid n n).2 ⟨rfl, hn⟩
    · intro p hp
      obtain ⟨q, hq, rfl⟩ := List.mem_map.1 hp
      exact (hnd q hq).filter _
    · intro p hp a ha
      obtain ⟨q, hq, rfl⟩ := List.mem_map.1 hp
      simp only [removeName, List.mem_filter, decide_eq_true_eq] at ha
      rw [← getItem_error_iff hi0]
      rcases getItem_ne_ok hi0 a with ⟨n, hn⟩ | he
      · have := (hid a n).1 hn
        exact absurd (hcanon q hq a ha.1 (this.1 ▸ this.2)) ha.2
      · exact he
    · unfold aliasesOfMapping
      rw [List.pairwise_map]
      apply hdis.imp
      intro p q hpq a ha ha'
      exact hpq a (List.mem_of_mem_filter ha) (List.mem_of_mem_filter ha')
  intro us
  induction us with
  | nil => intro m _ _ _ _ _ _; exact ⟨m, rfl⟩
  | cons p us ih =>
    intro m hm hkn hself hnd hfree hpw
    obtain ⟨k, as⟩ := p
    rw [List.pairwise_cons] at hpw
    have hk := hself k (hkn (k, as) (by simp))
    have hone : ∃ m1, addAliases m k as = (m1, none) ∧ Inv m1
        ∧ ∀ x, (x ∈ as → getItem m1 x = .ok k) ∧ (x ∉ as → getItem m1 x = getItem m x) := by
      cases as with
      | nil =>
        refine ⟨m, ?_, hm, fun x => ⟨by simp, fun _ => rfl⟩⟩
        unfold addAliases
        simp only
        obtain ⟨g, hg, hkg⟩ := (getItem_ok_iff hm k k).1 hk
        rw [(resolve_eq_some_iff hm k g).2 ⟨List.mem_map.2 ⟨_, hg, rfl⟩, hkg⟩]
      | cons a as =>
        obtain ⟨m1, hm1⟩ := aliasLoop_succeeds k k (a :: as) m hm hk (hnd (k, a :: as) (by simp))
          (fun b hb _ => hfree (k, a :: as) (by simp) b hb)
        exact ⟨m1, hm1, aliasLoop_ok k k (a :: as) m m1 hm hk hm1⟩
    obtain ⟨m1, he, hi1, hx1⟩ := hone
    unfold aliasAll
    rw [he]
    apply ih m1 hi1 (fun q hq => hkn q (List.mem_cons_of_mem _ hq))
    · intro n hn
      have hna : n ∉ as := by
        intro h
        have := hfree (k, as) (by simp) n h
        rw [← getItem_error_iff hm, hself n hn] at this; cases this
      rw [(hx1 n).2 hna]; exact hself n hn
    · exact fun q hq => hnd q (List.mem_cons_of_mem _ hq)
    · intro q hq a ha
      have hnot : a ∉ as := fun h => hpw.1 q hq a h ha
      rw [← getItem_error_iff hi1, (hx1 a).2 hnot, getItem_error_iff hm]
      exact hfree q (List.mem_cons_of_mem _ hq) a ha
    · exact hpw.2

example : nameMap [("a", ["A", "a0"]), ("b", ["b", "B"])] none
    = .ok [(["a", "A", "a0"], "a"), (["b", "B"], "b")] := by decide

/-- An alias claimed by two names makes the construction fail. -/
example : nameMap [("a", ["x"]), ("b", ["x"])] none = .error .keyError := by decide

end Verif.Aliased
