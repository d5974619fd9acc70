import Verif.Aliased.Props

/-! C229: name maps from groups of names -/

namespace Verif.Aliased

open Verif.Py

set_option linter.unusedSimpArgs false
set_option linter.unusedSectionVars false

variable {α : Type} [DecidableEq α]

/-- No name is in two of the groups. -/
def Apart (groups : List (List α)) : Prop := groups.Pairwise (fun g h => ∀ x ∈ g, x ∉ h)

theorem Apart.unique {groups : List (List α)} (h : Apart groups) {g g' : List α} (hg : g ∈ groups)
    (hg' : g' ∈ groups) {x : α} (hx : x ∈ g) (hx' : x ∈ g') : g = g' := by
  unfold Apart at h
  induction groups with
  | nil => cases hg
  | cons a as ih =>
    rw [List.pairwise_cons] at h
    rcases List.mem_cons.1 hg with h1 | h1
    · rcases List.mem_cons.1 hg' with h2 | h2
      · rw [h1, h2]
      · exact absurd hx' (h.1 _ h2 x (h1 ▸ hx))
    · rcases List.mem_cons.1 hg' with h2 | h2
      · exact absurd hx (h.1 _ h1 x (h2 ▸ hx'))
      · exact ih h.2 h1 h2

theorem mem_of_ofPairs {κ ν : Type} [DecidableEq κ] {ps : List (κ × ν)} {p : κ × ν}
    (h : p ∈ Dict.ofPairs ps) : p ∈ ps := by
  have h1 := Dict.get?_of_mem (Dict.nodup_keys_ofPairs ps) (k := p.1) (v := p.2) h
  rw [Dict.ofPairs, Dict.get?_update] at h1
  simp only [Dict.get?_nil, Option.or_none] at h1
  exact List.mem_reverse.1 (Dict.mem_of_get? h1)

theorem mem_keys_ofPairs {κ ν : Type} [DecidableEq κ] {ps : List (κ × ν)} {p : κ × ν}
    (h : p ∈ ps) : ∃ v, (p.1, v) ∈ Dict.ofPairs ps := by
  have : p.1 ∈ (Dict.ofPairs ps).keys := by
    rw [Dict.ofPairs, Dict.mem_keys_update]
    exact Or.inr (List.mem_map.2 ⟨p, h, rfl⟩)
  obtain ⟨q, hq, he⟩ := List.mem_map.1 this
  exact ⟨q.2, by rw [← he]; exact hq⟩

theorem mem_aliasesOfGroups {refs : List α} {defs : List (List α)} {k : α} {v : List α}
    (h : (k, v) ∈ aliasesOfGroups refs defs) : k ∈ refs ∧ v ∈ defs ∧ k ∈ v := by
  have := mem_of_ofPairs h
  simp only [List.mem_flatMap, List.mem_map, List.mem_filter, decide_eq_true_eq, Prod.mk.injEq] at this
  obtain ⟨g, hg, n, ⟨hn, hng⟩, rfl, rfl⟩ := this
  exact ⟨hn, hg, hng⟩

theorem aliasesOfGroups_mem {refs : List α} {defs : List (List α)} (hd : Apart defs) {k : α} {v : List α}
    (hk : k ∈ refs) (hv : v ∈ defs) (hkv : k ∈ v) : (k, v) ∈ aliasesOfGroups refs defs := by
  have : (k, v) ∈ defs.flatMap (fun v => (refs.filter (· ∈ v)).map (fun k => (k, v))) := by
    simp only [List.mem_flatMap, List.mem_map, List.mem_filter, decide_eq_true_eq, Prod.mk.injEq]
    exact ⟨v, hv, k, ⟨hk, hkv⟩, rfl, rfl⟩
  obtain ⟨w, hw⟩ := mem_keys_ofPairs this
  obtain ⟨_, h2, h3⟩ := mem_aliasesOfGroups (refs := refs) (defs := defs) hw
  have : v = w := hd.unique hv h2 hkv h3
  subst this
  exact hw

theorem nameMapGroups_spec {defs : List (List α)} {refs : List α} {m : AMap α α}
    (h : nameMapGroups defs refs = .ok m) :
    Inv m ∧ ∀ x n, getItem m x = .ok n
      ↔ (x = n ∧ n ∈ refs) ∨ ∃ g, (n, g) ∈ aliasesOfGroups refs defs ∧ x ∈ g := by
  unfold nameMapGroups at h
  obtain ⟨hi0, hid⟩ := identityMap_spec refs
  have hkeys : ∀ p ∈ aliasesOfGroups refs defs, getItem (identityMap refs) p.1 = .ok p.1 := by
    intro p hp
    rw [hid]
    exact ⟨rfl, (mem_aliasesOfGroups hp).1⟩
  obtain ⟨hi, hget⟩ := aliasAll_ok _ _ _ hi0 hkeys h
  exact ⟨hi, fun x n => by rw [hget, hid]⟩

theorem aliasAll_succeeds : ∀ (us : List (α × List α)) (m : AMap α α), Inv m →
    (∀ p ∈ us, getItem m p.1 = .ok p.1) → (∀ p ∈ us, p.2.Nodup) →
    (∀ p ∈ us, ∀ a ∈ p.2, a ≠ p.1 → a ∉ flatKeys m) →
    us.Pairwise (fun p q => ∀ a ∈ p.2, a ∉ q.2) → ∃ m', aliasAll m us = .ok m' := by
  intro us
  induction us with
  | nil => intro m _ _ _ _ _; exact ⟨m, rfl⟩
  | cons p us ih =>
    intro m hm hself hnd hfree hpw
    obtain ⟨k, as⟩ := p
    rw [List.pairwise_cons] at hpw
    have hk := hself (k, as) (by simp)
    have hone : ∃ m1, addAliases m k as = (m1, none) ∧ Inv m1
        ∧ ∀ x, (x ∈ as → getItem m1 x = .ok k) ∧ (x ∉ as → getItem m1 x = getItem m x) := by
      cases as with
      | nil =>
        refine ⟨m, ?_, hm, fun x => ⟨by simp, fun _ => rfl⟩⟩
        unfold addAliases
        simp only
        obtain ⟨g, hg, hkg⟩ := (getItem_ok_iff hm k k).1 hk
        rw [(resolve_eq_some_iff hm k g).2 ⟨List.mem_map.2 ⟨_, hg, rfl⟩, hkg⟩]
      | cons a as =>
        obtain ⟨m1, hm1⟩ := aliasLoop_succeeds k k (a :: as) m hm hk (hnd (k, a :: as) (by simp))
          (fun b hb hne => hfree (k, a :: as) (by simp) b hb hne)
        exact ⟨m1, hm1, aliasLoop_ok k k (a :: as) m m1 hm hk hm1⟩
    obtain ⟨m1, he, hi1, hx1⟩ := hone
    unfold aliasAll
    rw [he]
    apply ih m1 hi1
    · intro q hq
      by_cases hqa : q.1 ∈ as
      · have h1 := hself q (List.mem_cons_of_mem _ hq)
        by_cases hqk : q.1 = k
        · rw [(hx1 q.1).1 hqa, hqk]
        · have := hfree (k, as) (by simp) q.1 hqa hqk
          rw [← getItem_error_iff hm, h1] at this; cases this
      · rw [(hx1 q.1).2 hqa]; exact hself q (List.mem_cons_of_mem _ hq)
    · exact fun q hq => hnd q (List.mem_cons_of_mem _ hq)
    · intro q hq a ha hne
      have hnot : a ∉ as := fun h => hpw.1 q hq a h ha
      rw [← getItem_error_iff hi1, (hx1 a).2 hnot, getItem_error_iff hm]
      exact hfree q (List.mem_cons_of_mem _ hq) a ha hne
    · exact hpw.2

/-- C229, partial.  For groups that share no name, a name map made from the groups and a list of
reference names exists whenever no group repeats a name or holds two reference names, and does not
exist when a group holds two; if it exists, every reference name stands for itself, every member of a
group that holds a reference name stands for that reference name, what it returns is a reference name,
and every name that is neither a reference name nor in a group with one raises `KeyError`.

Missing: groups that share a name (`c229_counterexample`). -/
theorem c229_partial (groups : List (List α)) (refs : List α) (hd : Apart groups) :
    ((∀ g ∈ groups, g.Nodup ∧ ∀ a ∈ g, ∀ b ∈ g, a ∈ refs → b ∈ refs → a = b) →
      ∃ m, nameMapGroups groups refs = .ok m)
    ∧ ((∃ g ∈ groups, ∃ a ∈ g, ∃ b ∈ g, a ∈ refs ∧ b ∈ refs ∧ a ≠ b) →
      ∀ m, nameMapGroups groups refs ≠ .ok m)
    ∧ ∀ m, nameMapGroups groups refs = .ok m →
      (∀ n ∈ refs, getItem m n = .ok n)
      ∧ (∀ g ∈ groups, ∀ n ∈ g, n ∈ refs → ∀ x ∈ g, getItem m x = .ok n)
      ∧ (∀ x n, getItem m x = .ok n → n ∈ refs)
      ∧ (∀ x, x ∉ refs → (∀ g ∈ groups, x ∈ g → ∀ n ∈ g, n ∉ refs) →
          getItem m x = .error .keyError) := by
  have hmember : ∀ m, nameMapGroups groups refs = .ok m →
      ∀ g ∈ groups, ∀ n ∈ g, n ∈ refs → ∀ x ∈ g, getItem m x = .ok n := by
    intro m hm g hg n hn hr x hx
    exact ((nameMapGroups_spec hm).2 x n).2 (Or.inr ⟨g, aliasesOfGroups_mem hd hr hg hn, hx⟩)
  refine ⟨fun hok => ?_, ?_, fun m hm => ⟨?_, hmember m hm, ?_, ?_⟩⟩
  · obtain ⟨hi0, hid⟩ := identityMap_spec refs
    unfold nameMapGroups
    apply aliasAll_succeeds _ _ hi0
    · intro p hp
      exact (hid _ _).2 ⟨rfl, (mem_aliasesOfGroups hp).1⟩
    · intro p hp
      exact (hok _ (mem_aliasesOfGroups hp).2.1).1
    · intro p hp a ha hne
      obtain ⟨h1, h2, h3⟩ := mem_aliasesOfGroups hp
      rw [← getItem_error_iff hi0]
      rcases getItem_ne_ok hi0 a with ⟨n, hn⟩ | he
      · obtain ⟨rfl, hr⟩ := (hid a n).1 hn
        exact absurd ((hok _ h2).2 a ha p.1 h3 hr h1) hne
      · exact he
    · have hkeys : (aliasesOfGroups refs groups).Pairwise (fun p q => p.1 ≠ q.1) := by
        have := Dict.nodup_keys_ofPairs
          (groups.flatMap (fun v => (refs.filter (· ∈ v)).map (fun k => (k, v))))
        unfold Dict.keys at this
        rw [List.nodup_iff_pairwise_ne, List.pairwise_map] at this
        exact this
      refine List.Pairwise.imp_of_mem ?_ hkeys
      intro p q hp hq hne a ha ha'
      obtain ⟨h1, h2, h3⟩ := mem_aliasesOfGroups hp
      obtain ⟨h4, h5, h6⟩ := mem_aliasesOfGroups hq
      have he : p.2 = q.2 := hd.unique h2 h5 ha ha'
      exact hne ((hok _ h2).2 p.1 h3 q.1 (he ▸ h6) h1 h4)
  · rintro ⟨g, hg, a, ha, b, hb, har, hbr, hne⟩ m hm
    have h1 := hmember m hm g hg a ha har a ha
    have h2 := hmember m hm g hg b hb hbr a ha
    rw [h1] at h2
    exact hne (by injection h2)
  · exact fun n hn => ((nameMapGroups_spec hm).2 n n).2 (Or.inl ⟨rfl, hn⟩)
  · intro x n hx
    rcases ((nameMapGroups_spec hm).2 x n).1 hx with h | ⟨g, hg, _⟩
    · exact h.2
    · exact (mem_aliasesOfGroups hg).1
  · intro x hx hno
    rcases getItem_ne_ok (nameMapGroups_spec hm).1 x with ⟨n, hn⟩ | he
    · exfalso
      rcases ((nameMapGroups_spec hm).2 x n).1 hn with h | ⟨g, hg, hxg⟩
      · exact hx (h.1 ▸ h.2)
      · obtain ⟨h1, h2, h3⟩ := mem_aliasesOfGroups hg
        exact hno g h2 hxg n h3 h1
    · exact he

/-- C229: of two groups with the same reference name only the later is used, without a word. -/
theorem c229_counterexample :
    nameMapGroups [["a", "x"], ["a", "y"]] ["a"] = .ok [(["a", "y"], "a")]
    ∧ getItem [(["a", "y"], "a")] "x" = .error .keyError := by decide

example : Apart [["A", "a", "a0"], ["b", "B"], ["c"]]
    ∧ nameMapGroups [["A", "a", "a0"], ["b", "B"], ["c"]] ["a", "b", "d"]
      = .ok [(["d"], "d"), (["a", "A", "a0"], "a"), (["b", "B"], "b")] := by
  refine ⟨?_, by decide⟩
  unfold Apart
  decide

example : nameMapGroups [["a", "b"]] ["a", "b"] = .error .keyError := by decide

end Verif.Aliased
