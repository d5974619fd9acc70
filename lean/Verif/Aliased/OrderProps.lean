import Mathlib.Tactic.Tauto
import Verif.Aliased.ViewProps

/-!
# Property C293: the order of updates of an aliased mapping
-/

set_option linter.unusedSimpArgs false

namespace Verif.Aliased

open Verif.Py

variable {α ν : Type} [DecidableEq α]

open Classical in
theorem get_set {m : AMap α ν} (hm : Inv m) (k : α) (v : ν) (x : α) :
    getItem (step m (.set k v)) x = if x = k ∨ SameEntry m k x then .ok v else getItem m x := by
  show getItem (setItem m k v) x = _
  split_ifs with h
  · exact (getItem_setItem hm k v x).1 h
  · exact (getItem_setItem hm k v x).2 h

theorem same_set {m : AMap α ν} (hm : Inv m) (k : α) (v : ν) (x y : α) :
    SameEntry (step m (.set k v)) x y ↔ SameEntry m x y ∨ (x = k ∧ y = k) := sameEntry_setItem hm k v x y

theorem known_iff {m : AMap α ν} (hm : Inv m) (k : α) : k ∈ flatKeys m ↔ SameEntry m k k := by
  rw [sameEntry_iff hm]
  constructor
  · intro hk
    obtain ⟨g, hg, hkg⟩ := List.mem_flatten.1 hk
    exact ⟨g, hg, hkg, hkg⟩
  · rintro ⟨g, hg, hk, _⟩; exact List.mem_flatten.2 ⟨g, hg, hk⟩

theorem same_symm {m : AMap α ν} (hm : Inv m) {x y : α} (h : SameEntry m x y) : SameEntry m y x := by
  rw [sameEntry_iff hm] at h ⊢
  obtain ⟨g, hg, hx, hy⟩ := h
  exact ⟨g, hg, hy, hx⟩

theorem same_trans {m : AMap α ν} (hm : Inv m) {x y z : α} (h : SameEntry m x y) (h' : SameEntry m y z) : SameEntry m x z := by
  rw [sameEntry_iff hm] at h h' ⊢
  obtain ⟨g, hg, hx, hy⟩ := h
  obtain ⟨g', hg', hy', hz⟩ := h'
  have := group_unique hm.disjoint hg hg' hy hy'
  subst this
  exact ⟨g, hg, hx, hz⟩

open Classical in
theorem get_del {m : AMap α ν} (hm : Inv m) (k x : α) :
    getItem (step m (.del k)) x = if SameEntry m k x then .error .keyError else getItem m x := by
  by_cases hk : k ∈ flatKeys m
  · obtain ⟨m', h1, h2⟩ := (delItem_spec hm k).1 hk
    have e : step m (.del k) = m' := by simp only [step, h1]
    rw [e]
    split_ifs with h
    · exact (h2 x).1 h
    · exact (h2 x).2 h
  · have e : step m (.del k) = m := by simp only [step, (delItem_spec hm k).2 hk]
    have hn : ¬ SameEntry m k x := fun h => hk ((known_iff hm k).2 (same_trans hm h (same_symm hm h)))
    rw [e, if_neg hn]

theorem same_del {m : AMap α ν} (hm : Inv m) (k x y : α) :
    SameEntry (step m (.del k)) x y ↔ SameEntry m x y ∧ ¬ SameEntry m k x := by
  by_cases hk : k ∈ flatKeys m
  · obtain ⟨m', h1, h2⟩ := (delItem_spec hm k).1 hk
    have e : step m (.del k) = m' := by simp only [step, h1]
    rw [e]
    exact sameEntry_delItem hm k h1 x y
  · have e : step m (.del k) = m := by simp only [step, (delItem_spec hm k).2 hk]
    have hn : ¬ SameEntry m k x := fun h => hk ((known_iff hm k).2 (same_trans hm h (same_symm hm h)))
    rw [e]; tauto

theorem step_inv {m : AMap α ν} (hm : Inv m) (op : Op α ν) : Inv (step m op) := run_inv hm [op]

/-- **C293, assignments.** Assignments through names of different entries (or new names) can be exchanged. -/
theorem c293_set_set (m : AMap α ν) (hm : Inv m) (k l : α) (v w : ν) (hne : k ≠ l) (h : ¬ SameEntry m k l) :
    Alike (run m [.set k v, .set l w]) (run m [.set l w, .set k v]) := by
  simp only [run, List.foldl_cons, List.foldl_nil]
  have hl : ¬ SameEntry m l k := fun h' => h (same_symm hm h')
  refine ⟨fun x => ?_, fun x y => ?_⟩
  · rw [get_set (step_inv hm _), get_set (step_inv hm _), get_set hm, get_set hm, same_set hm, same_set hm]
    by_cases h1 : x = k ∨ SameEntry m k x
    · have h2 : ¬ (x = l ∨ SameEntry m l x) := by
        rintro (rfl | h2)
        · rcases h1 with rfl | h1
          · exact hne rfl
          · exact h h1
        · rcases h1 with rfl | h1
          · exact hl h2
          · exact h (same_trans hm h1 (same_symm hm h2))
      rw [if_neg (by rintro (rfl | h3 | ⟨rfl, _⟩) <;> tauto), if_pos h1, if_pos (by tauto)]
    · by_cases h2 : x = l ∨ SameEntry m l x
      · rw [if_pos (by tauto), if_neg (by rintro (rfl | h3 | ⟨rfl, _⟩) <;> tauto), if_pos h2]
      · rw [if_neg (by rintro (rfl | h3 | ⟨rfl, _⟩) <;> tauto), if_neg h1, if_neg (by rintro (rfl | h3 | ⟨rfl, _⟩) <;> tauto), if_neg h2]
  · rw [same_set (step_inv hm _), same_set (step_inv hm _), same_set hm, same_set hm]
    tauto

/-- **C293, last assignment.** Of two assignments through names of the same entry, the second counts. -/
theorem c293_overwrite (m : AMap α ν) (hm : Inv m) (k l : α) (v w : ν) (h : k = l ∨ SameEntry m k l) :
    Alike (run m [.set k v, .set l w]) (run m [.set k w]) := by
  simp only [run, List.foldl_cons, List.foldl_nil]
  refine ⟨fun x => ?_, fun x y => ?_⟩
  · rw [get_set (step_inv hm _), get_set hm, get_set hm, same_set hm]
    by_cases h1 : x = k ∨ SameEntry m k x
    · have hc : x = l ∨ SameEntry m l x ∨ l = k ∧ x = k := by
        rcases h with rfl | h
        · rcases h1 with rfl | h1
          · exact .inl rfl
          · exact .inr (.inl h1)
        · rcases h1 with rfl | h1
          · exact .inr (.inl (same_symm hm h))
          · exact .inr (.inl (same_trans hm (same_symm hm h) h1))
      rw [if_pos hc, if_pos h1]
    · rw [if_neg h1, if_neg h1, if_neg]
      rintro (rfl | h2 | ⟨rfl, rfl⟩)
      · rcases h with rfl | h
        · exact h1 (.inl rfl)
        · exact h1 (.inr h)
      · rcases h with rfl | h
        · exact h1 (.inr h2)
        · exact h1 (.inr (same_trans hm h h2))
      · exact h1 (.inl rfl)
  · rw [same_set (step_inv hm _), same_set hm, same_set hm]
    rcases h with rfl | h
    · tauto
    · have := same_trans hm (same_symm hm h) h
      constructor
      · rintro (h1 | ⟨rfl, rfl⟩)
        · exact h1
        · exact .inl this
      · exact .inl

/-- **C293, deletions.** Deletions can be exchanged; of two deletions of the same entry the second has no effect. -/
theorem c293_del_del (m : AMap α ν) (hm : Inv m) (k l : α) : Alike (run m [.del k, .del l]) (run m [.del l, .del k]) := by
  simp only [run, List.foldl_cons, List.foldl_nil]
  refine ⟨fun x => ?_, fun x y => ?_⟩
  · rw [get_del (step_inv hm _), get_del (step_inv hm _), get_del hm, get_del hm, same_del hm, same_del hm]
    by_cases h1 : SameEntry m k x <;> by_cases h2 : SameEntry m l x
    · simp [h1, h2]
    · rw [if_neg (by tauto), if_pos h1, if_pos]
      exact ⟨h1, fun h => h2 (same_trans hm h h1)⟩
    · rw [if_pos, if_neg (by tauto), if_pos h2]
      exact ⟨h2, fun h => h1 (same_trans hm h h2)⟩
    · simp [h1, h2]
  · rw [same_del (step_inv hm _), same_del (step_inv hm _), same_del hm, same_del hm, same_del hm, same_del hm]
    constructor
    · rintro ⟨⟨h1, h2⟩, h3⟩
      refine ⟨⟨h1, fun h => h3 ⟨h, fun h' => h2 (same_trans hm h' h)⟩⟩, fun h => h2 h.1⟩
    · rintro ⟨⟨h1, h2⟩, h3⟩
      refine ⟨⟨h1, fun h => h3 ⟨h, fun h' => h2 (same_trans hm h' h)⟩⟩, fun h => h2 h.1⟩

/-- **C293, assignment and deletion.** A deletion can be exchanged with an assignment to another entry. -/
theorem c293_set_del (m : AMap α ν) (hm : Inv m) (k l : α) (v : ν) (hne : k ≠ l) (h : ¬ SameEntry m k l) :
    Alike (run m [.set k v, .del l]) (run m [.del l, .set k v]) := by
  simp only [run, List.foldl_cons, List.foldl_nil]
  have hl : ¬ SameEntry m l k := fun h' => h (same_symm hm h')
  refine ⟨fun x => ?_, fun x y => ?_⟩
  · rw [get_del (step_inv hm _), get_set hm, same_set hm, get_set (step_inv hm _), same_del hm, get_del hm]
    by_cases h1 : SameEntry m l x
    · have : ¬ (x = k ∨ SameEntry m k x) := by
        rintro (rfl | h2)
        · exact hl h1
        · exact h (same_trans hm h2 (same_symm hm h1))
      rw [if_pos (.inl h1), if_neg (by tauto), if_pos h1]
    · rw [if_neg (by rintro (h2 | ⟨rfl, _⟩) <;> tauto), if_neg h1]
      by_cases h2 : x = k ∨ SameEntry m k x
      · rw [if_pos h2, if_pos (by tauto)]
      · rw [if_neg h2, if_neg (by tauto)]
  · rw [same_del (step_inv hm _), same_set hm, same_set hm, same_set (step_inv hm _), same_del hm]
    constructor
    · rintro ⟨h1 | h1, h2⟩
      · exact .inl ⟨h1, fun h => h2 (.inl h)⟩
      · exact .inr h1
    · rintro (⟨h1, h2⟩ | ⟨rfl, rfl⟩)
      · refine ⟨.inl h1, ?_⟩
        rintro (h3 | ⟨h3, -⟩)
        · exact h2 h3
        · exact hne h3.symm
      · refine ⟨.inr ⟨rfl, rfl⟩, ?_⟩
        rintro (h3 | ⟨h3, -⟩)
        · exact hl h3
        · exact hne h3.symm

/-- **C293, undoing.** Deleting a new entry restores the mapping, and so does assigning the value that an entry has. -/
theorem c293_undo (m : AMap α ν) (hm : Inv m) (k : α) (v : ν) :
    (getItem m k = .error .keyError → Alike (run m [.set k v, .del k]) m) ∧ (getItem m k = .ok v → Alike (run m [.set k v]) m) := by
  have hval : ∀ x, SameEntry m k x → getItem m x = getItem m k := by
    intro x hx
    rw [sameEntry_iff hm] at hx
    obtain ⟨g, hg, hk, hx⟩ := hx
    obtain ⟨p, hp, rfl⟩ := List.mem_map.1 hg
    rw [(getItem_ok_iff hm x p.2).2 ⟨p.1, hp, hx⟩, (getItem_ok_iff hm k p.2).2 ⟨p.1, hp, hk⟩]
  constructor
  · intro hk
    simp only [run, List.foldl_cons, List.foldl_nil]
    have hn : ∀ x, ¬ SameEntry m k x := by
      intro x hx
      exact (getItem_error_iff hm k).1 hk ((known_iff hm k).2 (same_trans hm hx (same_symm hm hx)))
    refine ⟨fun x => ?_, fun x y => ?_⟩
    · rw [get_del (step_inv hm _), get_set hm, same_set hm]
      by_cases hx : x = k
      · subst hx; rw [if_pos (by tauto), hk]
      · rw [if_neg (by rintro (h | ⟨_, h⟩); exacts [hn x h, hx h]), if_neg (by rintro (h | h); exacts [hx h, hn x h])]
    · rw [same_del (step_inv hm _), same_set hm, same_set hm]
      constructor
      · rintro ⟨h1 | ⟨rfl, rfl⟩, h2⟩
        · exact h1
        · exact absurd (.inr ⟨rfl, rfl⟩) h2
      · intro h1
        refine ⟨.inl h1, ?_⟩
        rintro (h2 | ⟨-, rfl⟩)
        · exact hn x h2
        · exact hn y h1
  · intro hk
    simp only [run, List.foldl_cons, List.foldl_nil]
    have hkk : SameEntry m k k := by
      rw [← known_iff hm]
      by_contra hc
      rw [(getItem_error_iff hm k).2 hc] at hk
      cases hk
    refine ⟨fun x => ?_, fun x y => ?_⟩
    · rw [get_set hm]
      split_ifs with h
      · rcases h with rfl | h
        · exact hk.symm
        · rw [hval x h, hk]
      · rfl
    · rw [same_set hm]
      constructor
      · rintro (h | ⟨rfl, rfl⟩)
        · exact h
        · exact hkk
      · exact .inl

/-- **C293, aliases.** A new alias of an entry can be given before or after an assignment to any entry; the assignment may then
go through the new alias. -/
theorem c293_alias (m : AMap α ν) (hm : Inv m) (k a : α) (hk : SameEntry m k k) (ha : ¬ SameEntry m a a) (l : α) (v : ν) (hl : l ≠ a) :
    Alike (run m [.addAlias k [a], .set l v]) (run m [.set l v, .addAlias k [a]]) ∧
    Alike (run m [.addAlias k [a], .set a v]) (run m [.set k v, .addAlias k [a]]) := by
  have alias_facts : ∀ m : AMap α ν, Inv m → SameEntry m k k → ¬ SameEntry m a a →
      (∀ x, getItem (step m (.addAlias k [a])) x = getItem m (if x = a then k else x)) ∧
      ∀ x y, SameEntry (step m (.addAlias k [a])) x y ↔ SameEntry m (if x = a then k else x) (if y = a then k else y) := by
    intro m hm hk ha
    have hak : a ∉ flatKeys m := fun h => ha ((known_iff hm a).1 h)
    have hne : a ≠ k := by rintro rfl; exact ha hk
    obtain ⟨g, hg, hkg, -⟩ := (sameEntry_iff hm k k).1 hk
    obtain ⟨p, hp, rfl⟩ := List.mem_map.1 hg
    have hr := (resolve_eq_some_iff hm k p.1).2 ⟨hg, hkg⟩
    have hv := (getItem_ok_iff hm k p.2).2 ⟨p.1, hp, hkg⟩
    have e : step m (.addAlias k [a]) = (m.set (p.1.union [a]) p.2).del p.1 := by
      simp [step, addAliases, aliasLoop, hne, hak, hr, hv]
    rw [e]
    refine ⟨fun x => ?_, fun x y => sameEntry_alias hm hp hkg hak x y⟩
    rw [getItem_alias_step hm hp hkg hak x]
    split_ifs
    · rw [hv]
    · rfl
  have hne : a ≠ k := by rintro rfl; exact ha hk
  have step_k : ∀ l, l ≠ a → SameEntry (step m (.set l v)) k k ∧ ¬ SameEntry (step m (.set l v)) a a := by
    intro l hl
    rw [same_set hm, same_set hm]
    refine ⟨.inl hk, ?_⟩
    rintro (h | ⟨h, -⟩)
    · exact ha h
    · exact hl h.symm
  have no_a : ∀ x, ¬ SameEntry m x a := fun x h => ha (same_trans hm (same_symm hm h) h)
  obtain ⟨f1, f2⟩ := alias_facts m hm hk ha
  constructor
  · obtain ⟨g1, g2⟩ := alias_facts _ (step_inv hm (.set l v)) (step_k l hl).1 (step_k l hl).2
    simp only [run, List.foldl_cons, List.foldl_nil]
    refine ⟨fun x => ?_, fun x y => ?_⟩
    · rw [get_set (step_inv hm _), f2, g1, get_set hm, f1]
      rw [if_neg hl]
      obtain ⟨r, hr⟩ : ∃ r, r = if x = a then k else x := ⟨_, rfl⟩
      rw [← hr]
      by_cases hx : x = a
      · rw [if_pos hx] at hr
        subst hr
        by_cases h1 : r = l ∨ SameEntry m l r
        · rw [if_pos h1, if_pos]
          rcases h1 with rfl | h1
          · exact .inr hk
          · exact .inr h1
        · rw [if_neg h1, if_neg]
          rintro (rfl | h2)
          · exact hl hx
          · exact h1 (.inr h2)
      · rw [if_neg hx] at hr
        subst hr
        rfl
    · rw [same_set (step_inv hm _), f2, g2, same_set hm]
      by_cases hx : x = a <;> by_cases hy : y = a
      · subst hx; subst hy; simp only [if_true]
        constructor
        · rintro (h | ⟨rfl, -⟩)
          · exact .inl h
          · exact absurd rfl hl
        · rintro (h | ⟨rfl, -⟩)
          · exact .inl h
          · exact .inl hk
      · subst hx; simp only [if_true, if_neg hy]
        constructor
        · rintro (h | ⟨rfl, -⟩)
          · exact .inl h
          · exact absurd rfl hl
        · rintro (h | ⟨rfl, rfl⟩)
          · exact .inl h
          · exact .inl hk
      · subst hy; simp only [if_true, if_neg hx]
        constructor
        · rintro (h | ⟨-, rfl⟩)
          · exact .inl h
          · exact absurd rfl hl
        · rintro (h | ⟨rfl, rfl⟩)
          · exact .inl h
          · exact .inl hk
      · simp only [if_neg hx, if_neg hy]
  · obtain ⟨g1, g2⟩ := alias_facts _ (step_inv hm (.set k v)) (step_k k (Ne.symm hne)).1 (step_k k (Ne.symm hne)).2
    simp only [run, List.foldl_cons, List.foldl_nil]
    refine ⟨fun x => ?_, fun x y => ?_⟩
    · rw [get_set (step_inv hm _), f2, g1, get_set hm, f1]
      obtain ⟨r, hr⟩ : ∃ r, r = if x = a then k else x := ⟨_, rfl⟩
      rw [← hr]
      rw [if_pos (Eq.refl a)]
      by_cases hx : x = a
      · rw [if_pos hx] at hr
        subst hr
        rw [if_pos (.inl hx), if_pos (.inl rfl)]
      · rw [if_neg hx] at hr
        subst hr
        by_cases h1 : SameEntry m k r
        · rw [if_pos (.inr h1), if_pos (.inr h1)]
        · rw [if_neg (by tauto), if_neg]
          rintro (rfl | h2)
          · exact h1 hk
          · exact h1 h2
    · rw [same_set (step_inv hm _), f2, g2, same_set hm]
      by_cases hx : x = a <;> by_cases hy : y = a
      · subst hx; subst hy; simp only [if_true]
      · subst hx; simp only [if_true, if_neg hy]
        constructor
        · tauto
        · rintro (h | ⟨-, rfl⟩)
          · exact .inl h
          · exact .inl hk
      · subst hy; simp only [if_true, if_neg hx]
        constructor
        · tauto
        · rintro (h | ⟨rfl, -⟩)
          · exact .inl h
          · exact .inl hk
      · simp only [if_neg hx, if_neg hy]
        constructor
        · rintro (h | ⟨h, -⟩)
          · exact .inl h
          · exact absurd h hx
        · rintro (h | ⟨rfl, rfl⟩)
          · exact .inl h
          · exact .inl hk

example :
    let m : AMap String Nat := [(["a", "b"], 1), (["c"], 2)]
    run m [.set "b" 5, .set "c" 6] = [(["a", "b"], 5), (["c"], 6)] ∧ run m [.set "a" 5, .set "b" 6] = [(["a", "b"], 6), (["c"], 2)]
    ∧ run m [.del "c", .del "b"] = [] ∧ run m [.set "d" 7, .del "d"] = m
    ∧ run m [.addAlias "a" ["x"], .set "x" 9] = [(["c"], 2), (["a", "b", "x"], 9)] := by decide

example :
    let m : AMap String Nat := [(["a", "b"], 1), (["c"], 2)]
    Inv m ∧ "b" ≠ "c" ∧ ¬ SameEntry m "b" "c" ∧ SameEntry m "a" "b" ∧ ¬ SameEntry m "x" "x" := by
  intro m
  have hm : Inv m := ⟨by decide, by decide⟩
  refine ⟨hm, by decide, ?_, ?_, ?_⟩ <;> (rw [sameEntry_iff hm]; decide)

end Verif.Aliased
