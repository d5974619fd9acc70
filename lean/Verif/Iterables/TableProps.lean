import Verif.Iterables.Props

/-!
# Property C285: strict look-ups in a table do not depend on order, and remain valid when the request is made more specific
-/

set_option linter.unusedSimpArgs false

namespace Verif.Iterables

open Verif.Py

variable {κ ν : Type _} [DecidableEq κ] [DecidableEq ν]

theorem matching_congr (entries : List (Dict κ ν)) {r r' : List (κ × ν)} (h : ∀ p, p ∈ r ↔ p ∈ r') :
    matching entries r = matching entries r' := by
  unfold matching
  refine List.filter_congr fun e _ => ?_
  have : Carries r e ↔ Carries r' e := by
    unfold Carries
    simp only [h]
  simp only [this]

/-- What a strict look-up gives. -/
theorem strict_eq (entries : List (Dict κ ν)) (hne : entries ≠ []) (r : List (κ × ν)) :
    tableCall entries true r = if ∃ p ∈ r, ∃ e ∈ entries, e.has p.1 = false then .error (.named "TableKeyError")
      else match matching entries r with
        | [e] => .ok e
        | _ => .error (.named "TableLookupError") := by
  split
  · next h => exact c08_strict_unknown_key entries hne r h
  · next h =>
    have hk : ∀ p ∈ r, ∀ e ∈ entries, e.has p.1 = true := by
      intro p hp e he
      by_contra hc
      exact h ⟨p, hp, e, he, by simpa using hc⟩
    obtain ⟨h1, h2⟩ := c08_strict entries hne r hk
    split
    · next e hm => exact (h1 e).2 hm
    · next hm => exact h2 fun e he => hm e he

/-- **C285, order.** The order of the entries of a table, the order of the requested pairs and repetitions of pairs do not matter. -/
theorem c285_order (entries entries' : List (Dict κ ν)) (hp : entries.Perm entries') (r r' : List (κ × ν)) (hne : r ≠ [])
    (h : ∀ p, p ∈ r ↔ p ∈ r') : tableCall entries true r = tableCall entries' true r' := by
  have hne' : r' ≠ [] := by
    rintro rfl
    cases r with
    | nil => exact hne rfl
    | cons p r => exact absurd ((h p).1 (by simp)) (by simp)
  by_cases he : entries = []
  · subst he
    have : entries' = [] := List.nil_perm.1 hp
    subst this
    cases r with
    | nil => exact absurd rfl hne
    | cons p r =>
      cases r' with
      | nil => exact absurd rfl hne'
      | cons p' r' => rfl
  · have he' : entries' ≠ [] := fun e => he (by subst e; exact List.perm_nil.1 hp)
    rw [strict_eq entries he, strict_eq entries' he', ← matching_congr entries' h]
    have hc : (∃ p ∈ r, ∃ e ∈ entries, e.has p.1 = false) ↔ ∃ p ∈ r', ∃ e ∈ entries', e.has p.1 = false := by
      simp only [h, hp.mem_iff]
    have hm : (matching entries r).Perm (matching entries' r) := hp.filter _
    simp only [hc]
    congr 1
    cases e1 : matching entries r with
    | nil =>
      rw [e1] at hm
      rw [List.nil_perm.1 hm]
    | cons a l =>
      rw [e1] at hm
      cases l with
      | nil => rw [List.singleton_perm.1 hm]
      | cons b l =>
        have := hm.length_eq
        cases e2 : matching entries' r with
        | nil => rw [e2] at this
        | cons a' l' =>
          cases l' with
          | nil => rw [e2] at this; simp at this
          | cons b' l' => simp

/-- **C285, further pairs.** A request that finds an entry still finds it with further pairs, exactly if the entry has these and all entries
have their keys; otherwise it finds nothing. -/
theorem c285_further (entries : List (Dict κ ν)) (r s : List (κ × ν)) (e : Dict κ ν) (h : tableCall entries true r = .ok e)
    (hr : r ≠ []) : (∀ e', tableCall entries true (r ++ s) = .ok e' → e' = e) ∧
    (tableCall entries true (r ++ s) = .ok e ↔ Carries s e ∧ ∀ p ∈ s, ∀ x ∈ entries, x.has p.1 = true) := by
  have hne : entries ≠ [] := by
    rintro rfl
    cases r with
    | nil => exact hr rfl
    | cons p r => cases h
  rw [strict_eq entries hne] at h
  split at h
  · cases h
  · next hk =>
    split at h
    · next e0 hm =>
      injection h with h
      subst h
      have hsub : matching entries (r ++ s) = [e0].filter (fun x => Carries s x) := by
        rw [← hm]
        unfold matching
        rw [List.filter_filter]
        refine List.filter_congr fun x _ => ?_
        rw [Bool.eq_iff_iff, Bool.and_eq_true]
        simp only [decide_eq_true_eq]
        simp only [Carries, List.mem_append]
        exact ⟨fun hh => ⟨fun p hp => hh p (Or.inr hp), fun p hp => hh p (Or.inl hp)⟩,
          fun hh p hp => hp.elim (hh.2 p) (hh.1 p)⟩
      rw [strict_eq entries hne, hsub]
      by_cases hc : Carries s e0
      · rw [List.filter_cons_of_pos (by simpa using hc), List.filter_nil]
        split
        · next hx =>
          refine ⟨fun e' he' => (by cases he'), ⟨fun he' => (by cases he'), fun he' => ?_⟩⟩
          obtain ⟨p, hp, x, hx1, hx2⟩ := hx
          rcases List.mem_append.1 hp with hp | hp
          · exact absurd ⟨p, hp, x, hx1, hx2⟩ hk
          · exact absurd (he'.2 p hp x hx1) (by simp [hx2])
        · next hx =>
          refine ⟨fun e' he' => (Except.ok.inj he').symm, ⟨fun _ => ⟨hc, fun p hp x hx1 => ?_⟩, fun _ => rfl⟩⟩
          by_contra hn
          exact hx ⟨p, List.mem_append_right _ hp, x, hx1, by simpa using hn⟩
      · rw [List.filter_cons_of_neg (by simpa using hc), List.filter_nil]
        split
        · exact ⟨fun e' he' => (by cases he'), ⟨fun he' => (by cases he'), fun he' => absurd he'.1 hc⟩⟩
        · exact ⟨fun e' he' => (by cases he'), ⟨fun he' => (by cases he'), fun he' => absurd he'.1 hc⟩⟩
    · cases h

/-- **C285, further entries.** Entries that are added to a table do not replace the entry that a request finds: the request finds it, or
nothing; and it finds it exactly if no new entry matches and all have the keys. -/
theorem c285_entries (entries more : List (Dict κ ν)) (r : List (κ × ν)) (hr : r ≠ []) (e : Dict κ ν)
    (h : tableCall entries true r = .ok e) : (∀ e', tableCall (entries ++ more) true r = .ok e' → e' = e) ∧
    (tableCall (entries ++ more) true r = .ok e ↔ ∀ x ∈ more, ¬ Carries r x ∧ ∀ p ∈ r, x.has p.1 = true) := by
  have hne : entries ≠ [] := by
    rintro rfl
    cases r with
    | nil => exact hr rfl
    | cons p r => cases h
  rw [strict_eq entries hne] at h
  split at h
  · cases h
  · next hk =>
    split at h
    · next e0 hm =>
      injection h with h
      subst h
      have happ : matching (entries ++ more) r = e0 :: matching more r := by
        have : matching (entries ++ more) r = matching entries r ++ matching more r := by simp [matching]
        rw [this, hm]; rfl
      rw [strict_eq (entries ++ more) (by simp [hne]), happ]
      split
      · next hx =>
        refine ⟨fun e' he' => (by cases he'), ⟨fun he' => (by cases he'), fun he' => ?_⟩⟩
        obtain ⟨p, hp, x, hx1, hx2⟩ := hx
        rcases List.mem_append.1 hx1 with hx1 | hx1
        · exact absurd ⟨p, hp, x, hx1, hx2⟩ hk
        · exact absurd ((he' x hx1).2 p hp) (by simp [hx2])
      · next hx =>
        have keys : ∀ x ∈ more, ∀ p ∈ r, x.has p.1 = true := by
          intro x hx1 p hp
          by_contra hn
          exact hx ⟨p, hp, x, List.mem_append_right _ hx1, by simpa using hn⟩
        cases hmm : matching more r with
        | nil =>
          refine ⟨fun e' he' => (Except.ok.inj he').symm, ⟨fun _ x hx1 => ⟨fun hc => ?_, keys x hx1⟩, fun _ => rfl⟩⟩
          have : x ∈ matching more r := List.mem_filter.2 ⟨hx1, by simpa using hc⟩
          rw [hmm] at this
          cases this
        | cons y l =>
          refine ⟨fun e' he' => (by cases he'), ⟨fun he' => (by cases he'), fun he' => ?_⟩⟩
          have : y ∈ matching more r := by rw [hmm]; simp
          obtain ⟨h1, h2⟩ := List.mem_filter.1 this
          exact absurd (by simpa using h2) (he' y h1).1
    · cases h

example : tableCall [[("a", 1), ("b", 2)], [("a", 1), ("b", 3)]] true [("a", 1), ("b", 3)]
    = tableCall [[("a", 1), ("b", 3)], [("a", 1), ("b", 2)]] true [("b", 3), ("a", 1)] ∧
    tableCall [[("a", 1), ("b", 2)], [("a", 4), ("b", 3)]] true [("b", 3)] = .ok [("a", 4), ("b", 3)] ∧
    tableCall [[("a", 1), ("b", 2)], [("a", 4), ("b", 3)], [("a", 5), ("b", 3)]] true [("b", 3)] = .error (.named "TableLookupError") ∧
    tableCall [[("a", 1), ("b", 2)], [("a", 4), ("b", 3)], [("a", 5), ("b", 3)]] true [("b", 3), ("a", 4)] = .ok [("a", 4), ("b", 3)] := by
  decide

end Verif.Iterables
