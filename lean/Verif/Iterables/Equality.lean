import Mathlib.Data.List.Sort
import Mathlib.Data.List.Perm.Subperm
import Mathlib.Data.Rat.Defs
import Mathlib.Algebra.Order.Ring.Rat
import Verif.Py.Basic

/-!
# Equality of collections: property C258

`whole.__eq__` (iterables.py) and `Operands.__eq__` (metadata.py).
-/

set_option linter.unusedSimpArgs false
set_option linter.unusedSectionVars false

namespace Verif.Iterables

open Verif.Py

section
variable {α β : Type} [LinearOrder α] [LinearOrder β]

/-- The members of one kind, if all are of that kind. -/
def allLeft : List (α ⊕ β) → Option (List α)
  | [] => some []
  | .inl a :: xs => (allLeft xs).map (a :: ·)
  | .inr _ :: _ => none

/-- The members of the other kind, if all are of that kind. -/
def allRight : List (α ⊕ β) → Option (List β)
  | [] => some []
  | .inr b :: xs => (allRight xs).map (b :: ·)
  | .inl _ :: _ => none

/-- Python's `sorted` on members of two kinds (numbers and texts, say), each ordered, which cannot be
compared with each other: every sort by comparisons of a list with members of both kinds compares, at
some time, one with the other, which raises `TypeError`. -/
def sortedMembers (xs : List (α ⊕ β)) : Res (List (α ⊕ β)) :=
  match allLeft xs, allRight xs with
  | some as, _ => .ok ((as.insertionSort (· ≤ ·)).map .inl)
  | none, some bs => .ok ((bs.insertionSort (· ≤ ·)).map .inr)
  | none, none => .error .typeError

/-- `whole.__eq__` (iterables.py 1369-1373) with any iterable that is not a text:
`sorted(self) == sorted(other)`. -/
def wholeEq (xs ys : List (α ⊕ β)) : Res Bool := do
  let a ← sortedMembers xs
  let b ← sortedMembers ys
  .ok (decide (a = b))

/-- `Operands.__eq__` (metadata.py 149-153). -/
def operandsEq {γ : Type} [DecidableEq γ] (xs ys : List γ) : Bool :=
  if xs.length = ys.length then xs.all (fun i => ys.contains i) else false

/-- Members of both kinds. -/
def Mixed (xs : List (α ⊕ β)) : Prop := (∃ a, .inl a ∈ xs) ∧ ∃ b, .inr b ∈ xs

theorem allLeft_eq {xs : List (α ⊕ β)} {as : List α} (h : allLeft xs = some as) : xs = as.map .inl := by
  induction xs generalizing as with
  | nil => simp only [allLeft, Option.some.injEq] at h; subst h; rfl
  | cons x xs ih =>
    cases x with
    | inl a =>
      simp only [allLeft, Option.map_eq_some_iff] at h
      obtain ⟨t, ht, rfl⟩ := h
      rw [ih ht]; rfl
    | inr b => cases h

theorem allRight_eq {xs : List (α ⊕ β)} {bs : List β} (h : allRight xs = some bs) : xs = bs.map .inr := by
  induction xs generalizing bs with
  | nil => simp only [allRight, Option.some.injEq] at h; subst h; rfl
  | cons x xs ih =>
    cases x with
    | inr b =>
      simp only [allRight, Option.map_eq_some_iff] at h
      obtain ⟨t, ht, rfl⟩ := h
      rw [ih ht]; rfl
    | inl a => cases h

theorem allLeft_none {xs : List (α ⊕ β)} (h : allLeft xs = none) : ∃ b, .inr b ∈ xs := by
  induction xs with
  | nil => cases h
  | cons x xs ih =>
    cases x with
    | inl a =>
      simp only [allLeft, Option.map_eq_none_iff] at h
      obtain ⟨b, hb⟩ := ih h
      exact ⟨b, List.mem_cons_of_mem _ hb⟩
    | inr b => exact ⟨b, List.mem_cons_self ..⟩

theorem allRight_none {xs : List (α ⊕ β)} (h : allRight xs = none) : ∃ a, .inl a ∈ xs := by
  induction xs with
  | nil => cases h
  | cons x xs ih =>
    cases x with
    | inr b =>
      simp only [allRight, Option.map_eq_none_iff] at h
      obtain ⟨a, ha⟩ := ih h
      exact ⟨a, List.mem_cons_of_mem _ ha⟩
    | inl a => exact ⟨a, List.mem_cons_self ..⟩

theorem sort_perm {γ : Type} [LinearOrder γ] {a b : List γ} :
    a.insertionSort (· ≤ ·) = b.insertionSort (· ≤ ·) ↔ a.Perm b := by
  constructor
  · intro h
    exact (List.perm_insertionSort _ a).symm.trans (h ▸ List.perm_insertionSort _ b)
  · intro h
    refine List.Perm.eq_of_pairwise' (r := (· ≤ ·)) ?_ ?_ ?_
    · exact List.pairwise_insertionSort _ _
    · exact List.pairwise_insertionSort _ _
    · exact (List.perm_insertionSort _ a).trans (h.trans (List.perm_insertionSort _ b).symm)

/-- What a sorted list is: an error exactly for a mixture; otherwise a list which is the same for two
lists exactly if one is a rearrangement of the other. -/
theorem sortedMembers_spec (xs : List (α ⊕ β)) :
    (Mixed xs ∧ sortedMembers xs = .error .typeError)
      ∨ (¬ Mixed xs ∧ ∃ s, sortedMembers xs = .ok s ∧ s.Perm xs
          ∧ ∀ ys t, sortedMembers ys = .ok t → (s = t ↔ xs.Perm ys)) := by
  have hpl : ∀ as : List α, ((as.insertionSort (· ≤ ·)).map (Sum.inl (β := β))).Perm (as.map .inl) :=
    fun as => (List.perm_insertionSort _ as).map _
  have hpr : ∀ bs : List β, ((bs.insertionSort (· ≤ ·)).map (Sum.inr (α := α))).Perm (bs.map .inr) :=
    fun bs => (List.perm_insertionSort _ bs).map _
  have hcl : ∀ (as : List α) (ys : List (α ⊕ β)), (as.map (Sum.inl (β := β))).Perm ys →
      ∃ as', allLeft ys = some as' := by
    intro as ys hp
    cases hl : allLeft ys with
    | some as' => exact ⟨_, rfl⟩
    | none =>
      obtain ⟨b, hb⟩ := allLeft_none hl
      have := hp.mem_iff.2 hb
      simp at this
  have hcr : ∀ (bs : List β) (ys : List (α ⊕ β)), (bs.map (Sum.inr (α := α))).Perm ys →
      ∃ bs', allRight ys = some bs' := by
    intro as ys hp
    cases hl : allRight ys with
    | some as' => exact ⟨_, rfl⟩
    | none =>
      obtain ⟨b, hb⟩ := allRight_none hl
      have := hp.mem_iff.2 hb
      simp at this
  cases hl : allLeft xs with
  | some as =>
    have hx := allLeft_eq hl
    refine .inr ⟨?_, _, by simp [sortedMembers, hl]; rfl, ?_, ?_⟩
    · rintro ⟨_, b, hb⟩
      rw [hx] at hb; simp at hb
    · rw [hx]; exact hpl as
    · intro ys t ht
      constructor
      · intro he
        have htp : t.Perm ys := by
          unfold sortedMembers at ht
          cases hyl : allLeft ys with
          | some as' =>
            rw [hyl] at ht
            simp only [Except.ok.injEq] at ht
            rw [← ht, allLeft_eq hyl]; exact hpl as'
          | none =>
            cases hyr : allRight ys with
            | some bs' =>
              rw [hyl, hyr] at ht
              simp only [Except.ok.injEq] at ht
              rw [← ht, allRight_eq hyr]; exact hpr bs'
            | none => rw [hyl, hyr] at ht; cases ht
        rw [hx]
        exact ((hpl as).symm.trans (he ▸ List.Perm.refl _)).trans htp
      · intro hp
        rw [hx] at hp
        obtain ⟨as', has'⟩ := hcl as ys hp
        simp only [sortedMembers, has', Except.ok.injEq] at ht
        rw [← ht]
        congr 1
        rw [allLeft_eq has'] at hp
        exact sort_perm.2 ((List.map_perm_map_iff Sum.inl_injective).1 hp)
  | none =>
    obtain ⟨b, hb⟩ := allLeft_none hl
    cases hr : allRight xs with
    | none =>
      obtain ⟨a, ha⟩ := allRight_none hr
      exact .inl ⟨⟨⟨a, ha⟩, b, hb⟩, by simp [sortedMembers, hl, hr]⟩
    | some bs =>
      have hx := allRight_eq hr
      refine .inr ⟨?_, _, by simp [sortedMembers, hl, hr]; rfl, ?_, ?_⟩
      · rintro ⟨⟨a, ha⟩, _⟩
        rw [hx] at ha; simp at ha
      · rw [hx]; exact hpr bs
      · intro ys t ht
        constructor
        · intro he
          have htp : t.Perm ys := by
            unfold sortedMembers at ht
            cases hyl : allLeft ys with
            | some as' =>
              rw [hyl] at ht
              simp only [Except.ok.injEq] at ht
              rw [← ht, allLeft_eq hyl]; exact hpl as'
            | none =>
              cases hyr : allRight ys with
              | some bs' =>
                rw [hyl, hyr] at ht
                simp only [Except.ok.injEq] at ht
                rw [← ht, allRight_eq hyr]; exact hpr bs'
              | none => rw [hyl, hyr] at ht; cases ht
          rw [hx]
          exact ((hpr bs).symm.trans (he ▸ List.Perm.refl _)).trans htp
        · intro hp
          have hb' : (Sum.inr b : α ⊕ β) ∈ ys := hp.mem_iff.1 hb
          have hyl : allLeft ys = none := by
            cases hyl : allLeft ys with
            | none => rfl
            | some as' => rw [allLeft_eq hyl] at hb'; simp at hb'
          rw [hx] at hp
          obtain ⟨bs', hbs'⟩ := hcr bs ys hp
          simp only [sortedMembers, hyl, hbs', Except.ok.injEq] at ht
          rw [← ht]
          congr 1
          rw [allRight_eq hbs'] at hp
          exact sort_perm.2 ((List.map_perm_map_iff Sum.inr_injective).1 hp)

/-- **C258 (part), collections of independent members.**  When neither collection mixes members that
cannot be compared, they are equal exactly if they have the same members, each as often, in any
order. -/
theorem c258_whole_partial (xs ys : List (α ⊕ β)) (hx : ¬ Mixed xs) (hy : ¬ Mixed ys) :
    ∃ r, wholeEq xs ys = .ok r ∧ (r = true ↔ xs.Perm ys) := by
  rcases sortedMembers_spec xs with ⟨h, _⟩ | ⟨_, s, hs, _, he⟩
  · exact absurd h hx
  · rcases sortedMembers_spec ys with ⟨h, _⟩ | ⟨_, t, ht, _, _⟩
    · exact absurd h hy
    · refine ⟨decide (s = t), ?_, ?_⟩
      · simp only [wholeEq, hs, ht, bind, Except.bind]
      · rw [decide_eq_true_iff]; exact he ys t ht

/-- **C258, when comparing fails.**  The comparison raises `TypeError` exactly if one of the two mixes
members that cannot be compared; even with itself. -/
theorem c258_whole_error (xs ys : List (α ⊕ β)) :
    wholeEq xs ys = .error .typeError ↔ Mixed xs ∨ Mixed ys := by
  rcases sortedMembers_spec xs with ⟨h, hs⟩ | ⟨hx, s, hs, _⟩
  · simp [wholeEq, hs, h, bind, Except.bind]
  · rcases sortedMembers_spec ys with ⟨h, ht⟩ | ⟨hy, t, ht, _⟩
    · simp [wholeEq, hs, ht, h, bind, Except.bind]
    · simp [wholeEq, hs, ht, hx, hy, bind, Except.bind]

end

/-- **C258 (part), operands.**  When no operand is repeated on the left, two collections of operands
are equal exactly if they have the same members. -/
theorem c258_operands_partial {γ : Type} [DecidableEq γ] (xs ys : List γ) (h : xs.Nodup) :
    operandsEq xs ys = true ↔ xs.Perm ys := by
  unfold operandsEq
  constructor
  · intro he
    split at he
    · next hl =>
      have hs : xs ⊆ ys := by
        intro i hi
        have := List.all_eq_true.1 he i hi
        simpa using this
      exact (List.subperm_of_subset h hs).perm_of_length_le hl.ge
    · cases he
  · intro hp
    rw [if_pos hp.length_eq, List.all_eq_true]
    intro i hi
    simpa using hp.mem_iff.1 hi

/-- **C258 fails in the code.**  A collection of a number and a text cannot be compared with itself,
although the two have the same members; and comparing operands depends on the order of the sides. -/
theorem c258_counterexample :
    wholeEq (α := Rat) (β := Nat) [.inl 1, .inr 2] [.inl 1, .inr 2] = .error .typeError
      ∧ operandsEq [1, 1, 2] [1, 2, 3] = true ∧ operandsEq [1, 2, 3] [1, 1, 2] = false
      ∧ ¬ List.Perm [1, 1, 2] [1, 2, 3] := by
  refine ⟨?_, by decide, by decide, by decide⟩
  rw [c258_whole_error]
  exact .inl ⟨⟨1, by simp⟩, 2, by simp⟩

example : wholeEq (α := Nat) (β := Nat) [.inl 3, .inl 1, .inl 1] [.inl 1, .inl 3, .inl 1] = .ok true
    ∧ wholeEq (α := Nat) (β := Nat) [.inl 3, .inl 1] [.inl 1, .inl 3, .inl 1] = .ok false
    ∧ wholeEq (α := Nat) (β := Nat) [.inl 3] [.inr 3] = .ok false
    ∧ ¬ Mixed (α := Nat) (β := Nat) [.inl 3, .inl 1]
    ∧ operandsEq [3, 1] [1, 3] = true := by
  refine ⟨by decide +kernel, by decide +kernel, by decide +kernel, ?_, by decide⟩
  rintro ⟨_, b, hb⟩
  simp at hb

end Verif.Iterables
