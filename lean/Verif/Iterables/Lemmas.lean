import Mathlib.Tactic.Linarith
import Mathlib.Tactic.Ring
import Mathlib.Tactic.FieldSimp
import Mathlib.Data.List.Basic
import Mathlib.Data.List.Infix
import Verif.Iterables.Model

/-! Helper lemmas for the properties of `iterables.py`. -/

namespace Verif.Iterables

open Verif.Py

/-! ### unique -/

section
variable {α : Type _} [DecidableEq α]

theorem uniqueLoop_append (acc xs ys : List α) :
    uniqueLoop acc (xs ++ ys) = uniqueLoop (uniqueLoop acc xs) ys := by
  induction xs generalizing acc with
  | nil => rfl
  | cons x xs ih =>
    simp only [List.cons_append, uniqueLoop]
    split <;> exact ih _

theorem mem_uniqueLoop (acc xs : List α) (x : α) :
    x ∈ uniqueLoop acc xs ↔ x ∈ acc ∨ x ∈ xs := by
  induction xs generalizing acc with
  | nil => simp [uniqueLoop]
  | cons y xs ih =>
    simp only [uniqueLoop]
    split
    · next h => rw [ih]; simp only [List.mem_cons]; constructor
                · rintro (h1 | h1) <;> simp [h1]
                · rintro (h1 | rfl | h1) <;> simp [*]
    · rw [ih]; simp [or_assoc]

theorem unique_snoc (xs : List α) (x : α) :
    unique (xs ++ [x]) = if x ∈ xs then unique xs else unique xs ++ [x] := by
  unfold unique
  rw [uniqueLoop_append]
  simp [uniqueLoop, mem_uniqueLoop]

theorem mem_unique (xs : List α) (x : α) : x ∈ unique xs ↔ x ∈ xs := by
  simp [unique, mem_uniqueLoop]

theorem nodup_unique (xs : List α) : (unique xs).Nodup := by
  induction xs using List.reverseRecOn with
  | nil => simp [unique, uniqueLoop]
  | append_singleton xs x ih =>
    rw [unique_snoc]; split
    · exact ih
    · next h =>
      rw [List.nodup_append]
      refine ⟨ih, by simp, ?_⟩
      intro a ha b hb
      simp at hb; subst hb
      rintro rfl
      exact h ((mem_unique _ _).1 ha)

theorem unique_of_nodup {xs : List α} (h : xs.Nodup) : unique xs = xs := by
  induction xs using List.reverseRecOn with
  | nil => rfl
  | append_singleton xs x ih =>
    rw [List.nodup_append] at h
    rw [unique_snoc, ih h.1, if_neg]
    intro hx
    exact h.2.2 _ hx x (by simp) rfl

theorem sublist_unique (xs : List α) : (unique xs).Sublist xs := by
  induction xs using List.reverseRecOn with
  | nil => simp [unique, uniqueLoop]
  | append_singleton xs x ih =>
    rw [unique_snoc]; split
    · exact ih.trans (List.sublist_append_left _ _)
    · exact List.Sublist.append ih (List.Sublist.refl _)

theorem idxOf_unique_lt_iff (xs : List α) {x y : α} (hx : x ∈ xs) (hy : y ∈ xs) :
    (unique xs).idxOf x < (unique xs).idxOf y ↔ xs.idxOf x < xs.idxOf y := by
  induction xs using List.reverseRecOn with
  | nil => simp at hx
  | append_singleton xs z ih =>
    rw [unique_snoc]
    have key : ∀ {w : α}, w ∈ xs → (unique xs ++ [z]).idxOf w = (unique xs).idxOf w := fun hw =>
      List.idxOf_append_of_mem ((mem_unique _ _).2 hw)
    have key2 : ∀ {w : α}, w ∈ xs → (xs ++ [z]).idxOf w = xs.idxOf w := fun hw =>
      List.idxOf_append_of_mem hw
    by_cases hz : z ∈ xs
    · have hx' : x ∈ xs := by
        rcases List.mem_append.1 hx with h | h
        · exact h
        · simp at h; subst h; exact hz
      have hy' : y ∈ xs := by
        rcases List.mem_append.1 hy with h | h
        · exact h
        · simp at h; subst h; exact hz
      rw [if_pos hz, key2 hx', key2 hy']
      exact ih hx' hy'
    · rw [if_neg hz]
      have hz1 : (unique xs ++ [z]).idxOf z = (unique xs).length := by
        rw [List.idxOf_append_of_notMem (by rwa [mem_unique])]; simp
      have hz2 : (xs ++ [z]).idxOf z = xs.length := by
        rw [List.idxOf_append_of_notMem hz]; simp
      by_cases hx' : x ∈ xs <;> by_cases hy' : y ∈ xs
      · rw [key hx', key hy', key2 hx', key2 hy']; exact ih hx' hy'
      · have : y = z := by
          rcases List.mem_append.1 hy with h | h
          · exact absurd h hy'
          · simpa using h
        subst this
        rw [key hx', hz1, key2 hx', hz2]
        have h1 : (unique xs).idxOf x < (unique xs).length :=
          List.idxOf_lt_length_of_mem ((mem_unique _ _).2 hx')
        have h2 : xs.idxOf x < xs.length := List.idxOf_lt_length_of_mem hx'
        simp [h1, h2]
      · have : x = z := by
          rcases List.mem_append.1 hx with h | h
          · exact absurd h hx'
          · simpa using h
        subst this
        rw [key hy', hz1, key2 hy', hz2]
        have h1 : (unique xs).idxOf y < (unique xs).length :=
          List.idxOf_lt_length_of_mem ((mem_unique _ _).2 hy')
        have h2 : xs.idxOf y < xs.length := List.idxOf_lt_length_of_mem hy'
        omega
      · have hxz : x = z := by
          rcases List.mem_append.1 hx with h | h
          · exact absurd h hx'
          · simpa using h
        have hyz : y = z := by
          rcases List.mem_append.1 hy with h | h
          · exact absurd h hy'
          · simpa using h
        subst hxz; subst hyz; simp

end

/-! ### mapM in `Except` -/

theorem mapM_ok_iff {α β ε : Type _} (f : α → Except ε β) (xs : List α) (ys : List β) :
    xs.mapM f = .ok ys ↔ xs.length = ys.length ∧ ∀ i (h : i < xs.length) (h' : i < ys.length),
      f xs[i] = .ok ys[i] := by
  induction xs generalizing ys with
  | nil => cases ys <;> simp [pure, Except.pure]
  | cons x xs ih =>
    rw [List.mapM_cons]
    cases hx : f x with
    | error e =>
      simp only [bind, Except.bind]
      constructor
      · intro h; cases h
      · rintro ⟨hl, h⟩
        have := h 0 (by simp) (by simp at hl; omega)
        simp [hx] at this
    | ok y =>
      simp only [bind, Except.bind]
      cases hxs : xs.mapM f with
      | error e =>
        simp only
        constructor
        · intro h; cases h
        · rintro ⟨hl, h⟩
          cases ys with
          | nil => simp at hl
          | cons y' ys =>
            have := (ih ys).2 ⟨by simpa using hl, fun i h1 h2 => by
              have := h (i+1) (by simp; omega) (by simp; omega)
              simpa using this⟩
            rw [hxs] at this; cases this
      | ok ys0 =>
        simp only [pure, Except.pure, Except.ok.injEq]
        constructor
        · rintro rfl
          have := (ih ys0).1 hxs
          refine ⟨by simp [this.1], ?_⟩
          intro i h1 h2
          cases i with
          | zero => simpa using hx
          | succ i => simpa using this.2 i (by simpa using h1) (by simpa using h2)
        · rintro ⟨hl, h⟩
          cases ys with
          | nil => simp at hl
          | cons y' ys =>
            have h0 := h 0 (by simp) (by simp)
            simp [hx] at h0
            have := (ih ys).2 ⟨by simpa using hl, fun i h1 h2 => by
              have := h (i+1) (by simp; omega) (by simp; omega)
              simpa using this⟩
            rw [hxs] at this
            injection this with this
            rw [h0, this]

theorem mapM_error_of_mem {α β ε : Type _} (f : α → Except ε β) (e : ε)
    (hf : ∀ a e', f a = .error e' → e' = e) (xs : List α) (h : ∃ a ∈ xs, ∃ e', f a = .error e') :
    xs.mapM f = .error e := by
  induction xs with
  | nil => simp at h
  | cons x xs ih =>
    rw [List.mapM_cons]
    cases hx : f x with
    | error e' => simp [bind, Except.bind, hf x e' hx]
    | ok y =>
      have : xs.mapM f = .error e := by
        apply ih
        obtain ⟨a, ha, e', he⟩ := h
        rcases List.mem_cons.1 ha with rfl | ha
        · rw [hx] at he; cases he
        · exact ⟨a, ha, e', he⟩
      simp [bind, Except.bind, this]

theorem exists_of_mapM_error {α β ε : Type _} (f : α → Except ε β) (e : ε) (xs : List α)
    (h : xs.mapM f = .error e) : ∃ a ∈ xs, f a = .error e := by
  induction xs with
  | nil => simp [pure, Except.pure] at h
  | cons x xs ih =>
    rw [List.mapM_cons] at h
    cases hx : f x with
    | error e' =>
      simp [bind, Except.bind, hx] at h
      exact ⟨x, by simp, by rw [hx, h]⟩
    | ok y =>
      cases hxs : xs.mapM f with
      | error e' =>
        simp [bind, Except.bind, hx, hxs] at h
        subst h
        obtain ⟨a, ha, he⟩ := ih hxs
        exact ⟨a, List.mem_cons_of_mem _ ha, he⟩
      | ok ys => simp [bind, Except.bind, hx, hxs, pure, Except.pure] at h

theorem itemAt_error {α : Type _} {i : Nat} {r : List α} {e : Err} (h : itemAt i r = .error e) :
    e = .indexError := by
  unfold itemAt at h; split at h <;> simp_all

theorem itemAt_ok_iff {α : Type _} {i : Nat} {r : List α} {x : α} :
    itemAt i r = .ok x ↔ r[i]? = some x := by
  unfold itemAt; split <;> simp_all

end Verif.Iterables
