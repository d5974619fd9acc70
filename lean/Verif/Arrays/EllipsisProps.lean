import Verif.Arrays.Props

/-!
# C39: exactly when an ellipsis in a subscript is right
-/

namespace Verif.Arrays

open Verif.Py Verif.Metadata Verif.Numerical

theorem between_nat {α : Type _} (xs : List α) (a b : Nat) :
    between xs a b = (xs.drop a).take (b - a) := by
  unfold between
  have h : ∀ x : Nat, (clipUp xs.length (x : Int)).toNat = min x xs.length := by
    intro x
    unfold clipUp
    rw [if_neg (by omega)]
    omega
  simp only [h]
  by_cases ha : a ≤ xs.length
  · rw [Nat.min_eq_left ha]
    by_cases hb : b ≤ xs.length
    · rw [Nat.min_eq_left hb]
    · rw [Nat.min_eq_right (by omega), List.take_of_length_le (by simp),
        List.take_of_length_le (by simp; omega)]
  · have h1 : min a xs.length = xs.length := by omega
    rw [h1, List.drop_eq_nil_of_le (Nat.le_refl _), List.drop_eq_nil_of_le (by omega : xs.length ≤ a)]
    simp

/-- What the code makes of an ellipsis, whatever the entries: too many of those that follow it are dropped,
or it stays where it is and the last entry is dropped. -/
theorem expandEllipsis_eq (ndim : Nat) (pre post : List Ix) (h : .ellipsis ∉ pre)
    (hl : pre.length + post.length ≤ ndim) :
    expandEllipsis ndim (pre ++ .ellipsis :: post)
      = if pre.length + post.length = ndim then pre ++ (.ellipsis :: post).take post.length
        else pre ++ List.replicate (ndim - pre.length - post.length) Ix.full
          ++ post.drop (ndim - pre.length - post.length - 1) := by
  unfold expandEllipsis
  rw [if_neg (by simp)]
  simp only [idxOf_ellipsis (post := post) h]
  have hlen : (pre ++ Ix.ellipsis :: post).length = pre.length + post.length + 1 := by simp; omega
  obtain ⟨m, rfl⟩ : ∃ m, ndim = pre.length + post.length + m := ⟨_, (Nat.add_sub_of_le hl).symm⟩
  have e0 : (((pre.length + post.length + m : Nat) : Int) - ((pre ++ Ix.ellipsis :: post).length : Nat) + 1)
      = (m : Int) := by rw [hlen]; omega
  rw [e0]
  have e1 : (pre.length : Int) + (m : Int) = ((pre.length + m : Nat) : Int) := by omega
  rw [e1, between_nat, ← List.drop_drop, List.drop_left, List.take_left, Int.toNat_natCast]
  by_cases hm : m = 0
  · subst hm
    rw [if_pos (by omega)]
    simp
  · rw [if_neg (by omega)]
    have e2 : pre.length + post.length + m - pre.length - post.length = m := by omega
    have e3 : pre.length + post.length + m - (pre.length + m) = post.length := by omega
    obtain ⟨k, rfl⟩ := Nat.exists_eq_succ_of_ne_zero hm
    rw [e2, e3, Nat.succ_eq_add_one, List.drop_succ_cons, Nat.add_sub_cancel,
      List.take_of_length_le (by simp)]

/-- **C39** (partial). A subscript with one ellipsis and at most one entry for each axis is expanded as it
should *exactly if* nothing follows the ellipsis or it stands for exactly one axis. -/
theorem c39_exact_partial (ndim : Nat) (pre post : List Ix) (h : .ellipsis ∉ pre) (h' : .ellipsis ∉ post)
    (hl : pre.length + post.length ≤ ndim) :
    expandEllipsis ndim (pre ++ .ellipsis :: post) = Spec.expanded ndim pre post ↔
      post = [] ∨ pre.length + post.length + 1 = ndim := by
  constructor
  · intro he
    rw [expandEllipsis_eq ndim pre post h hl] at he
    by_cases h1 : pre.length + post.length = ndim
    · left
      rw [if_pos h1] at he
      have h2 : ndim - pre.length - post.length = 0 := by omega
      unfold Spec.expanded at he
      rw [h2, List.replicate_zero, List.append_nil, List.append_cancel_left_eq] at he
      cases post with
      | nil => rfl
      | cons x xs =>
        exfalso
        rw [List.length_cons, List.take_succ_cons] at he
        injection he with he
        exact h' (by simp [← he])
    · rw [if_neg h1] at he
      have := congrArg List.length he
      simp only [Spec.expanded, List.length_append, List.length_replicate, List.length_drop] at this
      by_cases h2 : post = []
      · exact .inl h2
      · have := List.length_pos_of_ne_nil h2
        right; omega
  · rintro (h1 | h1)
    · subst h1
      exact (c39_partial ndim pre [] h).2.1 (by simpa using hl)
    · exact (c39_partial ndim pre post h).2.2 h1

/-- Two axes for the ellipsis, and an entry after it: expanded to too few entries. -/
example : expandEllipsis 3 ([] ++ .ellipsis :: [.int 0]) ≠ Spec.expanded 3 [] [.int 0] := by decide

/-- One axis for the ellipsis. -/
example : expandEllipsis 3 ([.int 1] ++ .ellipsis :: [.int 0]) = Spec.expanded 3 [.int 1] [.int 0] := by decide

/-- No axis for the ellipsis: it stays, and the last entry is lost. -/
example : expandEllipsis 2 ([.int 1] ++ .ellipsis :: [.int 0]) = [.int 1, .ellipsis] := by decide

end Verif.Arrays
