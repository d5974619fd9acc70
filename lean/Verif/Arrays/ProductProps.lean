import Verif.Arrays.AxisProps
import Verif.Metadata.Props

/-!
# Property C274: order and grouping of products of variables
-/

set_option linter.unusedSimpArgs false
set_option linter.unusedSectionVars false

namespace Verif.Arrays

open Verif.Py Verif.Metadata Verif.Numerical

/-- A variable whose axes have different names and the given sizes. -/
def Sized {K : Type} (size : Str → Nat) (u : Var K) : Prop := u.dims.Nodup ∧ u.array.shape = u.dims.map size

/-- The same entries at the same named positions. -/
def SameEntries {K : Type} (size : Str → Nat) (r s : Var K) : Prop :=
  ∀ σ : Str → Nat, (∀ d, d ∈ r.dims ∨ d ∈ s.dims → σ d < size d) → r.array.get (r.dims.map σ) = s.array.get (s.dims.map σ)

theorem combine_dims {K : Type} (op : K → K → K) {u v r : Var K} (hu : u.dims.Nodup) (h : u.combine op v = .ok r) :
    mergeAll u.dims [.dims v.dims] = .ok r.dims := by
  have h3 := (c32_merge u.dims u.dims v.dims []).2.2.1
  have h4 := ((c32_merge u.dims [] [] []).2.2.2 hu).1
  rw [h4] at h3
  have h5 : mergeAll u.dims [.dims v.dims] = mergeAll u.dims [.dims u.dims, .dims v.dims] := h3.symm
  rw [h5]
  unfold Var.combine alignAxes at h
  cases hm : mergeAll u.dims [.dims u.dims, .dims v.dims] with
  | error e => rw [hm] at h; exact absurd h (by simp [bind, Except.bind])
  | ok dims =>
    rw [hm] at h
    simp only [bind, Except.bind, pure, Except.pure] at h
    split at h
    · exact absurd h (by simp)
    next z hz =>
    split at hz
    · exact absurd hz (by simp)
    split at hz
    · exact absurd hz (by simp)
    rw [← Except.ok.inj hz] at h
    simp only at h
    split at h
    · exact absurd h (by simp)
    · rw [← Except.ok.inj h]

/-- **C274, order.** If the operation on numbers is commutative: the operands in the other order have a result with the same axes up to
order and the same entries at the same named positions. -/
theorem c274_commutative {K : Type} (op : K → K → K) (hop : ∀ a b, op a b = op b a) (size : Str → Nat) (u v : Var K) (hu : Sized size u)
    (hv : Sized size v) :
    ∃ r s, u.combine op v = .ok r ∧ v.combine op u = .ok s ∧ Sized size r ∧ Sized size s ∧ r.dims.Perm s.dims ∧ SameEntries size r s := by
  obtain ⟨r, r1, r2, r3, r4, r5⟩ := c44_product op u v size hu.1 hv.1 hu.2 hv.2
  obtain ⟨s, s1, s2, s3, s4, s5⟩ := c44_product op v u size hv.1 hu.1 hv.2 hu.2
  refine ⟨r, s, r1, s1, ⟨r2, r4⟩, ⟨s2, s4⟩, (List.perm_ext_iff_of_nodup r2 s2).2 (fun d => by rw [r3, s3, or_comm]), fun σ hσ => ?_⟩
  rw [r5 σ (fun d hd => hσ d (Or.inl hd)), s5 σ (fun d hd => hσ d (Or.inr hd)), hop]

/-- **C274, grouping.** If the operation on numbers is associative: both ways to group three operands have the same result, with the same
axes in the same order. -/
theorem c274_associative {K : Type} (op : K → K → K) (hop : ∀ a b c, op (op a b) c = op a (op b c)) (size : Str → Nat) (u v w : Var K)
    (hu : Sized size u) (hv : Sized size v) (hw : Sized size w) :
    ∃ uv vw l r, u.combine op v = .ok uv ∧ uv.combine op w = .ok l ∧ v.combine op w = .ok vw ∧ u.combine op vw = .ok r ∧
      l.dims = r.dims ∧ l.array.shape = r.array.shape ∧ Sized size l ∧ SameEntries size l r := by
  obtain ⟨uv, a1, a2, a3, a4, a5⟩ := c44_product op u v size hu.1 hv.1 hu.2 hv.2
  obtain ⟨vw, b1, b2, b3, b4, b5⟩ := c44_product op v w size hv.1 hw.1 hv.2 hw.2
  obtain ⟨l, l1, l2, l3, l4, l5⟩ := c44_product op uv w size a2 hw.1 a4 hw.2
  obtain ⟨r, r1, r2, r3, r4, r5⟩ := c44_product op u vw size hu.1 b2 hu.2 b4
  have hd : l.dims = r.dims := by
    have h := (c32_merge u.dims v.dims w.dims []).2.1
    rw [combine_dims op hu.1 a1, combine_dims op hv.1 b1] at h
    simp only [bind, Except.bind] at h
    rw [combine_dims op a2 l1, combine_dims op hu.1 r1] at h
    exact Except.ok.inj h
  refine ⟨uv, vw, l, r, a1, l1, b1, r1, hd, by rw [l4, r4, hd], ⟨l2, l4⟩, fun σ hσ => ?_⟩
  rw [l5 σ (fun d hd => hσ d (Or.inl hd)), r5 σ (fun d hd => hσ d (Or.inr hd)),
    a5 σ (fun d hd => hσ d (Or.inl ((l3 d).2 (Or.inl hd)))), b5 σ (fun d hd => hσ d (Or.inr ((r3 d).2 (Or.inr hd)))), hop]

/-- **C274, inverse.** If the second operation on numbers undoes the first (for the entries of `v`): applying it with the same operand
gives back the first operand, constant along the axes that it does not have. -/
theorem c274_inverse {K : Type} (op inv : K → K → K) (size : Str → Nat) (u v : Var K) (hu : Sized size u) (hv : Sized size v)
    (hop : ∀ a σ, inv (op a (v.array.get (v.dims.map σ))) (v.array.get (v.dims.map σ)) = a) :
    ∃ r s, u.combine op v = .ok r ∧ r.combine inv v = .ok s ∧ s.dims = r.dims ∧ Sized size s ∧ SameEntries size s u := by
  obtain ⟨r, r1, r2, r3, r4, r5⟩ := c44_product op u v size hu.1 hv.1 hu.2 hv.2
  obtain ⟨s, s1, s2, s3, s4, s5⟩ := c44_product inv r v size r2 hv.1 r4 hv.2
  have hd : s.dims = r.dims := by
    have h := (c32_merge u.dims v.dims v.dims []).2.1
    have hvv := ((c32_merge v.dims [] [] []).2.2.2 hv.1).1
    rw [combine_dims op hu.1 r1, hvv] at h
    simp only [bind, Except.bind] at h
    rw [combine_dims inv r2 s1, combine_dims op hu.1 r1] at h
    exact Except.ok.inj h
  refine ⟨r, s, r1, s1, hd, ⟨s2, s4⟩, fun σ hσ => ?_⟩
  rw [s5 σ (fun d hd => hσ d (Or.inl hd)), r5 σ (fun d hd => hσ d (Or.inl ((s3 d).2 (Or.inl hd)))), hop]

/-- Two axes times another one: both orders. -/
example : (do
    let r ← Var.combine (· * ·) (⟨[c!"y"], ⟨[2], fun p => p.getD 0 0 + 1⟩⟩ : Var Nat) ⟨[c!"x"], ⟨[3], fun p => p.getD 0 0 + 5⟩⟩
    let s ← Var.combine (· * ·) (⟨[c!"x"], ⟨[3], fun p => p.getD 0 0 + 5⟩⟩ : Var Nat) ⟨[c!"y"], ⟨[2], fun p => p.getD 0 0 + 1⟩⟩
    return ((r.dims, (grid r.array.shape).map r.array.get), (s.dims, (grid s.array.shape).map s.array.get)))
    = .ok (([c!"y", c!"x"], [5, 6, 7, 10, 12, 14]), ([c!"x", c!"y"], [5, 10, 6, 12, 7, 14])) := by decide +kernel

example : Sized (fun d => if d = c!"x" then 3 else 2) (⟨[c!"y", c!"x"], ⟨[2, 3], fun p => p.getD 0 0 + 1⟩⟩ : Var Nat) := by
  constructor <;> decide +kernel

/-- Division undoes multiplication by entries other than 0. -/
example (v : Var Rat) (h : ∀ p, v.array.get p ≠ 0) : ∀ (a : Rat) σ,
    (fun x y => x / y) ((fun x y => x * y) a (v.array.get (v.dims.map σ))) (v.array.get (v.dims.map σ)) = a := by
  intro a σ
  exact mul_div_cancel_right₀ a (h _)

end Verif.Arrays
