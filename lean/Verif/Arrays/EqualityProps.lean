import Verif.Arrays.Equality
import Mathlib.Data.List.Perm.Basic
import Mathlib.Data.List.Nodup

/-!
# Equality of arrays: theorems
-/

set_option linter.unusedSimpArgs false

namespace Verif.Arrays

open Verif.Py Verif.Metadata

/-- The position, in C order, of an index with one entry for each axis. -/
def flatIndex : List Nat → List Nat → Nat
  | _ :: ns, i :: is => i * ns.prod + flatIndex ns is
  | _, _ => 0

/-- The value of a quantity where each axis is at the given position. -/
def EqArr.at {U : Type} (a : EqArr U) (pos : Str → Nat) : Option Rat :=
  a.values[flatIndex a.shape (a.dims.map pos)]?

section
variable {U : Type} (same : U → U → Bool)

/-- Two lists of names without repetitions have the same members. -/
theorem dimEq_perm (x y : List Str) (hy : y.Nodup) :
    dimEq x (.dims y) = true ↔ y.Perm x := by
  constructor
  · intro h
    simp only [dimEq, Bool.or_eq_true, decide_eq_true_eq, Bool.and_eq_true, List.all_eq_true] at h
    rcases h with h | ⟨h1, h2⟩
    · rw [h]
    · exact (hy.subperm (fun n hn => by simpa using h2 n hn)).perm_of_length_le (by omega)
  · intro h
    simp only [dimEq, Bool.or_eq_true, decide_eq_true_eq, Bool.and_eq_true, List.all_eq_true]
    exact .inr ⟨h.length_eq, fun n hn => by simpa using h.subset hn⟩

theorem arrayEqual_iff (a b : EqArr U) :
    arrayEqual b a = true ↔ a.shape = b.shape ∧ a.values = b.values := by
  simp only [arrayEqual, Bool.and_eq_true, decide_eq_true_eq]
  constructor <;> rintro ⟨h1, h2⟩ <;> exact ⟨h1.symm, h2.symm⟩

/-- **C240** (partial). Two variable quantities are equal exactly if they have equal units, the same axes in any
order, the same shape and the same values; two physical arrays are equal exactly if they have equal units, the
same shape and the same values. -/
theorem c240_partial (a b : EqArr U) (ha : a.dims.Nodup) (hb : b.dims.Nodup)
    (hs : ∀ u v, same u v = same v u) :
    (a.kind = .quantity → b.kind = .quantity →
      (eqArr same a b = true ↔
        same a.unit b.unit = true ∧ a.dims.Perm b.dims ∧ a.shape = b.shape ∧ a.values = b.values)) ∧
    (a.kind = .physical → b.kind = .physical →
      (eqArr same a b = true ↔
        same a.unit b.unit = true ∧ a.shape = b.shape ∧ a.values = b.values)) ∧
    (a.kind ≠ b.kind → (a.kind = .physical ∨ b.kind = .physical) → eqArr same a b = false) ∧
    eqArr same a b = eqArr same b a := by
  have hq : ∀ a b : EqArr U, a.dims.Nodup → b.dims.Nodup → a.kind = .quantity → b.kind = .quantity →
      (eqArr same a b = true ↔
        same a.unit b.unit = true ∧ a.dims.Perm b.dims ∧ a.shape = b.shape ∧ a.values = b.values) := by
    intro a b ha _ h1 h2
    have hd := dimEq_perm b.dims a.dims ha
    by_cases h3 : same b.unit a.unit = true
    · by_cases h4 : dimEq b.dims (.dims a.dims) = true
      · have h5 := (hs a.unit b.unit).trans h3
        have h6 := hd.1 h4
        simp only [eqArr, eqMethod, h1, h2, equalAttrs, h3, h4, h5, h6, true_and, reduceCtorEq, false_and, if_false,
          if_true]
        exact arrayEqual_iff a b
      · have h5 : ¬ a.dims.Perm b.dims := fun h => h4 (hd.2 h)
        simp [eqArr, eqMethod, h1, h2, equalAttrs, h3, h4, h5]
    · have h5 : ¬ same a.unit b.unit = true := fun h => h3 ((hs _ _).trans h)
      simp [eqArr, eqMethod, h1, h2, equalAttrs, h3, h5]
  have hp : ∀ a b : EqArr U, a.kind = .physical → b.kind = .physical →
      (eqArr same a b = true ↔
        same a.unit b.unit = true ∧ a.shape = b.shape ∧ a.values = b.values) := by
    intro a b h1 h2
    by_cases h3 : same a.unit b.unit = true
    · simp only [eqArr, eqMethod, h1, h2, h3, true_and, reduceCtorEq, false_and, if_false, if_true]
      exact arrayEqual_iff a b
    · simp [eqArr, eqMethod, h1, h2, h3]
  refine ⟨hq a b ha hb, hp a b, ?_, ?_⟩
  · intro h1 h2
    cases h3 : a.kind <;> cases h4 : b.kind <;> simp_all [eqArr, eqMethod]
  · cases h3 : a.kind <;> cases h4 : b.kind
    · rw [Bool.eq_iff_iff]
      simp only [eqArr, eqMethod, h3, h4, reduceCtorEq, and_false, if_false]
      rw [arrayEqual_iff, arrayEqual_iff, eq_comm (a := b.shape), eq_comm (a := b.values)]
    · simp [eqArr, eqMethod, h3, h4]
    · simp [eqArr, eqMethod, h3, h4]
    · simp [eqArr, eqMethod, h3, h4]
    · rw [Bool.eq_iff_iff, hq a b ha hb h3 h4, hq b a hb ha h4 h3, hs b.unit, List.perm_comm (l₁ := b.dims),
        eq_comm (a := b.shape), eq_comm (a := b.values)]
    · simp [eqArr, eqMethod, h3, h4]
    · simp [eqArr, eqMethod, h3, h4]
    · simp [eqArr, eqMethod, h3, h4]
    · rw [Bool.eq_iff_iff, hp a b h3 h4, hp b a h4 h3, hs b.unit, eq_comm (a := b.shape),
        eq_comm (a := b.values)]

/-- **C240** (partial). Equal quantities that list their axes in the same order have the same value at every
position. -/
theorem c240_values_partial (a b : EqArr U) (ha : a.kind = .quantity) (hb : b.kind = .quantity)
    (hd : a.dims = b.dims) (h : eqArr same a b = true) (pos : Str → Nat) : a.at pos = b.at pos := by
  simp only [eqArr, eqMethod, ha, hb, equalAttrs, reduceCtorEq, false_and, if_false, if_true] at h
  unfold EqArr.at
  by_cases h1 : same b.unit a.unit = true
  · by_cases h2 : dimEq b.dims (.dims a.dims) = true
    · simp [h1, h2, arrayEqual] at h
      rw [hd, h.1, h.2]
    · simp [h1, h2] at h
  · simp [h1] at h

end

/-- **C240** fails: quantities with the same numbers on transposed axes are equal although their values differ
at some position; two quantities with different units are both equal to a plain array; the name of a physical
array does not matter. -/
theorem c240_counterexample :
    (∃ a b : EqArr Nat, a.kind = .quantity ∧ b.kind = .quantity ∧ a.dims.Nodup ∧ b.dims.Nodup ∧
      eqArr (· == ·) a b = true ∧ ∃ pos : Str → Nat, a.at pos ≠ b.at pos) ∧
    (∃ a b c : EqArr Nat, a.kind = .quantity ∧ b.kind = .base ∧ c.kind = .quantity ∧
      eqArr (· == ·) a b = true ∧ eqArr (· == ·) b c = true ∧ eqArr (· == ·) a c = false) ∧
    (∃ a b : EqArr Nat, a.kind = .physical ∧ b.kind = .physical ∧ a.name ≠ b.name ∧
      eqArr (· == ·) a b = true) := by
  refine ⟨⟨⟨.quantity, [2, 2], [1, 2, 3, 4], 0, [c!"x", c!"y"], []⟩,
      ⟨.quantity, [2, 2], [1, 2, 3, 4], 0, [c!"y", c!"x"], []⟩, rfl, rfl, by decide, by decide,
      by decide +kernel, fun n => if n = c!"x" then 1 else 0, by decide +kernel⟩,
    ⟨⟨.quantity, [2], [1, 2], 0, [c!"x"], []⟩, ⟨.base, [2], [1, 2], 5, [], []⟩,
      ⟨.quantity, [2], [1, 2], 1, [c!"x"], []⟩, rfl, rfl, rfl, by decide +kernel, by decide +kernel,
      by decide +kernel⟩,
    ⟨⟨.physical, [2], [1, 2], 0, [], [c!"a"]⟩, ⟨.physical, [2], [1, 2], 0, [], [c!"b"]⟩, rfl, rfl,
      by decide, by decide +kernel⟩⟩

/-- Two quantities with axes in the same order that are equal, and one with other values that is not. -/
example : eqArr (U := Nat) (· == ·) ⟨.quantity, [2, 3], [1, 2, 3, 4, 5, 6], 0, [c!"x", c!"y"], []⟩
      ⟨.quantity, [2, 3], [1, 2, 3, 4, 5, 6], 0, [c!"x", c!"y"], []⟩ = true ∧
    eqArr (U := Nat) (· == ·) ⟨.quantity, [2, 3], [1, 2, 3, 4, 5, 6], 0, [c!"x", c!"y"], []⟩
      ⟨.quantity, [2, 3], [1, 2, 3, 4, 5, 7], 0, [c!"x", c!"y"], []⟩ = false := by decide +kernel

end Verif.Arrays
