import Verif.Subscripts.Model
import Verif.Arrays.Spec

/-!
# What subscripts should select
-/

namespace Verif.Subscripts.Spec

open Verif.Py Verif.Arrays Verif.Subscripts

/-- The place of the entry with the given positions, in C order. -/
def offset : List Nat → List Nat → Nat
  | _ :: shape, j :: js => j * shape.prod + offset shape js
  | _, _ => 0

/-- The positions exist in an array of this shape. -/
def Inside (js shape : List Nat) : Prop := List.Forall₂ (· < ·) js shape

/-- The entry with the given positions. -/
def entry {K : Type} (a : Nd K) (js : List Nat) : Option K := a.entries[offset a.shape js]?

/-- The number of entries is that of the shape. -/
def Whole {K : Type} (a : Nd K) : Prop := a.entries.length = a.shape.prod

/-- The positions that a slice selects, in the order of the slice. -/
def chosen (n : Nat) (s : Slice) : List Nat :=
  let l := (List.range n).filter (Arrays.Spec.selects s n)
  if s.step.getD 1 < 0 then l.reverse else l

/-- Does the entry make sense for an axis of `n` positions? -/
def Fits (n : Nat) : Item → Prop
  | .int i => -(n : Int) ≤ i ∧ i < n
  | .slice s => s.step ≠ some 0
  | .list is => ∀ i ∈ is, -(n : Int) ≤ i ∧ i < n
  | _ => False

/-- Every entry other than `None` fits its axis, in order, and there are enough axes. -/
def Valid : List Nat → List Item → Prop
  | _, [] => True
  | shape, .newaxis :: xs => Valid shape xs
  | n :: shape, x :: xs => Fits n x ∧ Valid shape xs
  | [], _ :: _ => False

/-- The shape of the result: no axis for an integer, a new one for `None`; axes that are not mentioned are kept. -/
def shapeOf : List Nat → List Item → List Nat
  | shape, [] => shape
  | shape, .newaxis :: xs => 1 :: shapeOf shape xs
  | _ :: shape, .int _ :: xs => shapeOf shape xs
  | n :: shape, .slice s :: xs => (chosen n s).length :: shapeOf shape xs
  | _ :: shape, .list is :: xs => is.length :: shapeOf shape xs
  | _, _ => []

/-- The positions in the array of the entry with positions `js` in the result. -/
def source : List Nat → List Item → List Nat → List Nat
  | _, [], js => js
  | shape, .newaxis :: xs, _ :: js => source shape xs js
  | n :: shape, .int i :: xs, js => (Arrays.Spec.fromStart n i).toNat :: source shape xs js
  | n :: shape, .slice s :: xs, j :: js => (chosen n s).getD j 0 :: source shape xs js
  | n :: shape, .list is :: xs, j :: js => (Arrays.Spec.fromStart n (is.getD j 0)).toNat :: source shape xs js
  | _, _, _ => []

/-- The same if integers keep an axis of size one. -/
def sourceKept : List Nat → List Ix → List Nat → List Nat
  | _, [], js => js
  | n :: shape, .int i :: xs, _ :: js => (Arrays.Spec.fromStart n i).toNat :: sourceKept shape xs js
  | n :: shape, .slice s :: xs, j :: js => (chosen n s).getD j 0 :: sourceKept shape xs js
  | _, _, _ => []

/-- Integers, slices, `...` and `None`. -/
def Basic : Item → Prop
  | .int _ => True
  | .slice _ => True
  | .ellipsis => True
  | .newaxis => True
  | _ => False

/-- The number of axes that the entries mention. -/
def mentioned (xs : List Item) : Nat := (xs.filter (· ≠ .newaxis)).length

/-- `ys` says without `...` what `xs` says for `ndim` axes. -/
def Stands (ndim : Nat) (xs ys : List Item) : Prop :=
  (.ellipsis ∉ xs ∧ ys = xs) ∨
  ∃ pre post k, xs = pre ++ .ellipsis :: post ∧ .ellipsis ∉ pre ∧ .ellipsis ∉ post
    ∧ ys = pre ++ List.replicate k Item.full ++ post ∧ mentioned ys = ndim

/-- The ways of writing a subscript with the given entries: one entry alone, or a tuple. -/
def Written (xs : List Item) (s : Sub) : Prop := s = .many xs ∨ ∃ x, xs = [x] ∧ s = .one x

end Verif.Subscripts.Spec
