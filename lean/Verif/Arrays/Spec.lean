import Verif.Arrays.Model

/-!
# What subscripts, conversions and products of arrays should do
-/

namespace Verif.Arrays.Spec

open Verif.Py Verif.Metadata Verif.Arrays

/-- The axes that an ellipsis stands for become full slices. -/
def expanded (ndim : Nat) (pre post : List Ix) : List Ix :=
  pre ++ List.replicate (ndim - pre.length - post.length) Ix.full ++ post

/-- A position counted from the end if negative. -/
def fromStart (n : Nat) (i : Int) : Int := if i < 0 then i + n else i

/-- Does a slice select the position `x` of `n`? Upwards, the positions from the lower bound (or the
beginning) in steps to below the upper bound; downwards, those from the upper bound (or the end). -/
def selects (s : Slice) (n x : Nat) : Bool :=
  let step := s.step.getD 1
  if 0 < step then
    let first := max 0 ((s.start.map (fromStart n)).getD 0)
    first ≤ x ∧ x < (s.stop.map (fromStart n)).getD n ∧ (x - first) % step = 0
  else if step < 0 then
    let first := min ((n : Int) - 1) ((s.start.map (fromStart n)).getD (n - 1))
    x ≤ first ∧ (s.stop.map (fromStart n)).getD (-1) < x ∧ (first - x) % (-step) = 0
  else false

/-- The number of positions that a subscript selects along an axis of `n` positions; an integer selects
one. -/
def size (n : Nat) : Ix → Nat
  | .int _ => 1
  | .slice s => ((List.range n).filter (selects s n)).length
  | _ => n

/-- The sizes of a subarray with the same number of axes; axes that are not mentioned are full. -/
def sizes : List Nat → List Ix → List Nat
  | n :: shape, x :: xs => size n x :: sizes shape xs
  | shape, _ => shape

/-- A subscript that names positions within an axis of `n` positions: a position, or a slice from a lower
to an upper position in steps of one. -/
def Plain (n : Nat) : Ix → Prop
  | .int i => -(n : Int) ≤ i ∧ i < n
  | .slice s => (s.step = none ∨ s.step = some 1) ∧
      (0 ≤ s.start.getD 0 ∧ s.start.getD 0 ≤ s.stop.getD n ∧ s.stop.getD n ≤ n ∧ s.stop ≠ some 0)
  | _ => False

end Verif.Arrays.Spec
