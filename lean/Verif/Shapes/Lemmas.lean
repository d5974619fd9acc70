import Verif.Shapes.Model

/-!
# Lemmas on broadcasting
-/

set_option linter.unusedSimpArgs false

namespace Verif.Shapes

open Verif.Py

variable {K : Type}

theorem joinRev_append (x y : List Nat) : joinRev (x ++ y) x = some (x ++ y) := by
  induction x with
  | nil => cases y <;> rfl
  | cons a x ih => simp [joinRev, joinDim, ih]

theorem joinRev_append' (x y : List Nat) : joinRev x (x ++ y) = some (x ++ y) := by
  induction x with
  | nil => rfl
  | cons a x ih => simp [joinRev, joinDim, ih]

theorem broadcast_suffix (p q : List Nat) : broadcastShape (p ++ q) q = some (p ++ q) := by
  unfold broadcastShape; rw [List.reverse_append, joinRev_append]; simp

theorem broadcast_suffix' (p q : List Nat) : broadcastShape q (p ++ q) = some (p ++ q) := by
  unfold broadcastShape; rw [List.reverse_append, joinRev_append']; simp

theorem broadcast_self (q : List Nat) : broadcastShape q q = some q := broadcast_suffix [] q

theorem broadcast_42 (a b c d : Nat) : broadcastShape [a, b, c, d] [c, d] = some [a, b, c, d] :=
  broadcast_suffix [a, b] [c, d]

theorem broadcast_24 (a b c d : Nat) : broadcastShape [c, d] [a, b, c, d] = some [a, b, c, d] :=
  broadcast_suffix' [a, b] [c, d]

theorem broadcast_21 (a b : Nat) : broadcastShape [a, b] [b] = some [a, b] := broadcast_suffix [a] [b]

theorem keep {n i : Nat} (h : i < n) : (if n = 1 then 0 else i) = i := by
  split <;> omega

theorem locate_one {n i : Nat} (h : i < n) : locate [n] [i] = [i] := by
  simp [locate, keep h]

theorem locate_two {m n i j : Nat} (hi : i < m) (hj : j < n) : locate [m, n] [i, j] = [i, j] := by
  simp [locate, keep hi, keep hj]

theorem locate_three {l m n h i j : Nat} (hh : h < l) (hi : i < m) (hj : j < n) :
    locate [l, m, n] [h, i, j] = [h, i, j] := by
  simp [locate, keep hi, keep hj, keep hh]

theorem locate_four {k l m n g h i j : Nat} (hg : g < k) (hh : h < l) (hi : i < m) (hj : j < n) :
    locate [k, l, m, n] [g, h, i, j] = [g, h, i, j] := by
  simp [locate, keep hi, keep hj, keep hh, keep hg]

theorem locate_24 {m n i j : Nat} (g h : Nat) (hi : i < m) (hj : j < n) : locate [m, n] [g, h, i, j] = [i, j] := by
  simp [locate, keep hi, keep hj]

theorem locate_12 {n j : Nat} (i : Nat) (hj : j < n) : locate [n] [i, j] = [j] := by
  simp [locate, keep hj]

theorem ahead_lt {n i : Nat} (h : i < n) : (if i + 1 < n then i + 1 else n - 1) < n := by
  split <;> omega

theorem behind_lt {n i : Nat} (h : i < n) : (if i = 0 then 0 else i - 1) < n := by
  split <;> omega

theorem pick_ok (idx : Nat → Nat → Nat) (a : Arr K) {t n : Nat} {s : List Nat} (ha : a.shape = t :: n :: s) (hn : 0 < n) :
    pick idx a = .ok ⟨t :: n :: s, fun i => a.entry (i.set 1 (idx n (i.getD 1 0)))⟩ := by
  unfold pick
  rw [ha]
  cases n with
  | zero => omega
  | succ n => rfl

theorem map2_ok {A B : Type} (f : A → B → K) (a : Arr A) (b : Arr B) {s : List Nat}
    (h : broadcastShape a.shape b.shape = some s) :
    Arr.map2 f a b = .ok ⟨s, fun i => f (a.entry (locate a.shape i)) (b.entry (locate b.shape i))⟩ := by
  unfold Arr.map2; rw [h]

theorem transpose_ok (a : Arr K) {k l m n : Nat} (ha : a.shape = [k, l, m, n]) :
    transpose forward a = .ok ⟨[m, n, k, l], fun i =>
      a.entry [i.getD 2 0, i.getD 3 0, i.getD 0 0, i.getD 1 0]⟩ := by
  unfold transpose
  rw [ha]
  rfl

end Verif.Shapes
