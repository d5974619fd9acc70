import Mathlib.Data.List.Sort
import Verif.Iterables.Lemmas

/-!
# Properties of `iterables.py` (C01–C12)

Specification vocabulary first, then one block per property.
-/

set_option linter.unusedSimpArgs false
set_option linter.unusedSectionVars false

namespace Verif.Iterables

open Verif.Py

/-! ## C01: `unique` -/

/-- **C01.** `unique` lists every distinct item exactly once and nothing else, in the order of
first appearance, and is idempotent. -/
theorem c01_unique {α : Type _} [DecidableEq α] (xs : List α) :
    (∀ x, (unique xs).count x = if x ∈ xs then 1 else 0)
    ∧ (∀ x y, x ∈ xs → y ∈ xs →
        ((unique xs).idxOf x < (unique xs).idxOf y ↔ xs.idxOf x < xs.idxOf y))
    ∧ unique (unique xs) = unique xs := by
  refine ⟨fun x => ?_, fun x y hx hy => idxOf_unique_lt_iff xs hx hy,
    unique_of_nodup (nodup_unique xs)⟩
  split
  · next h => exact List.count_eq_one_of_mem (nodup_unique xs) ((mem_unique xs x).2 h)
  · next h => exact List.count_eq_zero.2 (fun h' => h ((mem_unique xs x).1 h'))

example : unique [3, 1, 3, 2, 1] = [3, 1, 2] := by decide

/-! ## C02: `unwrap` -/

/-- Specification: a redundant wrapper is a list or tuple with exactly one member. -/
inductive Wraps {α : Type} : Obj α → Obj α → Prop where
  | list (x : Obj α) : Wraps (.list [x]) x
  | tuple (x : Obj α) : Wraps (.tuple [x]) x

/-- Specification: `o` is reached from `o'` by stripping redundant wrappers. -/
inductive Strips {α : Type} : Obj α → Obj α → Prop where
  | done (o : Obj α) : Strips o o
  | step {a b c : Obj α} : Wraps a b → Strips b c → Strips a c

theorem strips_unwrapLoop {α : Type} : ∀ o : Obj α,
    Strips o (unwrapLoop o) ∧ ¬ ∃ x, Wraps (unwrapLoop o) x
  | .none => ⟨by unfold unwrapLoop; exact .done _, by rintro ⟨x, h⟩; unfold unwrapLoop at h; cases h⟩
  | .str s => ⟨by unfold unwrapLoop; exact .done _, by rintro ⟨x, h⟩; unfold unwrapLoop at h; cases h⟩
  | .atom a => ⟨by unfold unwrapLoop; exact .done _, by rintro ⟨x, h⟩; unfold unwrapLoop at h; cases h⟩
  | .list [] => ⟨by unfold unwrapLoop; exact .done _, by rintro ⟨x, h⟩; unfold unwrapLoop at h; cases h⟩
  | .tuple [] => ⟨by unfold unwrapLoop; exact .done _, by rintro ⟨x, h⟩; unfold unwrapLoop at h; cases h⟩
  | .list [x] => by
    have := strips_unwrapLoop x
    rw [unwrapLoop]
    exact ⟨.step (.list x) this.1, this.2⟩
  | .tuple [x] => by
    have := strips_unwrapLoop x
    rw [unwrapLoop]
    exact ⟨.step (.tuple x) this.1, this.2⟩
  | .list (a :: b :: xs) => ⟨by unfold unwrapLoop; exact .done _, by rintro ⟨x, h⟩; unfold unwrapLoop at h; cases h⟩
  | .tuple (a :: b :: xs) => ⟨by unfold unwrapLoop; exact .done _, by rintro ⟨x, h⟩; unfold unwrapLoop at h; cases h⟩

theorem unwrap_eq {α : Type} (o : Obj α) : unwrap o = unwrapLoop o := by
  unfold unwrap; rw [unwrapLoop]

/-- Stripping to a non-singleton has only one possible outcome. -/
theorem strips_unique {α : Type} {o a b : Obj α} (ha : Strips o a) (hb : Strips o b)
    (na : ¬ ∃ x, Wraps a x) (nb : ¬ ∃ x, Wraps b x) : a = b := by
  induction ha with
  | done o =>
    cases hb with
    | done => rfl
    | step h _ => exact absurd ⟨_, h⟩ na
  | step h hs ih =>
    cases hb with
    | done => exact absurd ⟨_, h⟩ nb
    | step h' hs' =>
      have : Wraps _ _ := h
      cases h <;> cases h' <;> exact ih hs' na

/-- **C02.** `unwrap` strips redundant wrappers only, strips all of them, is the only function
that does so, is idempotent, and `unwrap(obj, wrap=f)` holds exactly the members of the unwrapped
object (the object itself when it is not a collection, nothing for `None`). -/
theorem c02_unwrap {α : Type} (o : Obj α) :
    Strips o (unwrap o)
    ∧ (¬ ∃ x, Wraps (unwrap o) x)
    ∧ (∀ r, Strips o r → (¬ ∃ x, Wraps r x) → r = unwrap o)
    ∧ unwrap (unwrap o) = unwrap o
    ∧ (∀ xs, unwrap o = .list xs ∨ unwrap o = .tuple xs → unwrapInto o = xs)
    ∧ (unwrap o = .none → unwrapInto o = [])
    ∧ (∀ s, unwrap o = .str s → unwrapInto o = [.str s])
    ∧ (∀ a, unwrap o = .atom a → unwrapInto o = [.atom a]) := by
  have h := strips_unwrapLoop o
  rw [← unwrap_eq] at h
  refine ⟨h.1, h.2, fun r hr nr => strips_unique hr h.1 nr h.2, ?_, ?_, ?_, ?_, ?_⟩
  · have h2 := strips_unwrapLoop (unwrap o)
    rw [← unwrap_eq] at h2
    exact strips_unique h2.1 (.done _) h2.2 h.2
  · rintro xs (hx | hx) <;> simp [unwrapInto, hx, wholeParse]
  · intro hx; simp [unwrapInto, hx, wholeParse]
  · intro s hx; simp [unwrapInto, hx, wholeParse]
  · intro a hx; simp [unwrapInto, hx, wholeParse]

example : unwrap (Obj.list [.tuple [.list [.atom 1, .list [.atom 2]]]])
    = Obj.list [.atom 1, .list [.atom 2]] := by
  simp [unwrap_eq, unwrapLoop]

/-! ## C03: `transpose_list` -/

/-- Specification: `t` is an `m`-by-`n` table. -/
def IsTable {α : Type _} (t : List (List α)) (m n : Nat) : Prop :=
  t.length = m ∧ ∀ r ∈ t, r.length = n

/-- Specification: entry `(i, j)`. -/
def entry {α : Type _} (t : List (List α)) (i j : Nat) : Option α := (t[i]?).bind (·[j]?)

theorem columnAt_ok_iff {α : Type _} (rows : List (List α)) (i : Nat) (c : List α) :
    columnAt rows i = .ok c ↔ rows.length = c.length ∧
      ∀ k (_ : k < rows.length) (h' : k < c.length), rows[k][i]? = some c[k] := by
  unfold columnAt
  rw [mapM_ok_iff]
  apply and_congr_right; intro _
  apply forall_congr'; intro k
  apply forall_congr'; intro h
  apply forall_congr'; intro h'
  exact itemAt_ok_iff

theorem transposeList_ok_iff {α : Type _} (rows : List (List α)) (t : List (List α)) :
    transposeList rows = .ok t ↔ ∃ first rest, rows = first :: rest ∧ first.length = t.length ∧
      ∀ j (h : j < t.length), columnAt rows j = .ok t[j] := by
  cases rows with
  | nil => simp [transposeList]
  | cons first rest =>
    simp only [transposeList]
    rw [mapM_ok_iff]
    simp only [List.length_range, List.getElem_range]
    constructor
    · rintro ⟨h1, h2⟩
      exact ⟨first, rest, rfl, h1, fun j h => h2 j (by omega) h⟩
    · rintro ⟨f, r, he, h1, h2⟩
      injection he with he1 he2
      subst he1; subst he2
      exact ⟨h1, fun j _ h => h2 j h⟩

/-- **C03.** An `m`-by-`n` table with `m, n > 0` is mapped to the `n`-by-`m` table with swapped
entries; transposing twice is the identity. -/
theorem c03_transpose {α : Type _} (rows : List (List α)) (m n : Nat) (hm : 0 < m) (hn : 0 < n)
    (h : IsTable rows m n) :
    ∃ t, transposeList rows = .ok t ∧ IsTable t n m
      ∧ (∀ i j, entry t j i = entry rows i j)
      ∧ transposeList t = .ok rows := by
  obtain ⟨hlen, hrow⟩ := h
  -- the transposed table, given by its entries
  let t : List (List α) := (List.range n).pmap
    (fun j hj => rows.pmap (fun r (hr : r.length = n) => r[j]'(by omega)) (fun r h => hrow r h))
    (fun j hj => List.mem_range.1 hj)
  have htlen : t.length = n := by simp [t]
  have htrow : ∀ j (hj : j < t.length), t[j].length = m := by
    intro j hj; simp [t, hlen]
  have htent : ∀ j (hj : j < t.length) i (hi : i < t[j].length) (hi' : i < rows.length)
      (hj' : j < rows[i].length), t[j][i] = rows[i][j] := by
    intro j hj i hi hi' hj'
    simp [t]
  have hok : transposeList rows = .ok t := by
    rw [transposeList_ok_iff]
    cases hr : rows with
    | nil => rw [hr] at hlen; simp at hlen; omega
    | cons first rest =>
      have hf : first.length = n := hrow first (by rw [hr]; simp)
      refine ⟨first, rest, rfl, by omega, ?_⟩
      intro j hj
      rw [← hr, columnAt_ok_iff]
      refine ⟨by rw [hlen, htrow j hj], ?_⟩
      intro k hk hk'
      have hjk : j < rows[k].length := by rw [hrow _ (List.getElem_mem hk)]; omega
      rw [htent j hj k hk' hk hjk, List.getElem?_eq_getElem hjk]
  refine ⟨t, hok, ⟨htlen, ?_⟩, ?_, ?_⟩
  · intro r hr
    obtain ⟨j, hj, rfl⟩ := List.getElem_of_mem hr
    exact htrow j hj
  · intro i j
    unfold entry
    by_cases hi : i < m
    · have hi' : i < rows.length := by omega
      have hri : rows[i].length = n := hrow _ (List.getElem_mem hi')
      rw [List.getElem?_eq_getElem hi']
      by_cases hj : j < n
      · have hj' : j < t.length := by omega
        have hti : i < t[j].length := by rw [htrow j hj']; exact hi
        rw [List.getElem?_eq_getElem hj']
        simp only [Option.bind_some]
        rw [List.getElem?_eq_getElem hti, List.getElem?_eq_getElem (by omega : j < rows[i].length),
          htent j hj' i hti hi' (by omega)]
      · rw [List.getElem?_eq_none (by omega : t.length ≤ j)]
        simp only [Option.bind_some, Option.bind_none]
        rw [List.getElem?_eq_none (by omega)]
    · rw [List.getElem?_eq_none (by omega : rows.length ≤ i)]
      by_cases hj : j < t.length
      · rw [List.getElem?_eq_getElem hj]
        simp only [Option.bind_some, Option.bind_none]
        rw [List.getElem?_eq_none (by rw [htrow j hj]; omega)]
      · rw [List.getElem?_eq_none (by omega : t.length ≤ j)]; simp
  · rw [transposeList_ok_iff]
    cases ht : t with
    | nil => rw [ht] at htlen; simp at htlen; omega
    | cons first rest =>
      have hf : first.length = m := by
        have := htrow 0 (by omega)
        simpa [ht] using this
      refine ⟨first, rest, rfl, by omega, ?_⟩
      intro i hi
      rw [← ht, columnAt_ok_iff]
      have hri : rows[i].length = n := hrow _ (List.getElem_mem hi)
      refine ⟨by omega, ?_⟩
      intro k hk hk'
      have hik : i < t[k].length := by rw [htrow k hk]; omega
      rw [← htent k hk i hik hi hk', List.getElem?_eq_getElem hik]

/-- **C03**, ragged tables: if some row is shorter than the first, `IndexError` is raised. -/
theorem c03_transpose_ragged {α : Type _} (first : List α) (rest : List (List α))
    (h : ∃ r ∈ rest, r.length < first.length) :
    transposeList (first :: rest) = .error .indexError := by
  obtain ⟨r, hr, hlt⟩ := h
  simp only [transposeList]
  have hcol : ∀ i e, columnAt (first :: rest) i = .error e → e = .indexError := by
    intro i e he
    obtain ⟨a, _, ha⟩ := exists_of_mapM_error _ _ _ he
    exact itemAt_error ha
  apply mapM_error_of_mem _ _ hcol
  refine ⟨r.length, List.mem_range.2 hlt, .indexError, ?_⟩
  unfold columnAt
  exact mapM_error_of_mem _ _ (fun _ _ h => itemAt_error h) _
    ⟨r, List.mem_cons_of_mem _ hr, .indexError, by simp [itemAt]⟩

example : transposeList [[1, 2, 3], [4, 5, 6]] = .ok [[1, 4], [2, 5], [3, 6]] := by decide
example : transposeList [[1, 2], [3]] = .error .indexError := by decide

/-! ## C04: `slice_to_range` -/

/-- Specification: the positions that `seq[s]` selects in a sequence of length `n`, for
non-negative bounds and positive step. -/
def selected (n : Nat) (start : Nat) (stop : Option Nat) (step : Nat) : List Int :=
  ((List.range n).filter (fun i => start ≤ i ∧ (∀ b ∈ stop, i < b) ∧ (i - start) % step = 0)).map
    (fun i : Nat => (i : Int))

theorem mem_rangeUp {start stop step : Int} (hs : 0 < step) (i : Int) :
    i ∈ rangeUp start stop step ↔ start ≤ i ∧ i < stop ∧ (i - start) % step = 0 := by
  simp only [rangeUp, hs, if_true, List.mem_map, List.mem_range]
  constructor
  · rintro ⟨k, hk, rfl⟩
    have hk' : (k : Int) < (stop - start + step - 1) / step := by omega
    have h0 : (0 : Int) ≤ k * step := by positivity
    refine ⟨by omega, ?_, ?_⟩
    · have := Int.mul_le_of_le_ediv hs (by omega : (k : Int) + 1 ≤ (stop - start + step - 1) / step)
      have : ((k : Int) + 1) * step = k * step + step := by ring
      omega
    · have : start + (k : Int) * step - start = k * step := by ring
      rw [this]; exact Int.mul_emod_left _ _
  · rintro ⟨h1, h2, h3⟩
    obtain ⟨q, hq⟩ := Int.dvd_of_emod_eq_zero h3
    have hq0 : 0 ≤ q := by
      by_contra hneg
      have : step * q < 0 := by nlinarith
      omega
    refine ⟨q.toNat, ?_, ?_⟩
    · have : q + 1 ≤ (stop - start + step - 1) / step := by
        apply Int.le_ediv_of_mul_le hs
        have : (q + 1) * step = step * q + step := by ring
        omega
      omega
    · have : ((q.toNat : Nat) : Int) = q := Int.toNat_of_nonneg hq0
      rw [this]
      have : q * step = step * q := by ring
      omega

theorem pairwise_rangeUp {start stop step : Int} (hs : 0 < step) :
    (rangeUp start stop step).Pairwise (· < ·) := by
  simp only [rangeUp, hs, if_true]
  rw [List.pairwise_map]
  apply List.Pairwise.imp _ (List.pairwise_lt_range)
  intro a b hab
  have : (a : Int) < b := by exact_mod_cast hab
  nlinarith

theorem selected_pairwise (n start stop step) : (selected n start stop step).Pairwise (· < ·) := by
  unfold selected
  rw [List.pairwise_map]
  apply List.Pairwise.imp _ ((List.pairwise_lt_range).sublist List.filter_sublist)
  intro a b hab
  exact_mod_cast hab

theorem eq_of_pairwise_lt {l₁ l₂ : List Int} (h₁ : l₁.Pairwise (· < ·)) (h₂ : l₂.Pairwise (· < ·))
    (h : ∀ a, a ∈ l₁ ↔ a ∈ l₂) : l₁ = l₂ := by
  have n₁ : l₁.Nodup := h₁.imp (fun h => by omega)
  have n₂ : l₂.Nodup := h₂.imp (fun h => by omega)
  exact List.Perm.eq_of_pairwise (fun a b _ _ h h' => by omega) h₁ h₂
    ((List.perm_ext_iff_of_nodup n₁ n₂).2 h)

/-- **C04** (partial: the slice's own stop must not be the literal `0`, see the counterexample). The range
has the positions that the slice selects, in the same order. -/
theorem c04_slice_to_range_partial (n : Nat) (start : Option Nat) (stop : Option Nat)
    (step : Option Nat) (hstep : ∀ k ∈ step, 0 < k) (hstop : ∀ b ∈ stop, b ≤ n ∧ b ≠ 0) :
    sliceToRange ⟨start.map (↑), stop.map (↑), step.map (↑)⟩ n
      = selected n (start.getD 0) stop (step.getD 1) := by
  have e1 : orElseInt (start.map (fun (x : Nat) => (x : Int))) 0 = ((start.getD 0 : Nat) : Int) := by
    cases start with
    | none => rfl
    | some a => simp only [Option.map_some, orElseInt, Option.getD_some]; split <;> simp_all
  have e2 : orElseInt (step.map (fun (x : Nat) => (x : Int))) 1 = ((step.getD 1 : Nat) : Int) := by
    cases step with
    | none => rfl
    | some a =>
      have := hstep a rfl
      simp only [Option.map_some, orElseInt, Option.getD_some]; split
      · omega
      · rfl
  have e3 : orElseInt (stop.map (fun (x : Nat) => (x : Int))) n = ((stop.getD n : Nat) : Int) := by
    cases stop with
    | none => rfl
    | some a =>
      have := hstop a rfl
      simp only [Option.map_some, orElseInt, Option.getD_some]; split
      · omega
      · rfl
  have hpos : (0 : Int) < ((step.getD 1 : Nat) : Int) := by
    cases step with
    | none => simp
    | some a => have := hstep a rfl; simpa using this
  unfold sliceToRange
  simp only [e1, e2, e3]
  apply eq_of_pairwise_lt (pairwise_rangeUp hpos) (selected_pairwise _ _ _ _)
  intro i
  rw [mem_rangeUp hpos]
  simp only [selected, List.mem_map, List.mem_filter, List.mem_range, decide_eq_true_eq]
  have hb : ∀ j : Nat, (j < n ∧ ∀ b ∈ stop, j < b) ↔ j < stop.getD n := by
    intro j
    cases stop with
    | none => simp
    | some b => have := hstop b rfl; simp; omega
  constructor
  · rintro ⟨h1, h2, h3⟩
    have h0 : 0 ≤ i := le_trans (Int.natCast_nonneg _) h1
    obtain ⟨j, rfl⟩ := Int.eq_ofNat_of_zero_le h0
    have hj1 : start.getD 0 ≤ j := by exact_mod_cast h1
    have hj := (hb j).2 (by exact_mod_cast h2)
    refine ⟨j, ⟨hj.1, hj1, hj.2, ?_⟩, rfl⟩
    have : ((j : Int) - ((start.getD 0 : Nat) : Int)) = ((j - start.getD 0 : Nat) : Int) := by omega
    rw [this] at h3
    exact_mod_cast h3
  · rintro ⟨j, ⟨hjn, h1, h2, h3⟩, rfl⟩
    refine ⟨by exact_mod_cast h1, by exact_mod_cast (hb j).1 ⟨hjn, h2⟩, ?_⟩
    have : ((j : Int) - ((start.getD 0 : Nat) : Int)) = ((j - start.getD 0 : Nat) : Int) := by omega
    rw [this]
    exact_mod_cast h3

example : sliceToRange ⟨some 1, none, some 2⟩ 6 = [1, 3, 5] := by decide
example : selected 6 1 none 2 = [1, 3, 5] := by decide

/-- **C04** fails for an explicit stop of zero: `slice_to_range(slice(0, 0), stop=3)` is
`range(0, 3)` although the slice selects nothing. -/
theorem c04_slice_to_range_counterexample :
    sliceToRange ⟨some 0, some 0, none⟩ 3 = [0, 1, 2] ∧ selected 3 0 (some 0) 1 = [] := by decide

/-! ## C05: `show_at_most` -/

theorem getItem_last {α : Type _} (xs : List α) (h : xs ≠ []) :
    getItem xs (-1) = .ok (xs.getLast h) := by
  have hl : 0 < xs.length := List.length_pos_iff.2 h
  unfold getItem
  have h1 : ¬ ((-1 : Int) + xs.length < 0) := by omega
  have h2 : ((-1 : Int) + xs.length).toNat = xs.length - 1 := by omega
  simp only [show ((-1 : Int) < 0) = True by simp, if_true, h1, if_false, h2]
  rw [List.getElem?_eq_getElem (by omega), List.getLast_eq_getElem]

/-- **C05** (partial: `n ≥ 1`). With at most `n` members everything is shown; otherwise
the first `n - 1` members, an ellipsis, and the last member are shown: exactly `n` members. -/
theorem c05_show_at_most_partial {α : Type _} (n : Int) (hn : 1 ≤ n) (seq : List α) :
    (seq.length ≤ n → showAtMost n seq = .ok (seq.map some))
    ∧ (n < seq.length → ∃ shown l, showAtMost n seq = .ok (shown.map some ++ [none, some l])
        ∧ shown = seq.take (n - 1).toNat ∧ shown.length + 1 = n
        ∧ seq.getLast? = some l) := by
  constructor
  · intro h; simp [showAtMost, h]
  · intro h
    have hne : seq ≠ [] := by rintro rfl; simp at h; omega
    refine ⟨seq.take (n - 1).toNat, seq.getLast hne, ?_, rfl, ?_, List.getLast?_eq_getLast_of_ne_nil hne⟩
    · have h1 : ¬ ((seq.length : Int) ≤ n) := by omega
      have h2 : ¬ (n - 1 < 0) := by omega
      simp [showAtMost, h1, getItem_last seq hne, prefixTo, h2, bind, Except.bind, pure, Except.pure]
    · simp; omega

example : showAtMost 3 [1, 2, 3, 4, 5] = .ok [some 1, some 2, none, some 5] := by decide

/-- **C05** fails for `n = 0`: everything is shown, with a misleading ellipsis. -/
theorem c05_show_at_most_counterexample :
    showAtMost 0 [1, 2, 3] = .ok [some 1, some 2, none, some 3] := by decide

/-! ## C06: `Bijection` -/

section
variable {κ ν : Type _} [DecidableEq κ] [DecidableEq ν]

theorem mkBijection_ok_iff (m : Dict κ ν) (b : Dict κ ν) :
    mkBijection m = .ok b ↔ b = m ∧ m.values.Nodup := by
  unfold mkBijection
  have hle : m.values.dedup.length ≤ m.values.length := (List.dedup_sublist _).length_le
  have hlen : m.values.length = m.keys.length := by simp [Dict.values, Dict.keys]
  have hiff : m.values.Nodup ↔ m.values.dedup.length = m.values.length := by
    constructor
    · intro h; rw [List.dedup_eq_self.2 h]
    · intro h; exact List.dedup_eq_self.1 ((List.dedup_sublist _).eq_of_length h)
  simp only
  by_cases h : m.values.Nodup
  · have := hiff.1 h
    rw [if_neg (by omega), if_neg (by omega)]
    simp [h, eq_comm]
  · have : ¬ (m.values.dedup.length = m.values.length) := fun h' => h (hiff.2 h')
    rw [if_pos (by omega)]
    simp [h]

/-- **C06.** A mapping is accepted exactly when its values are pairwise distinct; then the inverse
exists, looks up every value's key, has no other keys, and inverting twice is the identity. -/
theorem c06_bijection (m : Dict κ ν) (hm : m.keys.Nodup) :
    ((∃ b, mkBijection m = .ok b) ↔
        ∀ k k' v, m.get? k = some v → m.get? k' = some v → k = k')
    ∧ (∀ b, mkBijection m = .ok b → ∃ i, invert b = .ok i
        ∧ (∀ k v, i.get? v = some k ↔ m.get? k = some v)
        ∧ invert i = .ok m) := by
  have hvals : m.values.Nodup ↔ ∀ k k' v, m.get? k = some v → m.get? k' = some v → k = k' := by
    constructor
    · intro h k k' v h1 h2
      have h1 := Dict.mem_of_get? h1
      have h2 := Dict.mem_of_get? h2
      have : (k, v) = (k', v) := List.inj_on_of_nodup_map h h1 h2 rfl
      exact congrArg Prod.fst this
    · intro h
      apply List.Nodup.map_on _ (List.Nodup.of_map _ hm)
      rintro ⟨k, v⟩ h1 ⟨k', v'⟩ h2 heq
      simp only at heq; subst heq
      have := h k k' v (Dict.get?_of_mem hm h1) (Dict.get?_of_mem hm h2)
      rw [this]
  constructor
  · rw [← hvals]
    constructor
    · rintro ⟨b, hb⟩; exact ((mkBijection_ok_iff m b).1 hb).2
    · intro h; exact ⟨m, (mkBijection_ok_iff m m).2 ⟨rfl, h⟩⟩
  · intro b hb
    obtain ⟨rfl, hv⟩ := (mkBijection_ok_iff m b).1 hb
    have hk : (Dict.keys (b.map (fun p => (p.2, p.1)))) = b.values := by
      simp [Dict.keys, Dict.values, List.map_map, Function.comp_def]
    have hof : Dict.ofPairs (b.map (fun p => (p.2, p.1))) = b.map (fun p => (p.2, p.1)) :=
      Dict.ofPairs_of_nodup (by rw [hk]; exact hv)
    have hvv : Dict.values (b.map (fun p => (p.2, p.1))) = b.keys := by
      simp [Dict.keys, Dict.values, List.map_map, Function.comp_def]
    refine ⟨b.map (fun p => (p.2, p.1)), ?_, ?_, ?_⟩
    · unfold invert; rw [hof, mkBijection_ok_iff]; exact ⟨rfl, by rw [hvv]; exact hm⟩
    · intro k v
      rw [Dict.get?_eq_some_iff (by rw [hk]; exact hv), Dict.get?_eq_some_iff hm]
      simp
    · have hback : (b.map (fun p => (p.2, p.1))).map (fun p => (p.2, p.1)) = b := by
        simp [List.map_map, Function.comp_def]
      unfold invert
      rw [hback, Dict.ofPairs_of_nodup hm, mkBijection_ok_iff]
      exact ⟨rfl, hv⟩

end

example : mkBijection [("a", 1), ("b", 2)] = .ok [("a", 1), ("b", 2)] := by decide
example : invert [("a", 1), ("b", 2)] = .ok [(1, "a"), (2, "b")] := by decide
example : mkBijection [("a", 1), ("b", 1)] = .error (.named "InjectiveTypeError") := by decide

/-! ## C07: `ObjectRegistry` -/

/-- One `register` call: the object, its own name, and the optional user name. -/
structure RegCall (α : Type _) where
  obj : α
  objName : List Char
  user : Option (List Char)

/-- A history of registrations without overwriting; collects (key returned, object). -/
def Registry.run {α : Type _} (r : Registry α) : List (RegCall α) → List (List Char × α) × Registry α
  | [] => ([], r)
  | c :: cs =>
    let (key, r') := r.register c.obj c.objName c.user false
    let (log, r'') := r'.run cs
    ((key, c.obj) :: log, r'')

/-- **C07** fails: a user-chosen name that looks like a generated one is silently replaced.
The history registers `f` (object 1), then an object under the name `f_1` (object 2), then another
`f` (object 3): object 2 is gone. -/
theorem c07_registry_counterexample :
    let r : Registry Nat := ⟨[], 1⟩
    let (log, r') := r.run [⟨1, "f".toList, none⟩, ⟨2, "g".toList, some "f_1".toList⟩,
      ⟨3, "f".toList, none⟩]
    ("f_1".toList, 2) ∈ log ∧ r'.items.get? "f_1".toList = some 3 := by decide

/-- Specification: a name that has the shape of a generated key. -/
def LooksGenerated (name : List Char) : Prop := ∃ p n, name = suffixed p n

theorem append_cons_inj_of_not_mem {α : Type _} {a : α} :
    ∀ {l₁ l₂ r₁ r₂ : List α}, a ∉ l₁ → a ∉ l₂ → l₁ ++ a :: r₁ = l₂ ++ a :: r₂ → l₁ = l₂ ∧ r₁ = r₂
  | [], [], _, _, _, _, h => by simpa using h
  | [], y :: l₂, _, _, _, h2, h => by simp at h; simp [h.1] at h2
  | x :: l₁, [], _, _, h1, _, h => by simp at h; simp [h.1] at h1
  | x :: l₁, y :: l₂, r₁, r₂, h1, h2, h => by
    simp only [List.cons_append, List.cons.injEq] at h
    have := append_cons_inj_of_not_mem (l₁ := l₁) (l₂ := l₂) (by simp at h1; tauto)
      (by simp at h2; tauto) h.2
    exact ⟨by rw [h.1, this.1], this.2⟩

theorem suffixed_inj {p q : List Char} {m n : Nat} (h : suffixed p m = suffixed q n) :
    p = q ∧ m = n := by
  unfold suffixed at h
  have h' := congrArg List.reverse h
  simp only [List.reverse_append, List.reverse_cons, List.append_assoc, List.singleton_append] at h'
  have := append_cons_inj_of_not_mem (a := '_') (by simp) (by simp) h'
  refine ⟨List.reverse_injective this.2, ?_⟩
  have h2 := List.reverse_injective this.1
  have := congrArg (fun l => Nat.ofDigitChars 10 l 0) h2
  simpa [Nat.ofDigitChars_ten_toDigits] using this

/-- Invariant: every generated-looking key carries a number below the counter. -/
def Registry.Fresh {α : Type _} (r : Registry α) : Prop :=
  ∀ p n, suffixed p n ∈ r.items.keys → n < r.count

theorem register_fresh {α : Type _} (r : Registry α) (hr : r.Fresh) (c : RegCall α)
    (hn : ¬ LooksGenerated c.objName) (hu : ∀ u ∈ c.user, ¬ LooksGenerated u) :
    let p := r.register c.obj c.objName c.user false
    p.1 ∉ r.items.keys ∧ p.2.Fresh ∧ p.2.items = r.items.set p.1 c.obj := by
  have hdef : (r.defaultKey c.objName).1 ∉ r.items.keys
      ∧ ∀ p n, (suffixed p n = (r.defaultKey c.objName).1 ∨ suffixed p n ∈ r.items.keys) →
          n < (r.defaultKey c.objName).2 := by
    unfold Registry.defaultKey
    split
    · next h =>
      refine ⟨fun hm => by have := hr _ _ hm; simp at this, ?_⟩
      rintro p n (h' | h')
      · have := (suffixed_inj h').2; simp [this]
      · have := hr p n h'; simp; omega
    · next h =>
      refine ⟨fun hm => h ((Dict.has_iff_mem_keys _ _).2 hm), ?_⟩
      rintro p n (h' | h')
      · exact absurd ⟨p, n, h'.symm⟩ hn
      · exact hr p n h'
  have hkey : (r.mappingKey c.objName c.user false).1 ∉ r.items.keys
      ∧ ∀ p n, (suffixed p n = (r.mappingKey c.objName c.user false).1
          ∨ suffixed p n ∈ r.items.keys) → n < (r.mappingKey c.objName c.user false).2 := by
    unfold Registry.mappingKey
    cases huser : c.user with
    | none => exact hdef
    | some u =>
      simp only
      split
      · next h =>
        simp at h
        refine ⟨fun hm => by
          have := (Dict.has_iff_mem_keys r.items u).2 hm
          simp [this] at h, ?_⟩
        rintro p n (h' | h')
        · exact absurd ⟨p, n, h'.symm⟩ (hu u huser)
        · exact hr p n h'
      · exact hdef
  refine ⟨hkey.1, ?_, rfl⟩
  intro p n hm
  have hm' : suffixed p n ∈ (r.items.set (r.mappingKey c.objName c.user false).1 c.obj).keys := hm
  rw [Dict.mem_keys_set] at hm'
  exact hkey.2 p n hm'

/-- **C07** (partial: no initial key, object name or user name may look like a generated key).
After any history of registrations without overwriting, every object is retrievable under the key
returned by its own registration, and so is everything that was there before. -/
theorem c07_registry_partial {α : Type _} (base : Dict (List Char) α)
    (hbase : ∀ k ∈ base.keys, ¬ LooksGenerated k) (cs : List (RegCall α))
    (hcs : ∀ c ∈ cs, ¬ LooksGenerated c.objName ∧ ∀ u ∈ c.user, ¬ LooksGenerated u) :
    let r : Registry α := ⟨base, 1⟩
    (∀ k v, base.get? k = some v → (r.run cs).2.items.get? k = some v)
    ∧ (∀ k v, (k, v) ∈ (r.run cs).1 → (r.run cs).2.items.get? k = some v)
    ∧ (r.run cs).1.map (·.2) = cs.map (·.obj) := by
  have hfresh : (⟨base, 1⟩ : Registry α).Fresh := fun p n h => absurd ⟨p, n, rfl⟩ (hbase _ h)
  suffices H : ∀ (cs : List (RegCall α)) (r : Registry α), r.Fresh →
      (∀ c ∈ cs, ¬ LooksGenerated c.objName ∧ ∀ u ∈ c.user, ¬ LooksGenerated u) →
      (∀ k v, r.items.get? k = some v → (r.run cs).2.items.get? k = some v)
      ∧ (∀ k v, (k, v) ∈ (r.run cs).1 → (r.run cs).2.items.get? k = some v)
      ∧ (r.run cs).1.map (·.2) = cs.map (·.obj) from H cs _ hfresh hcs
  clear hcs hfresh hbase base cs
  intro cs
  induction cs with
  | nil => intro r _ _; simp [Registry.run]
  | cons c cs ih =>
    intro r hr hcs
    have hc := hcs c (by simp)
    have hreg := register_fresh r hr c hc.1 hc.2
    have hih := ih (r.register c.obj c.objName c.user false).2 hreg.2.1
      (fun c' h => hcs c' (List.mem_cons_of_mem _ h))
    simp only [Registry.run]
    refine ⟨?_, ?_, ?_⟩
    · intro k v hk
      apply hih.1
      rw [hreg.2.2, Dict.get?_set_ne]
      · exact hk
      · rintro rfl
        exact hreg.1 ((Dict.get?_isSome_iff _ _).1 (by simp [hk]))
    · intro k v hk
      rcases List.mem_cons.1 hk with hk | hk
      · injection hk with hk hv
        subst hk; subst hv
        apply hih.1
        rw [hreg.2.2]; simp
      · exact hih.2.1 k v hk
    · simp [hih.2.2]

example : (Registry.run (⟨[("f".toList, 0)], 1⟩ : Registry Nat)
      [⟨1, "f".toList, none⟩, ⟨2, "f".toList, none⟩]).1
    = [("f_1".toList, 1), ("f_2".toList, 2)] := by decide

/-! ## C08, C09: `Table` -/

section
variable {κ ν : Type _} [DecidableEq κ] [DecidableEq ν]

/-- Specification: entry `e` carries all the requested pairs. -/
def Carries (request : List (κ × ν)) (e : Dict κ ν) : Prop :=
  ∀ p ∈ request, e.get? p.1 = some p.2

instance (request : List (κ × ν)) (e : Dict κ ν) : Decidable (Carries request e) :=
  inferInstanceAs (Decidable (∀ p ∈ request, e.get? p.1 = some p.2))

/-- The entries carrying the whole request, in table order. -/
def matching (entries : List (Dict κ ν)) (request : List (κ × ν)) : List (Dict κ ν) :=
  entries.filter (fun e => Carries request e)

theorem narrow_matching (entries : List (Dict κ ν)) (pre : List (κ × ν)) (k : κ) (v : ν) :
    narrow (matching entries pre) k v = matching entries (pre ++ [(k, v)]) := by
  unfold narrow matching
  rw [List.filter_filter]
  apply List.filter_congr
  intro e _
  rw [Bool.eq_iff_iff]
  simp only [Bool.and_eq_true, decide_eq_true_eq]
  simp only [Carries, List.mem_append, List.mem_singleton]
  constructor
  · rintro ⟨h1, h2⟩ p (hp | rfl)
    · exact h2 p hp
    · exact h1
  · intro h
    exact ⟨h (k, v) (Or.inr rfl), fun p hp => h p (Or.inl hp)⟩

theorem tableLoop_strict (entries : List (Dict κ ν)) (hne : entries ≠ []) (total : Nat)
    (rest : List (κ × ν)) (hkeys : ∀ p ∈ rest, ∀ e ∈ entries, e.has p.1 = true) :
    ∀ (n : Nat) (pre : List (κ × ν)),
      tableLoop entries true total n (matching entries pre) rest
        = match matching entries (pre ++ rest) with
          | [e] => .ok e
          | _ => .error (.named "TableLookupError") := by
  induction rest with
  | nil => intro n pre; simp only [tableLoop, List.append_nil]; cases matching entries pre with
    | nil => rfl
    | cons a l => cases l <;> rfl
  | cons p rest ih =>
    intro n pre
    obtain ⟨k, v⟩ := p
    have hk : tableHasKey entries k = .ok true := by
      unfold tableHasKey
      cases entries with
      | nil => exact absurd rfl hne
      | cons a l =>
        simp only [Except.ok.injEq, List.all_eq_true]
        exact fun e he => hkeys (k, v) (by simp) e he
    simp only [tableLoop, hk, bind, Except.bind, Bool.not_true, if_true]
    rw [narrow_matching, if_neg (by simp), ih (fun p hp => hkeys p (List.mem_cons_of_mem _ hp))]
    simp

/-- **C08.** In a non-empty table and for keys common to all entries, strict lookup returns the
entry iff exactly one entry carries every requested pair, and raises `TableLookupError`
otherwise. -/
theorem c08_strict (entries : List (Dict κ ν)) (hne : entries ≠ []) (request : List (κ × ν))
    (hkeys : ∀ p ∈ request, ∀ e ∈ entries, e.has p.1 = true) :
    (∀ e, tableCall entries true request = .ok e ↔ matching entries request = [e])
    ∧ ((∀ e, matching entries request ≠ [e]) →
        tableCall entries true request = .error (.named "TableLookupError")) := by
  have h := tableLoop_strict entries hne request.length request hkeys 0 []
  have h0 : matching entries ([] : List (κ × ν)) = entries := by
    unfold matching; apply List.filter_eq_self.2; intro e _; simp [Carries]
  rw [h0] at h
  simp only [List.nil_append] at h
  unfold tableCall
  constructor
  · intro e
    rw [h]
    cases hm : matching entries request with
    | nil => simp
    | cons a l => cases l with
      | nil => simp
      | cons b l => simp
  · intro hall
    rw [h]
    cases hm : matching entries request with
    | nil => simp
    | cons a l => cases l with
      | nil => exact absurd hm (hall a)
      | cons b l => rfl

/-- **C08**, unknown keys: a requested key missing from some entry makes any lookup raise
`TableKeyError` unless an earlier pair already settled it; in strict mode it always does. -/
theorem c08_strict_unknown_key (entries : List (Dict κ ν)) (hne : entries ≠ [])
    (request : List (κ × ν)) (h : ∃ p ∈ request, ∃ e ∈ entries, e.has p.1 = false) :
    tableCall entries true request = .error (.named "TableKeyError") := by
  unfold tableCall
  generalize request.length = total
  suffices H : ∀ (rest : List (κ × ν)) n subset, (∃ p ∈ rest, ∃ e ∈ entries, e.has p.1 = false) →
      tableLoop entries true total n subset rest = .error (.named "TableKeyError") from
    H request 0 entries h
  intro rest
  induction rest with
  | nil => intro n subset h; simp at h
  | cons p rest ih =>
    intro n subset h
    obtain ⟨k, v⟩ := p
    have hk : tableHasKey entries k = .ok (entries.all (fun e => e.has k)) := by
      unfold tableHasKey
      cases entries with
      | nil => exact absurd rfl hne
      | cons a l => rfl
    simp only [tableLoop, hk, bind, Except.bind]
    cases hall : entries.all (fun e => e.has k) with
    | false => simp
    | true =>
      simp only [Bool.not_true, if_true]
      rw [if_neg (by simp)]
      apply ih
      obtain ⟨q, hq, e, he, hf⟩ := h
      rcases List.mem_cons.1 hq with rfl | hq
      · rw [List.all_eq_true] at hall
        have := hall e he
        simp [hf] at this
      · exact ⟨q, hq, e, he, hf⟩

example : tableCall [[("a", 1), ("b", 2)], [("a", 1), ("b", 3)]] true [("a", 1), ("b", 3)]
    = .ok [("a", 1), ("b", 3)] := by decide
example : tableCall [[("a", 1), ("b", 2)], [("a", 1), ("b", 3)]] true [("a", 1)]
    = .error (.named "TableLookupError") := by decide

/-- **C09** fails in its converse: four entries, one of which is the only match for the whole
request, are reported as ambiguous by progressive lookup. -/
theorem c09_progressive_counterexample :
    let t := [[("a", 1), ("b", 9)], [("a", 1), ("b", 8)], [("a", 2), ("b", 9)], [("a", 3), ("b", 9)]]
    tableCall t true [("a", 1), ("b", 9)] = .ok [("a", 1), ("b", 9)]
    ∧ tableCall t false [("a", 1), ("b", 9)] = .error (.named "AmbiguousRequestError") := by decide

/-- The progressive search also returns an entry that contradicts a later pair of the request,
because it stops at the first pair that leaves one candidate. -/
theorem c09_progressive_ignores_later_counterexample :
    let t := [[("a", 1), ("b", 9)], [("a", 2), ("b", 8)]]
    tableCall t false [("a", 1), ("b", 8)] = .ok [("a", 1), ("b", 9)]
    ∧ tableCall t true [("a", 1), ("b", 8)] = .error (.named "TableLookupError") := by decide

theorem tableLoop_progressive (entries : List (Dict κ ν)) (total : Nat) (e : Dict κ ν)
    (rest : List (κ × ν)) : ∀ (n : Nat) (pre : List (κ × ν)),
      tableLoop entries false total n (matching entries pre) rest = .ok e →
      ∃ a b, rest = a ++ b ∧ a ≠ [] ∧ matching entries (pre ++ a) = [e] := by
  induction rest with
  | nil => intro n pre h; simp [tableLoop] at h
  | cons p rest ih =>
    intro n pre h
    obtain ⟨k, v⟩ := p
    simp only [tableLoop, bind, Except.bind] at h
    split at h
    · cases h
    · split at h
      · cases h
      · rw [narrow_matching, if_neg (by simp)] at h
        split at h
        · cases h
        · split at h
          · next e' hm =>
            injection h with h; subst h
            exact ⟨[(k, v)], rest, rfl, by simp, hm⟩
          · obtain ⟨a, b, rfl, _, hm⟩ := ih _ _ h
            exact ⟨(k, v) :: a, b, rfl, by simp, by simpa using hm⟩

/-- **C09** (partial: soundness; the converse fails, see the counterexamples).
An entry returned by progressive lookup is the only entry of the table matching a non-empty
initial part of the request, and strict lookup for the full request either returns the same entry
or finds none. -/
theorem c09_progressive_partial (entries : List (Dict κ ν)) (request : List (κ × ν))
    (e : Dict κ ν) (h : tableCall entries false request = .ok e) :
    (∃ a b, request = a ++ b ∧ a ≠ [] ∧ matching entries a = [e])
    ∧ (∀ e', tableCall entries true request = .ok e' → e' = e) := by
  have h0 : matching entries ([] : List (κ × ν)) = entries := by
    unfold matching; apply List.filter_eq_self.2; intro e _; simp [Carries]
  have h1 : ∃ a b, request = a ++ b ∧ a ≠ [] ∧ matching entries a = [e] := by
    have := tableLoop_progressive entries request.length e request 0 []
    rw [h0] at this
    simpa using this h
  refine ⟨h1, ?_⟩
  intro e' he'
  obtain ⟨a, b, rfl, ha, hm⟩ := h1
  have hne : entries ≠ [] := by rintro rfl; simp [matching] at hm
  by_cases hk : ∀ p ∈ a ++ b, ∀ e ∈ entries, e.has p.1 = true
  · have := ((c08_strict entries hne (a ++ b) hk).1 e').1 he'
    have h2 : e' ∈ matching entries (a ++ b) := by simp [this]
    have h3 : e' ∈ matching entries a := by
      simp only [matching, List.mem_filter, decide_eq_true_eq] at h2 ⊢
      exact ⟨h2.1, fun p hp => h2.2 p (List.mem_append_left _ hp)⟩
    rw [hm] at h3; simpa using h3
  · push Not at hk
    obtain ⟨p, hp, e0, he0, hf⟩ := hk
    rw [c08_strict_unknown_key entries hne (a ++ b) ⟨p, hp, e0, he0, by simpa using hf⟩] at he'
    cases he'

theorem tableLoop_complete (entries : List (Dict κ ν)) (hne : entries ≠ []) (e : Dict κ ν)
    (total : Nat) (init : List (κ × ν)) (last : κ × ν)
    (hlast : (matching entries [last]).length ≤ total) :
    ∀ (pre : List (κ × ν)), (∀ p ∈ init ++ [last], ∀ e ∈ entries, e.has p.1 = true) →
      matching entries (pre ++ (init ++ [last])) = [e] →
      total = pre.length + (init ++ [last]).length →
      tableLoop entries false total pre.length (matching entries pre) (init ++ [last]) = .ok e := by
  have hcommon : ∀ k, (∀ e ∈ entries, e.has k = true) → tableHasKey entries k = .ok true := by
    intro k hk
    unfold tableHasKey
    cases entries with
    | nil => exact absurd rfl hne
    | cons a t =>
      simp only [Except.ok.injEq, List.all_eq_true]
      exact hk
  induction init with
  | nil =>
    intro pre hk hm htot
    obtain ⟨k, v⟩ := last
    have h1 := hcommon k (hk (k, v) (by simp))
    have h0 : matching entries ([] : List (κ × ν)) = entries := by
      unfold matching; apply List.filter_eq_self.2; intro e _; simp [Carries]
    have hc : countValue entries k v = (matching entries [(k, v)]).length := by
      have := narrow_matching entries [] k v
      rw [h0] at this
      simp only [List.nil_append] at this
      unfold countValue; rw [this]
    simp only [List.nil_append, tableLoop, h1, bind, Except.bind, narrow_matching, hc]
    simp only [List.nil_append, List.length_singleton] at htot hm
    rw [if_neg (by simp), if_neg (by simp), if_neg (by simp; omega)]
    simp [hm]
  | cons p init ih =>
    intro pre hk hm htot
    obtain ⟨k, v⟩ := p
    have h1 := hcommon k (hk (k, v) (by simp))
    have hrec := ih (pre ++ [(k, v)]) (fun q hq => hk q (List.mem_cons_of_mem _ hq))
      (by simpa using hm) (by simp at htot ⊢; omega)
    rw [List.length_append, List.length_singleton] at hrec
    rw [List.cons_append]
    simp only [tableLoop, h1, bind, Except.bind, narrow_matching]
    have htot' : ¬ (total = pre.length + 1) := by simp at htot; omega
    rw [if_neg (by simp), if_neg (by simp), if_neg (by simp [htot'])]
    split
    · next e' hm' =>
      have : e ∈ matching entries (pre ++ [(k, v)]) := by
        have he : e ∈ matching entries (pre ++ ((k, v) :: init ++ [last])) := by rw [hm]; simp
        simp only [matching, List.mem_filter, decide_eq_true_eq] at he ⊢
        refine ⟨he.1, fun q hq => he.2 q ?_⟩
        simp at hq ⊢
        tauto
      rw [hm'] at this
      simp at this; rw [this]
    · exact hrec

/-- **C09** (partial completeness). When strict lookup succeeds and the last pair of the request
is carried by no more entries than the request has pairs, progressive lookup returns the same
entry. In particular the two modes agree whenever a single pair is requested. -/
theorem c09_progressive_complete_partial (entries : List (Dict κ ν)) (init : List (κ × ν))
    (last : κ × ν) (e : Dict κ ν) (h : tableCall entries true (init ++ [last]) = .ok e)
    (hlast : (matching entries [last]).length ≤ (init ++ [last]).length) :
    tableCall entries false (init ++ [last]) = .ok e := by
  have hne : entries ≠ [] := by
    rintro rfl
    unfold tableCall at h
    cases init <;> simp [tableLoop, tableHasKey, bind, Except.bind] at h
  by_cases hk : ∀ p ∈ init ++ [last], ∀ e ∈ entries, e.has p.1 = true
  · have hm := ((c08_strict entries hne _ hk).1 e).1 h
    have h0 : matching entries ([] : List (κ × ν)) = entries := by
      unfold matching; apply List.filter_eq_self.2; intro e _; simp [Carries]
    have := tableLoop_complete entries hne e _ init last hlast [] hk (by simpa using hm) (by simp)
    rw [h0] at this
    exact this
  · push Not at hk
    obtain ⟨p, hp, e0, he0, hf⟩ := hk
    rw [c08_strict_unknown_key entries hne _ ⟨p, hp, e0, he0, by simpa using hf⟩] at h
    cases h

example : tableCall [[("a", 1), ("b", 2)], [("a", 1), ("b", 3)]] false [("a", 1), ("b", 3)]
    = .ok [("a", 1), ("b", 3)] := by decide

/-- `Table.find`: the entries holding the value, all of them, or an error that says why not. -/
theorem c08_find (entries : List (Dict κ ν)) (value : ν) :
    (∀ e, tableFind entries value true = .ok [e] ↔
        entries.filter (fun e => value ∈ e.values) = [e])
    ∧ (∀ es, tableFind entries value false = .ok es ↔
        (es = entries.filter (fun e => value ∈ e.values) ∧ es ≠ [])) := by
  unfold tableFind
  generalize entries.filter (fun e => value ∈ e.values) = found
  match found with
  | [] =>
    refine ⟨fun e => by simp, fun es => ?_⟩
    constructor
    · intro h; cases h
    · rintro ⟨rfl, h⟩; exact absurd rfl h
  | [a] =>
    refine ⟨fun e => by simp, fun es => ?_⟩
    simp only [Except.ok.injEq]
    constructor
    · rintro rfl; simp
    · rintro ⟨rfl, _⟩; rfl
  | a :: b :: l =>
    refine ⟨fun e => by simp, fun es => ?_⟩
    simp only [Bool.false_eq_true, if_false, Except.ok.injEq]
    constructor
    · rintro rfl; simp
    · rintro ⟨rfl, _⟩; rfl

end

/-! ## C10: `Connections` -/

section
variable {κ : Type _} [DecidableEq κ]

/-- Specification: the weight of the reverse edge. -/
def reciprocal : Option Rat → Option Rat
  | none => none
  | some w => if w = 0 then some 0 else some w⁻¹

theorem inverseWeight_eq (w : Option Rat) : inverseWeight w = reciprocal w := by
  cases w with
  | none => rfl
  | some w => simp only [inverseWeight, reciprocal]; split <;> simp_all

theorem reciprocal_reciprocal (w : Option Rat) : reciprocal (reciprocal w) = w := by
  cases w with
  | none => rfl
  | some w =>
    by_cases h : w = 0
    · simp [reciprocal, h]
    · simp [reciprocal, h]

theorem get?_addEdge (c : Dict (κ × κ) (Option Rat)) (e : κ × κ) (w : Option Rat) (e' : κ × κ) :
    (addEdge c e w).get? e' = if e = e' then some ((c.get? e).getD w) else c.get? e' := by
  unfold addEdge
  rw [Dict.has_eq_isSome]
  cases h : c.get? e with
  | none =>
    simp only [Option.isSome_none, Bool.false_eq_true, if_false, Dict.get?_set]
    split <;> simp
  | some v =>
    simp only [Option.isSome_some, if_true]
    split
    · next h2 => subst h2; simp [h]
    · rfl

/-- Invariant of the graph: reverse edges with reciprocal weights. -/
def Symmetric (c : Dict (κ × κ) (Option Rat)) : Prop :=
  ∀ a b w, c.get? (a, b) = some w →
    ∃ w', c.get? (b, a) = some w' ∧ (a ≠ b → w' = reciprocal w)

theorem symmetric_addConnection (c : Dict (κ × κ) (Option Rat)) (hc : Symmetric c) (s e : κ)
    (w : Option Rat) : Symmetric (addConnection c s e w) := by
  intro a b v hv
  by_cases hse : s = e
  · subst hse
    simp only [addConnection, get?_addEdge, Prod.mk.injEq] at hv ⊢
    by_cases hab : s = a ∧ s = b
    · obtain ⟨rfl, rfl⟩ := hab
      simp
    · have hba : ¬ (s = b ∧ s = a) := fun h => hab h.symm
      simp only [hab, hba, if_false] at hv ⊢
      exact hc a b v hv
  · have hne1 : ¬ (s = e ∧ e = s) := fun h => hse h.1
    have hne2 : ((s, e) : κ × κ) ≠ (e, s) := by simp; exact fun h _ => hse h
    simp only [addConnection, get?_addEdge, Prod.mk.injEq, hne1, if_false] at hv ⊢
    rw [inverseWeight_eq] at hv ⊢
    -- presence of the two directions agrees, by symmetry
    by_cases h1 : s = a ∧ e = b
    · obtain ⟨rfl, rfl⟩ := h1
      have h2 : ¬ (e = s ∧ s = e) := fun h => hse h.2
      simp only [h2, if_false, true_and, if_true, and_self] at hv ⊢
      refine ⟨_, rfl, fun _ => ?_⟩
      cases hse' : c.get? (s, e) with
      | none =>
        have : c.get? (e, s) = none := by
          cases hes : c.get? (e, s) with
          | none => rfl
          | some u => obtain ⟨w', hw', _⟩ := hc e s u hes; rw [hse'] at hw'; cases hw'
        rw [hse'] at hv; simp at hv; subst hv; simp [this]
      | some u =>
        rw [hse'] at hv; simp at hv; subst hv
        obtain ⟨w', hw', hr⟩ := hc s e u hse'
        simp [hw', hr hse]
    · by_cases h2 : e = a ∧ s = b
      · obtain ⟨rfl, rfl⟩ := h2
        have h3 : ¬ (e = s ∧ s = e) := fun h => h1 h.symm
        simp only [and_self, if_true, h1, h3, if_false] at hv ⊢
        refine ⟨_, rfl, fun _ => ?_⟩
        injection hv with hv
        cases hes : c.get? (e, s) with
        | none =>
          have : c.get? (s, e) = none := by
            cases hse' : c.get? (s, e) with
            | none => rfl
            | some u => obtain ⟨w', hw', _⟩ := hc s e u hse'; rw [hes] at hw'; cases hw'
          rw [hes] at hv; simp at hv; subst hv; simp [this, reciprocal_reciprocal]
        | some u =>
          rw [hes] at hv; simp at hv; subst hv
          obtain ⟨w', hw', hr⟩ := hc e s u hes
          simp [hw', hr (Ne.symm hse)]
      · have h3 : ¬ (e = b ∧ s = a) := fun h => h1 h.symm
        have h4 : ¬ (s = b ∧ e = a) := fun h => h2 h.symm
        simp only [h1, h2, h3, h4, if_false] at hv ⊢
        exact hc a b v hv

/-- The graph after a history of `add_connection` calls. -/
def history (c : Dict (κ × κ) (Option Rat)) (adds : List ((κ × κ) × Option Rat)) :
    Dict (κ × κ) (Option Rat) :=
  adds.foldl (fun c p => addConnection c p.1.1 p.1.2 p.2) c

theorem get?_addConnection_of_some {c : Dict (κ × κ) (Option Rat)} {e : κ × κ} {w}
    (h : c.get? e = some w) (s t : κ) (v) : (addConnection c s t v).get? e = some w := by
  simp only [addConnection, get?_addEdge]
  by_cases h1 : (t, s) = e
  · subst h1
    by_cases h2 : (s, t) = (t, s)
    · simp only [h2, if_true, h, Option.getD_some]
    · simp [h2, h]
  · by_cases h2 : (s, t) = e
    · subst h2; simp [h1, h]
    · simp [h1, h2, h]

/-- **C10.** After any history of additions: every edge has a reverse edge; between distinct nodes
the reverse carries the reciprocal weight; what is present is never changed by later additions;
the connection just added is present; and adjacency lookup lists exactly the outgoing edges. -/
theorem c10_connections (adds : List ((κ × κ) × Option Rat)) :
    (∀ a b w, getWeight (mkConnections adds) a b = .ok w →
        ∃ w', getWeight (mkConnections adds) b a = .ok w' ∧ (a ≠ b → w' = reciprocal w))
    ∧ (∀ more a b w, getWeight (mkConnections adds) a b = .ok w →
        getWeight (mkConnections (adds ++ more)) a b = .ok w)
    ∧ (∀ s t w, ∃ w', getWeight (mkConnections (adds ++ [((s, t), w)])) s t = .ok w'
        ∧ (getWeight (mkConnections adds) s t = .error .keyError → w' = w))
    ∧ (∀ a b w, (getAdjacencies (mkConnections adds) a).get? b = some w ↔
        getWeight (mkConnections adds) a b = .ok w) := by
  have hok : ∀ (c : Dict (κ × κ) (Option Rat)) a b w,
      getWeight c a b = .ok w ↔ c.get? (a, b) = some w := by
    intro c a b w; unfold getWeight; cases c.get? (a, b) <;> simp
  have herr : ∀ (c : Dict (κ × κ) (Option Rat)) a b,
      getWeight c a b = .error .keyError ↔ c.get? (a, b) = none := by
    intro c a b; unfold getWeight; cases c.get? (a, b) <;> simp
  have hmk : ∀ adds more, mkConnections (κ := κ) (adds ++ more) = history (mkConnections adds) more := by
    intro adds more; simp [mkConnections, history, List.foldl_append]
  have hinv : ∀ adds, Symmetric (mkConnections (κ := κ) adds) ∧ (mkConnections (κ := κ) adds).keys.Nodup := by
    intro adds
    unfold mkConnections
    suffices H : ∀ (c : Dict (κ × κ) (Option Rat)), Symmetric c ∧ c.keys.Nodup →
        Symmetric (history c adds) ∧ (history c adds).keys.Nodup from
      H [] ⟨fun a b w h => by simp at h, by simp⟩
    induction adds with
    | nil => exact fun c h => h
    | cons p adds ih =>
      intro c h
      apply ih
      refine ⟨symmetric_addConnection c h.1 _ _ _, ?_⟩
      have hedge : ∀ (c : Dict (κ × κ) (Option Rat)) e w, c.keys.Nodup → (addEdge c e w).keys.Nodup := by
        intro c e w hc; unfold addEdge; split
        · exact hc
        · exact Dict.nodup_keys_set hc _ _
      exact hedge _ _ _ (hedge _ _ _ h.2)
  refine ⟨?_, ?_, ?_, ?_⟩
  · intro a b w h
    simp only [hok] at h ⊢
    exact (hinv adds).1 a b w h
  · intro more a b w h
    simp only [hok, hmk] at h ⊢
    generalize mkConnections adds = c at h
    induction more generalizing c with
    | nil => exact h
    | cons p more ih => exact ih _ (get?_addConnection_of_some h _ _ _)
  · intro s t w
    simp only [hok, herr, hmk, history, List.foldl_cons, List.foldl_nil]
    generalize mkConnections adds = c
    simp only [addConnection, get?_addEdge, Prod.mk.injEq]
    by_cases h : t = s
    · subst h; simp only [and_self, if_true, Option.getD_some]
      exact ⟨_, rfl, fun h => by simp [h]⟩
    · have : ¬ (t = s ∧ s = t) := fun h' => h h'.1
      simp only [this, if_false, and_self, if_true]
      exact ⟨_, rfl, fun h => by simp [h]⟩
  · intro a b w
    rw [hok]
    have hnd := (hinv adds).2
    generalize mkConnections adds = c at hnd
    unfold getAdjacencies
    have hfil : (Dict.keys ((c.filter (fun p => p.1.1 = a)).map (fun p => (p.1.2, p.2)))).Nodup := by
      simp only [Dict.keys, List.map_map]
      have h1 : (c.filter (fun p => p.1.1 = a)).Nodup := (List.Nodup.of_map _ hnd).filter _
      apply List.Nodup.map_on _ h1
      rintro ⟨⟨a1, b1⟩, w1⟩ h3 ⟨⟨a2, b2⟩, w2⟩ h2 heq
      simp only [List.mem_filter, decide_eq_true_eq, Function.comp] at h3 h2 heq
      obtain ⟨h3, rfl⟩ := h3
      obtain ⟨h2, rfl⟩ := h2
      subst heq
      have := Dict.get?_of_mem hnd h3
      rw [Dict.get?_of_mem hnd h2] at this
      simp at this; simp [this]
    rw [Dict.get?_eq_some_iff hnd]
    split
    · rw [Dict.ofPairs_of_nodup hfil, Dict.get?_eq_some_iff hfil]
      simp only [List.mem_map, List.mem_filter, decide_eq_true_eq]
      constructor
      · rintro ⟨⟨⟨a', b'⟩, w'⟩, ⟨hm, h1⟩, h2⟩
        simp only [Prod.mk.injEq] at h1 h2
        obtain ⟨rfl, rfl⟩ := h2; subst h1; exact hm
      · intro hm
        exact ⟨((a, b), w), ⟨hm, rfl⟩, rfl⟩
    · next hn =>
      simp only [Dict.get?_nil]
      constructor
      · intro h; cases h
      · intro hm
        exact absurd (List.mem_flatMap.2 ⟨(a, b), List.mem_map.2 ⟨_, hm, rfl⟩, by simp⟩) hn

example : mkConnections [(("cm", "m"), some (1/100 : Rat)), (("m", "cm"), some 7)]
    = [(("cm", "m"), some (1/100)), (("m", "cm"), some 100)] := by decide +kernel

end

/-! ## C11: `Guard` -/

section
variable {ε ρ σ α κ : Type _} [DecidableEq ε]

/-- **C11** (partial: the raised class itself is registered, or nothing matches).
The callable's result passes through; an exception whose own class is registered yields the
registered substitute, or the arguments when the substitute is `...`; an exception matching no
registered class propagates unchanged. -/
theorem c11_guard_partial (isSub : ε → ε → Bool) (hrefl : ∀ e, isSub e e = true)
    (subs : Dict ε (Subst σ)) (args : List α) (kwargs : Option κ) :
    (∀ r : ρ, guardCall isSub subs args kwargs (.ok r) = .ok (.result r))
    ∧ (∀ e v, subs.get? e = some (.value v) →
        guardCall (ρ := ρ) isSub subs args kwargs (.error e) = .ok (.substitute v))
    ∧ (∀ e, subs.get? e = some .args →
        guardCall (ρ := ρ) isSub subs args kwargs (.error e) = .ok
          (match kwargs, args with
            | none, [a] => .oneArg a
            | none, as => .posArgs as
            | some ks, [] => .kwArgs ks
            | some ks, as => .bothArgs as ks))
    ∧ (∀ e, (∀ k ∈ subs.keys, isSub e k = false) →
        guardCall (ρ := ρ) isSub subs args kwargs (.error e) = .error (.own e)) := by
  have hany : ∀ e v, subs.get? e = some v → subs.keys.any (fun k => isSub e k) = true := by
    intro e v h
    rw [List.any_eq_true]
    exact ⟨e, (Dict.get?_isSome_iff _ _).1 (by simp [h]), hrefl e⟩
  refine ⟨fun r => rfl, fun e v h => ?_, fun e h => ?_, fun e h => ?_⟩
  · simp [guardCall, hany e _ h, h]
  · simp only [guardCall, hany e _ h, h, if_true]
    cases kwargs with
    | none => cases args with
      | nil => rfl
      | cons a as => cases as <;> rfl
    | some ks => cases args <;> rfl
  · have : subs.keys.any (fun k => isSub e k) = false := by
      rw [List.any_eq_false]; intro k hk; simp [h k hk]
    simp [guardCall, this]

/-- **C11** fails for a proper subclass of a registered class: instead of the registered
substitute, the caller gets a `KeyError`, whatever was registered. -/
theorem c11_guard_counterexample (isSub : ε → ε → Bool) (subs : Dict ε (Subst σ))
    (args : List α) (kwargs : Option κ) (e k : ε) (hk : k ∈ subs.keys) (hsub : isSub e k = true)
    (hne : e ∉ subs.keys) :
    guardCall (ρ := ρ) isSub subs args kwargs (.error e) = .error .keyError := by
  have h1 : subs.keys.any (fun k => isSub e k) = true := List.any_eq_true.2 ⟨k, hk, hsub⟩
  have h2 : subs.get? e = none := (Dict.get?_eq_none_iff _ _).2 hne
  simp [guardCall, h1, h2]

/-- The registration made last for a class is the one used. -/
theorem c11_guard_catch (subs : Dict ε (Subst σ)) (e e' : ε) (v : Subst σ) :
    (guardCatch subs e v).get? e' = if e = e' then some v else subs.get? e' := by
  simp [guardCatch, Dict.get?_set]

example : guardCall (ρ := Nat) (κ := Nat) (fun a b => a == b || b == "LookupError")
    [("LookupError", (Subst.value 0 : Subst Nat))] [1, 2] none (.error "KeyError")
    = .error .keyError := by decide
example : guardCall (ρ := Nat) (σ := Nat) (κ := Nat) (fun a b => a == b)
    [("KeyError", Subst.args)] [1, 2] none (.error "KeyError") = .ok (.posArgs [1, 2]) := by decide

end

/-! ## C12: `distribute` -/

/-- Specification: the members that an argument contributes. -/
def members {α : Type _} : Dist α → List α
  | .scalar a => [a]
  | .whole xs => xs

/-- Specification: is it a non-string iterable? -/
def isWhole {α : Type _} : Dist α → Bool
  | .scalar _ => false
  | .whole _ => true

/-- **C12.** `distribute` fails with `TypeError` iff neither argument is whole; otherwise it yields
`len(a) * len(b)` pairs, the pair at position `i * len(b) + j` being the `i`-th member of the
first with the `j`-th member of the second (a scalar counts as its own only member). -/
theorem c12_distribute {α β : Type _} (a : Dist α) (b : Dist β) :
    (isWhole a = false ∧ isWhole b = false → distribute a b = .error .typeError)
    ∧ (isWhole a = true ∨ isWhole b = true → ∃ ps, distribute a b = .ok ps
        ∧ ps.length = (members a).length * (members b).length
        ∧ ∀ i j x y, (members a)[i]? = some x → (members b)[j]? = some y →
            ps[i * (members b).length + j]? = some (x, y)) := by
  have key : ∀ (xs : List α) (ys : List β),
      (xs.flatMap (fun x => ys.map (fun y => (x, y)))).length = xs.length * ys.length
      ∧ ∀ i j x y, xs[i]? = some x → ys[j]? = some y →
        (xs.flatMap (fun x => ys.map (fun y => (x, y))))[i * ys.length + j]? = some (x, y) := by
    intro xs ys
    induction xs with
    | nil => simp
    | cons z xs ih =>
      constructor
      · simp [ih.1, Nat.add_mul]; ring
      · intro i j x y hx hy
        have hj : j < ys.length := by
          by_contra h
          rw [List.getElem?_eq_none (by omega)] at hy; cases hy
        cases i with
        | zero =>
          simp only [List.getElem?_cons_zero, Option.some.injEq] at hx; subst hx
          simp only [List.flatMap_cons, Nat.zero_mul, Nat.zero_add]
          rw [List.getElem?_append_left (by simpa using hj)]
          simp [hy]
        | succ i =>
          simp only [List.getElem?_cons_succ] at hx
          simp only [List.flatMap_cons]
          rw [List.getElem?_append_right (by simp; rw [Nat.add_mul]; omega)]
          have : (i + 1) * ys.length + j - (List.map (fun y => (z, y)) ys).length
              = i * ys.length + j := by
            simp only [List.length_map]; rw [Nat.add_mul]; omega
          rw [this]
          exact ih.2 i j x y hx hy
  cases a with
  | scalar a =>
    cases b with
    | scalar b => simp [distribute, isWhole]
    | whole ys =>
      refine ⟨by simp [isWhole], fun _ => ⟨_, rfl, ?_⟩⟩
      have := key [a] ys
      simpa [members] using this
  | whole xs =>
    cases b with
    | scalar b =>
      refine ⟨by simp [isWhole], fun _ => ⟨_, rfl, ?_⟩⟩
      have := key xs [b]
      have hflat : xs.flatMap (fun x => [b].map (fun y => (x, y))) = xs.map (fun x => (x, b)) := by
        clear this
        induction xs with
        | nil => rfl
        | cons z xs ih => rw [List.flatMap_cons, List.map_cons, ih (Or.inl rfl)]; rfl
      rw [hflat] at this
      simpa [members] using this
    | whole ys =>
      refine ⟨by simp [isWhole], fun _ => ⟨_, rfl, ?_⟩⟩
      exact key xs ys

example : distribute (.whole [1, 2]) (.whole ["a", "b"])
    = .ok [(1, "a"), (1, "b"), (2, "a"), (2, "b")] := by decide

end Verif.Iterables
