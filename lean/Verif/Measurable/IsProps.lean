import Verif.Measurable.Is
import Verif.Measurable.Props

/-! C233: `ismeasurable` and `measure` -/

namespace Verif.Measurable

open Verif.Py Verif.Iterables Verif.Metric

set_option linter.unusedSimpArgs false

theorem isMeasurable_of_members {fuel : Nat} {o : Arg} {xs : List Arg} (ho : o = .list xs ∨ o = .tuple xs)
    (hl : 2 ≤ xs.length) :
    isMeasurable (fuel + 1) o = if xs.all isNumber then .ok true
      else if endsInUnit xs ∧ (valuesOf xs).all isNumber then .ok true
      else allItems (isMeasurable fuel) xs := by
  have h := unwrap_list_ge hl
  rcases ho with rfl | rfl
  · rw [isMeasurable, h.1]; rfl
  · rw [isMeasurable, h.2]; rfl

theorem allItems_true {f : Arg → Res Bool} : ∀ {xs : List Arg}, (∀ x ∈ xs, f x = .ok true) → allItems f xs = .ok true := by
  intro xs
  induction xs with
  | nil => intro _; rfl
  | cons x xs ih =>
    intro h
    unfold allItems
    rw [h x (by simp)]
    simp only [bind, Except.bind, if_true]
    exact ih (fun y hy => h y (by simp [hy]))

theorem allItems_iff {f : Arg → Res Bool} {g : Arg → Bool} : ∀ {xs : List Arg}, (∀ x ∈ xs, f x = .ok (g x)) →
    allItems f xs = .ok (xs.all g) := by
  intro xs
  induction xs with
  | nil => intro _; rfl
  | cons x xs ih =>
    intro h
    unfold allItems
    rw [h x (by simp)]
    simp only [bind, Except.bind, List.all_cons]
    cases g x with
    | false => rfl
    | true => simp only [if_true, Bool.true_and]; exact ih (fun y hy => h y (by simp [hy]))

theorem measurable_of_measures : ∀ o vs u, Measures o vs u →
    ∃ n, ∀ more, isMeasurable (n + more) o = .ok true := by
  intro o vs u h
  induction h with
  | number q => exact ⟨1, fun more => by rw [Nat.add_comm]; simp [isMeasurable, unwrap, unwrapLoop]⟩
  | wrapped o vs u _ ih =>
    obtain ⟨n, hn⟩ := ih
    refine ⟨n, fun more => ?_⟩
    have := hn more
    cases hk : n + more with
    | zero => rw [hk] at this; simp [isMeasurable] at this
    | succ k => rw [hk] at this; rw [← this]; simp only [isMeasurable, (unwrap_wrap o).1]
  | wrapped' o vs u _ ih =>
    obtain ⟨n, hn⟩ := ih
    refine ⟨n, fun more => ?_⟩
    have := hn more
    cases hk : n + more with
    | zero => rw [hk] at this; simp [isMeasurable] at this
    | succ k => rw [hk] at this; rw [← this]; simp only [isMeasurable, (unwrap_wrap o).2]
  | numbers o v w vs ho =>
    refine ⟨1, fun more => ?_⟩
    rw [Nat.add_comm, isMeasurable_of_members ho (by simp), if_pos (all_isNumber_atoms _)]
  | withUnit o v vs u ho =>
    refine ⟨1, fun more => ?_⟩
    rw [Nat.add_comm, isMeasurable_of_members ho (by simp), if_neg (by simp [isNumber]), if_pos]
    refine ⟨by unfold endsInUnit; rw [List.getLast?_concat], ?_⟩
    have : valuesOf ((v :: vs).map .atom ++ [.str u]) = (v :: vs).map .atom := by
      show List.dropLast ((v :: vs).map Obj.atom ++ [Obj.str u]) = _
      rw [List.dropLast_concat]
    rw [this]
    exact all_isNumber_atoms _
  | valuesAndUnit o i vs u hi ho =>
    refine ⟨1, fun more => ?_⟩
    rw [Nat.add_comm, isMeasurable_of_members ho (by simp)]
    rcases hi with rfl | rfl <;> simp [isNumber, endsInUnit, valuesOf]
  | items o xs vss u ho hl hw hlen h ih =>
    have hbound : ∃ n, ∀ i (hi : i < xs.length), ∀ more, isMeasurable (n + more) xs[i] = .ok true := by
      have : ∀ k ≤ xs.length, ∃ n, ∀ i (hi : i < xs.length), i < k → ∀ more,
          isMeasurable (n + more) xs[i] = .ok true := by
        intro k
        induction k with
        | zero => intro _; exact ⟨0, fun i _ hi => absurd hi (by omega)⟩
        | succ k ihk =>
          intro hk
          obtain ⟨n, hn⟩ := ihk (by omega)
          obtain ⟨m, hm⟩ := ih k (by omega)
          refine ⟨n + m, fun i hi hik more => ?_⟩
          rcases Nat.lt_succ_iff_lt_or_eq.1 hik with h' | rfl
          · rw [Nat.add_assoc]; exact hn i hi h' _
          · rw [Nat.add_comm n, Nat.add_assoc]; exact hm _
      obtain ⟨n, hn⟩ := this xs.length le_rfl
      exact ⟨n, fun i hi => hn i hi hi⟩
    obtain ⟨n, hn⟩ := hbound
    refine ⟨n + 1, fun more => ?_⟩
    rw [show n + 1 + more = (n + more) + 1 by omega, isMeasurable_of_members ho hl]
    split
    · rfl
    · split
      · rfl
      · refine allItems_true fun x hx => ?_
        obtain ⟨i, hi, rfl⟩ := List.getElem_of_mem hx
        exact hn i hi more

/-- A collection of numbers, strings and `None`. -/
def Flat (xs : List Arg) : Prop := ∀ x ∈ xs, isWhole x = false

theorem flat_parse (text : Arg → Str) (fuel : Nat) {o : Arg} {xs : List Arg} (ho : o = .list xs ∨ o = .tuple xs)
    (hl : 2 ≤ xs.length) (hf : Flat xs) :
    (∃ r, parse text (fuel + 1) o = .ok (some r)) ↔ xs.dropLast.all isNumber = true := by
  rw [parse_of_members ho hl]
  unfold parseMembers
  have hne : xs ≠ [] := by rintro rfl; simp at hl
  rw [if_neg hne]
  have hwhole : ¬ xs.all isWhole = true := by
    intro h
    have h1 := List.all_eq_true.1 h (xs[0]'(by omega)) (List.getElem_mem _)
    rw [hf _ (List.getElem_mem _)] at h1
    cases h1
  obtain ⟨ys, y, rfl⟩ : ∃ ys y, xs = ys ++ [y] := ⟨xs.dropLast, xs.getLast hne, (List.dropLast_append_getLast hne).symm⟩
  rw [List.dropLast_concat, if_neg hwhole]
  have hstr : ys.all isNumber = true → ys.filter isString = [] := by
    intro h
    rw [List.filter_eq_nil_iff]
    intro x hx
    have := List.all_eq_true.1 h x hx
    cases x <;> simp_all [isNumber, isString]
  by_cases h : ys.all isNumber = true
  · refine ⟨fun _ => h, fun _ => ?_⟩
    rw [List.filter_append, hstr h, if_neg (by
      simp only [List.nil_append, gt_iff_lt, not_lt]
      exact (List.length_filter_le _ _))]
    split
    · exact ⟨_, rfl⟩
    · exact ⟨_, rfl⟩
  · refine ⟨?_, fun hc => absurd hc h⟩
    rintro ⟨r, hr⟩
    split at hr
    · cases hr
    · split at hr
      · next hall => exact absurd (List.all_eq_true.2 fun x hx => List.all_eq_true.1 hall x (by simp [hx])) h
      · exfalso
        have hw : isWhole ((ys ++ [y]).head (by simp)) = false := hf _ (List.head_mem _)
        rw [List.head?_eq_some_head (by simp)] at hr
        revert hw hr
        cases (ys ++ [y]).head (by simp) <;> simp [isWhole]

theorem isMeasurable_flat (fuel : Nat) {x : Arg} (h : isWhole x = false) :
    isMeasurable (fuel + 1) x = .ok (isNumber x) := by
  cases x <;> simp_all [isWhole, isMeasurable, unwrap, unwrapLoop, isNumber]

theorem valuesOf_flat {ys : List Arg} {y : Arg} (hys : ys ≠ []) (hf : Flat (ys ++ [y]))
    (hhead : (ys ++ [y]).head? ≠ some (.str [])) : (valuesOf (ys ++ [y])).all isNumber = ys.all isNumber := by
  obtain ⟨z, zs, rfl⟩ := List.exists_cons_of_ne_nil hys
  have hz : isWhole z = false := hf z (by simp)
  have hd : (z :: zs ++ [y]).dropLast = z :: zs := List.dropLast_concat
  cases z with
  | none =>
    have : valuesOf (Obj.none :: zs ++ [y]) = (Obj.none :: zs ++ [y]).dropLast := rfl
    rw [this, hd]
  | str s =>
    have : valuesOf (Obj.str s :: zs ++ [y]) = members (.str s) := rfl
    rw [this]
    have : s ≠ [] := by rintro rfl; simp at hhead
    obtain ⟨c, cs, rfl⟩ := List.exists_cons_of_ne_nil this
    simp [isNumber, members]
  | atom q =>
    have : valuesOf (Obj.atom q :: zs ++ [y]) = (Obj.atom q :: zs ++ [y]).dropLast := rfl
    rw [this, hd]
  | list l => simp [isWhole] at hz
  | tuple l => simp [isWhole] at hz

theorem isMeasurable_flat_list (fuel : Nat) {o : Arg} {xs : List Arg} (ho : o = .list xs ∨ o = .tuple xs)
    (hl : 2 ≤ xs.length) (hf : Flat xs) (hhead : xs.head? ≠ some (.str [])) (hlast : xs.getLast? ≠ some .none) :
    isMeasurable (fuel + 2) o = .ok (xs.dropLast.all isNumber) := by
  rw [isMeasurable_of_members ho hl]
  have hne : xs ≠ [] := by rintro rfl; simp at hl
  obtain ⟨ys, y, rfl⟩ : ∃ ys y, xs = ys ++ [y] := ⟨xs.dropLast, xs.getLast hne, (List.dropLast_append_getLast hne).symm⟩
  rw [List.dropLast_concat, allItems_iff (g := isNumber) (fun x hx => isMeasurable_flat fuel (hf x hx))]
  have hys : ys ≠ [] := by rintro rfl; simp at hl
  have hyw : isWhole y = false := hf y (by simp)
  have hyn : y ≠ .none := by rintro rfl; simp at hlast
  cases hy : isNumber y with
  | true =>
    simp only [List.all_append, List.all_cons, hy, List.all_nil, Bool.and_true]
    cases h : ys.all isNumber with
    | true => simp
    | false =>
      have : endsInUnit (ys ++ [y]) = false := by
        unfold endsInUnit
        rw [List.getLast?_concat]
        cases y <;> simp_all [isNumber]
      simp [this]
  | false =>
    have hend : endsInUnit (ys ++ [y]) = true := by
      unfold endsInUnit
      rw [List.getLast?_concat]
      cases y <;> simp_all [isNumber, isWhole]
    simp only [List.all_append, List.all_cons, hy, List.all_nil, Bool.and_true, Bool.and_false, hend, true_and,
      Bool.false_eq_true, if_false]
    rw [valuesOf_flat hys hf hhead]
    cases h : ys.all isNumber <;> simp

/-- C233, partial.  Every well-formed measurable object (`Measures`, C69), however deeply nested, is reported as measurable
and can be measured; `None` is not and cannot be; and for a collection of at least two numbers and strings, the first not empty,
with or without `None`s before the last, it is reported as measurable just if it can be measured.

Missing: other collections (`c233_counterexample`). -/
theorem c233_partial (text : Arg → Str) :
    (∀ o vs u, Measures o vs u →
      ∃ n, ∀ more, isMeasurable (n + more) o = .ok true ∧ ∃ r, parse text (n + more) o = .ok (some r))
    ∧ (∀ fuel, isMeasurable (fuel + 1) .none = .ok false ∧ ∀ r, parse text (fuel + 1) .none ≠ .ok (some r))
    ∧ ∀ (fuel : Nat) (o : Arg) (xs : List Arg), o = .list xs ∨ o = .tuple xs → 2 ≤ xs.length → Flat xs →
      xs.head? ≠ some (.str []) → xs.getLast? ≠ some .none →
      ∃ b, isMeasurable (fuel + 2) o = .ok b ∧ (b = true ↔ ∃ r, parse text (fuel + 2) o = .ok (some r)) := by
  refine ⟨fun o vs u h => ?_, fun fuel => ⟨?_, ?_⟩, fun fuel o xs ho hl hf hh hz => ?_⟩
  · obtain ⟨n, hn⟩ := measurable_of_measures o vs u h
    obtain ⟨m, hm⟩ := (c69_partial text).1 o vs u h
    refine ⟨n + m, fun more => ⟨by rw [Nat.add_assoc]; exact hn _, (vs.map .atom, u), ?_⟩⟩
    rw [Nat.add_comm n, Nat.add_assoc]
    exact hm _
  · simp [isMeasurable, unwrap, unwrapLoop]
  · intro r h
    simp [parse, unwrap, unwrapLoop] at h
  · exact ⟨_, isMeasurable_flat_list fuel ho hl hf hh hz, (flat_parse text (fuel + 1) ho hl hf).symm⟩

/-- C233: reported as measurable, but refused: nothing at all; items with different units; values followed by two
units.  Measured, but reported as not measurable: a number followed by `None`; a string of one character (no values). -/
theorem c233_counterexample (text : Arg → Str) (more : Nat) :
    (isMeasurable (more + 2) (.list []) = .ok true
      ∧ parse text (more + 2) (.list []) = .error (.named "Unmeasurable"))
    ∧ (isMeasurable (more + 2) (.list [.tuple [.atom 1, .str c!"m"], .tuple [.atom 2, .str c!"s"]]) = .ok true
      ∧ parse text (more + 2) (.list [.tuple [.atom 1, .str c!"m"], .tuple [.atom 2, .str c!"s"]])
        = .error (.named "MeasuringTypeError"))
    ∧ (isMeasurable (more + 2) (.list [.list [.atom 1, .atom 2], .str c!"s", .str c!"m"]) = .ok true
      ∧ parse text (more + 2) (.list [.list [.atom 1, .atom 2], .str c!"s", .str c!"m"])
        = .error (.named "MeasuringTypeError"))
    ∧ (isMeasurable (more + 2) (.tuple [.atom 1, .none]) = .ok false
      ∧ parse text (more + 2) (.tuple [.atom 1, .none]) = .ok (some ([.atom 1], c!"1")))
    ∧ (isMeasurable (more + 2) (.str c!"m") = .ok false
      ∧ parse text (more + 2) (.str c!"m") = .ok (some ([], c!"m"))) := by
  refine ⟨⟨?_, ?_⟩, ⟨?_, ?_⟩, ⟨?_, ?_⟩, ⟨?_, ?_⟩, ?_, ?_⟩ <;>
    simp [isMeasurable, unwrap, unwrapLoop, parse, parseMembers, members, isString, isNumber, isWhole, ensureUnit,
      List.filter, endsInUnit, valuesOf, allItems, bind, Except.bind, combine, pure, Except.pure, List.mapM_cons]

example : Flat [.atom 1, .atom 2, .str c!"km"] ∧ Flat [.none, .str c!"m"] := by
  constructor <;> simp [Flat, isWhole]

end Verif.Measurable
