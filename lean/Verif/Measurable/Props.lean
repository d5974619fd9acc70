import Verif.Measurable.Model
import Verif.Iterables.Lemmas

/-!
# Properties C34, C69, C70 of measured quantities
-/

set_option linter.unusedSimpArgs false
set_option linter.unusedSectionVars false

namespace Verif.Measurable

open Verif.Py Verif.Iterables Verif.Symbolic Verif.Metric

/-! ## C69: parsing measurable objects -/

/-- What a well-formed measurable object means: its values and its unit. -/
inductive Measures : Arg → List Rat → Str → Prop where
  | number (q : Rat) : Measures (.atom q) [q] c!"1"
  | wrapped (o : Arg) (vs : List Rat) (u : Str) (h : Measures o vs u) : Measures (.list [o]) vs u
  | wrapped' (o : Arg) (vs : List Rat) (u : Str) (h : Measures o vs u) : Measures (.tuple [o]) vs u
  | numbers (o : Arg) (v w : Rat) (vs : List Rat)
      (ho : o = .list ((v :: w :: vs).map .atom) ∨ o = .tuple ((v :: w :: vs).map .atom)) :
      Measures o (v :: w :: vs) c!"1"
  | withUnit (o : Arg) (v : Rat) (vs : List Rat) (u : Str)
      (ho : o = .list ((v :: vs).map .atom ++ [.str u]) ∨ o = .tuple ((v :: vs).map .atom ++ [.str u])) :
      Measures o (v :: vs) u
  | valuesAndUnit (o i : Arg) (vs : List Rat) (u : Str)
      (hi : i = .list (vs.map .atom) ∨ i = .tuple (vs.map .atom))
      (ho : o = .list [i, .str u] ∨ o = .tuple [i, .str u]) : Measures o vs u
  | items (o : Arg) (xs : List Arg) (vss : List (List Rat)) (u : Str)
      (ho : o = .list xs ∨ o = .tuple xs) (hl : 2 ≤ xs.length) (hw : ∀ x ∈ xs, isWhole x = true)
      (hlen : vss.length = xs.length)
      (h : ∀ i (h : i < xs.length), Measures xs[i] (vss[i]'(by omega)) u) : Measures o vss.flatten u

theorem unwrap_list_ge {xs : List Arg} (h : 2 ≤ xs.length) :
    unwrap (Obj.list xs) = .list xs ∧ unwrap (Obj.tuple xs) = .tuple xs := by
  match xs, h with
  | a :: b :: r, _ => constructor <;> simp [unwrap, unwrapLoop]

theorem filter_isString_atoms (vs : List Rat) : (vs.map (Obj.atom (α := Rat))).filter isString = [] := by
  induction vs with
  | nil => rfl
  | cons v vs ih => simp only [List.map_cons]; rw [List.filter_cons_of_neg (by simp [isString]), ih]

theorem all_isNumber_atoms (vs : List Rat) : (vs.map (Obj.atom (α := Rat))).all isNumber = true := by
  simp [isNumber]

theorem parse_of_members {text : Arg → Str} {fuel : Nat} {o : Arg} {xs : List Arg}
    (ho : o = .list xs ∨ o = .tuple xs) (hl : 2 ≤ xs.length) :
    parse text (fuel + 1) o = parseMembers text (parse text fuel) xs := by
  have h := unwrap_list_ge hl
  rcases ho with rfl | rfl
  · simp only [parse, h.1, members]
  · simp only [parse, h.2, members]

theorem unwrap_wrap (o : Arg) : unwrap (Obj.list [o]) = unwrap o ∧ unwrap (Obj.tuple [o]) = unwrap o := by
  constructor <;> simp [unwrap, unwrapLoop]

theorem mapM_ok_map {α β ε : Type _} (f : α → Except ε β) (g : α → β) (xs : List α)
    (h : ∀ x ∈ xs, f x = .ok (g x)) : xs.mapM f = .ok (xs.map g) := by
  induction xs with
  | nil => rfl
  | cons x xs ih =>
    rw [List.mapM_cons, h x (by simp), ih (fun y hy => h y (by simp [hy]))]
    rfl

theorem mapM_id_some {α β : Type} (xs : List α) (g : α → β) :
    (xs.map (fun x => some (g x))).mapM id = some (xs.map g) := by
  induction xs with
  | nil => rfl
  | cons x xs ih => rw [List.map_cons, List.mapM_cons, ih]; rfl

/-- **C69.** Every well-formed measurable object, however deeply nested, is parsed into its values and
its unit. Items with different units are rejected, and so is every collection with two units, wherever
they stand. -/
theorem c69_partial (text : Arg → Str) :
    (∀ o vs u, Measures o vs u →
      ∃ n, ∀ more, parse text (n + more) o = .ok (some (vs.map .atom, u))) ∧
    (∀ (x y : Arg) (vs ws : List Rat) (u v : Str), u ≠ v → isWhole x = true → isWhole y = true →
      Measures x vs u → Measures y ws v →
      ∃ n, ∀ more, parse text (n + more) (.list [x, y]) = .error (.named "MeasuringTypeError")) ∧
    (∀ (o : Arg) (before between after : List Arg) (u v : Str),
      o = .list (before ++ .str u :: between ++ .str v :: after) ∨
        o = .tuple (before ++ .str u :: between ++ .str v :: after) →
      ∀ fuel, parse text (fuel + 1) o = .error (.named "MeasuringTypeError")) := by
  have main : ∀ o vs u, Measures o vs u →
      ∃ n, ∀ more, parse text (n + more) o = .ok (some (vs.map .atom, u)) := by
    intro o vs u h
    induction h with
    | number q => exact ⟨1, fun more => by rw [Nat.add_comm]; simp [parse, unwrap, unwrapLoop]⟩
    | wrapped o vs u _ ih =>
      obtain ⟨n, hn⟩ := ih
      refine ⟨n, fun more => ?_⟩
      have := hn more
      cases hk : n + more with
      | zero => rw [hk] at this; simp [parse] at this
      | succ k => rw [hk] at this; rw [← this]; simp only [parse, (unwrap_wrap o).1]
    | wrapped' o vs u _ ih =>
      obtain ⟨n, hn⟩ := ih
      refine ⟨n, fun more => ?_⟩
      have := hn more
      cases hk : n + more with
      | zero => rw [hk] at this; simp [parse] at this
      | succ k => rw [hk] at this; rw [← this]; simp only [parse, (unwrap_wrap o).2]
    | numbers o v w vs ho =>
      refine ⟨1, fun more => ?_⟩
      rw [Nat.add_comm, parse_of_members ho (by simp)]
      unfold parseMembers
      rw [if_neg (by simp), filter_isString_atoms, if_neg (by simp), if_pos (all_isNumber_atoms _)]
    | withUnit o v vs u ho =>
      refine ⟨1, fun more => ?_⟩
      rw [Nat.add_comm, parse_of_members ho (by simp)]
      unfold parseMembers
      rw [if_neg (by simp), List.filter_append, filter_isString_atoms, if_neg (by simp [isString, List.filter]),
        if_neg (by simp [isNumber]), if_neg (by simp [isWhole]),
        if_pos (by rw [List.dropLast_concat]; exact all_isNumber_atoms _), List.dropLast_concat]
      congr 3
      unfold ensureUnit
      rw [if_neg (by simp [isString]), List.getLast?_append]
      simp
    | valuesAndUnit o i vs u hi ho =>
      refine ⟨1, fun more => ?_⟩
      rw [Nat.add_comm, parse_of_members ho (by simp)]
      rcases hi with rfl | rfl <;>
        simp [parseMembers, isString, isNumber, isWhole, ensureUnit, List.filter]
    | items o xs vss u ho hl hw hlen h ih =>
      have hbound : ∃ n, ∀ i (hi : i < xs.length), ∀ more,
          parse text (n + more) xs[i] = .ok (some ((vss[i]'(by omega)).map .atom, u)) := by
        have : ∀ k ≤ xs.length, ∃ n, ∀ i (hi : i < xs.length), i < k → ∀ more,
            parse text (n + more) xs[i] = .ok (some ((vss[i]'(by omega)).map .atom, u)) := by
          intro k
          induction k with
          | zero => intro _; exact ⟨0, fun i _ hi => absurd hi (by omega)⟩
          | succ k ihk =>
            intro hk
            obtain ⟨n, hn⟩ := ihk (by omega)
            obtain ⟨m, hm⟩ := ih k (by omega)
            refine ⟨n + m, fun i hi hik more => ?_⟩
            rcases Nat.lt_succ_iff_lt_or_eq.1 hik with h' | rfl
            · rw [Nat.add_assoc]; exact hn i hi h' _
            · rw [Nat.add_comm n, Nat.add_assoc]; exact hm _
        obtain ⟨n, hn⟩ := this xs.length le_rfl
        exact ⟨n, fun i hi => hn i hi hi⟩
      obtain ⟨n, hn⟩ := hbound
      refine ⟨n + 1, fun more => ?_⟩
      rw [show n + 1 + more = (n + more) + 1 by omega, parse_of_members ho hl]
      have hmap : xs.mapM (parse text (n + more))
          = .ok (vss.map (fun vs => some (vs.map Obj.atom, u))) := by
        rw [mapM_ok_iff]
        refine ⟨by simp [hlen], fun i h1 h2 => ?_⟩
        simpa using hn i h1 more
      unfold parseMembers
      rw [if_neg (by rintro rfl; simp at hl)]
      have hfs : xs.filter isString = [] := by
        rw [List.filter_eq_nil_iff]
        intro x hx
        have := hw x hx
        cases x <;> simp_all [isWhole, isString]
      have hnn : ¬ xs.all isNumber = true := by
        intro h'
        have h1 := List.all_eq_true.1 h' (xs[0]'(by omega)) (List.getElem_mem _)
        have h2 := hw (xs[0]'(by omega)) (List.getElem_mem _)
        revert h1 h2
        cases xs[0]'(by omega) <;> simp [isWhole, isNumber]
      rw [hfs, if_neg (by simp), if_neg hnn, if_pos (List.all_eq_true.2 hw), hmap]
      simp only [bind, Except.bind]
      unfold combine
      have hid : (vss.map (fun vs => some (vs.map (Obj.atom (α := Rat)), u))).mapM id
          = some (vss.map (fun vs => (vs.map (Obj.atom (α := Rat)), u))) := by
        exact mapM_id_some _ (fun vs : List Rat => (vs.map (Obj.atom (α := Rat)), u))
      rw [hid]
      have hne : vss ≠ [] := by
        rintro rfl; simp at hlen; simp [← hlen] at hl
      obtain ⟨v0, vr, rfl⟩ := List.exists_cons_of_ne_nil hne
      simp only
      rw [if_neg]
      · simp [List.map_flatten, Function.comp_def]
      · simp
  refine ⟨main, ?_, fun o before between after u v ho fuel => ?_⟩
  rotate_left
  · rw [parse_of_members ho (by simp; omega)]
    unfold parseMembers
    rw [if_neg (by simp), if_pos (by simp [List.filter_cons, isString]; omega)]
  intro x y vs ws u v huv hx hy h1 h2
  obtain ⟨n, hn⟩ := main _ _ _ h1
  obtain ⟨m, hm⟩ := main _ _ _ h2
  refine ⟨n + m + 1, fun more => ?_⟩
  have e1 := hn (m + more)
  have e2 := hm (n + more)
  rw [show m + (n + more) = n + (m + more) by omega] at e2
  rw [show n + m + 1 + more = (n + (m + more)) + 1 by omega,
    parse_of_members (Or.inl rfl) (by simp)]
  have hsx : isString x = false := by cases x <;> simp_all [isWhole, isString]
  have hnx : isNumber x = false := by cases x <;> simp_all [isWhole, isNumber]
  have hsy : isString y = false := by cases y <;> simp_all [isWhole, isString]
  simp only [parseMembers, hx, hy, hsx, hsy, hnx, List.filter_cons, List.mapM_cons, e1, e2, bind,
    Except.bind, pure, Except.pure, List.mapM_nil]
  simp [combine, List.mapM_cons, Ne.symm huv, hx, hy, hnx]

example : Measures (.list [.tuple [.atom 1, .str c!"m"], .list [.list [.atom 2, .atom 3], .str c!"m"]])
    [1, 2, 3] c!"m" := by
  refine .items _ _ [[1], [2, 3]] _ (Or.inl rfl) (by simp) (by simp [isWhole]) (by simp) ?_
  intro i hi
  match i, hi with
  | 0, _ => exact .withUnit _ 1 [] _ (Or.inr rfl)
  | 1, _ => exact .valuesAndUnit _ (.list [.atom 2, .atom 3]) [2, 3] _ (Or.inl rfl) (Or.inl rfl)

/-- **C69, violated.** Values are dropped silently: of two lists followed by a unit only the first is
kept; of a number followed by a list only the number. -/
theorem c69_counterexample (text : Arg → Str) (more : Nat) :
    parse text (more + 1) (.list [.tuple [.atom 1, .atom 2], .tuple [.atom 3, .atom 4], .str c!"m"])
      = .ok (some ([.atom 1, .atom 2], c!"m")) ∧
    parse text (more + 1) (.list [.atom 1, .list [.atom 2, .atom 3]]) = .ok (some ([.atom 1], c!"1")) := by
  constructor <;>
    simp [parse, unwrap, unwrapLoop, parseMembers, members, isString, isNumber, isWhole, ensureUnit,
      List.filter]

/-! ## C34: units of sums and products -/

theorem totalExp_perm {u v : List Term} (h : u.Perm v) (x : Name) : totalExp u x = totalExp v x := by
  unfold totalExp
  exact ((h.filter _).map _).sum_eq

/-- **C34.** Whatever the tables: a sum or difference of quantities whose units compare equal has the sum
or difference of the data and the unit of the first operand; if the units do not compare equal it is
rejected with `ScaleMismatch` or `DimensionMismatch`, according to whether the units have the same
dimensions. A product has the product of the data, and a unit whose exponents are the sums of
those of the decomposed operands; the unit of a ratio has their differences. Operands whose units are
equal as expressions are not decomposed. -/
theorem c34_partial (b : Book) (conv : Str → Str → Res Rat) (x y : Quantity) :
    (unitEq b conv x.unit y.unit = .ok true →
      forward b conv .add x y = .ok ⟨x.data + y.data, x.unit⟩ ∧
      forward b conv .sub x y = .ok ⟨x.data - y.data, x.unit⟩) ∧
    (unitEq b conv x.unit y.unit = .ok false → sameDimensions b x.unit y.unit = .ok true →
      forward b conv .add x y = .error (.named "ScaleMismatch") ∧
      forward b conv .sub x y = .error (.named "ScaleMismatch")) ∧
    (unitEq b conv x.unit y.unit = .ok false → sameDimensions b x.unit y.unit = .ok false →
      forward b conv .add x y = .error (.named "DimensionMismatch") ∧
      forward b conv .sub x y = .error (.named "DimensionMismatch")) ∧
    (x.unit.Perm y.unit → UnitLike x.unit →
      ((∀ t ∈ x.unit, |t.exp| ≤ 2 ^ 52) → ∃ r, forward b conv .mul x y = .ok ⟨x.data * y.data, r⟩ ∧ UnitLike r ∧
        ∀ n, n ≠ one → totalExp r n = totalExp x.unit n + totalExp y.unit n) ∧
      (y.data ≠ 0 → forward b conv .div x y = .ok ⟨x.data / y.data, [⟨1, one, 1⟩]⟩)) ∧
    (∀ du dv, ¬ x.unit.Perm y.unit → decompose b x.unit = .ok du → decompose b y.unit = .ok dv →
      UnitLike du → UnitLike dv →
      (∃ r, forward b conv .mul x y = .ok ⟨x.data * y.data, r⟩ ∧ UnitLike r ∧
        ∀ n, n ≠ one → totalExp r n = totalExp du n + totalExp dv n) ∧
      (y.data ≠ 0 → ∃ r, forward b conv .div x y = .ok ⟨x.data / y.data, r⟩ ∧ UnitLike r ∧
        ∀ n, n ≠ one → totalExp r n = totalExp du n - totalExp dv n)) := by
  refine ⟨?_, ?_, ?_, ?_, ?_⟩
  · intro h
    simp [forward, opData, opUnit, addSub, h, bind, Except.bind, pure, Except.pure]
  · intro h h'
    simp [forward, opData, opUnit, addSub, h, h', bind, Except.bind, pure, Except.pure]
  · intro h h'
    simp [forward, opData, opUnit, addSub, h, h', bind, Except.bind, pure, Except.pure]
  · intro h hu
    have he := (exprEq_iff_perm _ _).2 h
    constructor
    · intro hs
      obtain ⟨r, f1, cf1, xf1, pf1⟩ := exprPow_spec hu.1 (p := (2 : Int)) (by norm_num) (Or.inl rfl)
        (hu.floatPow (by norm_num) (fun t ht => by
          rw [abs_mul]
          calc |t.exp| * |((2 : Int) : Rat)| ≤ 2 ^ 52 * |((2 : Int) : Rat)| :=
                mul_le_mul_of_nonneg_right (hs t ht) (abs_nonneg _)
            _ ≤ 2 ^ 53 := by norm_num))
      rw [hu.totals.1, ratPow_one] at cf1
      have hr := unitLike_pow hu 2 f1 cf1 xf1
      refine ⟨r, ?_, hr, fun n hn => ?_⟩
      · have := pf1 hr.printable
        simp only [forward, opData, opUnit, unitTimes, he, if_true, bind, Except.bind, pure, Except.pure]
        rw [show ((2 : Rat)) = ((2 : Int) : Rat) by norm_num, this]
      · rw [xf1 n hn, ← totalExp_perm h n]; push_cast; ring
    · intro hy
      simp [forward, opData, opUnit, unitOver, he, hy, bind, Except.bind, pure, Except.pure]
  · intro du dv hp hdu hdv h1 h2
    have he : ¬ exprEq x.unit y.unit = true := fun h => hp ((exprEq_iff_perm _ _).1 h)
    constructor
    · obtain ⟨r, e1, r1, c1, x1, p1⟩ := exprMul_spec h1.1 h2.1
      have hr := unitLike_mul h1 h2 e1 c1 x1
      refine ⟨r, ?_, hr, x1⟩
      simp [forward, opData, opUnit, unitTimes, he, unitMul, hdu, hdv, p1 hr.printable, bind, Except.bind,
        pure, Except.pure]
    · intro hy
      obtain ⟨r, e1, c1, x1, p1⟩ := exprDiv_spec h1.1 h2.1
      have hr : UnitLike r := by
        obtain ⟨a1, a2⟩ := h1.totals
        obtain ⟨b1, b2⟩ := h2.totals
        refine (unitLike_iff e1).2 ⟨by rw [c1, a1, b1, div_one], ?_⟩
        intro n hn hne
        rw [x1 n hn] at hne ⊢
        have hden : (-(totalExp dv n)).den = 1 := by rw [Rat.neg_den]; exact (b2 n hn).1
        refine ⟨?_, by rw [sub_eq_add_neg]; exact den_add (a2 n hn).1 hden⟩
        by_cases hz : totalExp du n = 0
        · rw [hz, zero_sub] at hne; exact (b2 n hn).2 (by simpa using hne)
        · exact (a2 n hn).2 hz
      refine ⟨r, ?_, hr, x1⟩
      simp [forward, opData, opUnit, unitOver, he, hy, hdu, hdv, p1 hr.printable, bind, Except.bind,
        pure, Except.pure]

/-- Addition of `1 u` and `1 v` with the tables of the module; the unit of the sum as a string. -/
def addOnes (u v : Str) : Res (Rat × Str) := do
  let r ← forward actualBook (actualConversion (declaredUnits numpyPi)) .add ⟨1, ← ofString u⟩
    ⟨1, ← ofString v⟩
  return (r.data, exprStr r.unit)

theorem addOnes_eq (u v : Str) : addOnes u v = (do
    let r ← forward fastBook (conversion fastBook (fastEnv numpyPi (declaredUnits numpyPi)) powInt) .add
      ⟨1, ← ofString u⟩ ⟨1, ← ofString v⟩
    return (r.data, exprStr r.unit)) := by
  have : actualConversion (declaredUnits numpyPi)
      = conversion fastBook (fastEnv numpyPi (declaredUnits numpyPi)) powInt :=
    funext fun a => funext fun b => actualConversion_eq _ a b
  rw [addOnes, this, actualBook_eq]

example : addOnes c!"N" c!"kg m s^-2" = .ok (2, c!"N") ∧
    addOnes c!"m" c!"cm" = .error (.named "ScaleMismatch") ∧
    addOnes c!"m" c!"s" = .error (.named "DimensionMismatch") := by
  simp only [addOnes_eq]
  refine ⟨?_, ?_, ?_⟩ <;> decide +kernel

/-- **C34, violated.** The sum of one ohm and one volt is accepted, and one `kg km s^-2` plus one newton is
`2 kg km s^-2`. -/
theorem c34_counterexample :
    addOnes c!"ohm" c!"V" = .ok (2, c!"ohm") ∧
    addOnes c!"kg km s^-2" c!"N" = .ok (2, c!"kg km s^-2") := by
  simp only [addOnes_eq]
  refine ⟨?_, ?_⟩ <;> decide +kernel

/-! ## C70: in-place operations -/

/-- **C70, violated.** In-place arithmetic on a measured quantity never succeeds: if the operation itself
does, the quantity holds the new value with its old unit when `ValueError` is raised. -/
theorem c70_counterexample (b : Book) (conv : Str → Str → Res Rat) (o : Op) (x y r : Quantity)
    (h : forward b conv o x y = .ok r) :
    inplace b conv [c!"unit"] o x y = (⟨r.data, x.unit⟩, some .valueError) := by
  simp [inplace, h, assignMeta]

example (b : Book) (conv : Str → Str → Res Rat) (u : List Term) :
    inplace b conv [c!"unit"] .add ⟨2, u⟩ ⟨3, u⟩ = (⟨5, u⟩, some .valueError) := by
  have h := ((c34_partial b conv ⟨2, u⟩ ⟨3, u⟩).1
    ((c79_partial b conv u u).1 ((exprEq_iff_perm _ _).2 (List.Perm.refl _)))).1
  rw [c70_counterexample b conv .add _ _ _ h]
  norm_num

/-- **C70.** If the operation is rejected, because of the values or of the units, then the quantity is
unchanged. An object without metadata attributes takes the new value. -/
theorem c70_partial (b : Book) (conv : Str → Str → Res Rat) (params : List Str) (o : Op)
    (x y : Quantity) :
    (∀ e, forward b conv o x y = .error e → inplace b conv params o x y = (x, some e)) ∧
    (∀ r, forward b conv o x y = .ok r → params = [] →
      inplace b conv params o x y = (⟨r.data, x.unit⟩, none)) := by
  refine ⟨fun e h => by simp [inplace, h], fun r h hp => by simp [inplace, h, hp, assignMeta]⟩

example (b : Book) (conv : Str → Str → Res Rat) (u : List Term) :
    inplace b conv [c!"unit"] .div ⟨1, u⟩ ⟨0, u⟩ = (⟨1, u⟩, some .zeroDivision) := by
  simp [inplace, forward, opData, bind, Except.bind]

end Verif.Measurable
