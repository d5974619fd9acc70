import Verif.Quantities.Arith
import Mathlib.Algebra.Order.Field.Rat
import Mathlib.Algebra.Order.Floor.Ring
import Mathlib.Data.Rat.Floor
import Mathlib.Tactic.Linarith
import Mathlib.Tactic.FieldSimp
import Mathlib.Tactic.Ring

/-!
# C181, C182: arithmetic of quantities with numbers and with each other
-/

set_option linter.unusedSimpArgs false

namespace Verif.Quantities

open Verif.Py Verif.Metadata

variable {U : Type}

/-- The name of a quantity is absent or empty. -/
def Qty.Unnamed (x : Qty U) : Prop := x.name = none ∨ x.name = some noName

/-- **C181.** A quantity times a number, a number times a quantity, and a quantity divided by a number that is not zero have
the same unit and the value times or divided by the number. -/
theorem c181_scale (O : UnitOps U) (powData : Rat → Rat → Res Rat) (x : Qty U) (q : Rat) :
    (∃ r, forward O powData .mul x (.number q) = .ok r ∧ r.kind = x.kind ∧ r.data = x.data * q ∧ r.unit = x.unit) ∧
    (∃ r, reverse O powData .mul q x = .ok r ∧ r.kind = x.kind ∧ r.data = q * x.data ∧ r.unit = x.unit) ∧
    (q ≠ 0 → ∃ r, forward O powData .div x (.number q) = .ok r ∧ r.kind = x.kind ∧ r.data = x.data / q ∧ r.unit = x.unit) := by
  obtain ⟨k, d, u, n⟩ := x
  have hname : ∀ (o : BinOp) (a : List Str), o.strict = false →
      (∃ m, o.onName (some (.inr a)) (some (.inl q)) = .ok m) ∧ (∃ m, o.onName (some (.inl q)) (some (.inr a)) = .ok m) := by
    intro o a ho
    unfold BinOp.onName
    simp only [ho, Bool.false_eq_true, if_false]
    constructor <;> (split; exact ⟨_, rfl⟩; split; exact ⟨_, rfl⟩; exact ⟨_, rfl⟩)
  refine ⟨?_, ?_, ?_⟩
  · cases n with
    | none => exact ⟨_, rfl, rfl, rfl, rfl⟩
    | some a =>
      obtain ⟨m, hm⟩ := (hname .mul a rfl).1
      refine ⟨⟨k, d * q, u, some m⟩, ?_, rfl, rfl, rfl⟩
      simp only [forward, binary, BinOp.onData, Arg.data, BinOp.supported, BinOp.onUnit, Arg.unitOf, Arg.nameOf,
        Option.map_some, hm, if_true, bind, Except.bind, pure, Except.pure]
  · cases n with
    | none => exact ⟨_, rfl, rfl, rfl, rfl⟩
    | some a =>
      obtain ⟨m, hm⟩ := (hname .mul a rfl).2
      refine ⟨⟨k, q * d, u, some m⟩, ?_, rfl, rfl, rfl⟩
      simp only [reverse, binary, BinOp.onData, Arg.data, BinOp.supported, BinOp.onUnit, Arg.unitOf, Arg.nameOf,
        Option.map_some, hm, if_true, bind, Except.bind, pure, Except.pure]
  · intro hq
    cases n with
    | none =>
      refine ⟨⟨k, d / q, u, none⟩, ?_, rfl, rfl, rfl⟩
      simp only [forward, binary, BinOp.onData, Arg.data, BinOp.supported, BinOp.onUnit, Arg.unitOf, Arg.nameOf,
        Arg.isNumber, Option.map_none, hq, if_false, if_true, bind, Except.bind, pure, Except.pure]
    | some a =>
      obtain ⟨m, hm⟩ := (hname .div a rfl).1
      refine ⟨⟨k, d / q, u, some m⟩, ?_, rfl, rfl, rfl⟩
      simp only [forward, binary, BinOp.onData, Arg.data, BinOp.supported, BinOp.onUnit, Arg.unitOf, Arg.nameOf,
        Arg.isNumber, Option.map_some, hm, hq, if_false, if_true, bind, Except.bind, pure, Except.pure]

/-- **C181.** Sums and differences of a quantity and a number are refused, whatever the unit is; so are the quotient of a
number and a quantity, and powers with a quantity in the exponent. -/
theorem c181_refused (O : UnitOps U) (powData : Rat → Rat → Res Rat) (x y : Qty U) (q : Rat) :
    forward O powData .add x (.number q) = .error .typeError ∧
    forward O powData .sub x (.number q) = .error .typeError ∧
    reverse O powData .add q x = .error .typeError ∧
    reverse O powData .sub q x = .error .typeError ∧
    (∃ e, reverse O powData .div q x = .error e) ∧
    (∃ e, reverse O powData .pow q x = .error e) ∧
    (∃ e, forward O powData .pow x (.qty y) = .error e) := by
  refine ⟨rfl, rfl, rfl, rfl, ?_, ?_, ?_⟩
  · by_cases h : x.data = 0
    · refine ⟨.zeroDivision, ?_⟩
      simp only [reverse, binary, BinOp.onData, Arg.data, h, if_true, bind, Except.bind]
    · refine ⟨.named "OperandTypeError", ?_⟩
      simp only [reverse, binary, BinOp.onData, Arg.data, h, if_false, bind, Except.bind, BinOp.supported, Arg.isNumber,
        Bool.false_eq_true]
  · cases hp : powData q x.data with
    | error e => exact ⟨e, by simp only [reverse, binary, BinOp.onData, Arg.data, hp, bind, Except.bind]⟩
    | ok d =>
      exact ⟨.named "OperandTypeError", by
        simp only [reverse, binary, BinOp.onData, Arg.data, hp, bind, Except.bind, BinOp.supported, Arg.isNumber,
          Bool.false_eq_true, if_false]⟩
  · cases hp : powData x.data y.data with
    | error e => exact ⟨e, by simp only [forward, binary, BinOp.onData, Arg.data, hp, bind, Except.bind]⟩
    | ok d =>
      exact ⟨.named "OperandTypeError", by
        simp only [forward, binary, BinOp.onData, Arg.data, hp, bind, Except.bind, BinOp.supported, Arg.isNumber,
          Bool.false_eq_true, if_false]⟩

/-- Specification: magnitudes of units that the operations on units respect. -/
structure Respects (O : UnitOps U) (mag : U → Rat) : Prop where
  addSub : ∀ u v w, O.addSub u v = .ok w → mag w = mag u ∧ mag v = mag u
  mul : ∀ u v w, O.mul u v = .ok w → mag w = mag u * mag v
  div : ∀ u v w, O.div u v = .ok w → mag w = mag u / mag v

/-- The value of a quantity, or of a number, in base units. -/
def Arg.value (mag : U → Rat) : Arg U → Rat
  | .number q => q
  | .qty y => y.data * mag y.unit

/-- What an operator means for values. -/
def BinOp.onValue : BinOp → Rat → Rat → Rat
  | .add, a, b => a + b
  | .sub, a, b => a - b
  | .mul, a, b => a * b
  | .div, a, b => a / b
  | .pow, a, _ => a

/-- The result of an operation, if there is one, has the data and the unit computed. -/
theorem binary_ok {O : UnitOps U} {powData : Rat → Rat → Res Rat} {o : BinOp} {x r : Qty U} {left right : Arg U}
    (h : binary O powData o x left right = .ok r) :
    o.onData powData left.data right.data = .ok r.data ∧ o.supported left.isNumber right.isNumber = true ∧
    o.onUnit O left.unitOf right.unitOf = .ok r.unit ∧ r.kind = x.kind ∧
    (x.name = none → r.name = none) ∧
    (x.name.isSome = true → ∃ n, o.onName left.nameOf right.nameOf = .ok n ∧ r.name = some n) := by
  unfold binary at h
  cases hd : o.onData powData left.data right.data with
  | error e => rw [hd] at h; cases h
  | ok d =>
    rw [hd] at h
    cases hs : o.supported left.isNumber right.isNumber with
    | false => simp only [hs, bind, Except.bind, Bool.false_eq_true, if_false] at h; cases h
    | true =>
      cases hu : o.onUnit O left.unitOf right.unitOf with
      | error e => simp only [hs, hu, bind, Except.bind, if_true] at h; cases h
      | ok u =>
        simp only [hs, hu, bind, Except.bind, if_true] at h
        cases hn : x.name with
        | none =>
          rw [hn] at h
          have h : Except.ok (Qty.mk x.kind d u none) = (Except.ok r : Res (Qty U)) := h
          injection h with h; subst h
          exact ⟨rfl, rfl, rfl, rfl, fun _ => rfl, fun hc => by cases hc⟩
        | some a =>
          rw [hn] at h
          simp only at h
          cases hm : o.onName left.nameOf right.nameOf with
          | error e => rw [hm] at h; cases h
          | ok m =>
            rw [hm] at h
            have h : Except.ok (Qty.mk x.kind d u (some m)) = (Except.ok r : Res (Qty U)) := h
            injection h with h; subst h
            refine ⟨rfl, rfl, rfl, rfl, ?_, fun _ => ⟨m, rfl, rfl⟩⟩
            intro hc; cases hc

/-- **C182.** Whenever a sum, difference, product or quotient of quantities and numbers gives a quantity, its value in base
units is the sum, difference, product or quotient of their values. -/
theorem c182_value (O : UnitOps U) (mag : U → Rat) (hO : Respects O mag) (powData : Rat → Rat → Res Rat) (o : BinOp)
    (ho : o ≠ .pow) (x r : Qty U) (y : Arg U) (h : forward O powData o x y = .ok r) :
    (Arg.qty r).value mag = o.onValue ((Arg.qty x).value mag) (y.value mag) := by
  obtain ⟨hd, _, hu, -⟩ := binary_ok h
  obtain ⟨xk, xd, xu, xn⟩ := x
  obtain ⟨rk, rd, ru, rn⟩ := r
  simp only [Arg.value]
  cases y with
  | number q =>
    cases o with
    | pow => exact absurd rfl ho
    | add => simp only [BinOp.onUnit, Arg.unitOf] at hu; cases hu
    | sub => simp only [BinOp.onUnit, Arg.unitOf] at hu; cases hu
    | mul =>
      simp only [BinOp.onUnit, Arg.unitOf, BinOp.onData, Arg.data, Except.ok.injEq] at hu hd
      subst hu; subst hd; simp only [BinOp.onValue]; ring
    | div =>
      simp only [BinOp.onUnit, Arg.unitOf, BinOp.onData, Arg.data] at hu hd
      have hd : (if q = 0 then Except.error Err.zeroDivision else Except.ok (xd / q)) = (Except.ok rd : Res Rat) := hd
      by_cases hq : q = 0
      · rw [if_pos hq] at hd; cases hd
      · rw [if_neg hq] at hd
        injection hu with hu; injection hd with hd
        subst hu; subst hd; simp only [BinOp.onValue]; ring
  | qty y =>
    obtain ⟨yk, yd, yu, yn⟩ := y
    cases o with
    | pow => exact absurd rfl ho
    | add =>
      simp only [BinOp.onUnit, Arg.unitOf, BinOp.onData, Arg.data] at hu hd
      obtain ⟨h1, h2⟩ := hO.addSub _ _ _ hu
      injection hd with hd; subst hd
      simp only [BinOp.onValue, h1, h2]; ring
    | sub =>
      simp only [BinOp.onUnit, Arg.unitOf, BinOp.onData, Arg.data] at hu hd
      obtain ⟨h1, h2⟩ := hO.addSub _ _ _ hu
      injection hd with hd; subst hd
      simp only [BinOp.onValue, h1, h2]; ring
    | mul =>
      simp only [BinOp.onUnit, Arg.unitOf, BinOp.onData, Arg.data] at hu hd
      have h1 := hO.mul _ _ _ hu
      injection hd with hd; subst hd
      simp only [BinOp.onValue, h1]; ring
    | div =>
      simp only [BinOp.onUnit, Arg.unitOf, BinOp.onData, Arg.data] at hu hd
      have h1 := hO.div _ _ _ hu
      have hd : (if yd = 0 then Except.error Err.zeroDivision else Except.ok (xd / yd)) = (Except.ok rd : Res Rat) := hd
      by_cases hq : yd = 0
      · rw [if_pos hq] at hd; cases hd
      · rw [if_neg hq] at hd
        injection hd with hd; subst hd
        simp only [BinOp.onValue, h1, div_eq_mul_inv, mul_inv]; ring

/-- **C182.** The same for a number on the left; the result is a product. -/
theorem c182_value_reverse (O : UnitOps U) (mag : U → Rat) (powData : Rat → Rat → Res Rat) (o : BinOp)
    (x r : Qty U) (q : Rat) (h : reverse O powData o q x = .ok r) :
    o = .mul ∧ (Arg.qty r).value mag = q * (Arg.qty x).value mag := by
  obtain ⟨hd, hs, hu, -⟩ := binary_ok h
  obtain ⟨xk, xd, xu, xn⟩ := x
  obtain ⟨rk, rd, ru, rn⟩ := r
  cases o with
  | add => simp only [BinOp.onUnit, Arg.unitOf] at hu; cases hu
  | sub => simp only [BinOp.onUnit, Arg.unitOf] at hu; cases hu
  | pow => simp only [BinOp.onUnit, Arg.unitOf] at hu; cases hu
  | div => simp only [BinOp.supported, Arg.isNumber] at hs; cases hs
  | mul =>
    simp only [BinOp.onUnit, Arg.unitOf, BinOp.onData, Arg.data, Except.ok.injEq] at hu hd
    subst hu; subst hd
    refine ⟨rfl, ?_⟩
    simp only [Arg.value]; ring

theorem nameTrue_iff (a : List Str) : nameTrue a = true ↔ a ≠ noName := by
  unfold nameTrue noName; simp

/-- **C182.** The result of an operator between two quantities, one of them with an empty name, has an empty name. -/
theorem c182_name (O : UnitOps U) (powData : Rat → Rat → Res Rat) (o : BinOp) (x y r : Qty U)
    (hx : x.name.isSome = true) (hy : y.name.isSome = true) (hxy : y.Unnamed ∨ x.Unnamed)
    (h : forward O powData o x (.qty y) = .ok r) : r.Unnamed := by
  obtain ⟨-, -, -, -, -, hn⟩ := binary_ok h
  obtain ⟨n, h1, h2⟩ := hn hx
  obtain ⟨a, ha⟩ := Option.isSome_iff_exists.1 hx
  obtain ⟨b, hb⟩ := Option.isSome_iff_exists.1 hy
  simp only [Arg.nameOf, ha, hb, Option.map_some, BinOp.onName, nameOp] at h1
  have hz : ¬ nameTrue a = true ∨ ¬ nameTrue b = true := by
    rw [nameTrue_iff, nameTrue_iff]
    rcases hxy with (hc | hc) | (hc | hc)
    · rw [hb] at hc; cases hc
    · rw [hb] at hc; injection hc with hc; exact Or.inr (by simp [hc])
    · rw [ha] at hc; cases hc
    · rw [ha] at hc; injection hc with hc; exact Or.inl (by simp [hc])
  rw [if_pos hz] at h1
  injection h1 with h1
  right; rw [h2, ← h1]; rfl

theorem floor_spec (q : Rat) : (q.floor : Rat) ≤ q ∧ q < q.floor + 1 := by
  have h1 : (⌊q⌋ : Rat) ≤ q := Int.floor_le q
  have h2 : q < ⌊q⌋ + 1 := Int.lt_floor_add_one q
  rw [show ⌊q⌋ = q.floor from rfl] at h1 h2
  exact ⟨h1, h2⟩

theorem ceil_spec (q : Rat) : q ≤ (q.ceil : Rat) ∧ (q.ceil : Rat) < q + 1 := by
  have h1 : q ≤ (⌈q⌉ : Rat) := Int.le_ceil q
  have h2 : (⌈q⌉ : Rat) < q + 1 := Int.ceil_lt_add_one q
  have h3 : ⌈q⌉ = q.ceil := by
    rw [Rat.ceil_eq_neg_floor_neg]; rfl
  rw [h3] at h1 h2
  exact ⟨h1, h2⟩

/-- **C181.** Unary operations keep the class and the unit; the sign, the absolute value, and the rounded values are those of
the number. -/
theorem c181_unary (x : Qty U) (o : UnOp) :
    (unary o x).kind = x.kind ∧ (unary o x).unit = x.unit ∧
    (unary .neg x).data = -x.data ∧ (unary .pos x).data = x.data ∧ (unary .abs x).data = |x.data| ∧
    ((unary .floor x).data ≤ x.data ∧ x.data < (unary .floor x).data + 1) ∧
    (x.data ≤ (unary .ceil x).data ∧ (unary .ceil x).data < x.data + 1) ∧
    (|(unary .trunc x).data| ≤ |x.data| ∧ |x.data| < |(unary .trunc x).data| + 1) ∧
    |(unary .round x).data - x.data| ≤ 1 / 2 ∧
    (∃ n : Int, (unary .floor x).data = n) ∧ (∃ n : Int, (unary .ceil x).data = n) ∧
    (∃ n : Int, (unary .trunc x).data = n) ∧ (∃ n : Int, (unary .round x).data = n) := by
  obtain ⟨k, q, u, n⟩ := x
  obtain ⟨f1, f2⟩ := floor_spec q
  obtain ⟨c1, c2⟩ := ceil_spec q
  refine ⟨rfl, rfl, rfl, rfl, ?_, ⟨f1, f2⟩, ⟨c1, c2⟩, ?_, ?_, ⟨q.floor, rfl⟩, ⟨q.ceil, rfl⟩, ?_, ⟨roundHalfEven q, rfl⟩⟩
  · simp only [unary, UnOp.onData]
    split
    · next h => rw [abs_of_neg h]
    · next h => rw [abs_of_nonneg (not_lt.1 h)]
  · simp only [unary, UnOp.onData]
    split
    · next h =>
      have h0 : (q.ceil : Rat) ≤ 0 := by
        have : q.ceil < 1 := by exact_mod_cast (by linarith : (q.ceil : Rat) < 1)
        exact_mod_cast (by omega : q.ceil ≤ 0)
      rw [abs_of_neg h, abs_of_nonpos h0]
      constructor <;> linarith
    · next h =>
      have h := not_lt.1 h
      have h0 : (0 : Rat) ≤ q.floor := by
        have : (-1 : Int) < q.floor := by
          have : ((-1 : Int) : Rat) < q.floor := by push_cast; linarith
          exact_mod_cast this
        exact_mod_cast (by omega : 0 ≤ q.floor)
      rw [abs_of_nonneg h, abs_of_nonneg h0]
      exact ⟨f1, f2⟩
  · simp only [unary, UnOp.onData, roundHalfEven]
    rw [abs_le]
    split
    · constructor <;> linarith
    · split
      · push_cast; constructor <;> linarith
      · split
        · constructor <;> linarith
        · push_cast; constructor <;> linarith
  · simp only [unary, UnOp.onData]
    split
    · exact ⟨_, rfl⟩
    · exact ⟨_, rfl⟩

/-- **C182, violated.** Twice the negative is not the quantity, and the absolute value of a positive quantity is not the
quantity, as they have different names. -/
theorem c182_counterexample :
    let x : Qty Str := ⟨.scalar, 2, c!"m", some [c!"x"]⟩
    let ueq : Str → Str → Bool := fun u v => u = v
    (unary .abs x).data = x.data ∧ equal ueq (unary .abs x) (.qty x) = false ∧
    equal ueq (unary .neg (unary .neg x)) (.qty x) = false ∧
    compare ueq .le x (.qty (unary .abs x)) = .error .valueError := by
  decide +kernel

/-- Units that are powers of a metre. -/
def meterOps : UnitOps Int where
  addSub u v := if u = v then .ok u else .error (.named "DimensionMismatch")
  mul u v := .ok (u + v)
  div u v := .ok (u - v)
  pow u q := if q.den = 1 then .ok (u * q.num) else .error .valueError

example : Respects meterOps (fun n => (2 : Rat) ^ n) where
  addSub u v w h := by
    unfold meterOps at h
    simp only at h
    split at h
    · next he => injection h with h; subst h; subst he; exact ⟨rfl, rfl⟩
    · cases h
  mul u v w h := by injection h with h; rw [← h]; exact zpow_add₀ (by norm_num) u v
  div u v w h := by injection h with h; rw [← h]; exact zpow_sub₀ (by norm_num) u v

example : forward meterOps (fun _ _ => .error .valueError) .mul ⟨.scalar, 2, 1, some [c!"x"]⟩
    (.qty ⟨.scalar, 3, 1, some [c!"y"]⟩) = .ok ⟨.scalar, 6, 2, some [c!"x * y"]⟩ := by decide +kernel

example : forward meterOps (fun _ _ => .error .valueError) .add ⟨.scalar, 2, 1, some [c!"x"]⟩
    (.qty ⟨.scalar, 3, 2, some [c!"y"]⟩) = .error (.named "DimensionMismatch") := rfl

end Verif.Quantities
