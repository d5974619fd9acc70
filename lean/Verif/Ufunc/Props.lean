import Verif.Ufunc.Model
import Mathlib.Analysis.SpecialFunctions.Pow.Real

/-!
# C189-C193: numpy functions on arrays with units
-/

set_option linter.unusedSimpArgs false

namespace Verif.Ufunc

open Verif.Py

variable {ι U β : Type}

/-- Specification: magnitudes of units that the operations on units respect. -/
structure Respects (O : UnitOps U) (mag : U → ℝ) : Prop where
  pos : ∀ u, 0 < mag u
  addSub : ∀ u v w, O.addSub u v = .ok w → mag w = mag u ∧ mag v = mag u
  mul : ∀ u v w, O.mul u v = .ok w → mag w = mag u * mag v
  div : ∀ u v w, O.div u v = .ok w → mag w = mag u / mag v
  pow : ∀ u q w, O.pow u q = .ok w → mag w = mag u ^ q

/-- The physical value of an array at a position, in base units. -/
def Arr.value (mag : U → ℝ) (a : Arr ι U ℝ) (p : ι) : ℝ := a.data p * mag a.unit

/-- The physical value of an operand. -/
def opValue (mag : U → ℝ) (x : Operand ι U) (p : ι) : ℝ :=
  match x with
  | .inl a => a.value mag p
  | .inr q => q

/-! ## C189: comparisons -/

/-- The four comparisons: the name of the numpy function, and what it computes. -/
inductive Cmp where
  | lt | le | gt | ge

def Cmp.name : Cmp → Str
  | .lt => c!"less"
  | .le => c!"less_equal"
  | .gt => c!"greater"
  | .ge => c!"greater_equal"

def Cmp.holds : Cmp → ℝ → ℝ → Prop
  | .lt, x, y => x < y
  | .le, x, y => x ≤ y
  | .gt, x, y => x > y
  | .ge, x, y => x ≥ y

theorem metaUnit_cmp (O : UnitOps U) (c : Cmp) (values : List (U ⊕ ℝ)) : metaUnit O c.name values = .ok none := by
  have h : operation c.name = some .nothing := by cases c <;> decide
  unfold metaUnit
  rw [h]

theorem call2_cmp (O : UnitOps U) (c : Cmp) (f : ℝ → ℝ → β) (x y : Operand ι U) :
    call2 O c.name f x y = .ok (.plain fun p => f (entry x p) (entry y p)) := by
  unfold call2
  rw [metaUnit_cmp]; rfl

theorem holds_mul (c : Cmp) (x y m : ℝ) (hm : 0 < m) : c.holds (x * m) (y * m) ↔ c.holds x y := by
  cases c
  · exact mul_lt_mul_iff_left₀ hm
  · exact mul_le_mul_iff_left₀ hm
  · exact mul_lt_mul_iff_left₀ hm
  · exact mul_le_mul_iff_left₀ hm

/-- **C189.** Arrays in units of the same magnitude are compared by their physical values. -/
theorem c189_partial (O : UnitOps U) (mag : U → ℝ) (hm : ∀ u, 0 < mag u) (c : Cmp) (a b : Arr ι U ℝ)
    (h : mag a.unit = mag b.unit) :
    ∃ r, call2 O c.name c.holds (.inl a) (.inl b) = .ok (.plain r) ∧ ∀ p, r p ↔ c.holds (a.value mag p) (b.value mag p) := by
  refine ⟨_, call2_cmp O c c.holds _ _, fun p => ?_⟩
  unfold Arr.value
  rw [← h]
  exact (holds_mul c _ _ _ (hm _)).symm

/-- **C189, violated.** The units are ignored: whenever two units have different magnitudes, there are arrays `a` and `b` for which
`a < b` holds although `b` is smaller. -/
theorem c189_counterexample (O : UnitOps U) (mag : U → ℝ) (hm : ∀ u, 0 < mag u) (u v : U) (h : mag v < mag u) :
    ∃ (a b : Arr Unit U ℝ) (r : Unit → Prop), a.unit = u ∧ b.unit = v ∧
      call2 O Cmp.lt.name Cmp.lt.holds (.inl a) (.inl b) = .ok (.plain r) ∧ r () ∧ b.value mag () < a.value mag () := by
  obtain ⟨c, h1, h2⟩ := exists_between ((one_lt_div (hm v)).2 h)
  refine ⟨⟨fun _ => 1, u⟩, ⟨fun _ => c, v⟩, _, rfl, rfl, call2_cmp O .lt _ _ _, ?_, ?_⟩
  · exact h1
  · show c * mag v < 1 * mag u
    rw [one_mul]
    exact (lt_div_iff₀ (hm v)).1 h2

/-- **C189, violated.** A number is compared with the values in whatever unit the array has: for every change of unit there are an
array and a number for which the comparison changes. -/
theorem c189_number_counterexample (O : UnitOps U) (mag : U → ℝ) (hm : ∀ u, 0 < mag u) (u v : U) (h : mag v < mag u) :
    ∃ (a b : Arr Unit U ℝ) (q : ℝ) (r s : Unit → Prop), a.unit = u ∧ b.unit = v ∧ a.value mag () = b.value mag () ∧
      call2 O Cmp.lt.name Cmp.lt.holds (.inl a) (.inr q) = .ok (.plain r) ∧
      call2 O Cmp.lt.name Cmp.lt.holds (.inl b) (.inr q) = .ok (.plain s) ∧ r () ∧ ¬ s () := by
  have h1 := (one_lt_div (hm v)).2 h
  refine ⟨⟨fun _ => 1, u⟩, ⟨fun _ => mag u / mag v, v⟩, mag u / mag v, _, _, rfl, rfl, ?_, call2_cmp O .lt _ _ _,
    call2_cmp O .lt _ _ _, h1, ?_⟩
  · show 1 * mag u = mag u / mag v * mag v
    rw [one_mul, div_mul_cancel₀ _ (hm v).ne']
  · exact lt_irrefl _

/-- **C189, violated.** `a != b` raises an exception for all arrays `a` and `b`. -/
theorem c189_not_equal_counterexample (O : UnitOps U) (f : ℝ → ℝ → β) (a b : Arr ι U ℝ) :
    call2 O c!"not_equal" f (.inl a) (.inl b) = .error (.named "MetadataError") := by
  have h : operation c!"not_equal" = none := by decide
  unfold call2 metaUnit
  rw [h]
  rfl

/-! ## C190: functions of one argument -/

/-- Specification: a function whose values scale with a power of the argument, such as a root or a power. -/
def Homogeneous (f : ℝ → ℝ) (k : ℝ) : Prop := ∀ c x, 0 < c → f (x * c) = f x * c ^ k

/-- The power of the unit in the result. -/
noncomputable def degree (name : Str) : ℝ := if name = c!"sqrt" then 1 / 2 else 1

/-- The names of functions of two arguments. -/
def isBinary (name : Str) : Bool :=
  match operation name with
  | some .unary => false
  | some _ => true
  | none => false

theorem call1_unit {O : UnitOps U} {name : Str} (hb : isBinary name = false) {f : ℝ → β} {a : Arr ι U ℝ} {r : Out ι U β}
    (h : call1 O name f a = .ok r) :
    ∃ u, r = .array ⟨fun p => f (a.data p), u⟩ ∧
      (name ≠ c!"sqrt" → u = a.unit) ∧ (name = c!"sqrt" → O.pow a.unit (1 / 2) = .ok u ∨ u = a.unit ∧ O.pow a.unit (1 / 2) = .error .typeError) := by
  unfold call1 metaUnit at h
  unfold isBinary at hb
  cases ho : operation name with
  | some c =>
    rw [ho] at h hb
    cases c with
    | unary =>
      have h : Except.ok (Out.array ⟨fun p => f (a.data p), a.unit⟩) = Except.ok r := h
      injection h with h
      refine ⟨a.unit, h.symm, fun _ => rfl, fun hs => ?_⟩
      subst hs
      exact absurd ho (by decide)
    | _ => cases hb
  | none =>
    rw [ho] at h
    by_cases hs : name = c!"sqrt"
    · simp only [ufuncOnUnits, if_pos hs] at h
      cases hp : O.pow a.unit (1 / 2) with
      | ok u =>
        rw [hp] at h
        have h : Except.ok (Out.array ⟨fun p => f (a.data p), u⟩) = Except.ok r := h
        injection h with h
        exact ⟨u, h.symm, fun hn => absurd hs hn, fun _ => Or.inl rfl⟩
      | error e =>
        rw [hp] at h
        by_cases he : e = .typeError
        · subst he
          have h : Except.ok (Out.array ⟨fun p => f (a.data p), a.unit⟩) = Except.ok r := h
          injection h with h
          exact ⟨a.unit, h.symm, fun hn => absurd hs hn, fun _ => Or.inr ⟨rfl, rfl⟩⟩
        · exfalso
          revert h
          cases e <;> first | (exact absurd rfl he) | (intro h; exact absurd h (by simp [fallback, Except.map]))
    · simp only [ufuncOnUnits, if_neg hs] at h
      have h : Except.ok (Out.array ⟨fun p => f (a.data p), a.unit⟩) = Except.ok r := h
      injection h with h
      exact ⟨a.unit, h.symm, fun _ => rfl, fun hn => absurd hn hs⟩

/-- **C190.** For `absolute`, `negative` and the like (degree one), and for the square root, the physical value of the result is the
function of the physical value.  Square roots of units are assumed to exist. -/
theorem c190_partial (O : UnitOps U) (mag : U → ℝ) (hR : Respects O mag) (name : Str) (hb : isBinary name = false)
    (hs : ∀ u, ∃ w, O.pow u (1 / 2) = .ok w) (f : ℝ → ℝ) (hf : Homogeneous f (degree name)) (a : Arr ι U ℝ)
    (r : Out ι U ℝ) (h : call1 O name f a = .ok r) :
    ∃ b : Arr ι U ℝ, r = .array b ∧ ∀ p, b.value mag p = f (a.value mag p) := by
  obtain ⟨u, rfl, h1, h2⟩ := call1_unit hb h
  refine ⟨_, rfl, fun p => ?_⟩
  unfold Arr.value
  rw [hf _ _ (hR.pos _)]
  simp only
  by_cases hn : name = c!"sqrt"
  · rcases h2 hn with h | ⟨_, h⟩
    · rw [hR.pow _ _ _ h, degree, if_pos hn]
    · obtain ⟨w, hw⟩ := hs a.unit
      rw [hw] at h; cases h
  · rw [h1 hn, degree, if_neg hn, Real.rpow_one]

/-- The hypothesis of `c190_partial` holds for the functions that it is about. -/
theorem homogeneous_sqrt : Homogeneous Real.sqrt (degree c!"sqrt") := by
  intro c x hc
  rw [Real.sqrt_mul' _ hc.le, Real.sqrt_eq_rpow c, degree, if_pos rfl]

theorem homogeneous_abs : Homogeneous (fun x => |x|) (degree c!"absolute") := by
  intro c x hc
  rw [degree, if_neg (by decide), Real.rpow_one]
  show |x * c| = |x| * c
  rw [abs_mul, abs_of_pos hc]

theorem homogeneous_neg : Homogeneous (fun x => -x) (degree c!"negative") := by
  intro c x hc
  rw [degree, if_neg (by decide), Real.rpow_one, neg_mul]

/-- **C190, violated.** All other functions keep the unit of their argument.  Thus a square, or any other power but the first, of a
quantity with a unit has another physical value. -/
theorem c190_counterexample (O : UnitOps U) (mag : U → ℝ) (hm : ∀ u, 0 < mag u) (name : Str) (hn : operation name = none)
    (hs : name ≠ c!"sqrt") (f : ℝ → ℝ) (k : ℝ) (hf : Homogeneous f k) (a : Arr ι U ℝ) (p : ι) (hp : f (a.data p) ≠ 0)
    (hu : mag a.unit ^ k ≠ mag a.unit) :
    ∃ b : Arr ι U ℝ, call1 O name f a = .ok (.array b) ∧ b.unit = a.unit ∧ b.value mag p ≠ f (a.value mag p) := by
  refine ⟨⟨fun p => f (a.data p), a.unit⟩, ?_, rfl, ?_⟩
  · unfold call1 metaUnit
    rw [hn]
    simp only [ufuncOnUnits, if_neg hs]
    rfl
  · unfold Arr.value
    rw [hf _ _ (hm _)]
    exact fun h => hu (mul_left_cancel₀ hp h).symm

/-- `numpy.square` meets the hypotheses of the counterexample. -/
theorem homogeneous_square : operation c!"square" = none ∧ Homogeneous (fun x => x ^ 2) 2 := by
  refine ⟨by decide, fun c x hc => ?_⟩
  rw [Real.rpow_two]; ring

/-! ## C191: arithmetic -/

theorem metaUnit_some {O : UnitOps U} {name : Str} {values : List (U ⊕ ℝ)} {c : Callable} (ho : operation name = some c)
    (hc : c ≠ .nothing) :
    metaUnit O name values = if suppressed c values then .error (.named "OperandTypeError")
      else (fallback values (c.onUnits O values)).map some := by
  unfold metaUnit
  rw [ho]
  cases c <;> first | rfl | exact absurd rfl hc

/-- The arithmetic functions. -/
inductive Fun where
  | add | sub | mul | div | pow

/-- Their names in numpy 1.22. -/
def Fun.name : Fun → Str
  | .add => c!"add"
  | .sub => c!"subtract"
  | .mul => c!"multiply"
  | .div => c!"true_divide"
  | .pow => c!"power"

/-- Specification: what they mean for numbers. -/
noncomputable def Fun.onValue : Fun → ℝ → ℝ → ℝ
  | .add, x, y => x + y
  | .sub, x, y => x - y
  | .mul, x, y => x * y
  | .div, x, y => x / y
  | .pow, x, y => x ^ y

def Fun.callable : Fun → Callable
  | .add => .add
  | .sub => .sub
  | .mul => .mul
  | .div => .div
  | .pow => .pow

theorem operation_fun (o : Fun) : operation o.name = some o.callable := by cases o <;> decide

/-- One of the two operands is an array, or else numpy does not ask. -/
def hasArray (x y : Operand ι U) : Prop := x.isLeft = true ∨ y.isLeft = true

theorem call2_fun (O : UnitOps U) (o : Fun) (f : ℝ → ℝ → ℝ) (x y : Operand ι U) :
    call2 O o.name f x y = (if suppressed o.callable [unitOf x, unitOf y] then .error (.named "OperandTypeError")
      else (fallback [unitOf x, unitOf y] (o.callable.onUnits O [unitOf x, unitOf y])).map some).map
        (newFromFunc (fun p => f (entry x p) (entry y p))) := by
  unfold call2
  rw [metaUnit_some (operation_fun o) (by cases o <;> decide)]

/-- A result of arithmetic has the unit that the callable computes. -/
theorem call2_fun_ok {O : UnitOps U} {o : Fun} {f : ℝ → ℝ → ℝ} {x y : Operand ι U} {r : Out ι U ℝ}
    (h : call2 O o.name f x y = .ok r) :
    ∃ u, o.callable.onUnits O [unitOf x, unitOf y] = .ok u ∧ suppressed o.callable [unitOf x, unitOf y] = false ∧
      r = .array ⟨fun p => f (entry x p) (entry y p), u⟩ := by
  rw [call2_fun] at h
  cases hs : suppressed o.callable [unitOf x, unitOf y] with
  | true => rw [hs] at h; cases h
  | false =>
    rw [hs] at h
    cases hu : o.callable.onUnits O [unitOf x, unitOf y] with
    | ok u =>
      rw [hu] at h
      have h : Except.ok (Out.array ⟨fun p => f (entry x p) (entry y p), u⟩) = Except.ok r := h
      injection h with h
      exact ⟨u, rfl, rfl, h.symm⟩
    | error e =>
      exfalso
      rw [hu] at h
      by_cases he : e = .typeError
      · subst he
        have h2 : fallback [unitOf x, unitOf y] (.error .typeError : Res U) =
          .error .typeError ∨ fallback [unitOf x, unitOf y] (.error .typeError : Res U) = .error (.named "MetadataError") := by
          cases x <;> cases y <;> first | exact Or.inl rfl | exact Or.inr rfl
        rcases h2 with h2 | h2 <;> rw [h2] at h <;> cases h
      · have h2 : fallback [unitOf x, unitOf y] (.error e : Res U) = .error e := by
          cases e <;> first | rfl | exact absurd rfl he
        rw [h2] at h
        cases h

/-- **C191.** If `+`, `-`, `*`, `/` or `**` of arrays and numbers gives a result, then it is a quantity, and its physical value is the
result of the operation on the physical values.  For powers, the data must not be negative. -/
theorem c191_value (O : UnitOps U) (mag : U → ℝ) (hR : Respects O mag) (o : Fun) (x y : Operand ι U) (hxy : hasArray x y)
    (r : Out ι U ℝ) (h : call2 O o.name o.onValue x y = .ok r) :
    ∃ b : Arr ι U ℝ, r = .array b ∧ ∀ p, (o.name = c!"power" → 0 ≤ entry x p) →
      b.value mag p = o.onValue (opValue mag x p) (opValue mag y p) := by
  obtain ⟨u, hu, hs, rfl⟩ := call2_fun_ok h
  refine ⟨_, rfl, fun p hp => ?_⟩
  unfold Arr.value
  simp only
  cases o with
  | add =>
    cases x <;> cases y <;> simp only [Fun.callable, unitOf, Callable.onUnits] at hu <;> try cases hu
    obtain ⟨h1, h2⟩ := hR.addSub _ _ _ hu
    simp only [Fun.onValue, entry, opValue, Arr.value]
    rw [h1, h2]; ring
  | sub =>
    cases x <;> cases y <;> simp only [Fun.callable, unitOf, Callable.onUnits] at hu <;> try cases hu
    obtain ⟨h1, h2⟩ := hR.addSub _ _ _ hu
    simp only [Fun.onValue, entry, opValue, Arr.value]
    rw [h1, h2]; ring
  | mul =>
    cases x with
    | inl a =>
      cases y with
      | inl b =>
        have := hR.mul _ _ _ hu
        simp only [Fun.onValue, entry, opValue, Arr.value]
        rw [this]; ring
      | inr q =>
        injection hu with hu
        subst hu
        simp only [Fun.onValue, entry, opValue, Arr.value]; ring
    | inr q =>
      cases y with
      | inl b =>
        injection hu with hu
        subst hu
        simp only [Fun.onValue, entry, opValue, Arr.value]; ring
      | inr q' => cases hu
  | div =>
    cases x with
    | inl a =>
      cases y with
      | inl b =>
        have := hR.div _ _ _ hu
        simp only [Fun.onValue, entry, opValue, Arr.value]
        rw [this, div_mul_div_comm]
      | inr q =>
        injection hu with hu
        subst hu
        simp only [Fun.onValue, entry, opValue, Arr.value]; ring
    | inr q =>
      cases y with
      | inl b => cases hs
      | inr q' => cases hu
  | pow =>
    cases x with
    | inl a =>
      cases y with
      | inl b => cases hs
      | inr q =>
        have := hR.pow _ _ _ hu
        simp only [Fun.onValue, entry, opValue, Arr.value]
        have hp : 0 ≤ a.data p := hp rfl
        rw [this, Real.mul_rpow hp (hR.pos _).le]
    | inr q =>
      cases y with
      | inl b => cases hs
      | inr q' => cases hu

/-- **C191.** Adding or subtracting a number, dividing a number by an array, and raising anything to an array is refused; scaling by a
number and products, quotients and sums whose unit exists are accepted. -/
theorem c191_accepted (O : UnitOps U) (f : ℝ → ℝ → ℝ) (a b : Arr ι U ℝ) (q : ℝ) :
    call2 O Fun.add.name f (.inl a) (.inr q) = .error .typeError ∧
    call2 O Fun.add.name f (.inr q) (.inl a) = .error .typeError ∧
    call2 O Fun.sub.name f (.inl a) (.inr q) = .error .typeError ∧
    call2 O Fun.sub.name f (.inr q) (.inl a) = .error .typeError ∧
    call2 O Fun.div.name f (.inr q) (.inl a) = .error (.named "OperandTypeError") ∧
    call2 O Fun.pow.name f (.inr q) (.inl a) = .error (.named "OperandTypeError") ∧
    call2 O Fun.pow.name f (.inl b) (.inl a) = .error (.named "OperandTypeError") ∧
    call2 O Fun.mul.name f (.inl a) (.inr q) = .ok (.array ⟨fun p => f (a.data p) q, a.unit⟩) ∧
    call2 O Fun.mul.name f (.inr q) (.inl a) = .ok (.array ⟨fun p => f q (a.data p), a.unit⟩) ∧
    call2 O Fun.div.name f (.inl a) (.inr q) = .ok (.array ⟨fun p => f (a.data p) q, a.unit⟩) ∧
    (∀ u, O.addSub a.unit b.unit = .ok u →
      call2 O Fun.add.name f (.inl a) (.inl b) = .ok (.array ⟨fun p => f (a.data p) (b.data p), u⟩) ∧
      call2 O Fun.sub.name f (.inl a) (.inl b) = .ok (.array ⟨fun p => f (a.data p) (b.data p), u⟩)) ∧
    (∀ u, O.mul a.unit b.unit = .ok u →
      call2 O Fun.mul.name f (.inl a) (.inl b) = .ok (.array ⟨fun p => f (a.data p) (b.data p), u⟩)) ∧
    (∀ u, O.div a.unit b.unit = .ok u →
      call2 O Fun.div.name f (.inl a) (.inl b) = .ok (.array ⟨fun p => f (a.data p) (b.data p), u⟩)) := by
  refine ⟨?_, ?_, ?_, ?_, ?_, ?_, ?_, ?_, ?_, ?_, fun u hu => ⟨?_, ?_⟩, fun u hu => ?_, fun u hu => ?_⟩ <;>
    rw [call2_fun] <;> simp only [Fun.callable, unitOf, suppressed, Callable.onUnits, Bool.false_eq_true, if_false, if_true]
  all_goals first | (rw [hu]; rfl) | rfl

/-- **C191.** No other numpy function of two arguments accepts an array: functions such as `maximum` and `arctan2` never give a result
with a wrong unit. -/
theorem c191_other (O : UnitOps U) (name : Str) (hn : operation name = none) (f : ℝ → ℝ → β) (x y : Operand ι U) (r : Out ι U β) :
    call2 O name f x y ≠ .ok r := by
  unfold call2 metaUnit
  rw [hn]
  cases x <;> cases y <;> exact fun h => by cases h

/-! ## C192: sums and extremes -/

/-- **C192.** Means along an axis, and arrays without singular axes, have the unit of the array. -/
theorem c192_partial {κ : Type} (f : (ι → ℝ) → κ → ℝ) (a : Arr ι U ℝ) :
    arrayFunction c!"mean" true f a = .array ⟨f a.data, a.unit⟩ ∧
    ∀ axis, arrayFunction c!"squeeze" axis f a = .array ⟨f a.data, a.unit⟩ :=
  ⟨rfl, fun axis => by cases axis <;> rfl⟩

/-- **C192, violated.** All other functions, and the mean of all values, give plain numbers, which depend on the unit: arrays with the
same physical values have different sums, and arrays with different physical values have the same. -/
theorem c192_counterexample (mag : U → ℝ) (hm : ∀ u, 0 < mag u) (u v : U) (h : mag v < mag u) (name : Str) (axis : Bool)
    (hk : keepsUnit name axis = false) :
    ∃ a b c : Arr Unit U ℝ, ∃ s t : ℝ, a.unit = u ∧ b.unit = v ∧ c.unit = v ∧
      (∀ p, a.value mag p = b.value mag p) ∧ (∀ p, a.value mag p ≠ c.value mag p) ∧
      arrayFunction name axis (fun d (_ : Unit) => d ()) a = .plain (fun _ => s) ∧
      arrayFunction name axis (fun d (_ : Unit) => d ()) b = .plain (fun _ => t) ∧
      arrayFunction name axis (fun d (_ : Unit) => d ()) c = .plain (fun _ => s) ∧ s ≠ t := by
  have h1 := (one_lt_div (hm v)).2 h
  refine ⟨⟨fun _ => 1, u⟩, ⟨fun _ => mag u / mag v, v⟩, ⟨fun _ => 1, v⟩, 1, mag u / mag v, rfl, rfl, rfl, ?_, ?_, ?_, ?_, ?_, h1.ne⟩
  · intro p
    show 1 * mag u = mag u / mag v * mag v
    rw [one_mul, div_mul_cancel₀ _ (hm v).ne']
  · intro p
    show 1 * mag u ≠ 1 * mag v
    rw [one_mul, one_mul]; exact h.ne'
  all_goals simp only [arrayFunction, hk, Bool.false_eq_true, if_false]

example : keepsUnit c!"sum" true = false ∧ keepsUnit c!"mean" false = false := by decide

/-! ## C193: results in existing arrays -/

theorem arr_of_extend {s s' : Store ι U} {i : Nat} {a : Arr ι U ℝ} (h : s.arr i = some a)
    (hb : ∀ k, k < s.buffers.length → s'.buffers[k]? = s.buffers[k]?)
    (ho : ∀ k, k < s.objects.length → s'.objects[k]? = s.objects[k]?) : s'.arr i = some a := by
  unfold Store.arr at h ⊢
  cases h1 : s.objects[i]? with
  | none => rw [h1] at h; cases h
  | some o =>
    rw [h1] at h
    rw [ho i (List.getElem?_eq_some_iff.1 h1).1, h1]
    cases h2 : s.buffers[o.buffer]? with
    | none => simp only [h2] at h; cases h
    | some d =>
      simp only [h2] at h ⊢
      rw [hb _ (List.getElem?_eq_some_iff.1 h2).1, h2]
      exact h

/-- What a call with `out` does. -/
theorem callOut_ok {O : UnitOps U} {name : Str} {f : ℝ → ℝ → ℝ} {s s' : Store ι U} {x y : Nat ⊕ ℝ} {c : Nat} {k : Option Nat}
    (h : callOut O name f s x y c = .ok (s', k)) :
    ∃ x' y', s.operand x = some x' ∧ s.operand y = some y' ∧
      (∀ k, k < s.buffers.length → s'.buffers[k]? = s.buffers[k]?) ∧
      (∀ k, k < s.objects.length → s'.objects[k]? = s.objects[k]?) ∧
      ∀ n, k = some n → n = s.objects.length ∧ ∃ a, s'.arr n = some a ∧ call2 O name f x' y' = .ok (.array a) := by
  unfold callOut at h
  cases hx : s.operand x with
  | none => rw [hx] at h; cases h
  | some x' =>
    cases hy : s.operand y with
    | none => rw [hx, hy] at h; cases h
    | some y' =>
      cases hc : s.arr c with
      | none => simp only [hx, hy, Store.array, hc, Option.map_none] at h; cases h
      | some a =>
        simp only [hx, hy, Store.array, hc, Option.map_some] at h
        refine ⟨x', y', rfl, rfl, ?_⟩
        have hset : (s.buffers ++ [a.data]).set s.buffers.length (fun p => f (entry x' p) (entry y' p)) =
            s.buffers ++ [fun p => f (entry x' p) (entry y' p)] := by simp
        rw [hset] at h
        cases hm : metaUnit O name [unitOf x', unitOf y'] with
        | error e => rw [hm] at h; cases h
        | ok u =>
          rw [hm] at h
          cases u with
          | none =>
            cases h
            exact ⟨fun k hk => List.getElem?_append_left hk, fun _ _ => rfl, fun n hn => by cases hn⟩
          | some u =>
            cases h
            refine ⟨fun k hk => List.getElem?_append_left hk, fun k hk => List.getElem?_append_left hk, fun n hn => ?_⟩
            injection hn with hn
            subst hn
            refine ⟨rfl, ⟨fun p => f (entry x' p) (entry y' p), u⟩, ?_, ?_⟩
            · simp [Store.arr]
            · unfold call2
              rw [hm]; rfl

/-- **C193.** `x += y` binds `x` to a new object with the value of `x + y`, and changes no existing object. -/
theorem c193_inplace (O : UnitOps U) (name : Str) (f : ℝ → ℝ → ℝ) (s s' : Store ι U) (x : Nat) (y : Nat ⊕ ℝ) (k : Nat)
    (h : callOut O name f s (.inl x) y x = .ok (s', some k)) :
    (∀ i a, s.arr i = some a → s'.arr i = some a ∧ i ≠ k) ∧
    ∃ x' y' a, s.operand (.inl x) = some x' ∧ s.operand y = some y' ∧ call2 O name f x' y' = .ok (.array a) ∧ s'.arr k = some a := by
  obtain ⟨x', y', hx, hy, hb, ho, hk⟩ := callOut_ok h
  obtain ⟨hk, a, ha, hc⟩ := hk k rfl
  refine ⟨fun i b hi => ⟨arr_of_extend hi hb ho, fun he => ?_⟩, x', y', a, hx, hy, hc, ha⟩
  unfold Store.arr at hi
  rw [he, hk] at hi
  simp at hi

/-- **C193, violated.** `numpy.add(x, y, out=c)`, and any other function with `out`, leaves the object `c` as it was. -/
theorem c193_counterexample (O : UnitOps U) (name : Str) (f : ℝ → ℝ → ℝ) (s s' : Store ι U) (x y : Nat ⊕ ℝ) (c : Nat)
    (b : Arr ι U ℝ) (hc : s.arr c = some b) (k : Option Nat) (h : callOut O name f s x y c = .ok (s', k)) :
    s'.arr c = some b := by
  obtain ⟨_, _, _, _, hb, ho, _⟩ := callOut_ok h
  exact arr_of_extend hc hb ho

/-! ## Examples -/

/-- Powers of the meter times ten to the second number. -/
noncomputable def meters : UnitOps (ℝ × ℝ) where
  addSub u v := by classical exact if u = v then .ok u else .error (.named "UnitError")
  mul u v := .ok (u.1 + v.1, u.2 + v.2)
  div u v := .ok (u.1 - v.1, u.2 - v.2)
  pow u q := .ok (u.1 * q, u.2 * q)

/-- The specification can be met. -/
theorem meters_respects : Respects meters (fun u => (10 : ℝ) ^ u.2) where
  pos u := Real.rpow_pos_of_pos (by norm_num) _
  addSub u v w h := by
    unfold meters at h
    simp only at h
    split at h
    · next he => cases h; subst he; exact ⟨rfl, rfl⟩
    · cases h
  mul u v w h := by cases h; exact Real.rpow_add (by norm_num) _ _
  div u v w h := by cases h; exact Real.rpow_sub (by norm_num) _ _
  pow u q w h := by cases h; exact Real.rpow_mul (by norm_num) _ _

/-- `numpy.square` of one kilometer is one "kilometer", not a million square meters. -/
example : ∃ b : Arr Unit (ℝ × ℝ) ℝ, call1 meters c!"square" (fun x => x ^ 2) ⟨fun _ => 1, (1, 3)⟩ = .ok (.array b) ∧
    b.unit = (1, 3) ∧ b.value (fun u => (10 : ℝ) ^ u.2) () ≠ (10 ^ 3) ^ 2 := by
  obtain ⟨b, h1, h2, h3⟩ := c190_counterexample meters (fun u => (10 : ℝ) ^ u.2) meters_respects.pos c!"square"
    homogeneous_square.1 (by decide) (fun x => x ^ 2) 2 homogeneous_square.2 (⟨fun _ => 1, (1, 3)⟩ : Arr Unit (ℝ × ℝ) ℝ) ()
    (by norm_num) (by
      simp only
      rw [← Real.rpow_mul (by norm_num)]
      norm_num)
  refine ⟨b, h1, h2, fun h => h3 ?_⟩
  rw [h]
  simp only [Arr.value]
  norm_num

/-- Three objects in meters; `numpy.add(a, b, out=c)` gives an object with the sum, 3 m, and `c` still has 0 m. -/
example : ∃ s' : Store Unit (ℝ × ℝ),
    callOut meters Fun.add.name Fun.add.onValue
      ⟨[fun _ => 1, fun _ => 2, fun _ => 0], [⟨0, 1, (1, 0)⟩, ⟨1, 1, (1, 0)⟩, ⟨2, 1, (1, 0)⟩]⟩ (.inl 0) (.inl 1) 2 = .ok (s', some 3) ∧
    (s'.arr 3).map (fun a => a.data ()) = some 3 ∧ (s'.arr 2).map (fun a => a.data ()) = some 0 := by
  refine ⟨⟨[fun _ => 1, fun _ => 2, fun _ => 0, fun _ => 3], [⟨0, 1, (1, 0)⟩, ⟨1, 1, (1, 0)⟩, ⟨2, 1, (1, 0)⟩, ⟨3, 1, (1, 0)⟩]⟩, ?_, ?_, ?_⟩
  · have h : metaUnit meters Fun.add.name [.inl ((1 : ℝ), (0 : ℝ)), .inl (1, 0)] = .ok (some (1, 0)) := by
      rw [metaUnit_some (operation_fun .add) (by decide)]
      simp [Fun.callable, suppressed, Callable.onUnits, meters, fallback, Except.map]
    simp [callOut, Store.operand, Store.array, Store.arr, unitOf, h, entry, Fun.onValue]
    norm_num
  · simp [Store.arr]
  · simp [Store.arr]

end Verif.Ufunc
