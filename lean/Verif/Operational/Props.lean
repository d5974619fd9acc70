import Verif.Operational.Model
import Mathlib.Tactic.Linarith
import Mathlib.Algebra.Order.Field.Basic

set_option linter.unusedSimpArgs false

/-!
# Properties of operational arguments: C63, C108-C111
-/

namespace Verif.Operational

open Verif.Py
open Verif.Runtime (Str isSpace)

variable {U : Type}

/-! ## C63 -/

/-- Specification: the single number, if a value is one. -/
inductive IsNumber : Val → Prop
  | int (n : Int) : IsNumber (.int n)
  | real (q : ℚ) : IsNumber (.real q)

theorem dropWhile_eq_nil_iff (p : Char → Bool) (s : Str) : s.dropWhile p = [] ↔ ∀ c ∈ s, p c = true := by
  induction s with
  | nil => simp
  | cons c cs ih =>
    by_cases h : p c = true
    · rw [List.dropWhile_cons_of_pos h, ih]; simp [h]
    · rw [List.dropWhile_cons_of_neg h]; simp [h]

theorem strip_ne_nil (s : Str) : Runtime.strip s ≠ [] ↔ ∃ c ∈ s, isSpace c = false := by
  unfold Runtime.strip
  rw [Ne, List.reverse_eq_nil_iff, dropWhile_eq_nil_iff]
  constructor
  · intro h
    by_contra hn
    apply h
    intro c hc
    have : c ∈ s := by
      rw [List.mem_reverse] at hc
      exact (List.dropWhile_suffix isSpace).subset hc
    by_contra hc'
    exact hn ⟨c, this, by simpa using hc'⟩
  · rintro ⟨c, hc, hsp⟩ h
    have h2 : s.dropWhile isSpace ≠ [] := by
      intro h3
      rw [dropWhile_eq_nil_iff] at h3
      rw [h3 c hc] at hsp
      cases hsp
    have h4 := List.head_dropWhile_not isSpace h2
    have h5 := h ((s.dropWhile isSpace).head h2) (List.mem_reverse.2 (List.head_mem h2))
    rw [h5] at h4
    cases h4

/-- C63, partial. The number of members of any argument is its length.  The argument made of a single
number, with or without unit, is true; of a Boolean, it has the truth of the Boolean; of a string, it is
true iff the string has a character other than white space.  An option with several values is
true.

Missing: the truth of a physical argument with several values, which is an exception
(`c63_counterexample`). -/
theorem c63_partial (u : Option U) :
    (∀ a : Argument U, a.members.length = a.length)
    ∧ (∀ x, IsNumber x → (Argument.new x u).truth = .ok true
        ∧ (Argument.new (.seq [x]) u).truth = .ok true)
    ∧ (∀ b, (Argument.new (.bool b) u).truth = .ok b)
    ∧ (∀ s : Str, ∃ t, (Argument.new (.str s) u).truth = .ok t
        ∧ (t = true ↔ ∃ c ∈ s, isSpace c = false))
    ∧ ∀ x y xs, (Argument.new (U := U) (.seq (x :: y :: xs)) none).truth = .ok true := by
  refine ⟨?_, ?_, ?_, ?_, ?_⟩
  · intro a
    unfold Argument.members Argument.length
    cases h : a.data <;> simp [itemsOf, lenOf]
  · intro x hx
    cases hx <;> cases u <;> exact ⟨rfl, rfl⟩
  · intro b
    cases u <;> rfl
  · intro s
    refine ⟨decide (Runtime.strip s ≠ []), ?_, ?_⟩
    · cases u <;> rfl
    · rw [decide_eq_true_iff]
      exact strip_ne_nil s
  · intro x y xs
    rfl

/-- C63: the truth of two numbers with a unit; a number nested twice is false if it is zero. -/
theorem c63_counterexample :
    (∀ u : U, (Argument.new (.seq [.real 1, .real 2]) (some u)).truth = .error .valueError)
    ∧ ∀ u : U, (Argument.new (.seq [.seq [.real 0]]) (some u)).truth = .ok false :=
  ⟨fun _ => rfl, fun _ => rfl⟩

example : (Argument.new (.int 0) (some ())).truth = .ok true
    ∧ (Argument.new (U := Unit) (.str c!"  ") none).truth = .ok false
    ∧ (Argument.new (U := Unit) (.str c!" a ") none).truth = .ok true
    ∧ (Argument.new (U := Unit) (.str c!"abc") none).length = 3
    ∧ (Argument.new (.seq [.int 1, .int 2]) (some ())).length = 2 := by decide +kernel

/-! ## C108 -/

theorem towardsZero_spec (q : ℚ) : ∃ n : ℤ, towardsZero q = n ∧ |(n : ℚ)| ≤ |q| ∧ |q - n| < 1 := by
  refine ⟨q.num.tdiv q.den, rfl, ?_⟩
  have hd : (0 : ℚ) < q.den := by exact_mod_cast q.den_pos
  have hq : q = q.num / q.den := (Rat.num_div_den q).symm
  have hz : (q.den : ℤ) ≠ 0 := by exact_mod_cast q.den_ne_zero
  have h1 : (q.den : ℤ) * q.num.tdiv q.den + q.num.tmod q.den = q.num := Int.mul_tdiv_add_tmod ..
  have h2 : |q.num.tmod q.den| < q.den := by
    rw [Int.abs_eq_natAbs, Int.natAbs_tmod, Int.natAbs_natCast]
    exact_mod_cast Nat.mod_lt _ q.den_pos
  have h3 : q - (q.num.tdiv q.den : ℤ) = (q.num.tmod q.den : ℤ) / q.den := by
    rw [eq_div_iff (ne_of_gt hd), sub_mul]
    nth_rewrite 1 [hq]
    rw [div_mul_cancel₀ _ (ne_of_gt hd)]
    have : ((q.den : ℤ) : ℚ) * (q.num.tdiv q.den : ℤ) + (q.num.tmod q.den : ℤ) = (q.num : ℤ) := by
      exact_mod_cast h1
    push_cast at this
    linarith
  constructor
  · have h4 : |q.num.tdiv q.den| * q.den ≤ |q.num| := by
      rw [Int.abs_eq_natAbs, Int.abs_eq_natAbs, Int.natAbs_tdiv, Int.natAbs_natCast]
      exact_mod_cast Nat.div_mul_le_self _ _
    have h5 : |q| = |(q.num : ℚ)| / q.den := by
      nth_rewrite 1 [hq]
      rw [abs_div, abs_of_pos hd]
    rw [h5, le_div_iff₀ hd]
    have : ((|q.num.tdiv q.den| * q.den : ℤ) : ℚ) ≤ ((|q.num| : ℤ) : ℚ) := by exact_mod_cast h4
    push_cast at this
    exact this
  · rw [h3, abs_div, abs_of_pos hd, div_lt_one hd]
    have : ((|q.num.tmod q.den| : ℤ) : ℚ) < ((q.den : ℤ) : ℚ) := by exact_mod_cast h2
    push_cast at this
    exact this

/-- C108, partial. A single number with a unit is converted by `float` to itself and by `int` to its
integral part; an option that is an integer or a Boolean is converted by `int` to its value.  Several
values are rejected with `NumericCastError`.

Missing: strings of more than one character are rejected like several values, though they may denote
an integer (`c108_counterexample`). -/
theorem c108_partial (read : Str → Option ℚ) (u : U) :
    (∀ q : ℚ, (Argument.new (.real q) (some u)).toFloat read = .ok q
      ∧ (Argument.new (.seq [.real q]) (some u)).toFloat read = .ok q
      ∧ ∃ n : ℤ, (Argument.new (.real q) (some u)).toInt read = .ok (n : ℚ) ∧ |(n : ℚ)| ≤ |q|
        ∧ |q - n| < 1)
    ∧ (∀ n : ℤ, (Argument.new (U := U) (.int n) none).toInt read = .ok (n : ℚ))
    ∧ (∀ b : Bool, (Argument.new (U := U) (.bool b) none).toInt read = .ok (if b then 1 else 0))
    ∧ ∀ x y xs, (∀ v : Option U, (Argument.new (.seq (x :: y :: xs)) v).toInt read
          = .error (.named "NumericCastError"))
        ∧ (Argument.new (.seq (x :: y :: xs)) (some u)).toFloat read
          = .error (.named "NumericCastError") := by
  have hi : ∀ n : ℤ, towardsZero (n : ℚ) = n := by
    intro n; unfold towardsZero; simp
  refine ⟨?_, ?_, ?_, ?_⟩
  · intro q
    obtain ⟨n, h1, h2, h3⟩ := towardsZero_spec q
    exact ⟨rfl, rfl, n, by rw [← h1]; rfl, h2, h3⟩
  · intro n
    show Except.ok (towardsZero (n : ℚ)) = _
    rw [hi]
  · intro b
    show Except.ok (towardsZero _) = _
    cases b
    · exact congrArg Except.ok (hi 0)
    · exact congrArg Except.ok (hi 1)
  · intro x y xs
    refine ⟨?_, rfl⟩
    intro v
    cases v <;> rfl

/-- C108: whatever the reader makes of `42`, it is rejected; `7` is read. -/
theorem c108_counterexample (read : Str → Option ℚ) :
    (Argument.new (U := U) (.str c!"42") none).toInt read = .error (.named "NumericCastError")
    ∧ ∀ q, read c!"7" = some q → (Argument.new (U := U) (.str c!"7") none).toInt read = .ok q := by
  refine ⟨rfl, fun q h => ?_⟩
  show (match read c!"7" with | some q => (Except.ok q : Res ℚ) | none => .error .valueError) = _
  rw [h]

/-! ## C109 -/

/-- C109, partial. For every argument with several values, an index from the start or from the end gives
the member at that place, and an index past the end raises `IndexError`, as does one so far before
the start that it is not reached by counting the length twice.

Missing: indices between once and twice the length before the start give members; the one
member of a single-valued argument cannot be had by its index (`c109_counterexample`). -/
theorem c109_partial (a : Argument U) (xs : List Val) (h : itemsOf a.data = some xs) :
    a.members = xs
    ∧ (∀ i : ℕ, ∀ x, a.members[i]? = some x →
        a.getItem i = .ok x ∧ a.getItem ((i : ℤ) - a.length) = .ok x)
    ∧ (∀ i : ℤ, (a.length : ℤ) ≤ i → a.getItem i = .error .indexError)
    ∧ ∀ i : ℤ, i < -2 * (a.length : ℤ) → a.getItem i = .error .indexError := by
  have hm : a.members = xs := by unfold Argument.members; rw [h]; rfl
  have hl : a.length = xs.length := by
    unfold Argument.length
    cases hd : a.data <;> rw [hd] at h <;> simp [itemsOf] at h <;> subst h <;> simp [lenOf]
  have hg : ∀ i : ℤ, a.getItem i = pyIndex xs (if i < 0 then i + xs.length else i) := by
    intro i
    unfold Argument.getItem
    rw [h, hl]
  refine ⟨hm, ?_, ?_, ?_⟩
  · intro i x hx
    rw [hm] at hx
    have hlt : i < xs.length := (List.getElem?_eq_some_iff.1 hx).1
    have hp : pyIndex xs (i : ℤ) = .ok x := by
      unfold pyIndex
      rw [if_pos (by omega), Int.toNat_natCast, hx]
      rfl
    constructor
    · rw [hg, if_neg (by omega), hp]
    · rw [hg, hl, if_pos (by omega)]
      have : (i : ℤ) - xs.length + xs.length = i := by omega
      rw [this, hp]
  · intro i hi
    rw [hl] at hi
    rw [hg, if_neg (by omega)]
    unfold pyIndex
    rw [if_pos (by omega), List.getElem?_eq_none (by omega)]
    rfl
  · intro i hi
    rw [hl] at hi
    rw [hg, if_pos (by omega)]
    unfold pyIndex
    rw [if_neg (by omega), if_neg (by omega)]

/-- C109: of three values, the one at -4 is the last; a single value has length 1 but no item 0. -/
theorem c109_counterexample :
    (Argument.new (.seq [.int 1, .int 2, .int 3]) (some ())).getItem (-4) = .ok (.int 3)
    ∧ (Argument.new (.real 1) (some ())).length = 1
    ∧ (Argument.new (.real 1) (some ())).getItem 0 = .error .indexError
    ∧ (Argument.new (U := Unit) (.int 1) none).getItem 0 = .error .typeError :=
  ⟨rfl, rfl, rfl, rfl⟩

example : itemsOf (Argument.new (.seq [.int 1, .int 2, .int 3]) (some ())).data
      = some [.int 1, .int 2, .int 3]
    ∧ (Argument.new (.seq [.int 1, .int 2, .int 3]) (some ())).getItem (-1) = .ok (.int 3) :=
  ⟨rfl, rfl⟩

/-! ## C110 -/

/-- C110, partial. Two numbers, both with units or both without, are equal arguments iff the numbers are
equal and the units are; hence equality is symmetric among them if that of units is.

Missing: if only one has a unit the answer depends on the order; several values cannot be
compared (`c110_counterexample`). -/
theorem c110_partial (same : U → U → Bool) (p q : ℚ) :
    (∀ u v : U, (Argument.new (.real p) (some u)).eq same (Argument.new (.real q) (some v))
      = .ok (.same (decide (p = q) && same v u)))
    ∧ (Argument.new (U := U) (.real p) none).eq same (Argument.new (.real q) none)
      = .ok (.same (decide (p = q)))
    ∧ ∀ s t : Str, (Argument.new (U := U) (.str s) none).eq same (Argument.new (.str t) none)
      = .ok (.same (decide (s = t))) := by
  refine ⟨?_, ?_, ?_⟩
  · intro u v
    unfold Argument.eq
    show (match Comparison.same (decide (q = p)) with
      | .elementwise => (Except.error .valueError : Res Comparison)
      | .same false => .ok (.same false)
      | .same true => .ok (.same (same v u))) = _
    by_cases h : p = q
    · simp [h]
    · have h' : ¬ q = p := fun e => h e.symm
      simp [h, h']
  · show Except.ok (Comparison.same (decide (q = p))) = _
    congr 2
    exact decide_eq_decide.2 eq_comm
  · intro s t
    show Except.ok (Comparison.same (decide (t = s))) = _
    congr 2
    exact decide_eq_decide.2 eq_comm

/-- C110: one with and one without unit, in both orders; two values with a unit and themselves. -/
theorem c110_counterexample :
    (Argument.new (.real 1) none).eq (fun _ _ => true) (Argument.new (.real 1) (some ()))
      = .ok (.same true)
    ∧ (Argument.new (.real 1) (some ())).eq (fun _ _ => true) (Argument.new (.real 1) none)
      = .ok (.same false)
    ∧ (Argument.new (.seq [.real 1, .real 2]) (some ())).eq (fun _ _ => true)
        (Argument.new (.seq [.real 1, .real 2]) (some ())) = .error .valueError :=
  ⟨rfl, rfl, rfl⟩

/-! ## C111 -/

/-- Specification: what the documentation says an option can be. -/
inductive IsOption : Val → Prop
  | int (n : Int) : IsOption (.int n)
  | bool (b : Bool) : IsOption (.bool b)
  | str (s : Str) : IsOption (.str s)
  | seq (xs : List Val) : (∀ x ∈ xs, IsOption x) → IsOption (.seq xs)

/-- C111, partial. Integers, Booleans and strings are accepted as options and hold the given value, and
a number that is not an integer is rejected unless it has a unit.

Missing: sequences of integers or strings are rejected (`c111_counterexample`). -/
theorem c111_partial :
    (∀ x, IsOption x → (∀ xs, x ≠ .seq xs) →
      ∃ a : Argument U, Argument.ofValue x = .ok a ∧ a.data = x ∧ a.unit = none)
    ∧ (∀ q, (Argument.ofValue (.real q) : Res (Argument U)) = .error .typeError)
    ∧ ∀ (q : ℚ) (u : U), (Argument.new (.real q) (some u)).data = .real q := by
  refine ⟨?_, fun _ => rfl, fun _ _ => rfl⟩
  intro x hx hs
  cases hx with
  | int n => exact ⟨_, rfl, rfl, rfl⟩
  | bool b => exact ⟨_, rfl, rfl, rfl⟩
  | str s => exact ⟨_, rfl, rfl, rfl⟩
  | seq xs _ => exact absurd rfl (hs xs)

/-- C111: no sequence whatever is accepted. -/
theorem c111_counterexample :
    IsOption (.seq [.str c!"a", .str c!"b"])
    ∧ ∀ xs, (Argument.ofValue (.seq xs) : Res (Argument U)) = .error .typeError := by
  refine ⟨IsOption.seq _ ?_, fun _ => rfl⟩
  intro x hx
  rcases List.mem_cons.1 hx with rfl | hx
  · exact .str _
  · rcases List.mem_cons.1 hx with rfl | hx
    · exact .str _
    · cases hx

end Verif.Operational
