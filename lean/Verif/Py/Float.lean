import Mathlib.Data.Int.Log
import Mathlib.Data.Rat.Floor
import Mathlib.Tactic.Linarith
import Mathlib.Tactic.Ring
import Mathlib.Tactic.FieldSimp
import Mathlib.Tactic.NormNum
import Mathlib.Tactic.Positivity
import Verif.Py.Basic

/-!
# `float(x)` for an exact number

CPython converts a `Fraction` to `float` by a correctly rounded division of integers
(`Fraction.__float__`, `int.__truediv__`): the nearest binary64 number, ties to even; a result out
of range raises `OverflowError`.
-/

namespace Verif.Py

/-- The nearest integer, ties to even. -/
def roundEven (x : Rat) : Int :=
  let r := x - x.floor
  if r < 1 / 2 then x.floor
  else if 1 / 2 < r then x.floor + 1
  else if x.floor % 2 = 0 then x.floor
  else x.floor + 1

/-- Exponent of the last binary place of the float next to `x`: 53 significant bits, and not below
the smallest subnormal number. -/
def lastPlace (x : Rat) : Int := max (Int.log 2 |x| - 52) (-1074)

/-- `float(x)`. -/
def toFloat (x : Rat) : Res Rat :=
  let r := (roundEven (x / 2 ^ lastPlace x) : Rat) * 2 ^ lastPlace x
  if |r| < 2 ^ 1024 then .ok r else .error (.named "OverflowError")

example : toFloat (1/3) = .ok (6004799503160661/18014398509481984) := by decide +kernel
example : toFloat (1/10) = .ok (3602879701896397/36028797018963968) := by decide +kernel
example : toFloat 9007199254740993 = .ok 9007199254740992 := by decide +kernel
example : toFloat (-5/8) = .ok (-5/8) := by decide +kernel
example : toFloat (1/10^400) = .ok 0 := by decide +kernel
example : toFloat (10^400) = .error (.named "OverflowError") := by decide +kernel
example : toFloat (10^20) = .ok (10^20) := by decide +kernel

/-! ## What the rounding does -/

/-- The finite binary64 numbers, by their definition: a significand of at most 53 bits times a power of
two. -/
def IsDouble (x : Rat) : Prop :=
  (∃ m e : Int, |m| ≤ 2 ^ 53 ∧ -1074 ≤ e ∧ x = m * 2 ^ e) ∧ |x| < 2 ^ 1024

theorem roundEven_int (n : Int) : roundEven n = n := by
  have h : (n : Rat).floor = n := Rat.floor_intCast n
  simp [roundEven, h]

/-- No integer is nearer. -/
theorem roundEven_nearest (x : Rat) (n : Int) : |x - roundEven x| ≤ |x - n| := by
  have h1 : ((x.floor : Int) : Rat) ≤ x := Rat.floor_le x
  have h2 : x < (x.floor : Rat) + 1 := by
    have := Rat.lt_floor_add_one x
    exact_mod_cast this
  have h3 : n ≤ x.floor ∨ x.floor + 1 ≤ n := by omega
  have h4 : (n : Rat) ≤ x.floor ∨ (x.floor : Rat) + 1 ≤ n := by
    rcases h3 with h | h
    · left; exact_mod_cast h
    · right; exact_mod_cast h
  have key : |x - roundEven x| ≤ x - x.floor ∧ |x - roundEven x| ≤ x.floor + 1 - x := by
    unfold roundEven
    simp only
    split_ifs with a b c
    · rw [abs_of_nonneg (by linarith)]; constructor <;> linarith
    · push_cast
      rw [abs_of_nonpos (by linarith)]; constructor <;> linarith
    · rw [abs_of_nonneg (by linarith)]; constructor <;> linarith
    · push_cast
      rw [abs_of_nonpos (by linarith)]; constructor <;> linarith
  rcases h4 with h | h
  · rw [abs_of_nonneg (by linarith : 0 ≤ x - n)]; linarith [key.1]
  · rw [abs_of_nonpos (by linarith : x - n ≤ 0)]; linarith [key.2]

/-- A number of at most 53 bits is a multiple of its last place. -/
theorem lastPlace_double {x : Rat} (h : IsDouble x) : ∃ n : Int, x = n * 2 ^ lastPlace x := by
  obtain ⟨⟨m, e, hm, he, hx⟩, _⟩ := h
  by_cases h0 : x = 0
  · exact ⟨0, by simp [h0]⟩
  have h2 : (2 : Rat) ≠ 0 := two_ne_zero
  have key : ∀ k : Int, k ≤ e → ∃ n : Int, x = n * 2 ^ k := by
    intro k hk
    refine ⟨m * 2 ^ (e - k).toNat, ?_⟩
    push_cast
    rw [hx, mul_assoc, ← zpow_natCast, ← zpow_add₀ h2]
    congr 2
    omega
  by_cases hk : lastPlace x ≤ e
  · exact key _ hk
  · -- then `|m| = 2 ^ 53`
    have hlog : e < Int.log 2 |x| - 52 := by
      unfold lastPlace at hk
      rcases max_choice (Int.log 2 |x| - 52) (-1074) with h | h
      · rw [h] at hk; omega
      · rw [h] at hk; omega
    have hpos : 0 < |x| := abs_pos.2 h0
    have hle : (2 : Rat) ^ Int.log 2 |x| ≤ |x| := by
      have := Int.zpow_log_le_self (b := 2) (by norm_num) hpos
      exact_mod_cast this
    have hup : |x| ≤ (2 : Rat) ^ (e + 53) := by
      rw [hx, abs_mul, abs_of_pos (zpow_pos two_pos e : (0 : Rat) < 2 ^ e), zpow_add₀ h2, mul_comm]
      apply mul_le_mul_of_nonneg_left _ (zpow_pos two_pos e).le
      have : |(m : Rat)| ≤ 2 ^ 53 := by exact_mod_cast hm
      exact_mod_cast this
    have hll : Int.log 2 |x| ≤ e + 53 := by
      by_contra hc
      have : (2 : Rat) ^ (e + 53) < 2 ^ Int.log 2 |x| :=
        zpow_lt_zpow_right₀ (by norm_num) (by omega)
      linarith
    have hl : Int.log 2 |x| = e + 53 := by omega
    have hL : lastPlace x = e + 1 := by
      unfold lastPlace; rw [hl]
      exact (max_eq_left (by omega)).trans (by omega)
    have hxe : |x| = (2 : Rat) ^ (e + 53) := le_antisymm hup (hl ▸ hle)
    rw [hL]
    have hsplit : (2 : Rat) ^ (e + 53) = ((2 ^ 52 : Int) : Rat) * 2 ^ (e + 1) := by
      rw [show e + 53 = 52 + (e + 1) by ring, zpow_add₀ h2]
      norm_num
    rcases abs_choice x with h | h
    · exact ⟨2 ^ 52, by rw [← hsplit, ← hxe, h]⟩
    · exact ⟨-2 ^ 52, by rw [Int.cast_neg, neg_mul, ← hsplit, ← hxe, h, neg_neg]⟩

/-- A float stays as it is. -/
theorem toFloat_double {x : Rat} (h : IsDouble x) : toFloat x = .ok x := by
  obtain ⟨n, hn⟩ := lastPlace_double h
  have hp : (2 : Rat) ^ lastPlace x ≠ 0 := zpow_ne_zero _ two_ne_zero
  have hr : ((roundEven (x / 2 ^ lastPlace x) : Int) : Rat) * 2 ^ lastPlace x = x := by
    have : x / 2 ^ lastPlace x = n := by
      rw [div_eq_iff hp]; exact hn
    rw [this, roundEven_int, ← hn]
  unfold toFloat
  simp only [hr, h.2, if_true]

theorem abs_sub_scaled (x y p : Rat) (hp : 0 < p) : |x - y * p| = |x / p - y| * p := by
  rw [← abs_of_pos hp, ← abs_mul, abs_of_pos hp, sub_mul, div_mul_cancel₀ _ hp.ne']

/-- The result is a float. -/
theorem isDouble_toFloat {x y : Rat} (h : toFloat x = .ok y) : IsDouble y := by
  unfold toFloat at h
  simp only at h
  split at h
  next hlt =>
    injection h with h
    subst h
    refine ⟨⟨roundEven (x / 2 ^ lastPlace x), lastPlace x, ?_, le_max_right _ _, rfl⟩, hlt⟩
    have hp : (0 : Rat) < 2 ^ lastPlace x := zpow_pos two_pos _
    -- the significand lies between two integers of at most 53 bits
    have hb : |x / 2 ^ lastPlace x| < 2 ^ 53 := by
      rw [abs_div, abs_of_pos hp, div_lt_iff₀ hp]
      have h1 : |x| < (2 : Rat) ^ (Int.log 2 |x| + 1) := by
        have := Int.lt_zpow_succ_log_self (b := 2) (by norm_num) |x|
        exact_mod_cast this
      refine lt_of_lt_of_le h1 ?_
      rw [← zpow_natCast, ← zpow_add₀ two_ne_zero]
      apply zpow_le_zpow_right₀ (by norm_num)
      have := le_max_left (Int.log 2 |x| - 52) (-1074)
      unfold lastPlace
      push_cast
      linarith
    have hn : ∀ z : Rat, |z| < 2 ^ 53 → |roundEven z| ≤ 2 ^ 53 := by
      intro z hz
      have hz' := abs_lt.1 hz
      have hf1 : ((z.floor : Int) : Rat) ≤ z := Rat.floor_le z
      have hf2 : z < (z.floor : Rat) + 1 := by
        have := Rat.lt_floor_add_one z
        exact_mod_cast this
      have u1 : z.floor < 2 ^ 53 := by
        have : (z.floor : Rat) < 2 ^ 53 := by linarith
        exact_mod_cast this
      have u2 : -2 ^ 53 ≤ z.floor := by
        have h : (-2 ^ 53 : Rat) < (z.floor : Rat) + 1 := by linarith
        have h' : (-2 ^ 53 : Int) < z.floor + 1 := by exact_mod_cast h
        omega
      unfold roundEven
      simp only
      split_ifs <;> rw [abs_le] <;> constructor <;> omega
    exact hn _ hb
  next => cases h

/-- Below the smallest power of two whose last place is that of `x`, a multiple of a smaller place is
no nearer than the multiples of the last place; hence no float is nearer to `x` than the result. -/
theorem toFloat_nearest {x y z : Rat} (h : toFloat x = .ok y) (hz : IsDouble z) :
    |x - y| ≤ |x - z| := by
  have hp : (0 : Rat) < 2 ^ lastPlace x := zpow_pos two_pos _
  have hy : y = (roundEven (x / 2 ^ lastPlace x) : Rat) * 2 ^ lastPlace x := by
    unfold toFloat at h
    simp only at h
    split at h
    · injection h with h; exact h.symm
    · cases h
  have hround : ∀ n : Int, |x - y| ≤ |x - n * 2 ^ lastPlace x| := by
    intro n
    rw [hy, abs_sub_scaled _ _ _ hp, abs_sub_scaled _ _ _ hp]
    exact mul_le_mul_of_nonneg_right (roundEven_nearest _ _) hp.le
  by_cases hc : lastPlace x ≤ lastPlace z
  · obtain ⟨n, hn⟩ := lastPlace_double hz
    have : ∃ k : Int, z = k * 2 ^ lastPlace x := by
      refine ⟨n * 2 ^ (lastPlace z - lastPlace x).toNat, ?_⟩
      push_cast
      rw [mul_assoc, ← zpow_natCast, ← zpow_add₀ two_ne_zero]
      rw [show (((lastPlace z - lastPlace x).toNat : Int) + lastPlace x) = lastPlace z by omega]
      exact hn
    obtain ⟨k, hk⟩ := this
    rw [hk]; exact hround k
  · -- `z` is of smaller magnitude than the power of two just below `x`
    push Not at hc
    by_cases hx0 : x = 0
    · have : y = 0 := by rw [hy, hx0]; simp [show roundEven 0 = 0 from roundEven_int 0]
      rw [this, hx0]; simp
    have hzl : -1074 ≤ lastPlace z := le_max_right _ _
    have hxl : lastPlace x = Int.log 2 |x| - 52 := by
      unfold lastPlace at hc hzl ⊢
      rcases max_choice (Int.log 2 |x| - 52) (-1074) with h | h
      · exact h
      · rw [h] at hc; omega
    have hlog : Int.log 2 |z| + 1 ≤ Int.log 2 |x| := by
      have := le_max_left (Int.log 2 |z| - 52) (-1074)
      unfold lastPlace at hc hxl
      omega
    have hpos : 0 < |x| := abs_pos.2 hx0
    have hle : (2 : Rat) ^ Int.log 2 |x| ≤ |x| := by
      have := Int.zpow_log_le_self (b := 2) (by norm_num) hpos
      exact_mod_cast this
    have hzlt : |z| < (2 : Rat) ^ Int.log 2 |x| := by
      have h1 : |z| < (2 : Rat) ^ (Int.log 2 |z| + 1) := by
        have := Int.lt_zpow_succ_log_self (b := 2) (by norm_num) |z|
        exact_mod_cast this
      exact lt_of_lt_of_le h1 (zpow_le_zpow_right₀ (by norm_num) hlog)
    have hsplit : (2 : Rat) ^ Int.log 2 |x| = ((2 ^ 52 : Int) : Rat) * 2 ^ lastPlace x := by
      rw [show Int.log 2 |x| = 52 + lastPlace x by omega, zpow_add₀ two_ne_zero]
      norm_num
    have hfar : |x| - |z| ≤ |x - z| := abs_sub_abs_le_abs_sub x z
    generalize (2 : Rat) ^ Int.log 2 |x| = w at hle hzlt hsplit
    rcases le_total 0 x with h | h
    · have h1 := hround (2 ^ 52)
      rw [← hsplit] at h1
      rw [abs_of_nonneg h] at hle hfar
      rw [abs_of_nonneg (by linarith : 0 ≤ x - w)] at h1
      linarith
    · have h1 := hround (-2 ^ 52)
      rw [show (((-2 ^ 52 : Int) : Rat)) = -((2 ^ 52 : Int) : Rat) by norm_num, neg_mul, ← hsplit] at h1
      rw [abs_of_nonpos h] at hle hfar
      rw [abs_of_nonpos (by linarith : x - -w ≤ 0)] at h1
      linarith

theorem two53_lt : (2 : Rat) ^ 53 < 2 ^ 1024 := pow_lt_pow_right₀ (by norm_num) (by norm_num)

/-! ## Numbers that are floats -/

theorem isDouble_int {n : Int} (h : |n| ≤ 2 ^ 53) : IsDouble n := by
  refine ⟨⟨n, 0, h, by norm_num, by simp⟩, ?_⟩
  have h' : |(n : Rat)| ≤ 2 ^ 53 := by exact_mod_cast h
  exact lt_of_le_of_lt h' two53_lt

theorem isDouble_nat {n : Nat} (h : n ≤ 2 ^ 53) : IsDouble n := by
  have := isDouble_int (n := n) (by rw [abs_of_nonneg (by positivity)]; exact_mod_cast h)
  exact_mod_cast this

theorem isDouble_one : IsDouble 1 := by exact_mod_cast isDouble_nat (n := 1) (by norm_num)

theorem isDouble_neg {x : Rat} (h : IsDouble x) : IsDouble (-x) := by
  obtain ⟨⟨m, e, hm, he, hx⟩, hb⟩ := h
  exact ⟨⟨-m, e, by rwa [abs_neg], he, by rw [hx]; push_cast; ring⟩, by rwa [abs_neg]⟩

/-- Fractions whose denominator is a power of two. -/
theorem isDouble_frac {x : Rat} {k : Nat} (hd : x.den = 2 ^ k) (hk : k ≤ 1074)
    (hn : |x.num| ≤ 2 ^ 53) : IsDouble x := by
  have hx : x = x.num * (2 : Rat) ^ (-(k : Int)) := by
    rw [zpow_neg, zpow_natCast, ← div_eq_mul_inv]
    have := Rat.num_div_den x
    rw [hd] at this
    push_cast at this
    exact this.symm
  refine ⟨⟨x.num, -k, hn, by omega, hx⟩, ?_⟩
  have hn' : |(x.num : Rat)| ≤ 2 ^ 53 := by exact_mod_cast hn
  rw [hx, abs_mul, abs_of_pos (zpow_pos two_pos _ : (0 : Rat) < 2 ^ (-(k : Int)))]
  have : (2 : Rat) ^ (-(k : Int)) ≤ 1 := zpow_le_one_of_nonpos₀ (by norm_num) (by omega)
  calc |(x.num : Rat)| * 2 ^ (-(k : Int)) ≤ 2 ^ 53 * 1 := by
        apply mul_le_mul hn' this (zpow_pos two_pos _).le (by norm_num)
    _ < 2 ^ 1024 := by rw [mul_one]; exact two53_lt

theorem isDouble_iff {x : Rat} : IsDouble x ↔ toFloat x = .ok x :=
  ⟨toFloat_double, isDouble_toFloat⟩

instance (x : Rat) : Decidable (IsDouble x) := decidable_of_iff _ isDouble_iff.symm

example : IsDouble (3/8) ∧ ¬ IsDouble (1/3) ∧ ¬ IsDouble (1/10) ∧ IsDouble (10 ^ 22)
    ∧ ¬ IsDouble (10 ^ 23) := by decide +kernel

end Verif.Py
