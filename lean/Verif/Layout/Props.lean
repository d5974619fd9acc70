import Verif.Layout.Parse
import Verif.Symbolic.Props
import Mathlib.Analysis.SpecialFunctions.Pow.NNReal

set_option linter.unusedSimpArgs false

/-!
# Properties C207–C210: expressions as people write them
-/

namespace Verif.Layout

open Verif.Py Verif.Symbolic Verif.Terms

/-! ## Meaning of the terms -/

theorem Lay.denote_pos (v : Assignment) : ∀ t : Lay, t.Positive → 0 < t.denote v := by
  intro t
  induction t with
  | num n x =>
    intro h
    have : (0 : ℝ) < (n.value : ℝ) := by exact_mod_cast h
    exact Real.rpow_pos_of_pos this _
  | var k n x =>
    intro h
    have : (0 : ℝ) < (k : ℝ) := by exact_mod_cast h
    exact mul_pos this (Real.rpow_pos_of_pos (v.pos n) _)
  | group l t r x ih => intro h; exact Real.rpow_pos_of_pos (ih h) _
  | root r b ih => intro h; exact Real.sqrt_pos.2 (ih h)
  | bin o l r a b iha ihb =>
    intro h
    cases o with
    | star => exact mul_pos (iha h.1) (ihb h.2)
    | slash => exact div_pos (iha h.1) (ihb h.2)
    | next => exact mul_pos (iha h.1) (ihb h.2)
    | root => exact mul_pos (iha h.1) (Real.sqrt_pos.2 (ihb h.2))

theorem sqrt_rpow {x : ℝ} (hx : 0 < x) (q : Rat) :
    Real.sqrt x ^ (q : ℝ) = x ^ ((q / 2 : Rat) : ℝ) := by
  rw [Real.sqrt_eq_rpow, ← Real.rpow_mul hx.le]
  congr 1
  push_cast
  ring

theorem value_termsOf (v : Assignment) : ∀ (t : Lay) (q : Rat), t.Positive → t.Exact q →
    value v (termsOf t q) = t.denote v ^ (q : ℝ) := by
  intro t
  induction t with
  | num n x =>
    intro q hp he
    simp only [Lay.Positive] at hp
    have hp' : (0 : ℝ) < (n.value : ℝ) := by exact_mod_cast hp
    have h1 : n.value = 1 ∨ x.den = 1 := he.imp id And.left
    have h2 : ratPow n.value x = 1 ∨ q.den = 1 := he.imp (fun h => by rw [h, ratPow_one]) And.right
    have h3 : 0 < ratPow n.value x := by
      have := ratPow_cast hp h1
      have h4 : (0 : ℝ) < ((ratPow n.value x : Rat) : ℝ) := by
        rw [this]; exact Real.rpow_pos_of_pos hp' _
      exact_mod_cast h4
    simp only [termsOf, value_cons, value_nil, value_const, mul_one, Lay.denote]
    rw [ratPow_cast h3 h2, ratPow_cast hp h1]
  | var k n x =>
    intro q hp he
    simp only [Lay.Positive] at hp
    have hp' : (0 : ℝ) < (k : ℝ) := by exact_mod_cast hp
    simp only [termsOf, value_cons, value_nil, termValue, Lay.denote, mul_one]
    rw [ratPow_cast hp he, Real.mul_rpow hp'.le (Real.rpow_pos_of_pos (v.pos n) _).le,
      ← Real.rpow_mul (v.pos n).le]
    push_cast
    rfl
  | group l t r x ih =>
    intro q hp he
    simp only [termsOf, value_append, value_cons, value_nil, value_const, Lay.denote]
    rw [ih (x * q) hp he, ← Real.rpow_mul (t.denote_pos v hp).le]
    push_cast
    simp
  | root r b ih =>
    intro q hp he
    simp only [termsOf, Lay.denote]
    rw [ih (q / 2) hp he.2, sqrt_rpow (b.denote_pos v hp)]
  | bin o l r a b iha ihb =>
    intro q hp he
    have pa := a.denote_pos v hp.1
    have pb := b.denote_pos v hp.2
    simp only [termsOf, value_append]
    rw [iha q hp.1 he.1, ihb (o.power q) hp.2 he.2.2]
    cases o with
    | star => simp only [Link.power, Lay.denote]; rw [Real.mul_rpow pa.le pb.le]
    | next => simp only [Link.power, Lay.denote]; rw [Real.mul_rpow pa.le pb.le]
    | slash =>
      simp only [Link.power, Lay.denote]
      rw [Real.div_rpow pa.le pb.le]
      push_cast
      rw [Real.rpow_neg pb.le]
      rfl
    | root =>
      simp only [Link.power, Lay.denote]
      rw [Real.mul_rpow pa.le (Real.sqrt_pos.2 pb).le, sqrt_rpow pb]

theorem wf_termsOf : ∀ (t : Lay) (q : Rat), t.Ok → q ≠ 0 → ∀ u ∈ termsOf t q, WF u := by
  intro t
  induction t with
  | num n x =>
    intro q hok hq u hu
    simp [termsOf] at hu; subst hu
    exact ⟨ratPow_ne_zero (ratPow_ne_zero (lit_value_ne hok.1)), hq, by simp [one]⟩
  | var k n x =>
    intro q hok hq u hu
    simp [termsOf] at hu; subst hu
    exact ⟨ratPow_ne_zero hok.1, mul_ne_zero hok.2.2.1.1 hq, hok.2.1.ne_nil⟩
  | group l t r x ih =>
    intro q hok hq u hu
    simp only [termsOf, List.mem_append, List.mem_singleton] at hu
    rcases hu with hu | rfl
    · exact ih (x * q) hok.2.1 (mul_ne_zero hok.2.2.2.1 hq) u hu
    · exact ⟨one_ne_zero, one_ne_zero, by simp [one]⟩
  | root r b ih =>
    intro q hok hq u hu
    exact ih (q / 2) hok.2.1 (by simpa using hq) u hu
  | bin o l r a b iha ihb =>
    intro q hok hq u hu
    rcases List.mem_append.1 hu with hu | hu
    · exact iha q hok.2.2.1 hq u hu
    · exact ihb _ hok.2.2.2.1 (power_ne hq) u hu

theorem wf_all {t : Lay} (hok : t.Ok) : ∀ u ∈ termsOf t 1 ++ [⟨1, one, 1⟩], WF u := by
  intro u hu
  rcases List.mem_append.1 hu with h | h
  · exact wf_termsOf t 1 hok one_ne_zero u h
  · simp at h; subst h; exact ⟨by simp, by simp, by simp [one]⟩

theorem ofString_lay {l r : List Char} (hl : Blank l) (hr : Blank r) (t : Lay) (hok : t.Ok)
    (he : t.Exact 1) :
    ofString (l ++ (t.render ++ r)) = reduce (termsOf t 1 ++ [⟨1, one, 1⟩]) := by
  have hp := parse_lay hl hr t hok he
  have hne := inner_ne (l := l) (r := r) hok
  unfold inner at hp hne
  unfold ofString
  rw [if_neg hne, hp]
  rfl

/-! ## C207 -/

/-- **C207 (partial).** Parsing any text written according to `Lay` succeeds, and the resulting
terms, as well as the reduced terms of the expression, have the conventional value, under every
assignment of positive reals. Missing: numbers with a negative exponent (C209), `sqrt` after an
operator (C210), denominators with more than one digit (C26), roots of numbers, negative numbers. -/
theorem c207_meaning_partial (t : Lay) (l r : List Char) (hl : Blank l) (hr : Blank r) (hok : t.Ok)
    (he : t.Exact 1) (hpos : t.Positive) :
    ∃ ts e, parse false (l ++ (t.render ++ r)) = .ok ts ∧ ofString (l ++ (t.render ++ r)) = .ok e
      ∧ IsExpr e ∧ ∀ v, value v ts = t.denote v ∧ value v e = t.denote v := by
  have hw := wf_all hok
  have hne : termsOf t 1 ++ [⟨1, one, 1⟩] ≠ [] := by simp
  obtain ⟨e, hr'⟩ := reduce_ok hne hw
  have hval : ∀ v, value v (termsOf t 1 ++ [⟨1, one, 1⟩]) = t.denote v := by
    intro v
    rw [value_append, value_termsOf v t 1 hpos he]
    simp [value_cons, value_nil, value_const]
  refine ⟨_, e, parse_lay hl hr t hok he, ?_, ⟨_, hne, hw, hr'⟩, fun v => ⟨hval v, ?_⟩⟩
  · rw [ofString_lay hl hr t hok he, hr']
  · rw [c18_reduce_value _ e hne hw hr' v, hval v]

/-- A text with most features, used in the examples. -/
def sample : Lay :=
  .bin .slash [] [] (.bin .next [' '] [] (.root [] (.group [' '] (.bin .star [] ['\t']
    (.var 1 ['a'] 2) (.var 1 ['b'] 1)) [] 1)) (.num (.dec false ['1'] (some ['5']) (some (true, ['3']))) 2))
    (.group [] (.var 4 ['c'] (-1)) [] 2)

example : sample.render = "sqrt( a^2*\tb) 1.5E3^2/(4c^-1)^2".toList := by decide +kernel

example : ofString sample.render = .ok [⟨140625, one, 1⟩, ⟨1, ['c'], 2⟩,
    ⟨1, ['a'], 1⟩, ⟨1, ['b'], 1/2⟩] := by
  decide +kernel

example : sample.Ok ∧ sample.Exact 1 ∧ sample.Positive := by
  have hv : ∀ c : Char, isLetter c = true → ValidName [c] := by
    intro c hc
    refine ⟨[c], [], rfl, by simp, by simpa using hc, by simp, ?_⟩
    simp
  have hw : ∀ q : Rat, q ≠ 0 → q.den < 10 → Writable q := fun q h1 h2 => ⟨h1, h2⟩
  refine ⟨?_, ?_, ?_⟩
  · refine ⟨by simp [Blank], by simp [Blank], ⟨by simp [Blank, isSpace], by simp [Blank], ?_, ?_, trivial, ?_⟩, ?_, trivial, ?_⟩
    · refine ⟨by simp [Blank], ⟨by simp [Blank, isSpace], ⟨by simp [Blank], by simp [Blank, isSpace], ?_, ?_, trivial, trivial⟩, by simp [Blank], hw _ (by norm_num) (by decide)⟩, trivial, Or.inr trivial⟩
      · exact ⟨one_ne_zero, hv _ (by decide), hw _ (by norm_num) (by decide), Or.inl rfl⟩
      · exact ⟨one_ne_zero, hv _ (by decide), hw _ (by norm_num) (by decide), Or.inl rfl⟩
    · refine ⟨⟨by decide, ?_, Or.inl (by decide), ?_, by decide +kernel⟩, hw _ (by norm_num) (by decide), by decide +kernel⟩
      · intro d hd; injection hd with hd; subst hd; decide
      · intro b d hd; injection hd with hd; injection hd with _ hd; subst hd; decide
    · left; decide
    · refine ⟨by simp [Blank], ⟨by norm_num, hv _ (by decide), hw _ (by norm_num) (by decide), Or.inr ?_⟩, by simp [Blank], hw _ (by norm_num) (by decide)⟩
      rintro ⟨⟨c, h1, h2⟩, _⟩
      simp at h1; rw [← h1] at h2; exact absurd h2 (by decide)
    · right; right; right; rintro ⟨c, t, h1, h2⟩
      simp [Lay.render] at h1
      rw [← h1.1] at h2; exact absurd h2 (by decide)
  · simp [sample, Lay.Exact, Lay.Pure, Link.power]
  · refine ⟨⟨⟨by norm_num [Lay.Positive], by norm_num [Lay.Positive]⟩, ?_⟩, by norm_num [Lay.Positive]⟩
    show 0 < Lit.value _
    decide +kernel

/-! ## C208: layout -/

/-- The expression without white space, with `*` for every product, and numbers in place of their
texts. -/
def Lay.plain : Lay → Lay
  | .num n x => .num (.frac n.value) x
  | .var k n x => .var k n x
  | .group _ t _ x => .group [] t.plain [] x
  | .root _ b => .root [] b.plain
  | .bin .next _ _ a b => .bin .star [] [] a.plain b.plain
  | .bin o _ _ a b => .bin o [] [] a.plain b.plain

theorem termsOf_plain : ∀ (t : Lay) (q : Rat), termsOf t.plain q = termsOf t q := by
  intro t
  induction t with
  | num n x => intro q; rfl
  | var k n x => intro q; rfl
  | group l t r x ih => intro q; simp [Lay.plain, termsOf, ih]
  | root r b ih => intro q; simp [Lay.plain, termsOf, ih]
  | bin o l r a b iha ihb =>
    intro q
    cases o <;> simp [Lay.plain, termsOf, iha, ihb, Link.power]

/-- **C208 (partial).** Texts that differ only in white space, in `*` or a blank for products, and in
the way of writing numbers, give identical terms and identical expressions. -/
theorem c208_layout_partial (t u : Lay) (l r l' r' : List Char) (hl : Blank l) (hr : Blank r)
    (hl' : Blank l') (hr' : Blank r') (ht : t.Ok) (hu : u.Ok) (het : t.Exact 1) (heu : u.Exact 1)
    (h : t.plain = u.plain) :
    parse false (l ++ (t.render ++ r)) = parse false (l' ++ (u.render ++ r'))
    ∧ ofString (l ++ (t.render ++ r)) = ofString (l' ++ (u.render ++ r')) := by
  have h1 : termsOf t 1 = termsOf u 1 := by rw [← termsOf_plain t, h, termsOf_plain]
  have h2 := parse_lay hl hr t ht het
  have h3 := parse_lay hl' hr' u hu heu
  unfold inner at h2 h3
  rw [h2, h3, ofString_lay hl hr t ht het, ofString_lay hl' hr' u hu heu, h1]
  exact ⟨rfl, rfl⟩

/-- **C208 (partial), equality.** The expressions of two texts compare equal if and only if the texts
have the same conventional value under every assignment of positive reals. -/
theorem c208_equal_partial (t u : Lay) (l r l' r' : List Char) (hl : Blank l) (hr : Blank r)
    (hl' : Blank l') (hr' : Blank r') (ht : t.Ok) (hu : u.Ok) (het : t.Exact 1) (heu : u.Exact 1)
    (hpt : t.Positive) (hpu : u.Positive) :
    ∃ a b, ofString (l ++ (t.render ++ r)) = .ok a ∧ ofString (l' ++ (u.render ++ r')) = .ok b
      ∧ (exprEq a b = true ↔ ∀ v, t.denote v = u.denote v) := by
  obtain ⟨_, a, _, h1, h2, h3⟩ := c207_meaning_partial t l r hl hr ht het hpt
  obtain ⟨_, b, _, h4, h5, h6⟩ := c207_meaning_partial u l' r' hl' hr' hu heu hpu
  refine ⟨a, b, h1, h4, ?_⟩
  rw [(c20_eq a b h2 h5).2]
  constructor
  · intro h v; rw [← (h3 v).2, ← (h6 v).2, h v]
  · intro h v; rw [(h3 v).2, (h6 v).2, h v]

/-- A slash without white space between a number and a digit is the bar of a fraction: white space
does matter there. -/
theorem c208_counterexample :
    ofString "a^2/3".toList = .ok [⟨1, ['a'], 2/3⟩]
    ∧ ofString "a^2 / 3".toList = .ok [⟨1/3, one, 1⟩, ⟨1, ['a'], 2⟩]
    ∧ ofString "a^2/b".toList = ofString "a^2 / b".toList := by decide +kernel

example : ofString "2a*b/(c d)".toList = ofString " 2a  b /\n( c*d )".toList
    ∧ ofString "1.50 a".toList = ofString "15e1 / 100 * a".toList := by decide +kernel

/-! ## C209: numbers -/

/-- **C209 (partial).** Every text of a number other than zero, with an optional sign, point and
exponent without a sign, is read as the constant with the value of the number, if it is a float. -/
theorem c209_number_partial (n : Lit) (hn : n.Ok) (hf : IsDouble n.value) (l r : List Char)
    (hl : Blank l) (hr : Blank r) :
    ofString (l ++ (n.text ++ r)) = .ok [⟨n.value, one, 1⟩] := by
  have hok : (Lay.num n 1).Ok := ⟨hn, by simp [Writable], by simpa using hf⟩
  have h := ofString_lay hl hr (.num n 1) hok (by simp [Lay.Exact])
  have hv := lit_value_ne hn
  have h1 : ∀ c : Rat, ratPow c 1 = c := by
    intro c; simp [ratPow]; intro h; exact h.symm
  simp only [Lay.render, powStr, if_true, List.append_nil, termsOf, h1] at h
  rw [h]
  have hw : ∀ u ∈ [(⟨n.value, one, 1⟩ : Term)], WF u := by
    intro u hu; simp at hu; subst hu; exact ⟨hv, one_ne_zero, by simp [one]⟩
  have ha : reduce [(⟨n.value, one, 1⟩ : Term)] = .ok [⟨n.value, one, 1⟩] := by
    have := reduce_assemble (c := n.value) (vars := []) hv (by simp [CanonVars])
    simpa [assemble] using this
  rw [← ha]
  apply reduce_congr (by simp) (by simp) (by
    intro u hu
    simp at hu
    rcases hu with rfl | rfl
    · exact ⟨hv, one_ne_zero, by simp [one]⟩
    · exact ⟨one_ne_zero, one_ne_zero, by simp [one]⟩) hw
  · simp [totalCoef]
  · intro x hx
    simp [totalExp_cons, Ne.symm hx]

/-- **C209 (counterexample).** A sign in the exponent makes `e` a variable and the exponent a factor;
this is how Python prints small and large numbers. Zero is read as 1. -/
theorem c209_counterexample :
    ofString "1e-5".toList = .ok [⟨-5, one, 1⟩, ⟨1, ['e'], 1⟩]
    ∧ ofString "1e+5".toList = .ok [⟨5, one, 1⟩, ⟨1, ['e'], 1⟩]
    ∧ ofString "2.5e-3 a".toList = .ok [⟨-15/2, one, 1⟩, ⟨1, ['a'], 1⟩, ⟨1, ['e'], 1⟩]
    ∧ ofString "0 a".toList = .ok [⟨1, ['a'], 1⟩] := by decide +kernel

example : (Lit.dec true ['1'] (some ['2', '5']) (some (false, ['2']))).text = "-1.25e2".toList
    ∧ (Lit.dec true ['1'] (some ['2', '5']) (some (false, ['2']))).value = -125
    ∧ ofString "-1.25e2".toList = .ok [⟨-125, one, 1⟩] := by decide +kernel

/-! ## C210: square roots -/

/-- **C210 (partial).** `sqrt` at the start of an expression, or after white space or a bracket,
takes the square root of the operand that follows. -/
theorem c210_root_partial (a b : Lay) (l r : List Char) (hl : Blank l) (hr : Blank r) (ha : a.Ok)
    (hb : b.Ok) (hat : b.IsAtom) (hc : Link.root.Clear l r a b) (hea : a.Exact 1) (hpu : b.Pure)
    (heb : b.Exact (1 / 2)) (hpa : a.Positive) (hpb : b.Positive) :
    (∃ e, ofString ("sqrt".toList ++ (r ++ b.render)) = .ok e
      ∧ ∀ v, value v e = Real.sqrt (b.denote v))
    ∧ ∃ e, ofString (a.render ++ (l ++ ("sqrt".toList ++ (r ++ b.render)))) = .ok e
      ∧ ∀ v, value v e = a.denote v * Real.sqrt (b.denote v) := by
  constructor
  · obtain ⟨_, e, _, h1, _, h2⟩ := c207_meaning_partial (.root r b) [] [] blank_nil blank_nil
      ⟨hr, hb, hat, hc.2⟩ ⟨hpu, heb⟩ hpb
    exact ⟨e, by simpa [Lay.render, Link.text] using h1, fun v => (h2 v).2⟩
  · obtain ⟨_, e, _, h1, _, h2⟩ := c207_meaning_partial (.bin .root l r a b) [] [] blank_nil blank_nil
      ⟨hl, hr, ha, hb, hat, hc⟩ ⟨hea, fun _ => hpu, heb⟩ ⟨hpa, hpb⟩
    exact ⟨e, by simpa [Lay.render, Link.text] using h1, fun v => (h2 v).2⟩

/-- **C210 (counterexample).** After `*` or `/` it is read as a variable instead, and the operand is
a factor, even after `/`. -/
theorem c210_counterexample :
    ofString "a * sqrt(b)".toList = .ok [⟨1, ['a'], 1⟩, ⟨1, ['b'], 1⟩, ⟨1, ['s', 'q', 'r', 't'], 1⟩]
    ∧ ofString "a / sqrt(b)".toList
      = .ok [⟨1, ['a'], 1⟩, ⟨1, ['b'], 1⟩, ⟨1, ['s', 'q', 'r', 't'], -1⟩]
    ∧ ofString "a sqrt(b)".toList = .ok [⟨1, ['a'], 1⟩, ⟨1, ['b'], 1/2⟩] := by decide +kernel

example : ofString "sqrt(a / b)^3 sqrt c".toList
    = .ok [⟨1, ['a'], 3/2⟩, ⟨1, ['c'], 1/2⟩, ⟨1, ['b'], -3/2⟩] := by decide +kernel

end Verif.Layout
