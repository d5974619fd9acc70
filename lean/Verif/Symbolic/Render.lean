import Verif.Symbolic.Termination
import Verif.Symbolic.Spec
import Mathlib.Tactic.Ring
import Mathlib.Tactic.FieldSimp
import Mathlib.Tactic.IntervalCases
import Mathlib.Data.List.TakeWhile

/-!
# Helper lemmas for the parser: what it does to written expressions
-/

set_option linter.unusedSimpArgs false
set_option linter.unusedSectionVars false

namespace Verif.Symbolic

open Verif.Py

/-! ## Characters -/

theorem isDigit_of_charIsDigit {c : Char} (h : c.isDigit = true) : isDigit c = true := by
  simp only [Char.isDigit, Bool.and_eq_true, decide_eq_true_eq] at h
  simp only [isDigit, Bool.and_eq_true, decide_eq_true_eq]
  exact h

theorem isDigit_toDigits {n : Nat} {c : Char} (h : c ∈ Nat.toDigits 10 n) : isDigit c = true :=
  isDigit_of_charIsDigit (Nat.isDigit_of_mem_toDigits (by decide) (by decide) h)

theorem toDigits_ne_nil (n : Nat) : Nat.toDigits 10 n ≠ [] := by
  intro h
  have h1 := Nat.ofDigitChars_ten_toDigits (n := n)
  have : Nat.toDigits 10 n = Nat.toDigits 10 0 := by
    rw [h] at h1
    simp at h1
    rw [← h1]
  rw [h] at this
  exact absurd this.symm (by decide)

theorem natOf_toDigits (n : Nat) : natOf (Nat.toDigits 10 n) = n := Nat.ofDigitChars_ten_toDigits

theorem isDigit_val {c : Char} : isDigit c = true ↔ 48 ≤ c.toNat ∧ c.toNat ≤ 57 := by
  simp only [isDigit, Bool.and_eq_true, decide_eq_true_eq]
  exact Iff.rfl

theorem isLetter_val {c : Char} : isLetter c = true ↔
    (97 ≤ c.toNat ∧ c.toNat ≤ 122) ∨ (65 ≤ c.toNat ∧ c.toNat ≤ 90) ∨ c = '#' ∨ c = '_' := by
  simp only [isLetter, Bool.and_eq_true, Bool.or_eq_true, decide_eq_true_eq]
  constructor
  · rintro (((h | h) | h) | h)
    · exact Or.inl h
    · exact Or.inr (Or.inl h)
    · exact Or.inr (Or.inr (Or.inl h))
    · exact Or.inr (Or.inr (Or.inr h))
  · rintro (h | h | h | h)
    · exact Or.inl (Or.inl (Or.inl h))
    · exact Or.inl (Or.inl (Or.inr h))
    · exact Or.inl (Or.inr h)
    · exact Or.inr h

theorem not_letter_of_digit {c : Char} (h : isDigit c = true) : isLetter c = false := by
  rw [Bool.eq_false_iff]
  intro h'
  rw [isDigit_val] at h
  rw [isLetter_val] at h'
  rcases h' with h' | h' | rfl | rfl
  · omega
  · omega
  · exact absurd h (by decide)
  · exact absurd h (by decide)

theorem not_digit_of_letter {c : Char} (h : isLetter c = true) : isDigit c = false := by
  rw [Bool.eq_false_iff]
  intro h'
  rw [not_letter_of_digit h'] at h
  cases h

/-- A digit differs from any character that is not one. -/
theorem ne_of_digit {c d : Char} (h : isDigit c = true) (hd : isDigit d = false) : c ≠ d := by
  rintro rfl; rw [h] at hd; cases hd

theorem ne_of_letter {c d : Char} (h : isLetter c = true) (hd : isLetter d = false) : c ≠ d := by
  rintro rfl; rw [h] at hd; cases hd

theorem not_space_of_digit {c : Char} (h : isDigit c = true) : isSpace c = false := by
  rw [Bool.eq_false_iff]
  intro h'
  simp only [isSpace, Bool.or_eq_true, decide_eq_true_eq] at h'
  rcases h' with ((rfl | rfl) | rfl) | rfl <;> exact absurd h (by decide)

theorem not_space_of_letter {c : Char} (h : isLetter c = true) : isSpace c = false := by
  rw [Bool.eq_false_iff]
  intro h'
  simp only [isSpace, Bool.or_eq_true, decide_eq_true_eq] at h'
  rcases h' with ((rfl | rfl) | rfl) | rfl <;> exact absurd h (by decide)

/-! ## Numbers -/

/-- The sign and the digits of an integer. -/
theorem intStr_cases (n : Int) :
    (n < 0 ∧ intStr n = '-' :: Nat.toDigits 10 n.natAbs) ∨
    (0 ≤ n ∧ intStr n = Nat.toDigits 10 n.natAbs) := by
  unfold intStr
  split
  · next h => exact Or.inl ⟨h, rfl⟩
  · next h => exact Or.inr ⟨by omega, rfl⟩

/-- The unsigned part of a written number. -/
def absStr (x : Rat) : List Char :=
  if x.den = 1 then Nat.toDigits 10 x.num.natAbs
  else Nat.toDigits 10 x.num.natAbs ++ '/' :: Nat.toDigits 10 x.den

theorem ratStr_cases (x : Rat) :
    (x.num < 0 ∧ ratStr x = '-' :: absStr x) ∨ (0 ≤ x.num ∧ ratStr x = absStr x) := by
  unfold ratStr absStr
  rcases intStr_cases x.num with ⟨h, e⟩ | ⟨h, e⟩
  · left; refine ⟨h, ?_⟩; rw [e]; split <;> rfl
  · right; refine ⟨h, ?_⟩; rw [e]

theorem absStr_cons (x : Rat) : ∃ c s, absStr x = c :: s ∧ isDigit c = true := by
  unfold absStr
  obtain ⟨c, s, hcs⟩ := List.exists_cons_of_ne_nil (toDigits_ne_nil x.num.natAbs)
  have hc : isDigit c = true := isDigit_toDigits (n := x.num.natAbs) (by rw [hcs]; simp)
  split
  · exact ⟨c, s, hcs, hc⟩
  · exact ⟨c, _, by rw [hcs]; rfl, hc⟩

theorem absStr_chars {x : Rat} {c : Char} (h : c ∈ absStr x) : isDigit c = true ∨ c = '/' := by
  unfold absStr at h
  split at h
  · exact Or.inl (isDigit_toDigits h)
  · rcases List.mem_append.1 h with h | h
    · exact Or.inl (isDigit_toDigits h)
    · rcases List.mem_cons.1 h with h | h
      · exact Or.inr h
      · exact Or.inl (isDigit_toDigits h)

theorem ratStr_chars {x : Rat} {c : Char} (h : c ∈ ratStr x) :
    isDigit c = true ∨ c = '/' ∨ c = '-' := by
  rcases ratStr_cases x with ⟨_, e⟩ | ⟨_, e⟩
  · rw [e] at h
    rcases List.mem_cons.1 h with h | h
    · exact Or.inr (Or.inr h)
    · rcases absStr_chars h with h | h
      · exact Or.inl h
      · exact Or.inr (Or.inl h)
  · rw [e] at h
    rcases absStr_chars h with h | h
    · exact Or.inl h
    · exact Or.inr (Or.inl h)

theorem ratStr_ne_nil (x : Rat) : ratStr x ≠ [] := by
  obtain ⟨c, s, h, _⟩ := absStr_cons x
  rcases ratStr_cases x with ⟨_, e⟩ | ⟨_, e⟩ <;> rw [e]
  · simp
  · rw [h]; simp

/-- The first character of a written number. -/
theorem ratStr_head (x : Rat) : ∃ c s, ratStr x = c :: s ∧ (isDigit c = true ∨ c = '-') := by
  obtain ⟨c, s, h, hc⟩ := absStr_cons x
  rcases ratStr_cases x with ⟨_, e⟩ | ⟨_, e⟩
  · exact ⟨'-', _, e, Or.inr rfl⟩
  · exact ⟨c, s, by rw [e, h], Or.inl hc⟩

/-- The last character of a written number is a digit. -/
theorem ratStr_last (x : Rat) (c : Char) (h : (ratStr x).getLast? = some c) : isDigit c = true := by
  have hd : ∀ n c, (Nat.toDigits 10 n).getLast? = some c → isDigit c = true := by
    intro n c h
    exact isDigit_toDigits (List.mem_of_getLast? h)
  have ha : ∀ c, (absStr x).getLast? = some c → isDigit c = true := by
    intro c h
    unfold absStr at h
    split at h
    · exact hd _ c h
    · have hne := toDigits_ne_nil x.den
      rw [List.getLast?_append] at h
      rw [List.getLast?_cons, List.getLast?_eq_getLast_of_ne_nil hne] at h
      simp at h
      exact hd x.den c (by rw [List.getLast?_eq_getLast_of_ne_nil hne, h])
  rcases ratStr_cases x with ⟨_, e⟩ | ⟨_, e⟩
  · rw [e] at h
    obtain ⟨c', s, hcs, _⟩ := absStr_cons x
    rw [hcs] at h
    apply ha
    rw [hcs]
    simpa using h
  · rw [e] at h; exact ha c h

theorem fractionOf_absStr (x : Rat) (sg : Rat) (hsg : splitSign (ratStr x) = (sg, absStr x)) :
    fractionOf (ratStr x) = .ok (sg * (x.num.natAbs : Rat) / (x.den : Rat)) := by
  unfold fractionOf
  simp only [hsg]
  have htd : ∀ n, (Nat.toDigits 10 n).takeWhile isDigit = Nat.toDigits 10 n := fun n =>
    List.takeWhile_eq_self_iff.2 (fun c hc => isDigit_toDigits hc)
  have hdd : ∀ n, (Nat.toDigits 10 n).dropWhile isDigit = [] := fun n =>
    List.dropWhile_eq_nil_iff.2 (fun c hc => isDigit_toDigits hc)
  unfold absStr
  by_cases h1 : x.den = 1
  · simp only [h1, if_true, hdd, htd, natOf_toDigits, decimalExponent]
    simp
  · simp only [h1, if_false]
    have e1 : (Nat.toDigits 10 x.num.natAbs ++ '/' :: Nat.toDigits 10 x.den).takeWhile isDigit
        = Nat.toDigits 10 x.num.natAbs := by
      rw [List.takeWhile_append_of_pos (fun c hc => isDigit_toDigits hc)]
      simp [isDigit]
    have e2 : (Nat.toDigits 10 x.num.natAbs ++ '/' :: Nat.toDigits 10 x.den).dropWhile isDigit
        = '/' :: Nat.toDigits 10 x.den := by
      rw [List.dropWhile_append_of_pos (fun c hc => isDigit_toDigits hc)]
      rfl
    simp only [e1, e2, natOf_toDigits, x.den_nz, if_false]

theorem fractionOf_ratStr (x : Rat) : fractionOf (ratStr x) = .ok x := by
  have hx : (x.num : Rat) / (x.den : Rat) = x := Rat.num_div_den x
  have hcast : ((x.num.natAbs : Int) : Rat) = (x.num.natAbs : Rat) := Int.cast_natCast _
  rcases ratStr_cases x with ⟨hn, e⟩ | ⟨hn, e⟩
  · rw [fractionOf_absStr x (-1) (by rw [e]; rfl)]
    congr 1
    have h1 : (x.num.natAbs : Int) = - x.num := by omega
    have : (x.num.natAbs : Rat) = -(x.num : Rat) := by rw [← hcast, h1]; simp
    rw [this]; simp [hx]
  · rw [fractionOf_absStr x 1]
    · congr 1
      have h1 : (x.num.natAbs : Int) = x.num := by omega
      have : (x.num.natAbs : Rat) = (x.num : Rat) := by rw [← hcast, h1]
      rw [this]; simp [hx]
    · rw [e]
      obtain ⟨c, s, hcs, hc⟩ := absStr_cons x
      rw [hcs]
      unfold splitSign
      split
      · next h => injection h with h; subst h; exact absurd hc (by decide)
      · next h => injection h with h; subst h; exact absurd hc (by decide)
      · rfl

/-- The rest of the string cannot continue a number. -/
def NumStop (rest : List Char) : Prop := ∀ c t, rest = c :: t → ¬ NumChar c

theorem char_nil_of {f : Char → Bool} {s : List Char} (h : ∀ c t, s = c :: t → f c = false) :
    Pat.char f s = [] := by
  cases s with
  | nil => rfl
  | cons c t => simp [Pat.char, h c t rfl]

theorem unsigned_head {x : Rat} (hd : x.den < 10) {rest : List Char} (hr : NumStop rest) :
    (unsigned (absStr x ++ rest)).head? = some (absStr x, rest) := by
  obtain ⟨c, s, hcs, hc⟩ := absStr_cons x
  have hahead : numberAhead (absStr x ++ rest) = true := by
    rw [hcs, List.cons_append]
    unfold numberAhead
    split
    · next h => injection h with h; subst h; exact absurd hc (by decide)
    · next h => injection h with h h'; subst h; exact hc
    · next h => cases h
  unfold unsigned
  rw [if_pos hahead]
  have hns : ∀ d, ¬ NumChar d → isDigit d = false := by
    intro d h; rw [Bool.eq_false_iff]; intro h'; exact h (Or.inl h')
  unfold absStr
  by_cases h1 : x.den = 1
  · simp only [h1, if_true]
    have e1 : (Nat.toDigits 10 x.num.natAbs ++ rest).takeWhile isDigit
        = Nat.toDigits 10 x.num.natAbs := by
      rw [List.takeWhile_append_of_pos (fun c hc => isDigit_toDigits hc)]
      cases rest with
      | nil => simp
      | cons d t => simp [List.takeWhile_cons, hns d (hr d t rfl)]
    have e2 : (Nat.toDigits 10 x.num.natAbs ++ rest).dropWhile isDigit = rest := by
      rw [List.dropWhile_append_of_pos (fun c hc => isDigit_toDigits hc)]
      cases rest with
      | nil => simp
      | cons d t => simp [List.dropWhile_cons, hns d (hr d t rfl)]
    have hstar := star_head isDigit (Nat.toDigits 10 x.num.natAbs ++ rest)
    rw [e1, e2] at hstar
    have c1 : ∀ (f : Char → Bool), (∀ d, f d = true → NumChar d) → Pat.char f rest = [] := by
      intro f hf
      apply char_nil_of
      intro d t h
      rw [Bool.eq_false_iff]; intro h'; exact hr d t h (hf d h')
    have h3 := head_cat (q := (fun t =>
          Pat.cat (Pat.char (· = '/')) (Pat.cat (Pat.char isDigit) (Pat.lazyStar isDigit)) t
          ++ Pat.cat
              (Pat.optText (Pat.cat (Pat.char (· = '.')) (Pat.star isDigit)))
              (Pat.optText (Pat.cat (Pat.char (fun c => c = 'e' || c = 'E'))
                (Pat.cat (Pat.optText (Pat.char (fun c => c = '-' || c = '+')))
                  (Pat.cat (Pat.char isDigit) (Pat.star isDigit))))) t)) (b := ([], rest)) hstar (by
      simp only
      rw [cat_nil_of (c1 _ (by intro d h; simp at h; subst h; simp [NumChar]))]
      rw [List.nil_append]
      apply head_cat (a := ([], rest)) (b := ([], rest))
      · unfold Pat.optText
        rw [cat_nil_of (c1 _ (by intro d h; simp at h; subst h; simp [NumChar]))]
        rfl
      · simp only
        unfold Pat.optText
        rw [cat_nil_of (c1 _ (by intro d h; simp at h; unfold NumChar; tauto))]
        rfl)
    simpa using h3
  · simp only [h1, if_false]
    obtain ⟨dc, hdc⟩ : ∃ dc, Nat.toDigits 10 x.den = [dc] := by
      have := x.den_nz
      generalize x.den = d at *
      interval_cases d <;> first | omega | exact ⟨_, rfl⟩
    have hdcd : isDigit dc = true := isDigit_toDigits (n := x.den) (by rw [hdc]; simp)
    rw [hdc]
    have e1 : (Nat.toDigits 10 x.num.natAbs ++ ('/' :: dc :: rest)).takeWhile isDigit
        = Nat.toDigits 10 x.num.natAbs := by
      rw [List.takeWhile_append_of_pos (fun c hc => isDigit_toDigits hc)]
      simp [isDigit]
    have e2 : (Nat.toDigits 10 x.num.natAbs ++ ('/' :: dc :: rest)).dropWhile isDigit
        = '/' :: dc :: rest := by
      rw [List.dropWhile_append_of_pos (fun c hc => isDigit_toDigits hc)]
      rfl
    have hstar := star_head isDigit (Nat.toDigits 10 x.num.natAbs ++ ('/' :: dc :: rest))
    rw [e1, e2] at hstar
    have h3 := head_cat (q := (fun t =>
          Pat.cat (Pat.char (· = '/')) (Pat.cat (Pat.char isDigit) (Pat.lazyStar isDigit)) t
          ++ Pat.cat
              (Pat.optText (Pat.cat (Pat.char (· = '.')) (Pat.star isDigit)))
              (Pat.optText (Pat.cat (Pat.char (fun c => c = 'e' || c = 'E'))
                (Pat.cat (Pat.optText (Pat.char (fun c => c = '-' || c = '+')))
                  (Pat.cat (Pat.char isDigit) (Pat.star isDigit))))) t)) (b := (['/', dc], rest))
      hstar (by
      apply head_append_left
      have h4 := head_cat (p := Pat.char isDigit) (q := Pat.lazyStar isDigit) (s := dc :: rest)
        (a := ([dc], rest)) (b := ([], rest)) (by simp [Pat.char, hdcd]) (by
          cases rest <;> simp [Pat.lazyStar])
      exact head_cat (p := Pat.char (· = '/')) (s := '/' :: dc :: rest) (a := (['/'], dc :: rest))
        (by simp [Pat.char]) h4)
    simpa using h3

theorem rational_match {x : Rat} (hd : x.den < 10) {rest : List Char} (hr : NumStop rest) :
    rational.match (ratStr x ++ rest) = some (ratStr x, rest) := by
  unfold Pat.match
  rw [rational_eq]
  have hu := unsigned_head hd hr
  rcases ratStr_cases x with ⟨_, e⟩ | ⟨_, e⟩
  · rw [e]
    exact head_cat (a := (['-'], absStr x ++ rest)) (by simp [Pat.optText, Pat.char]) hu
  · rw [e]
    obtain ⟨c, s, hcs, hc⟩ := absStr_cons x
    refine head_cat (a := ([], absStr x ++ rest)) ?_ hu
    have h1 : c ≠ '-' := ne_of_digit hc (by decide)
    have h2 : c ≠ '+' := ne_of_digit hc (by decide)
    simp [Pat.optText, Pat.char, hcs, h1, h2]

/-- No number starts with a character that is not part of a number. -/
theorem rational_nil {s : List Char}
    (h : ∀ c t, s = c :: t → isDigit c = false ∧ c ≠ '+' ∧ c ≠ '-' ∧ c ≠ '.') :
    rational s = [] := by
  rw [rational_eq]
  cases s with
  | nil => rfl
  | cons c t =>
    obtain ⟨h1, h2, h3, h4⟩ := h c t rfl
    have : unsigned (c :: t) = [] := by
      unfold unsigned
      rw [if_neg]
      unfold numberAhead
      split
      · next h => injection h with h; exact absurd h h4
      · next h => injection h with h h'; subst h; simp [h1]
      · next h => cases h
    simp [Pat.cat, Pat.seq, Pat.optText, Pat.char, h2, h3, this]

theorem exponent_match {x : Rat} (hd : x.den < 10) {rest : List Char} (hr : NumStop rest) :
    exponentPat.match ('^' :: ratStr x ++ rest) = some ('^' :: ratStr x, rest) := by
  unfold Pat.match exponentPat
  have := head_cat (p := Pat.char (· = '^')) (q := rational) (s := '^' :: ratStr x ++ rest)
    (a := (['^'], ratStr x ++ rest)) (by simp [Pat.char]) (rational_match hd hr)
  simpa using this

theorem exponent_nil {s : List Char} (h : ∀ t, s ≠ '^' :: t) : exponentPat s = [] := by
  unfold exponentPat
  apply cat_nil_of
  apply char_nil_of
  intro c t hs
  simp
  rintro rfl
  exact h t hs

theorem stdExp_ratStr (x : Rat) : stdExp (some ('^' :: ratStr x)) = .ok x := by
  have : ('^' :: ratStr x).filter (· ≠ '^') = ratStr x := by
    rw [List.filter_cons]
    simp
    intro c hc
    rcases ratStr_chars hc with h | h | h
    · exact ne_of_digit h (by decide)
    · rw [h]; decide
    · rw [h]; decide
  unfold stdExp
  simp only
  rw [this]
  split
  · next h => exact absurd h (ratStr_ne_nil x)
  · exact fractionOf_ratStr x

theorem stdCoef_ratStr (x : Rat) : stdCoef (some (ratStr x)) = .ok x := by
  unfold stdCoef
  split
  · next h => cases h
  · next h => injection h with h; exact absurd h (ratStr_ne_nil x)
  · next h => injection h with h; subst h; exact fractionOf_ratStr x

/-! ## What may follow an operand -/

/-- Nothing, or a blank followed by something that does not end in white space. -/
def Cont (rest : List Char) : Prop :=
  rest = [] ∨ (∃ t, rest = ' ' :: t) ∧ ∀ c, rest.getLast? = some c → isSpace c = false

theorem Cont.numStop {rest : List Char} (h : Cont rest) : NumStop rest := by
  intro c t hr
  rcases h with rfl | ⟨⟨t', rfl⟩, _⟩
  · cases hr
  · injection hr with h1 _
    subst h1
    simp [NumChar, isDigit]

theorem Cont.head {rest : List Char} (h : Cont rest) {c : Char} {t : List Char}
    (hr : rest = c :: t) : c = ' ' := by
  rcases h with rfl | ⟨⟨t', rfl⟩, _⟩
  · cases hr
  · injection hr with h1 _; exact h1.symm

/-- The optional exponent of an operand. -/
theorem opt_exponent_head {x : Rat} (hw : Writable x) {rest : List Char} (hr : Cont rest) :
    ∃ o, (Pat.opt exponentPat (powStr x ++ rest)).head? = some (o, rest) ∧ stdExp o = .ok x := by
  unfold powStr
  split
  · next h =>
    subst h
    refine ⟨none, ?_, rfl⟩
    unfold Pat.opt
    rw [List.nil_append, exponent_nil]
    · rfl
    · rintro t rfl; have := hr.head rfl; exact absurd this (by decide)
  · refine ⟨some ('^' :: ratStr x), ?_, stdExp_ratStr x⟩
    unfold Pat.opt
    apply head_append_left
    have := exponent_match hw.2 hr.numStop
    unfold Pat.match at this
    rw [List.head?_map, this]
    rfl

theorem powStr_head (x : Rat) (rest : List Char) (hr : Cont rest) {c : Char} {t : List Char}
    (h : powStr x ++ rest = c :: t) : c = '^' ∨ c = ' ' := by
  unfold powStr at h
  split at h
  · exact Or.inr (hr.head (by simpa using h))
  · injection h with h; exact Or.inl h.symm

/-! ## Operands -/

theorem ValidName.cons {n : Name} (h : ValidName n) :
    ∃ c t, n = c :: t ∧ isLetter c = true := by
  obtain ⟨l, d, rfl, hl, hl', _, _⟩ := h
  obtain ⟨c, t, rfl⟩ := List.exists_cons_of_ne_nil hl
  exact ⟨c, t ++ d, rfl, hl' c (by simp)⟩

theorem ValidName.ne_one {n : Name} (h : ValidName n) : n ≠ one := by
  obtain ⟨c, t, rfl, hc⟩ := h.cons
  intro he
  injection he with h1 h2
  subst h1
  exact absurd hc (by decide)

theorem base_head {n : Name} (hn : ValidName n) {rest : List Char}
    (hr : ∀ c t, rest = c :: t → isLetter c = false ∧ isDigit c = false) :
    (basePat (n ++ rest)).head? = some (n, rest) := by
  obtain ⟨l, d, rfl, hl, hl', hd, _⟩ := hn
  obtain ⟨c, t, rfl⟩ := List.exists_cons_of_ne_nil hl
  have hc := hl' c (by simp)
  have ht : ∀ x ∈ t, isLetter x = true := fun x hx => hl' x (List.mem_cons_of_mem _ hx)
  have hnl : ∀ y u, d ++ rest = y :: u → isLetter y = false := by
    intro y u h
    cases d with
    | nil => exact (hr y u (by simpa using h)).1
    | cons z d => injection h with h; subst h; exact not_letter_of_digit (hd z (by simp))
  have e1 : (t ++ (d ++ rest)).takeWhile isLetter = t := by
    rw [List.takeWhile_append_of_pos ht]
    cases hdr : d ++ rest with
    | nil => simp
    | cons y u => simp [List.takeWhile_cons, hnl y u hdr]
  have e2 : (t ++ (d ++ rest)).dropWhile isLetter = d ++ rest := by
    rw [List.dropWhile_append_of_pos ht]
    cases hdr : d ++ rest with
    | nil => simp
    | cons y u => simp [List.dropWhile_cons, hnl y u hdr]
  have e3 : (d ++ rest).takeWhile isDigit = d := by
    rw [List.takeWhile_append_of_pos hd]
    cases hdr : rest with
    | nil => simp
    | cons y u => simp [List.takeWhile_cons, (hr y u hdr).2]
  have e4 : (d ++ rest).dropWhile isDigit = rest := by
    rw [List.dropWhile_append_of_pos hd]
    cases hdr : rest with
    | nil => simp
    | cons y u => simp [List.dropWhile_cons, (hr y u hdr).2]
  have s1 := star_head isLetter (t ++ (d ++ rest))
  rw [e1, e2] at s1
  have s2 := star_head isDigit (d ++ rest)
  rw [e3, e4] at s2
  have h1 : (Pat.cat (Pat.char isLetter) (Pat.star isLetter) (c :: (t ++ (d ++ rest)))).head?
      = some ([c] ++ t, d ++ rest) :=
    head_cat (a := ([c], t ++ (d ++ rest))) (by simp [Pat.char, hc]) s1
  have h2 := head_cat (q := Pat.star isDigit) h1 s2
  unfold basePat
  simpa using h2

theorem matchSimplex_var {n : Name} {x : Rat} (hn : ValidName n) (hx : Writable x)
    {rest : List Char} (hr : Cont rest) :
    matchSimplex (n ++ powStr x ++ rest) = .ok (some (⟨1, n, x⟩, rest)) := by
  obtain ⟨c, t, hct, hc⟩ := hn.cons
  have hnil : rational (n ++ powStr x ++ rest) = [] := by
    apply rational_nil
    intro c' t' h
    rw [hct] at h
    injection h with h _
    subst h
    exact ⟨not_digit_of_letter hc, ne_of_letter hc (by decide), ne_of_letter hc (by decide),
      ne_of_letter hc (by decide)⟩
  have hconst : constantPat.match (n ++ powStr x ++ rest) = none := by
    unfold Pat.match constantPat Pat.seq
    rw [hnil]; rfl
  obtain ⟨o, ho, hox⟩ := opt_exponent_head hx hr
  have hbase := base_head hn (rest := powStr x ++ rest) (by
    intro c' t' h
    rcases powStr_head x rest hr h with rfl | rfl <;> decide)
  have hvar : variablePat.match (n ++ powStr x ++ rest) = some (((none, n), o), rest) := by
    unfold Pat.match variablePat
    refine head_seq (a := ((none, n), powStr x ++ rest)) ?_ ho
    refine head_seq (a := (none, n ++ (powStr x ++ rest))) ?_ hbase
    unfold Pat.opt
    rw [hnil]
    simp
  unfold matchSimplex
  rw [hvar, hconst]
  simp only [buildVariable, stdCoef, hox, bind, Except.bind, pure, Except.pure]
  rw [show mkOperand 1 n x = ⟨1, n, x⟩ from by
    simp [mkOperand, orOne, hx.1, hct]]

theorem variable_nil_of_num {c : Rat} {rest : List Char} (hr : Cont rest) :
    variablePat (ratStr c ++ rest) = [] := by
  -- nothing that is left after a number starts with a letter
  have hsuf : ∀ m ∈ rational (ratStr c ++ rest), basePat m.2 = [] := by
    intro m hm
    obtain ⟨h1, h2⟩ := sound_rational _ m hm
    by_contra hne
    obtain ⟨k, hk⟩ := List.exists_mem_of_ne_nil _ hne
    obtain ⟨d, t, hd, hl, _⟩ := basePat_head hk
    -- where does the letter come from?
    have hsplit := h1.symm
    rw [hd] at hsplit
    rcases List.append_eq_append_iff.1 hsplit with ⟨a, ha, hb⟩ | ⟨a, ha, hb⟩
    · cases a with
      | nil =>
        simp at hb
        have := hr.head hb.symm
        subst this
        exact absurd hl (by decide)
      | cons y a =>
        injection hb with hb _
        subst hb
        have hmem : d ∈ ratStr c := by rw [ha]; simp
        rcases ratStr_chars hmem with h | h | h
        · rw [not_letter_of_digit h] at hl; cases hl
        · subst h; exact absurd hl (by decide)
        · subst h; exact absurd hl (by decide)
    · cases a with
      | nil =>
        simp at hb
        have := hr.head hb
        subst this
        exact absurd hl (by decide)
      | cons y a =>
        have hy := hr.head (c := y) (t := a ++ d :: t) (by rw [hb]; rfl)
        subst hy
        have := h2 ' ' (by rw [ha]; simp)
        simp [NumChar, isDigit] at this
  have hfirst : basePat (ratStr c ++ rest) = [] := by
    by_contra hne
    obtain ⟨k, hk⟩ := List.exists_mem_of_ne_nil _ hne
    obtain ⟨d, t, hd, hl, _⟩ := basePat_head hk
    obtain ⟨y, s, hys, hy⟩ := ratStr_head c
    rw [hys] at hd
    injection hd with hd _
    subst hd
    rcases hy with h | h
    · rw [not_letter_of_digit h] at hl; cases hl
    · subst h; exact absurd hl (by decide)
  unfold variablePat
  have : Pat.seq (Pat.opt rational) basePat (ratStr c ++ rest) = [] := by
    apply List.eq_nil_iff_forall_not_mem.2
    intro m hm
    obtain ⟨a, ha, b, hb, _⟩ := mem_seq.1 hm
    rcases mem_opt.1 ha with ⟨k, hk, rfl⟩ | rfl
    · simp only at hb
      rw [hsuf k hk] at hb; cases hb
    · simp only at hb
      rw [hfirst] at hb; cases hb
  unfold Pat.seq at this ⊢
  rw [this]; rfl

theorem powCoef_one_exp (c : Rat) : powCoef c 1 = .ok c := by
  unfold powCoef
  have : ¬ (c = 0 ∧ (1 : Rat) < 0) := by rintro ⟨_, h⟩; exact absurd h (by decide)
  simp [this]

theorem matchSimplex_num {c : Rat} (hc : WritableNum c) {rest : List Char} (hr : Cont rest) :
    matchSimplex (ratStr c ++ rest) = .ok (some (⟨c, one, 1⟩, rest)) := by
  have hvar : variablePat.match (ratStr c ++ rest) = none := by
    unfold Pat.match; rw [variable_nil_of_num hr]; rfl
  have hconst : constantPat.match (ratStr c ++ rest) = some ((ratStr c, none), rest) := by
    unfold Pat.match constantPat
    refine head_seq (a := (ratStr c, rest)) (b := (none, rest)) (rational_match hc.1.2 hr.numStop) ?_
    unfold Pat.opt
    rw [exponent_nil]
    · rfl
    · rintro t rfl; have := hr.head rfl; exact absurd this (by decide)
  unfold matchSimplex
  rw [hvar, hconst]
  simp only [buildConstant, stdCoef_ratStr, stdExp, bind, Except.bind, pure, Except.pure,
    powCoef_one_exp, toFloat_double hc.2]
  rw [show mkOperand c one 1 = ⟨c, one, 1⟩ from by simp [mkOperand, orOne, hc.1.1, one]]

/-! ### Groups -/

/-- No prefix closes more brackets than it opens, and all are closed. -/
def Balanced (s : List Char) : Prop := depth s = 0 ∧ ∀ p q, s = p ++ q → 0 ≤ depth p

theorem balanced_of_no_brackets {s : List Char} (h : ∀ c ∈ s, c ≠ '(' ∧ c ≠ ')') : Balanced s := by
  have key : ∀ p : List Char, (∀ c ∈ p, c ≠ '(' ∧ c ≠ ')') → depth p = 0 := by
    intro p
    induction p with
    | nil => intro _; rfl
    | cons c p ih =>
      intro hp
      have := hp c (by simp)
      simp [depth, this.1, this.2, ih (fun c hc => hp c (List.mem_cons_of_mem _ hc))]
  refine ⟨key s h, ?_⟩
  intro p q hpq
  rw [key p (fun c hc => h c (by rw [hpq]; simp [hc]))]

theorem Balanced.append {a b : List Char} (ha : Balanced a) (hb : Balanced b) :
    Balanced (a ++ b) := by
  refine ⟨by rw [depth_append, ha.1, hb.1]; rfl, ?_⟩
  intro p q h
  rcases List.append_eq_append_iff.1 h with ⟨u, hu, hv⟩ | ⟨u, hu, hv⟩
  · rw [hu, depth_append, ha.1]
    have := hb.2 u q hv
    omega
  · exact ha.2 p u hu

theorem Balanced.bracket {a : List Char} (ha : Balanced a) : Balanced ('(' :: a ++ [')']) := by
  constructor
  · rw [depth_append]; simp [depth, ha.1]
  · intro p q h
    rcases p with _ | ⟨c, p⟩
    · simp [depth]
    · simp only [List.cons_append, List.cons.injEq] at h
      obtain ⟨rfl, h⟩ := h
      rcases List.append_eq_append_iff.1 h with ⟨u, hu, hv⟩ | ⟨u, hu, hv⟩
      · rw [hu]
        simp only [depth, depth_append, ha.1]
        rcases u with _ | ⟨y, u⟩
        · simp [depth]
        · simp at hv
          obtain ⟨rfl, hu', _⟩ := hv
          simp [hu', depth]
      · have := ha.2 p u hu
        simp only [depth]; simp; omega

theorem findBounds_group {a rest : List Char} (ha : Balanced a) :
    findBounds ('(' :: a ++ ')' :: rest) = some (0, a.length + 2) := by
  unfold findBounds
  rw [List.cons_append]
  unfold boundsLoop
  simp
  refine ((boundsLoop_open 0 (a ++ ')' :: rest) 1 1 (by omega)).1 0 (a.length + 2)).2 ?_
  refine ⟨rfl, a ++ [')'], rest, by simp, by simp; omega, by simp, ?_, ?_⟩
  · rw [depth_append, ha.1]; simp [depth]
  · intro p q h hq
    rcases List.append_eq_append_iff.1 h with ⟨u, hu, hv⟩ | ⟨u, hu, hv⟩
    · rcases u with _ | ⟨y, u⟩
      · rw [hu]; simp [ha.1]
      · simp at hv
        obtain ⟨_, _, hv⟩ := hv
        exact absurd hv hq
    · have := ha.2 p u hu
      omega

theorem fullSimplex_nil : fullSimplex [] = .ok none := by
  rfl

theorem matchSimplex_open (s : List Char) : matchSimplex ('(' :: s) = .ok none := by
  have hnil : rational ('(' :: s) = [] := by
    apply rational_nil
    intro c t h
    injection h with h _
    subst h
    decide
  have h1 : constantPat.match ('(' :: s) = none := by
    unfold Pat.match constantPat Pat.seq
    rw [hnil]; rfl
  have h2 : variablePat.match ('(' :: s) = none := by
    unfold Pat.match variablePat Pat.seq
    unfold Pat.opt
    rw [hnil]
    simp [basePat, Pat.cat, Pat.seq, Pat.char, isLetter]
  unfold matchSimplex
  rw [h1, h2]

theorem matchComplex_group {a : List Char} (ha : Balanced a) (hne : a ≠ []) {x : Rat}
    (hx : Writable x) {rest : List Char} (hr : Cont rest) :
    matchComplex ('(' :: a ++ ')' :: powStr x ++ rest) = .ok (some (⟨1, a, x⟩, rest)) := by
  have hb : findBounds ('(' :: a ++ ')' :: powStr x ++ rest) = some (0, a.length + 2) := by
    have := findBounds_group (rest := powStr x ++ rest) ha
    simpa using this
  have hdrop : ('(' :: a ++ ')' :: powStr x ++ rest).drop (a.length + 2) = powStr x ++ rest := by
    have : '(' :: a ++ ')' :: powStr x ++ rest = ('(' :: a ++ [')']) ++ (powStr x ++ rest) := by
      simp
    rw [this]
    exact List.drop_left' (by simp)
  have hint : (('(' :: a ++ ')' :: powStr x ++ rest).take (a.length + 2 - 1)).drop (0 + 1) = a := by
    have : '(' :: a ++ ')' :: powStr x ++ rest = ('(' :: a) ++ (')' :: powStr x ++ rest) := by
      simp
    rw [this, List.take_left' (by simp)]
    simp
  unfold matchComplex
  rw [hb]
  simp only [hint, hdrop, List.take_zero, fullSimplex_nil, bind, Except.bind]
  rw [if_neg (by simp)]
  have hmk : mkOperand 1 a x = ⟨1, a, x⟩ := by simp [mkOperand, orOne, hx.1, hne]
  by_cases h1 : x = 1
  · subst h1
    have : exponentPat.match (powStr 1 ++ rest) = none := by
      unfold Pat.match
      rw [show powStr 1 = [] from rfl, List.nil_append, exponent_nil]
      · rfl
      · rintro t rfl; have := hr.head rfl; exact absurd this (by decide)
    rw [this]
    simp only [pure, Except.pure, hmk]
    rfl
  · have hp : powStr x = '^' :: ratStr x := by simp [powStr, h1]
    rw [hp, exponent_match hx.2 hr.numStop]
    simp only [stdExp_ratStr, bind, Except.bind, pure, Except.pure, hmk]

end Verif.Symbolic
