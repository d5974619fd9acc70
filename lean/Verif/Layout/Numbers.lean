import Verif.Layout.Spec
import Verif.Terms.Lemmas

/-!
# Helper lemmas: what the pattern for numbers matches
-/

set_option linter.unusedSimpArgs false

namespace Verif.Layout

open Verif.Py Verif.Symbolic Verif.Terms

/-! ## Shape of all matches -/

/-- A sign or nothing. -/
def IsSign (s : List Char) : Prop := s = [] ∨ s = ['-'] ∨ s = ['+']

/-- All characters are digits. -/
def Digits (s : List Char) : Prop := ∀ c ∈ s, isDigit c = true

theorem digits_nil : Digits [] := by intro c h; cases h

theorem Digits.no_letter {s : List Char} (h : Digits s) : ∀ c ∈ s, isLetter c = false :=
  fun c hc => not_letter_of_digit (h c hc)

theorem mem_char {f : Char → Bool} {s : List Char} {m : List Char × List Char}
    (h : m ∈ Pat.char f s) : ∃ c t, s = c :: t ∧ f c = true ∧ m = ([c], t) := by
  cases s with
  | nil => simp [Pat.char] at h
  | cons c t =>
    simp only [Pat.char] at h
    split at h
    · next hc => simp at h; exact ⟨c, t, rfl, hc, h⟩
    · simp at h

theorem mem_optText {p : Pat (List Char)} {s : List Char} {m : List Char × List Char}
    (h : m ∈ Pat.optText p s) : m ∈ p s ∨ m.1 = [] := by
  unfold Pat.optText at h
  rcases List.mem_append.1 h with h | h
  · exact Or.inl h
  · simp at h; subst h; exact Or.inr rfl

/-- The text of a number as matched. -/
theorem rational_parts {s : List Char} {m : List Char × List Char} (h : m ∈ rational s) :
    ∃ sg i w, m.1 = sg ++ (i ++ w) ∧ IsSign sg ∧ Digits i
      ∧ ((∃ d ds, w = '/' :: d :: ds ∧ Digits (d :: ds))
        ∨ ∃ f e, w = f ++ e ∧ (f = [] ∨ ∃ d, f = '.' :: d ∧ Digits d)
          ∧ (e = [] ∨ ∃ c sg' ds, e = c :: (sg' ++ ds) ∧ (c = 'e' ∨ c = 'E') ∧ IsSign sg' ∧ ds ≠ []
            ∧ Digits ds)) := by
  have hsg : ∀ {t : List Char} {a : List Char × List Char},
      a ∈ Pat.optText (Pat.char (fun c => decide (c = '-') || decide (c = '+'))) t → IsSign a.1 := by
    intro t a ha
    rcases mem_optText ha with h | h
    · obtain ⟨c, t', _, hc, rfl⟩ := mem_char h
      simp at hc
      rcases hc with rfl | rfl
      · exact Or.inr (Or.inl rfl)
      · exact Or.inr (Or.inr rfl)
    · exact Or.inl h
  have hst : ∀ {t : List Char} {a : List Char × List Char}, a ∈ Pat.star isDigit t → Digits a.1 :=
    fun ha => (sound_star (f := fun c => isDigit c = true) (fun _ h => h) _ _ ha).2
  rw [rational_eq] at h
  obtain ⟨a, ha, b, hb, rfl⟩ := mem_cat.1 h
  unfold unsigned at hb
  split at hb
  case isFalse => simp at hb
  obtain ⟨c, hc, d, hd, rfl⟩ := mem_cat.1 hb
  refine ⟨a.1, c.1, d.1, rfl, hsg ha, hst hc, ?_⟩
  rcases List.mem_append.1 hd with hd | hd
  · left
    obtain ⟨e, he, f, hf, rfl⟩ := mem_cat.1 hd
    obtain ⟨c', t, _, hc', rfl⟩ := mem_char he
    simp at hc'; subst hc'
    have := digit_digits (sound_lazyStar (fun _ h => h)) hf
    obtain ⟨y, ys, hy⟩ := List.exists_cons_of_ne_nil this.1
    exact ⟨y, ys, by simp [hy], by rw [← hy]; exact this.2⟩
  · right
    obtain ⟨f, hf, e, he, rfl⟩ := mem_cat.1 hd
    refine ⟨f.1, e.1, rfl, ?_, ?_⟩
    · rcases mem_optText hf with h | h
      · obtain ⟨x, hx, y, hy, rfl⟩ := mem_cat.1 h
        obtain ⟨c', t, _, hc', rfl⟩ := mem_char hx
        simp at hc'; subst hc'
        exact Or.inr ⟨y.1, rfl, hst hy⟩
      · exact Or.inl h
    · rcases mem_optText he with h | h
      · obtain ⟨x, hx, y, hy, rfl⟩ := mem_cat.1 h
        obtain ⟨c', t, _, hc', rfl⟩ := mem_char hx
        obtain ⟨z, hz, w, hw, rfl⟩ := mem_cat.1 hy
        have := digit_digits (sound_star (fun _ h => h)) hw
        simp at hc'
        exact Or.inr ⟨c', z.1, w.1, rfl, hc', hsg hz, this.1, this.2⟩
      · exact Or.inl h

theorem isSign_chars {s : List Char} (h : IsSign s) : ∀ c ∈ s, c = '-' ∨ c = '+' := by
  rcases h with rfl | rfl | rfl <;> simp

/-- After a bar only digits follow, at least one. -/
theorem rational_slash {s : List Char} {m : List Char × List Char} (h : m ∈ rational s)
    {a u : List Char} (hm : m.1 = a ++ '/' :: u) :
    '/' ∉ a ∧ u ≠ [] ∧ Digits u := by
  obtain ⟨sg, i, w, h1, h2, h3, h4⟩ := rational_parts h
  have hns : ∀ c ∈ sg ++ i, c ≠ '/' := by
    intro c hc
    rcases List.mem_append.1 hc with hc | hc
    · rcases isSign_chars h2 c hc with rfl | rfl <;> decide
    · exact ne_of_digit (h3 c hc) (by decide)
  rcases h4 with ⟨d, ds, rfl, hd⟩ | ⟨f, e, rfl, hf, he⟩
  · have heq : (sg ++ i) ++ ('/' :: d :: ds) = a ++ '/' :: u := by rw [← hm, h1]; simp
    rcases List.append_eq_append_iff.1 heq with ⟨w, hw, hz⟩ | ⟨w, hw, hz⟩
    · rcases w with _ | ⟨y, w⟩
      · simp at hw hz
        subst hw; rw [← hz]
        exact ⟨fun h => hns _ h rfl, by simp, hd⟩
      · exfalso
        simp at hz
        obtain ⟨_, hz⟩ := hz
        have : '/' ∈ d :: ds := by rw [hz]; simp
        exact absurd (hd _ this) (by decide)
    · rcases w with _ | ⟨y, w⟩
      · simp at hw hz
        subst hw; rw [hz]
        exact ⟨fun h => hns _ h rfl, by simp, hd⟩
      · exfalso
        simp at hz
        refine hns '/' ?_ rfl
        rw [hw, ← hz.1]; simp
  · exfalso
    have hmem : '/' ∈ m.1 := by rw [hm]; simp
    rw [h1] at hmem
    have hcase : '/' ∈ f ∨ '/' ∈ e := by
      simp only [List.mem_append] at hmem
      rcases hmem with h | h | h
      · exact absurd rfl (hns '/' (by simp [h]))
      · exact absurd rfl (hns '/' (by simp [h]))
      · exact h
    rcases hcase with h | h
    · rcases hf with rfl | ⟨d, rfl, hd⟩
      · cases h
      · simp at h; exact absurd (hd _ h) (by decide)
    · rcases he with rfl | ⟨c, sg', ds, rfl, hc, hs, _, hd⟩
      · cases h
      · simp at h
        rcases h with h | h | h
        · subst h; rcases hc with h | h <;> exact absurd h (by decide)
        · rcases isSign_chars hs _ h with h | h <;> exact absurd h (by decide)
        · exact absurd (hd _ h) (by decide)

/-- After a letter only a sign and digits follow, at least one. -/
theorem rational_letter {s : List Char} {m : List Char × List Char} (h : m ∈ rational s)
    {a u : List Char} {y : Char} (hm : m.1 = a ++ y :: u) (hy : isLetter y = true) :
    (∀ c ∈ a, isLetter c = false) ∧ (y = 'e' ∨ y = 'E')
      ∧ ∃ sg ds, u = sg ++ ds ∧ IsSign sg ∧ ds ≠ [] ∧ Digits ds := by
  obtain ⟨sg, i, w, h1, h2, h3, h4⟩ := rational_parts h
  have hsl : ∀ {t : List Char}, IsSign t → ∀ c ∈ t, isLetter c = false := by
    intro t ht c hc
    rcases isSign_chars ht c hc with rfl | rfl <;> decide
  rcases h4 with ⟨d, ds, rfl, hd⟩ | ⟨f, e, rfl, hf, he⟩
  · exfalso
    have hmem : y ∈ sg ++ (i ++ '/' :: d :: ds) := by rw [← h1, hm]; simp
    have : isLetter y = false := by
      rw [List.mem_append, List.mem_append] at hmem
      rcases hmem with h | h | h
      · exact hsl h2 y h
      · exact h3.no_letter y h
      · rcases List.mem_cons.1 h with rfl | h
        · decide
        · exact hd.no_letter y h
    rw [this] at hy; cases hy
  · have hpre : ∀ c ∈ sg ++ (i ++ f), isLetter c = false := by
      intro c hc
      rw [List.mem_append, List.mem_append] at hc
      rcases hc with h | h | h
      · exact hsl h2 c h
      · exact h3.no_letter c h
      · rcases hf with rfl | ⟨d, rfl, hd⟩
        · cases h
        · rcases List.mem_cons.1 h with rfl | h
          · decide
          · exact hd.no_letter c h
    have heq : (sg ++ (i ++ f)) ++ e = a ++ y :: u := by rw [← hm, h1]; simp
    rcases he with rfl | ⟨c, sg', ds, rfl, hc, hs, hne, hd⟩
    · exfalso
      have : y ∈ sg ++ (i ++ f) := by
        rw [List.append_nil] at heq
        rw [heq]; simp
      rw [hpre y this] at hy; cases hy
    · rcases List.append_eq_append_iff.1 heq with ⟨w, hw, hz⟩ | ⟨w, hw, hz⟩
      · rcases w with _ | ⟨z, w⟩
        · simp at hw hz
          obtain ⟨rfl, hz⟩ := hz
          rw [hw]
          refine ⟨?_, hc, sg', ds, hz.symm, hs, hne, hd⟩
          simpa using hpre
        · exfalso
          simp at hz
          obtain ⟨_, hz⟩ := hz
          have : y ∈ sg' ++ ds := by rw [hz]; simp
          have hl : isLetter y = false := by
            rcases List.mem_append.1 this with h | h
            · exact hsl hs y h
            · exact hd.no_letter y h
          rw [hl] at hy; cases hy
      · rcases w with _ | ⟨z, w⟩
        · simp at hw hz
          obtain ⟨rfl, hz⟩ := hz
          rw [← hw]
          refine ⟨?_, hc, sg', ds, hz, hs, hne, hd⟩
          simpa using hpre
        · exfalso
          simp at hz
          have : y ∈ sg ++ (i ++ f) := by rw [hw, hz.1]; simp
          rw [hpre y this] at hy; cases hy

/-! ## First matches -/

/-- The rest of the string cannot continue a number: a bar may follow if no digit follows it. -/
def Halt (rest : List Char) : Prop :=
  ∀ c t, rest = c :: t → isDigit c = false ∧ c ≠ '.' ∧ c ≠ 'e' ∧ c ≠ 'E'
    ∧ (c = '/' → ¬ DigitFirst t)

theorem char_stop {f : Char → Bool} {s : List Char} (h : ∀ c t, s = c :: t → f c = false) :
    Pat.char f s = [] := char_nil_of h

theorem takeWhile_digits {i rest : List Char} (hi : Digits i)
    (hr : ∀ c t, rest = c :: t → isDigit c = false) :
    (i ++ rest).takeWhile isDigit = i ∧ (i ++ rest).dropWhile isDigit = rest := by
  rw [List.takeWhile_append_of_pos hi, List.dropWhile_append_of_pos hi]
  cases rest with
  | nil => simp
  | cons c t => simp [List.takeWhile_cons, List.dropWhile_cons, hr c t rfl]

theorem star_digits {i rest : List Char} (hi : Digits i)
    (hr : ∀ c t, rest = c :: t → isDigit c = false) :
    (Pat.star isDigit (i ++ rest)).head? = some (i, rest) := by
  rw [star_head, (takeWhile_digits hi hr).1, (takeWhile_digits hi hr).2]

theorem bar_nil {rest : List Char} (hr : ∀ c t, rest = c :: t → c = '/' → ¬ DigitFirst t) :
    Pat.cat (Pat.char (· = '/')) (Pat.cat (Pat.char isDigit) (Pat.lazyStar isDigit)) rest = [] := by
  by_contra hne
  obtain ⟨m, hm⟩ := List.exists_mem_of_ne_nil _ hne
  obtain ⟨t, rfl, b, hb⟩ := mem_char_cat hm
  obtain ⟨x, hx, _⟩ := mem_cat.1 hb
  obtain ⟨c, t', rfl, hc, _⟩ := mem_char hx
  exact hr '/' _ rfl rfl ⟨c, t', rfl, hc⟩

/-- The optional decimal part. -/
theorem frac_head {f : Option (List Char)} (hf : ∀ d, f = some d → Digits d) {rest : List Char}
    (hr : ∀ c t, rest = c :: t → isDigit c = false ∧ c ≠ '.') :
    (Pat.optText (Pat.cat (Pat.char (· = '.')) (Pat.star isDigit)) (fracText f ++ rest)).head?
      = some (fracText f, rest) := by
  unfold Pat.optText
  cases f with
  | none =>
    simp only [fracText, List.nil_append]
    rw [cat_nil_of]
    · rfl
    · exact char_stop (fun c t h => by simp [(hr c t h).2])
  | some d =>
    apply head_append_left
    have h1 := star_digits (hf d rfl) (fun c t h => (hr c t h).1)
    exact head_cat (a := (['.'], d ++ rest)) (by simp [fracText, Pat.char]) h1

/-- The optional exponent of a decimal number. -/
theorem exp_head {e : Option (Bool × List Char)}
    (he : ∀ b d, e = some (b, d) → d ≠ [] ∧ Digits d) {rest : List Char}
    (hr : ∀ c t, rest = c :: t → isDigit c = false ∧ c ≠ 'e' ∧ c ≠ 'E') :
    (Pat.optText (Pat.cat (Pat.char (fun c => c = 'e' || c = 'E'))
      (Pat.cat (Pat.optText (Pat.char (fun c => c = '-' || c = '+')))
        (Pat.cat (Pat.char isDigit) (Pat.star isDigit)))) (expText e ++ rest)).head?
      = some (expText e, rest) := by
  unfold Pat.optText
  cases e with
  | none =>
    simp only [expText, List.nil_append]
    rw [cat_nil_of]
    · rfl
    · exact char_stop (fun c t h => by simp [(hr c t h).2])
  | some p =>
    obtain ⟨big, d⟩ := p
    obtain ⟨hne, hd⟩ := he big d rfl
    obtain ⟨y, ys, rfl⟩ := List.exists_cons_of_ne_nil hne
    have hy := hd y (by simp)
    apply head_append_left
    have h1 := star_digits (i := ys) (fun c hc => hd c (List.mem_cons_of_mem _ hc))
      (fun c t h => (hr c t h).1)
    have h2 := head_cat (p := Pat.char isDigit) (q := Pat.star isDigit) (s := y :: ys ++ rest)
      (a := ([y], ys ++ rest)) (by simp [Pat.char, hy]) h1
    have h3 := head_cat (p := Pat.optText (Pat.char (fun c => c = '-' || c = '+')))
      (s := y :: ys ++ rest) (a := ([], y :: ys ++ rest)) (by
        have n1 : y ≠ '-' := ne_of_digit hy (by decide)
        have n2 : y ≠ '+' := ne_of_digit hy (by decide)
        simp [Pat.optText, Pat.char, n1, n2]) h2
    exact head_cat (a := ([if big then 'E' else 'e'], y :: ys ++ rest))
      (by cases big <;> simp [expText, Pat.char]) h3

theorem ahead_digits {i rest : List Char} (hi : Digits i) (hne : i ≠ []) :
    numberAhead (i ++ rest) = true := by
  obtain ⟨c, t, rfl⟩ := List.exists_cons_of_ne_nil hne
  have hc := hi c (by simp)
  unfold numberAhead
  split
  · next h => simp at h; rw [h.1] at hc; exact absurd hc (by decide)
  · next h => simp at h; rw [← h.1]; exact hc
  · next h => simp at h

theorem ahead_point {d rest : List Char} (hd : Digits d) (hne : d ≠ []) :
    numberAhead ('.' :: (d ++ rest)) = true := by
  obtain ⟨c, t, rfl⟩ := List.exists_cons_of_ne_nil hne
  simp [numberAhead, hd c (by simp)]

/-- The head of what follows the integral part of a decimal number. -/
theorem tail_head {f : Option (List Char)} {e : Option (Bool × List Char)} {rest : List Char}
    (hr : Halt rest) {c : Char} {t : List Char} (h : fracText f ++ (expText e ++ rest) = c :: t) :
    isDigit c = false ∧ (c = '/' → ¬ DigitFirst t) := by
  cases f with
  | some d =>
    simp [fracText] at h
    rw [← h.1]; exact ⟨by decide, fun h => absurd h (by decide)⟩
  | none =>
    cases e with
    | some p =>
      obtain ⟨big, d⟩ := p
      simp [fracText, expText] at h
      rw [← h.1]
      cases big
      · exact ⟨by decide, fun h => absurd h (by decide)⟩
      · exact ⟨by decide, fun h => absurd h (by decide)⟩
    | none =>
      simp [fracText, expText] at h
      obtain ⟨h1, _, _, _, h5⟩ := hr c t h
      exact ⟨h1, h5⟩

theorem unsigned_dec {i : List Char} {f : Option (List Char)} {e : Option (Bool × List Char)}
    (hi : Digits i) (hf : ∀ d, f = some d → Digits d) (hne : i ≠ [] ∨ ∃ d, f = some d ∧ d ≠ [])
    (he : ∀ b d, e = some (b, d) → d ≠ [] ∧ Digits d) {rest : List Char} (hr : Halt rest) :
    (unsigned (i ++ (fracText f ++ (expText e ++ rest)))).head?
      = some (i ++ (fracText f ++ expText e), rest) := by
  have hahead : numberAhead (i ++ (fracText f ++ (expText e ++ rest))) = true := by
    by_cases h0 : i = []
    · subst h0
      rcases hne with h | ⟨d, rfl, hd⟩
      · exact absurd rfl h
      · simp only [fracText, List.nil_append, List.cons_append]
        exact ahead_point (hf d rfl) hd
    · exact ahead_digits hi h0
  unfold unsigned
  rw [if_pos hahead]
  have h1 := star_digits (rest := fracText f ++ (expText e ++ rest)) hi
    (fun c t h => (tail_head hr h).1)
  refine head_cat (b := (fracText f ++ expText e, rest)) h1 ?_
  simp only
  rw [bar_nil (fun c t h hc => (tail_head hr h).2 hc), List.nil_append]
  refine head_cat (frac_head hf ?_) (exp_head he ?_)
  · intro c t h
    cases e with
    | some p =>
      obtain ⟨big, d⟩ := p
      simp [expText] at h
      rw [← h.1]; cases big <;> decide
    | none =>
      simp [expText] at h
      obtain ⟨h1, h2, _⟩ := hr c t h
      exact ⟨h1, h2⟩
  · intro c t h
    obtain ⟨h1, _, h2, h3, _⟩ := hr c t h
    exact ⟨h1, h2, h3⟩

theorem unsigned_frac {x : Rat} (hd : x.den < 10) {rest : List Char} (hr : Halt rest) :
    (unsigned (absStr x ++ rest)).head? = some (absStr x, rest) := by
  by_cases h1 : x.den = 1
  · have := unsigned_dec (i := Nat.toDigits 10 x.num.natAbs) (f := none) (e := none)
      (fun c hc => isDigit_toDigits hc) (by simp) (Or.inl (toDigits_ne_nil _)) (by simp) hr
    simpa [absStr, h1, fracText, expText] using this
  · obtain ⟨dc, hdc⟩ : ∃ dc, Nat.toDigits 10 x.den = [dc] := by
      have := x.den_nz
      generalize x.den = d at *
      interval_cases d <;> first | omega | exact ⟨_, rfl⟩
    have hdcd : isDigit dc = true := isDigit_toDigits (n := x.den) (by rw [hdc]; simp)
    have hi : Digits (Nat.toDigits 10 x.num.natAbs) := fun c hc => isDigit_toDigits hc
    unfold absStr
    simp only [h1, if_false, hdc, List.append_assoc, List.cons_append, List.nil_append]
    unfold unsigned
    rw [if_pos (ahead_digits hi (toDigits_ne_nil _))]
    refine head_cat (b := (['/', dc], rest)) (star_digits hi ?_) ?_
    · intro c t h; simp at h; rw [← h.1]; decide
    · apply head_append_left
      have h4 := head_cat (p := Pat.char isDigit) (q := Pat.lazyStar isDigit) (s := dc :: rest)
        (a := ([dc], rest)) (b := ([], rest)) (by simp [Pat.char, hdcd]) (by
          cases rest <;> simp [Pat.lazyStar])
      exact head_cat (p := Pat.char (· = '/')) (s := '/' :: dc :: rest) (a := (['/'], dc :: rest))
        (by simp [Pat.char]) h4

/-- A sign, if any, in front of a number. -/
theorem rational_sign {neg : Bool} {s rest : List Char}
    (h : (unsigned (s ++ rest)).head? = some (s, rest))
    (hs : ∀ c t, s = c :: t → c ≠ '-' ∧ c ≠ '+') (hne : s ≠ []) :
    rational.match ((if neg then ['-'] else []) ++ (s ++ rest))
      = some ((if neg then ['-'] else []) ++ s, rest) := by
  unfold Pat.match
  rw [rational_eq]
  cases neg with
  | true => exact head_cat (a := (['-'], s ++ rest)) (by simp [Pat.optText, Pat.char]) h
  | false =>
    obtain ⟨c, t, rfl⟩ := List.exists_cons_of_ne_nil hne
    obtain ⟨h1, h2⟩ := hs c t rfl
    exact head_cat (a := ([], c :: t ++ rest)) (by simp [Pat.optText, Pat.char, h1, h2]) h

theorem rational_ratStr {x : Rat} (hd : x.den < 10) {rest : List Char} (hr : Halt rest) :
    rational.match (ratStr x ++ rest) = some (ratStr x, rest) := by
  obtain ⟨c, s, hcs, hc⟩ := absStr_cons x
  have hu := unsigned_frac hd hr
  have hs : ∀ c t, absStr x = c :: t → c ≠ '-' ∧ c ≠ '+' := by
    intro c' t h
    rw [hcs] at h; simp at h
    rw [← h.1]
    exact ⟨ne_of_digit hc (by decide), ne_of_digit hc (by decide)⟩
  have hne : absStr x ≠ [] := by rw [hcs]; simp
  rcases ratStr_cases x with ⟨_, e⟩ | ⟨_, e⟩
  · have := rational_sign (neg := true) hu hs hne
    rw [e]; simpa using this
  · have := rational_sign (neg := false) hu hs hne
    rw [e]; simpa using this

/-- The unsigned text of a decimal number starts with a digit or a point. -/
theorem dec_first {i : List Char} {f : Option (List Char)} {e : Option (Bool × List Char)}
    (hi : Digits i) (hne : i ≠ [] ∨ ∃ d, f = some d ∧ d ≠ []) :
    ∃ c t, i ++ (fracText f ++ expText e) = c :: t ∧ (isDigit c = true ∨ c = '.') := by
  rcases i with _ | ⟨c, i⟩
  · rcases hne with h | ⟨d, rfl, hd⟩
    · exact absurd rfl h
    · exact ⟨'.', d ++ expText e, by simp [fracText], Or.inr rfl⟩
  · exact ⟨c, _, rfl, Or.inl (hi c (by simp))⟩

/-- A number as written is read in full. -/
theorem rational_lit {n : Lit} (hn : n.Ok) {rest : List Char} (hr : Halt rest) :
    rational.match (n.text ++ rest) = some (n.text, rest) := by
  cases n with
  | frac x => exact rational_ratStr hn.2 hr
  | dec neg i f e =>
    obtain ⟨h1, h2, h3, h4, _⟩ := hn
    have hu := unsigned_dec h1 h2 h3 h4 hr
    obtain ⟨c, t, hct, hc⟩ := dec_first (e := e) h1 h3
    have := rational_sign (neg := neg) (s := i ++ (fracText f ++ expText e)) (rest := rest)
      (by simpa using hu)
      (by
        intro c' t' h
        rw [hct] at h; simp at h
        rw [← h.1]
        rcases hc with hc | rfl
        · exact ⟨ne_of_digit hc (by decide), ne_of_digit hc (by decide)⟩
        · decide)
      (by rw [hct]; simp)
    simpa [Lit.text] using this

/-! ## Values -/

theorem natOf_eq (ds : List Char) : natOf ds = digitsValue ds := by
  unfold natOf digitsValue Nat.ofDigitChars
  rfl

theorem digitsValue_append (a b : List Char) :
    digitsValue (a ++ b) = digitsValue a * 10 ^ b.length + digitsValue b := by
  have key : ∀ (b : List Char) (n : Nat),
      b.foldl (fun n c => 10 * n + (c.toNat - '0'.toNat)) n
        = n * 10 ^ b.length + b.foldl (fun n c => 10 * n + (c.toNat - '0'.toNat)) 0 := by
    intro b
    induction b with
    | nil => intro n; simp
    | cons c b ih =>
      intro n
      simp only [List.foldl_cons, List.length_cons]
      rw [ih, ih (10 * 0 + _)]
      ring
  unfold digitsValue
  rw [List.foldl_append, key]

theorem decimalExponent_text {e : Option (Bool × List Char)}
    (he : ∀ b d, e = some (b, d) → d ≠ [] ∧ Digits d) :
    decimalExponent (expText e) = 10 ^ digitsValue ((e.map (·.2)).getD []) := by
  cases e with
  | none => simp [expText, decimalExponent, digitsValue]
  | some p =>
    obtain ⟨big, d⟩ := p
    obtain ⟨hne, hd⟩ := he big d rfl
    obtain ⟨y, ys, rfl⟩ := List.exists_cons_of_ne_nil hne
    have hy := hd y (by simp)
    have hs : splitSign (y :: ys) = (1, y :: ys) := by
      unfold splitSign
      split
      · next h => injection h with h; rw [h] at hy; exact absurd hy (by decide)
      · next h => injection h with h; rw [h] at hy; exact absurd hy (by decide)
      · rfl
    simp only [expText, decimalExponent, hs, natOf_eq, Option.map_some, Option.getD_some, one_mul]
    rw [Rat.num_natCast, zpow_natCast]

theorem fractionOf_dec {neg : Bool} {i : List Char} {f : Option (List Char)}
    {e : Option (Bool × List Char)} (hn : (Lit.dec neg i f e).Ok) :
    fractionOf (Lit.dec neg i f e).text = .ok (Lit.dec neg i f e).value := by
  obtain ⟨h1, h2, h3, h4, _⟩ := hn
  obtain ⟨c, t, hct, hc⟩ := dec_first (e := e) h1 h3
  have hs : splitSign (Lit.dec neg i f e).text
      = (if neg then -1 else 1, i ++ (fracText f ++ expText e)) := by
    simp only [Lit.text]
    cases neg with
    | true => simp [splitSign]
    | false =>
      simp only [Bool.false_eq_true, if_false, List.nil_append]
      rw [hct]
      unfold splitSign
      split
      · next h =>
        injection h with h; rw [h] at hc
        rcases hc with hc | hc <;> exact absurd hc (by decide)
      · next h =>
        injection h with h; rw [h] at hc
        rcases hc with hc | hc <;> exact absurd hc (by decide)
      · rfl
  have hhalt : Halt [] := by intro c t h; cases h
  obtain ⟨e1, e2⟩ := takeWhile_digits (i := i) (rest := fracText f ++ expText e) h1 (by
    intro c t h
    exact (tail_head (rest := []) hhalt (by simpa using h)).1)
  unfold fractionOf
  simp only [hs, e1, e2]
  cases f with
  | none =>
    simp only [fracText, List.nil_append]
    have hd := decimalExponent_text h4
    cases e with
    | none =>
      simp only [expText] at hd ⊢
      simp [Lit.value, natOf_eq, digitsValue, decimalExponent]
    | some p =>
      obtain ⟨big, d⟩ := p
      simp only [expText] at hd ⊢
      cases big
      all_goals
        simp only [Bool.false_eq_true, if_false, if_true] at hd ⊢
        refine (show _ = Except.ok ((if neg then -1 else 1) * (natOf i : Rat)
          * decimalExponent (_ :: d)) from rfl).trans ?_
        rw [hd]
        simp [Lit.value, natOf_eq, digitsValue]
  | some d =>
    have hdd := h2 d rfl
    obtain ⟨g1, g2⟩ := takeWhile_digits (i := d) (rest := expText e) hdd (by
      intro c t h
      exact (tail_head (f := none) (rest := []) hhalt (by simpa [fracText] using h)).1)
    simp only [fracText, List.cons_append, g1, g2]
    rw [decimalExponent_text h4]
    simp only [Lit.value, Option.getD_some, natOf_eq, digitsValue_append]
    congr 1
    have h10 : (10 : Rat) ^ d.length ≠ 0 := by positivity
    push_cast
    field_simp

theorem lit_text_ne {n : Lit} (hn : n.Ok) : n.text ≠ [] := by
  cases n with
  | frac x => exact ratStr_ne_nil x
  | dec neg i f e =>
    obtain ⟨h1, h2, h3, h4, _⟩ := hn
    obtain ⟨c, t, hct, hc⟩ := dec_first (e := e) h1 h3
    intro h
    simp only [Lit.text] at h
    rw [hct] at h
    simp at h

/-- The coefficient read from a written number. -/
theorem stdCoef_lit {n : Lit} (hn : n.Ok) : stdCoef (some n.text) = .ok n.value := by
  cases n with
  | frac x => exact stdCoef_ratStr x
  | dec neg i f e =>
    unfold stdCoef
    split
    · next h => cases h
    · next h => injection h with h; exact absurd h (lit_text_ne hn)
    · next h => injection h with h; subst h; exact fractionOf_dec hn

theorem lit_value_ne {n : Lit} (hn : n.Ok) : n.value ≠ 0 := by
  cases n with
  | frac x => exact hn.1
  | dec neg i f e => exact hn.2.2.2.2

end Verif.Layout
