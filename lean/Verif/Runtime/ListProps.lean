import Verif.Runtime.Props
import Verif.Symbolic.Render

/-!
# Property C294: lists of numbers in configuration files
-/

set_option linter.unusedSimpArgs false

namespace Verif.Runtime

open Verif.Py

/-- `s.strip(chars)`. -/
def stripOf (chars : List Char) (s : Str) : Str :=
  ((s.dropWhile (· ∈ chars)).reverse.dropWhile (· ∈ chars)).reverse

/-- `string_to_list` (iterables.py 198-206), given what `numerical.cast` (numerical.py 130-166) reads; it raises `TypeError` for
other texts. -/
def stringToList {K : Type} (cast : Str → Option K) (s : Str) : Res (List K) :=
  if s.head? = some '[' ∧ s.getLast? = some ']' then
    let inside := stripOf ['[', ']'] s
    if inside = [] then .ok []
    else (splitChar ',' inside).mapM (fun item =>
      match cast (stripOf [' ', '\''] item) with
      | some x => .ok x
      | none => .error .typeError)
  else .error .typeError

/-- Specification: the text of a list with these entries, each between the given paddings. -/
def Spec.items : List (Str × Str × Str) → Str
  | [] => []
  | [e] => e.1 ++ e.2.1 ++ e.2.2
  | e :: es => e.1 ++ e.2.1 ++ e.2.2 ++ ',' :: Spec.items es

/-- Specification: an entry begins and ends with neither blank nor quote, and has neither comma nor bracket. -/
structure Spec.Entry (t : Str) : Prop where
  ne : t ≠ []
  first : ∀ c, t.head? = some c → c ≠ ' ' ∧ c ≠ '\''
  last : ∀ c, t.getLast? = some c → c ≠ ' ' ∧ c ≠ '\''
  plain : ',' ∉ t ∧ '[' ∉ t ∧ ']' ∉ t

theorem dropWhile_pad (p : Char → Bool) (w x : Str) (hw : ∀ c ∈ w, p c = true) : (w ++ x).dropWhile p = x.dropWhile p := by
  induction w with
  | nil => rfl
  | cons y ys ih =>
    rw [List.cons_append, List.dropWhile_cons, if_pos (hw y (by simp))]
    exact ih (fun c hc => hw c (by simp [hc]))

theorem dropWhile_keep (p : Char → Bool) (x : Str) (hx : ∀ c, x.head? = some c → p c = false) : x.dropWhile p = x := by
  cases x with
  | nil => rfl
  | cons y ys => rw [List.dropWhile_cons, hx y rfl]; simp

theorem stripOf_pad (chars : List Char) (l v r : Str) (hl : ∀ c ∈ l, c ∈ chars) (hr : ∀ c ∈ r, c ∈ chars)
    (hf : ∀ c, v.head? = some c → c ∉ chars) (hg : ∀ c, v.getLast? = some c → c ∉ chars) (hv : v ≠ []) :
    stripOf chars (l ++ v ++ r) = v := by
  unfold stripOf
  rw [List.append_assoc, dropWhile_pad _ l _ (by simpa using hl), dropWhile_keep _ (v ++ r), List.reverse_append,
    dropWhile_pad _ r.reverse _ (by simpa using hr), dropWhile_keep, List.reverse_reverse]
  · intro c hc
    rw [List.head?_reverse] at hc
    simpa using hg c hc
  · intro c hc
    cases v with
    | nil => exact absurd rfl hv
    | cons y ys => simpa using hf c (by simpa using hc)

/-- Paddings are blanks and quotes. -/
def Spec.Padding (w : Str) : Prop := ∀ c ∈ w, c ∈ [' ', '\'']

theorem split_items : ∀ (es : List (Str × Str × Str)), es ≠ [] → (∀ e ∈ es, ',' ∉ e.1 ++ e.2.1 ++ e.2.2) →
    splitChar ',' (Spec.items es) = es.map (fun e => e.1 ++ e.2.1 ++ e.2.2)
  | [], h, _ => absurd rfl h
  | [e], _, h => by
    have := h e (by simp)
    rw [Spec.items, splitChar_none this]; rfl
  | e :: f :: es, _, h => by
    have := h e (by simp)
    rw [Spec.items, splitChar_append this, split_items (f :: es) (by simp) (fun g hg => h g (by simp [hg]))]
    · rfl
    · simp

theorem mem_items : ∀ (es : List (Str × Str × Str)) (c : Char), c ∈ Spec.items es → c = ',' ∨ ∃ e ∈ es, c ∈ e.1 ++ e.2.1 ++ e.2.2
  | [], c, h => by simp [Spec.items] at h
  | [e], c, h => .inr ⟨e, by simp, by simpa [Spec.items] using h⟩
  | e :: f :: es, c, h => by
    rw [Spec.items, List.mem_append, List.mem_cons] at h
    · rcases h with h | h | h
      · exact .inr ⟨e, by simp, h⟩
      · exact .inl h
      · rcases mem_items (f :: es) c h with h | ⟨g, hg, h⟩
        · exact .inl h
        · exact .inr ⟨g, by simp [hg], h⟩
    · simp

theorem mapM_entries {K : Type} (cast : Str → Option K) : ∀ (es : List (Str × Str × Str)) (xs : List K),
    (∀ e ∈ es, Spec.Padding e.1 ∧ Spec.Entry e.2.1 ∧ Spec.Padding e.2.2) → es.map (fun e => cast e.2.1) = xs.map some →
    (es.map (fun e => e.1 ++ e.2.1 ++ e.2.2)).mapM (fun item =>
      match cast (stripOf [' ', '\''] item) with
      | some x => (.ok x : Res K)
      | none => .error .typeError) = .ok xs
  | [], [], _, _ => rfl
  | [], _ :: _, _, h => by simp at h
  | _ :: _, [], _, h => by simp at h
  | e :: es, x :: xs, h, hx => by
    obtain ⟨h1, h2, h3⟩ := h e (by simp)
    rw [List.map_cons, List.map_cons, List.cons.injEq] at hx
    rw [List.map_cons, List.mapM_cons]
    have hs : stripOf [' ', '\''] (e.1 ++ e.2.1 ++ e.2.2) = e.2.1 :=
      stripOf_pad _ _ _ _ h1 h3 (fun c hc => by simpa using h2.first c hc) (fun c hc => by simpa using h2.last c hc) h2.ne
    simp only [hs, hx.1, mapM_entries cast es xs (fun g hg => h g (by simp [hg])) hx.2]
    rfl

/-- **C294 (part).** A list of texts that can each be read as a number, written between brackets and separated by commas, with any
blanks and quotes around them, is read as the list of these numbers; `[]` is read as the empty list. Missing: brackets around blanks
alone. -/
theorem c294_partial {K : Type} (cast : Str → Option K) (es : List (Str × Str × Str)) (xs : List K)
    (h : ∀ e ∈ es, Spec.Padding e.1 ∧ Spec.Entry e.2.1 ∧ Spec.Padding e.2.2) (hx : es.map (fun e => cast e.2.1) = xs.map some) :
    stringToList cast ('[' :: Spec.items es ++ [']']) = .ok xs := by
  unfold stringToList
  rw [if_pos ⟨rfl, List.getLast?_concat⟩]
  have hno : ∀ c ∈ Spec.items es, c ∉ ['[', ']'] := by
    intro c hc
    rcases mem_items es c hc with rfl | ⟨e, he, hc⟩
    · decide
    · obtain ⟨h1, h2, h3⟩ := h e he
      rw [List.mem_append, List.mem_append] at hc
      rcases hc with (hc | hc) | hc
      · have := h1 c hc; intro hb; simp at this hb; rcases this with rfl | rfl <;> simp at hb
      · intro hb; simp at hb; rcases hb with rfl | rfl
        · exact h2.plain.2.1 hc
        · exact h2.plain.2.2 hc
      · have := h3 c hc; intro hb; simp at this hb; rcases this with rfl | rfl <;> simp at hb
  by_cases hes : es = []
  · subst hes
    cases xs with
    | nil => rfl
    | cons x xs => simp at hx
  · have hne : Spec.items es ≠ [] := by
      match es, hes, h with
      | [e], _, h => intro hc; simp only [Spec.items, List.append_eq_nil_iff] at hc; exact (h e (by simp)).2.1.ne hc.1.2
      | e :: f :: es, _, _ =>
        intro hc
        have : ',' ∈ Spec.items (e :: f :: es) := by
          rw [Spec.items]
          · simp
          · simp
        rw [hc] at this
        cases this
    have hstrip : stripOf ['[', ']'] ('[' :: Spec.items es ++ [']']) = Spec.items es := by
      have := stripOf_pad ['[', ']'] ['['] (Spec.items es) [']'] (by simp) (by simp)
        (fun c hc => hno c (List.mem_of_head? hc)) (fun c hc => hno c (List.mem_of_getLast? hc)) hne
      simpa using this
    simp only [hstrip, if_neg hne]
    rw [split_items es hes]
    · exact mapM_entries cast es xs h hx
    · intro e he hc
      obtain ⟨h1, h2, h3⟩ := h e he
      rw [List.mem_append, List.mem_append] at hc
      rcases hc with (hc | hc) | hc
      · have := h1 _ hc; simp at this
      · exact h2.plain.1 hc
      · have := h3 _ hc; simp at this

/-- **C294, rejections.** A text without brackets at both ends, and one with an entry that is not a number, raises `TypeError`. -/
theorem c294_rejected {K : Type} (cast : Str → Option K) (s : Str) :
    (s.head? ≠ some '[' ∨ s.getLast? ≠ some ']' → stringToList cast s = .error .typeError)
    ∧ (∀ xs, stringToList cast s = .ok xs → stripOf ['[', ']'] s ≠ [] →
        (splitChar ',' (stripOf ['[', ']'] s)).map (fun item => cast (stripOf [' ', '\''] item)) = xs.map some) := by
  constructor
  · intro h
    unfold stringToList
    rw [if_neg (by tauto)]
  · intro xs h hne
    unfold stringToList at h
    split at h
    · simp only [if_neg hne] at h
      revert xs
      generalize splitChar ',' (stripOf ['[', ']'] s) = items
      induction items with
      | nil => intro xs h; cases h; rfl
      | cons i items ih =>
        intro xs h
        rw [List.mapM_cons] at h
        cases hc : cast (stripOf [' ', '\''] i) with
        | none => rw [hc] at h; cases h
        | some x =>
          rw [hc] at h
          cases hr : items.mapM (fun item => match cast (stripOf [' ', '\''] item) with
            | some x => (.ok x : Res K)
            | none => .error .typeError) with
          | error e => rw [hr] at h; cases h
          | ok ys =>
            rw [hr] at h
            cases h
            rw [List.map_cons, ih ys hr, hc]; rfl
    · cases h

/-- The text of an integer: `str(i)`. -/
def Spec.intText : Int → Str
  | .ofNat n => Nat.toDigits 10 n
  | .negSucc n => '-' :: Nat.toDigits 10 (n + 1)

theorem digits_eq : ∀ (s : Str) (acc : Nat), (∀ c ∈ s, c.isDigit = true) → digits s acc = some (Nat.ofDigitChars 10 s acc)
  | [], acc, _ => rfl
  | c :: s, acc, h => by
    have hc := h c (by simp)
    rw [digits, digit, if_pos hc]
    simp only
    rw [digits_eq s _ (fun d hd => h d (by simp [hd])), Nat.ofDigitChars_cons, Nat.mul_comm]

theorem natural_toDigits (n : Nat) : natural (Nat.toDigits 10 n) = some n := by
  have h := digits_eq (Nat.toDigits 10 n) 0 (fun c hc => Nat.isDigit_of_mem_toDigits (by decide) (by decide) hc)
  rw [Nat.ofDigitChars_ten_toDigits] at h
  have hne := Symbolic.toDigits_ne_nil n
  cases hd : Nat.toDigits 10 n with
  | nil => exact absurd hd hne
  | cons c s => rw [hd] at h; exact h

theorem digit_plain {c : Char} (h : c.isDigit = true) : isSpace c = false ∧ c ≠ '-' ∧ c ≠ '+' ∧ c ≠ ' ' ∧ c ≠ '\'' ∧ c ≠ ',' ∧ c ≠ '[' ∧ c ≠ ']' := by
  have hv : 48 ≤ c.toNat ∧ c.toNat ≤ 57 := Symbolic.isDigit_val.1 (Symbolic.isDigit_of_charIsDigit h)
  refine ⟨?_, ?_, ?_, ?_, ?_, ?_, ?_, ?_⟩
  · unfold isSpace
    simp only [Bool.or_eq_false_iff, Bool.and_eq_false_iff, decide_eq_false_iff_not, beq_eq_false_iff_ne]
    omega
  all_goals (rintro rfl; revert hv; decide)

theorem intText_chars (i : Int) : ∀ c ∈ Spec.intText i, c.isDigit = true ∨ c = '-' := by
  intro c hc
  cases i with
  | ofNat n => exact .inl (Nat.isDigit_of_mem_toDigits (by decide) (by decide) hc)
  | negSucc n =>
    rcases List.mem_cons.1 hc with rfl | hc
    · exact .inr rfl
    · exact .inl (Nat.isDigit_of_mem_toDigits (by decide) (by decide) hc)

theorem intText_ne (i : Int) : Spec.intText i ≠ [] := by
  cases i with
  | ofNat n => exact Symbolic.toDigits_ne_nil n
  | negSucc n => simp [Spec.intText]

theorem intText_char (i : Int) (c : Char) (hc : c ∈ Spec.intText i) :
    isSpace c = false ∧ c ≠ ' ' ∧ c ≠ '\'' ∧ c ≠ ',' ∧ c ≠ '[' ∧ c ≠ ']' := by
  rcases intText_chars i c hc with h | rfl
  · have := digit_plain h; tauto
  · decide

theorem decimalInt_intText (i : Int) : decimalInt (Spec.intText i) = some (i : Rat) := by
  have hs : strip (Spec.intText i) = Spec.intText i := by
    have := strip_of [] (Spec.intText i) [] (by simp) (by simp)
      ⟨fun c hc => (intText_char i c (List.mem_of_head? hc)).1, fun c hc => (intText_char i c (List.mem_of_getLast? hc)).1⟩
    simpa using this
  unfold decimalInt
  rw [hs]
  cases i with
  | ofNat n =>
    show (match Nat.toDigits 10 n with
      | '-' :: t => (natural t).map (fun n => -(n : Rat))
      | '+' :: t => (natural t).map (fun n => (n : Rat))
      | t => (natural t).map (fun n => (n : Rat))) = _
    have hn := natural_toDigits n
    have hd : ∀ c ∈ Nat.toDigits 10 n, c.isDigit = true := fun c hc => Nat.isDigit_of_mem_toDigits (by decide) (by decide) hc
    generalize Nat.toDigits 10 n = t at hn hd
    split
    · exact absurd rfl (digit_plain (hd '-' (by simp))).2.1
    · exact absurd rfl (digit_plain (hd '+' (by simp))).2.2.1
    · rw [hn]; rfl
  | negSucc n =>
    have ht : Spec.intText (Int.negSucc n) = '-' :: Nat.toDigits 10 (n + 1) := rfl
    rw [ht]
    simp [natural_toDigits, Int.negSucc_eq]

/-- **C294, integers.** The text that Python writes for a list of integers, `[1, -2, 3]`, is read as the list. -/
theorem c294_integers (xs : List Int) (floats : Str → Option Rat) :
    stringToList (fun s => (decimalInt s).or (floats s))
      ('[' :: Spec.items (xs.zipIdx.map (fun p => (if p.2 = 0 then [] else [' '], Spec.intText p.1, []))) ++ [']']) =
      .ok (xs.map (fun i : Int => (i : Rat))) := by
  apply c294_partial
  · intro e he
    obtain ⟨p, -, rfl⟩ := List.mem_map.1 he
    refine ⟨?_, ⟨intText_ne _, ?_, ?_, ?_, ?_, ?_⟩, by simp [Spec.Padding]⟩
    · by_cases h : p.2 = 0 <;> simp [Spec.Padding, h]
    · intro c hc
      have := intText_char p.1 c (List.mem_of_head? hc); tauto
    · intro c hc
      have := intText_char p.1 c (List.mem_of_getLast? hc); tauto
    all_goals
      intro hc
      have := intText_char p.1 _ hc
      simp at this
  · simp only [List.map_map, Function.comp_def, decimalInt_intText, Option.some_or]
    have : ∀ (xs : List Int) (k : Nat), (xs.zipIdx k).map (fun p => some ((p.1 : Int) : Rat)) = xs.map (fun i => some ((i : Int) : Rat)) := by
      intro xs
      induction xs with
      | nil => intro k; rfl
      | cons x xs ih => intro k; rw [List.zipIdx_cons, List.map_cons, List.map_cons, ih]
    exact this xs 0

example : '[' :: Spec.items ([1, -20, 3].zipIdx.map (fun p => (if p.2 = 0 then [] else [' '], Spec.intText p.1, []))) ++ [']'] =
    c!"[1, -20, 3]" := by decide +kernel

/-- **C294 fails in the code**: brackets around blanks alone are no empty list, whatever is read as a number besides the empty text. -/
theorem c294_counterexample {K : Type} (cast : Str → Option K) (h : cast [] = none) :
    stringToList cast c!"[ ]" = .error .typeError ∧ stringToList cast c!"[]" = .ok [] := by
  constructor
  · unfold stringToList
    rw [if_pos (by decide)]
    have h1 : stripOf ['[', ']'] c!"[ ]" = [' '] := by decide
    have h2 : splitChar ',' [' '] = [[' ']] := by decide
    have h3 : stripOf [' ', '\''] [' '] = [] := by decide
    simp only [h1, h2, List.mapM_cons, h3, h]
    rfl
  · rfl

example : stringToList (fun s => (decimalInt s).or (decimalFloat s)) c!"[1, '2.5' ,-3e2]" = .ok [1, 5 / 2, -300]
    ∧ stringToList (fun s => (decimalInt s).or (decimalFloat s)) c!"[1,,2]" = .error .typeError
    ∧ stringToList (fun s => (decimalInt s).or (decimalFloat s)) c!"[[1],[2]]" = .error .typeError
    ∧ stringToList (fun s => (decimalInt s).or (decimalFloat s)) c!"1, 2" = .error .typeError := by decide +kernel

example : stringToList (fun s => (decimalInt s).or (decimalFloat s)) c!"[1, 22]" = .ok [1, 22] :=
  c294_partial _ [([], c!"1", []), ([' '], c!"22", [])] [1, 22]
    (by
      intro e he
      simp only [List.mem_cons, List.not_mem_nil, or_false] at he
      rcases he with rfl | rfl
      · exact ⟨by simp [Spec.Padding], ⟨by simp, by decide, by decide, by decide⟩, by simp [Spec.Padding]⟩
      · exact ⟨by simp [Spec.Padding], ⟨by simp, by simp, by simp, by decide⟩, by simp [Spec.Padding]⟩)
    (by decide +kernel)

end Verif.Runtime
