import Verif.Terms.Model
import Verif.Terms.Spec
import Verif.Symbolic.RenderParse

/-!
# Helper lemmas: full matches of operands
-/

set_option linter.unusedSimpArgs false

namespace Verif.Terms

open Verif.Py Verif.Symbolic

theorem fullmatch_some {α : Type} {p : Pat α} {s : List Char} {a : α}
    (h : p.fullmatch s = some a) : (a, []) ∈ p s := by
  unfold Pat.fullmatch at h
  rw [Option.map_eq_some_iff] at h
  obtain ⟨m, hm, rfl⟩ := h
  have h1 := List.find?_some hm
  have h2 := List.mem_of_find?_eq_some hm
  obtain ⟨x, y⟩ := m
  simp at h1; subst h1
  exact h2

theorem fullmatch_isSome {α : Type} {p : Pat α} {s : List Char} {a : α} (h : (a, []) ∈ p s) :
    ∃ b, p.fullmatch s = some b := by
  unfold Pat.fullmatch
  cases hf : (p s).find? (fun m => m.2 = []) with
  | some m => exact ⟨m.1, rfl⟩
  | none =>
    have := List.find?_eq_none.1 hf _ h
    simp at this

theorem fullmatch_none {α : Type} {p : Pat α} {s : List Char} (h : ∀ a, (a, []) ∉ p s) :
    p.fullmatch s = none := by
  cases hf : p.fullmatch s with
  | none => rfl
  | some a => exact absurd (fullmatch_some hf) (h a)

/-! ## Matches that exist -/

theorem mem_star {f : Char → Bool} {rest : List Char} : ∀ l : List Char, (∀ c ∈ l, f c = true) →
    (l, rest) ∈ Pat.star f (l ++ rest) := by
  intro l
  induction l with
  | nil =>
    intro _
    cases rest with
    | nil => simp [Pat.star]
    | cons c t => simp only [List.nil_append, Pat.star]; split <;> simp
  | cons c l ih =>
    intro h
    have hc := h c (by simp)
    simp only [List.cons_append, Pat.star, hc, if_true]
    apply List.mem_append_left
    exact List.mem_map.2 ⟨(l, rest), ih (fun d hd => h d (List.mem_cons_of_mem _ hd)), rfl⟩

theorem mem_lazyStar {f : Char → Bool} {rest : List Char} : ∀ l : List Char,
    (∀ c ∈ l, f c = true) → (l, rest) ∈ Pat.lazyStar f (l ++ rest) := by
  intro l
  induction l with
  | nil =>
    intro _
    cases rest with
    | nil => simp [Pat.lazyStar]
    | cons c t => simp [Pat.lazyStar]
  | cons c l ih =>
    intro h
    have hc := h c (by simp)
    simp only [List.cons_append, Pat.lazyStar, hc, if_true]
    apply List.mem_cons_of_mem
    exact List.mem_map.2 ⟨(l, rest), ih (fun d hd => h d (List.mem_cons_of_mem _ hd)), rfl⟩

theorem mem_optText_nil {p : Pat (List Char)} {s : List Char} : ([], s) ∈ Pat.optText p s := by
  simp [Pat.optText]

theorem digits_numberAhead {n : Nat} {rest : List Char} :
    numberAhead (Nat.toDigits 10 n ++ rest) = true := by
  have hne := toDigits_ne_nil n
  obtain ⟨c, t, h⟩ := List.exists_cons_of_ne_nil hne
  have hc : isDigit c = true := isDigit_toDigits (n := n) (by rw [h]; simp)
  rw [h]
  unfold numberAhead
  split
  · next h' => simp at h'; rw [h'.1] at hc; exact absurd hc (by decide)
  · next h' => simp at h'; rw [← h'.1]; exact hc
  · next h' => simp at h'

theorem mem_unsigned_abs (n d : Nat) (rest : List Char) :
    (Nat.toDigits 10 n, rest) ∈ unsigned (Nat.toDigits 10 n ++ rest)
    ∧ (Nat.toDigits 10 n ++ '/' :: Nat.toDigits 10 d, rest)
      ∈ unsigned (Nat.toDigits 10 n ++ '/' :: Nat.toDigits 10 d ++ rest) := by
  have hs : ∀ r, (Nat.toDigits 10 n, r) ∈ Pat.star isDigit (Nat.toDigits 10 n ++ r) :=
    fun r => mem_star _ (fun c hc => isDigit_toDigits hc)
  constructor
  · unfold unsigned
    rw [if_pos digits_numberAhead]
    refine mem_cat.2 ⟨_, hs rest, ([], rest), ?_, by simp⟩
    apply List.mem_append_right
    exact mem_cat.2 ⟨([], rest), mem_optText_nil, ([], rest), mem_optText_nil, rfl⟩
  · unfold unsigned
    rw [List.append_assoc, if_pos digits_numberAhead]
    refine mem_cat.2 ⟨_, hs _, ('/' :: Nat.toDigits 10 d, rest), ?_, by simp⟩
    apply List.mem_append_left
    obtain ⟨c, t, h⟩ := List.exists_cons_of_ne_nil (toDigits_ne_nil d)
    have hd : ∀ x ∈ c :: t, isDigit x = true := fun x hx => isDigit_toDigits (by rw [h]; exact hx)
    rw [h]
    refine mem_cat.2 ⟨(['/'], c :: t ++ rest), by simp [Pat.char], (c :: t, rest), ?_, rfl⟩
    refine mem_cat.2 ⟨([c], t ++ rest), by simp [Pat.char, hd c (by simp)], (t, rest), ?_, rfl⟩
    exact mem_lazyStar t (fun x hx => hd x (List.mem_cons_of_mem _ hx))

theorem mem_rational (x : Rat) (rest : List Char) : (ratStr x, rest) ∈ rational (ratStr x ++ rest) := by
  rw [rational_eq]
  unfold ratStr intStr
  have hneg : ∀ t : List Char, (['-'], t)
      ∈ Pat.optText (Pat.char (fun c => c = '-' || c = '+')) ('-' :: t) := by
    intro t; simp [Pat.optText, Pat.char]
  have h := mem_unsigned_abs x.num.natAbs x.den rest
  split
  · split
    · exact mem_cat.2 ⟨_, hneg _, _, h.1, rfl⟩
    · exact mem_cat.2 ⟨([], _), mem_optText_nil, _, h.1, rfl⟩
  · split
    · exact mem_cat.2 ⟨_, hneg _, (_, rest), h.2, rfl⟩
    · exact mem_cat.2 ⟨([], _), mem_optText_nil, _, h.2, rfl⟩

theorem mem_exponent (x : Rat) (rest : List Char) :
    ('^' :: ratStr x, rest) ∈ exponentPat ('^' :: ratStr x ++ rest) :=
  mem_cat.2 ⟨(['^'], ratStr x ++ rest), by simp [Pat.char], _, mem_rational x rest, rfl⟩

theorem mem_base {n : Name} (hn : Plain n) (rest : List Char) : (n, rest) ∈ basePat (n ++ rest) := by
  obtain ⟨l, d, rfl, hl, h1, h2⟩ := hn
  obtain ⟨c, t, rfl⟩ := List.exists_cons_of_ne_nil hl
  refine mem_cat.2 ⟨(c :: t, d ++ rest), ?_, (d, rest), mem_star d h2, rfl⟩
  refine mem_cat.2 ⟨([c], t ++ (d ++ rest)), by simp [Pat.char, h1 c (by simp)], (t, d ++ rest),
    mem_star t (fun x hx => h1 x (List.mem_cons_of_mem _ hx)), rfl⟩

/-! ## Shape of the matches of a number -/

/-- Ends in a digit or a point. -/
def NumEnd (s : List Char) : Prop := ∃ c, s.getLast? = some c ∧ (isDigit c = true ∨ c = '.')

/-- Starts with a digit or a point. -/
def NumStart (s : List Char) : Prop := ∃ c t, s = c :: t ∧ (isDigit c = true ∨ c = '.')

theorem numEnd_append {a b : List Char} (h : NumEnd b) : NumEnd (a ++ b) := by
  obtain ⟨c, h1, h2⟩ := h
  refine ⟨c, ?_, h2⟩
  rw [List.getLast?_append, h1]; rfl

theorem numEnd_digits {s : List Char} (hne : s ≠ []) (h : ∀ c ∈ s, isDigit c = true) :
    NumEnd s := by
  refine ⟨s.getLast hne, List.getLast?_eq_some_getLast hne, Or.inl (h _ (List.getLast_mem hne))⟩

theorem numberAhead_start {s : List Char} (h : numberAhead s = true) : NumStart s := by
  unfold numberAhead at h
  split at h
  · exact ⟨'.', _, rfl, Or.inr rfl⟩
  · exact ⟨_, _, rfl, Or.inl h⟩
  · cases h

/-- A digit and more digits. -/
theorem digit_digits {p : Pat (List Char)} (hp : Sound (fun c => isDigit c = true) p)
    {s : List Char} {m} (h : m ∈ Pat.cat (Pat.char isDigit) p s) :
    m.1 ≠ [] ∧ ∀ c ∈ m.1, isDigit c = true := by
  obtain ⟨a, ha, b, hb, rfl⟩ := mem_cat.1 h
  have h1 := sound_char (f := fun c => isDigit c = true) (g := isDigit) (fun c h => h) s a ha
  have h2 := hp _ b hb
  constructor
  · intro he
    simp at he
    cases s with
    | nil => simp [Pat.char] at ha
    | cons c t =>
      simp only [Pat.char] at ha
      split at ha
      · simp at ha; subst ha; simp at he
      · simp at ha
  · intro c hc
    rcases List.mem_append.1 hc with hc | hc
    · exact h1.2 c hc
    · exact h2.2 c hc

theorem rational_shape {s : List Char} {m : List Char × List Char} (h : m ∈ rational s) :
    NumEnd m.1 ∨ NumStart m.2 := by
  rw [rational_eq] at h
  obtain ⟨a, ha, b, hb, rfl⟩ := mem_cat.1 h
  unfold unsigned at hb
  split at hb
  case isFalse => simp at hb
  next hna =>
  obtain ⟨c, hc, d, hd, rfl⟩ := mem_cat.1 hb
  simp only
  have hdig : ∀ c, isDigit c = true → isDigit c = true := fun _ h => h
  have hcs := sound_star (f := fun c => isDigit c = true) hdig _ c hc
  rcases List.mem_append.1 hd with hd | hd
  · left
    obtain ⟨e, he, f, hf, rfl⟩ := mem_cat.1 hd
    have := digit_digits (sound_lazyStar hdig) hf
    apply numEnd_append; apply numEnd_append; apply numEnd_append
    exact numEnd_digits this.1 this.2
  · obtain ⟨e, he, f, hf, rfl⟩ := mem_cat.1 hd
    simp only
    rcases List.mem_append.1 hf with hf | hf
    · left
      obtain ⟨x, hx, y, hy, rfl⟩ := mem_cat.1 hf
      obtain ⟨z, hz, w, hw, rfl⟩ := mem_cat.1 hy
      have := digit_digits (sound_star hdig) hw
      apply numEnd_append; apply numEnd_append; apply numEnd_append; apply numEnd_append
      apply numEnd_append
      exact numEnd_digits this.1 this.2
    · simp at hf; subst hf
      simp only [List.append_nil]
      rcases List.mem_append.1 he with he | he
      · left
        obtain ⟨x, hx, y, hy, rfl⟩ := mem_cat.1 he
        have hy' := sound_star (f := fun c => isDigit c = true) hdig _ y hy
        have hx' : x.1 = ['.'] := by
          cases hc2 : c.2 with
          | nil => rw [hc2] at hx; simp [Pat.char] at hx
          | cons c' t =>
            rw [hc2] at hx
            simp only [Pat.char] at hx
            split at hx
            · next hcc => simp at hx hcc; subst hx; simp [hcc]
            · simp at hx
        apply numEnd_append; apply numEnd_append
        simp only [hx']
        by_cases hy0 : y.1 = []
        · rw [hy0]; exact ⟨'.', rfl, Or.inr rfl⟩
        · exact numEnd_append (numEnd_digits hy0 hy'.2)
      · simp at he; subst he
        simp only [List.append_nil]
        by_cases hc0 : c.1 = []
        · right
          have : a.2 = c.2 := by rw [hcs.1, hc0]; rfl
          rw [← this]
          exact numberAhead_start hna
        · left
          exact numEnd_append (numEnd_digits hc0 hcs.2)

/-! ## Full matches of simple operands -/

theorem not_caret_num {c : Char} (h : NumChar c) : c ≠ '^' := by
  rintro rfl; revert h; unfold NumChar; decide

theorem not_caret_name {c : Char} (h : isLetter c = true ∨ isDigit c = true) : c ≠ '^' := by
  rintro rfl; revert h; decide

/-- Texts that agree up to the first raising token. -/
theorem split_caret {a b x y : List Char} (ha : ∀ c ∈ a, c ≠ '^') (hb : ∀ c ∈ b, c ≠ '^')
    (hx : x = [] ∨ ∃ t, x = '^' :: t) (hy : y = [] ∨ ∃ t, y = '^' :: t) (h : a ++ x = b ++ y) :
    a = b ∧ x = y := by
  rcases List.append_eq_append_iff.1 h with ⟨u, rfl, rfl⟩ | ⟨u, rfl, rfl⟩
  · rcases u with _ | ⟨c, u⟩
    · simp
    · exfalso
      have := hb c (by simp)
      rcases hx with h | ⟨t, h⟩
      · simp at h
      · simp at h; exact this h.1
  · rcases u with _ | ⟨c, u⟩
    · simp
    · exfalso
      have := ha c (by simp)
      rcases hy with h | ⟨t, h⟩
      · simp at h
      · simp at h; exact this h.1

theorem opt_exponent_text {s : List Char} {m : Option (List Char) × List Char}
    (h : m ∈ Pat.opt exponentPat s) (hm : m.2 = []) :
    (m.1 = none ∧ s = []) ∨ (m.1 = some s ∧ ∃ t, s = '^' :: t) := by
  rcases mem_opt.1 h with ⟨k, hk, rfl⟩ | rfl
  · right
    simp only at hm ⊢
    have hs := (sound_exponentPat _ _ hk).1
    rw [hm, List.append_nil] at hs
    refine ⟨by rw [hs], ?_⟩
    obtain ⟨a, ha, b, hb, rfl⟩ := mem_cat.1 hk
    cases s with
    | nil => simp [Pat.char] at ha
    | cons c t =>
      simp only [Pat.char] at ha
      split at ha
      · next hc => simp at hc; exact ⟨t, by rw [hc]⟩
      · simp at ha
  · left; exact ⟨rfl, hm⟩

/-- The parts of a text that is matched as a whole as a variable term. -/
theorem variable_full {s : List Char} {m} (h : variablePat.fullmatch s = some m) :
    ∃ r b e : List Char, s = r ++ (b ++ e)
      ∧ (m.1.1 = none ∧ r = [] ∨ m.1.1 = some r ∧ (r, b ++ e) ∈ rational s)
      ∧ (∀ c ∈ r, NumChar c) ∧ m.1.2 = b ∧ (b, e) ∈ basePat (b ++ e)
      ∧ (m.2 = none ∧ e = [] ∨ m.2 = some e ∧ ∃ t, e = '^' :: t) := by
  have h := fullmatch_some h
  obtain ⟨a, ha, x, hx, he⟩ := mem_seq.1 h
  obtain ⟨r, hr, b, hb, hab⟩ := mem_seq.1 ha
  have hm1 : m = (a.1, x.1) := by injection he
  have hx0 : x.2 = [] := by injection he with _ h; exact h.symm
  have hb' := (sound_basePat _ _ hb).1
  subst hab
  simp only at hm1 hx
  have hex := opt_exponent_text hx hx0
  rcases mem_opt.1 hr with ⟨k, hk, rfl⟩ | rfl
  · have hk' := sound_rational _ _ hk
    simp only at hb hb' hm1
    refine ⟨k.1, b.1, b.2, ?_, Or.inr ⟨by rw [hm1], ?_⟩, hk'.2, by rw [hm1], ?_, ?_⟩
    · rw [← hb']; exact hk'.1
    · rw [← hb']; exact hk
    · rw [← hb']; exact hb
    · rw [hm1]; rcases hex with ⟨h1, h2⟩ | ⟨h1, h2⟩
      · exact Or.inl ⟨h1, h2⟩
      · exact Or.inr ⟨h1, h2⟩
  · simp only at hb hb' hm1
    refine ⟨[], b.1, b.2, hb', Or.inl ⟨by rw [hm1], rfl⟩, by simp, by rw [hm1], ?_, ?_⟩
    · rw [← hb']; exact hb
    · rw [hm1]; rcases hex with ⟨h1, h2⟩ | ⟨h1, h2⟩
      · exact Or.inl ⟨h1, h2⟩
      · exact Or.inr ⟨h1, h2⟩

/-- The parts of a text that is matched as a whole as a constant term. -/
theorem constant_full {s : List Char} {m} (h : constantPat.fullmatch s = some m) :
    ∃ e : List Char, s = m.1 ++ e ∧ (m.1, e) ∈ rational s ∧ (∀ c ∈ m.1, NumChar c)
      ∧ (m.2 = none ∧ e = [] ∨ m.2 = some e ∧ ∃ t, e = '^' :: t) := by
  have h := fullmatch_some h
  obtain ⟨a, ha, x, hx, he⟩ := mem_seq.1 h
  have hm1 : m = (a.1, x.1) := by injection he
  have hx0 : x.2 = [] := by injection he with _ h; exact h.symm
  have ha' := sound_rational _ _ ha
  have hex := opt_exponent_text hx hx0
  subst hm1
  exact ⟨a.2, ha'.1, ha, ha'.2, hex⟩

theorem powStr_caret (x : Rat) : powStr x = [] ∨ ∃ t, powStr x = '^' :: t := by
  unfold powStr; split
  · exact Or.inl rfl
  · exact Or.inr ⟨_, rfl⟩

theorem ratStr_numChar {x : Rat} {c : Char} (h : c ∈ ratStr x) : NumChar c ∧ isLetter c = false := by
  rcases ratStr_chars h with h | rfl | rfl
  · exact ⟨Or.inl h, not_letter_of_digit h⟩
  all_goals exact ⟨by unfold NumChar; simp, by decide⟩

theorem coefText_chars {x : Rat} {c : Char} (h : c ∈ coefText x) :
    NumChar c ∧ isLetter c = false := by
  unfold coefText at h
  split at h
  · simp at h
  · exact ratStr_numChar h

theorem plain_chars {n : Name} (hn : Plain n) {c : Char} (h : c ∈ n) :
    isLetter c = true ∨ isDigit c = true := by
  obtain ⟨l, d, rfl, _, h1, h2⟩ := hn
  rcases List.mem_append.1 h with h | h
  · exact Or.inl (h1 c h)
  · exact Or.inr (h2 c h)

theorem plain_cons {n : Name} (h : Plain n) : ∃ c t, n = c :: t ∧ isLetter c = true := by
  obtain ⟨l, d, rfl, hl, hl', _⟩ := h
  obtain ⟨c, t, rfl⟩ := List.exists_cons_of_ne_nil hl
  exact ⟨c, t ++ d, rfl, hl' c (by simp)⟩

theorem not_numStart_letter {c : Char} {t : List Char} (h : isLetter c = true) :
    ¬ NumStart (c :: t) := by
  rintro ⟨c', t', h', hc⟩
  injection h' with h1 _
  subst h1
  rcases hc with hc | rfl
  · rw [not_letter_of_digit hc] at h; cases h
  · exact absurd h (by decide)

theorem not_numEnd_letters {a u : List Char} (hu : u ≠ []) (h : ∀ c ∈ u, isLetter c = true) :
    ¬ NumEnd (a ++ u) := by
  rintro ⟨c, h1, h2⟩
  rw [List.getLast?_append, List.getLast?_eq_some_getLast hu] at h1
  simp at h1
  have hl := h _ (List.getLast_mem hu)
  rw [h1] at hl
  rcases h2 with h2 | rfl
  · rw [not_letter_of_digit h2] at hl; cases hl
  · exact absurd hl (by decide)

/-- A text `2a^3` is matched as a whole as a variable term, with these parts. -/
theorem variable_fullmatch {c : Rat} {n : Name} {x : Rat} (hn : Plain n) :
    ∃ m, variablePat.fullmatch (coefText c ++ (n ++ powStr x)) = some m
      ∧ stdCoef m.1.1 = .ok c ∧ m.1.2 = n ∧ stdExp m.2 = .ok x := by
  have hex : ∃ o, (o, []) ∈ Pat.opt exponentPat (powStr x) := by
    unfold powStr
    split
    · exact ⟨none, mem_opt.2 (Or.inr rfl)⟩
    · refine ⟨some ('^' :: ratStr x), mem_opt.2 (Or.inl ⟨('^' :: ratStr x, []), ?_, rfl⟩)⟩
      have := mem_exponent x []
      simpa using this
  obtain ⟨o, ho⟩ := hex
  have hco : ∃ r, (r, n ++ powStr x) ∈ Pat.opt rational (coefText c ++ (n ++ powStr x)) := by
    unfold coefText
    split
    · exact ⟨none, mem_opt.2 (Or.inr rfl)⟩
    · exact ⟨some _, mem_opt.2 (Or.inl ⟨_, mem_rational c _, rfl⟩)⟩
  obtain ⟨r, hr⟩ := hco
  obtain ⟨m, hm⟩ := fullmatch_isSome (p := variablePat) (a := ((r, n), o))
    (mem_seq.2 ⟨((r, n), powStr x), mem_seq.2 ⟨_, hr, _, mem_base hn _, rfl⟩, _, ho, rfl⟩)
  refine ⟨m, hm, ?_⟩
  obtain ⟨r, b, e, hs, h1, h2, h3, h4, h5⟩ := variable_full hm
  have hbc : ∀ k ∈ b, k ≠ '^' := fun k hk => not_caret_name ((sound_basePat _ _ h4).2 k hk)
  have he : e = [] ∨ ∃ t, e = '^' :: t := by
    rcases h5 with h | h
    · exact Or.inl h.2
    · exact Or.inr h.2
  have hsp := split_caret (a := coefText c ++ n) (b := r ++ b) (x := powStr x) (y := e)
    (by
      intro k hk
      rcases List.mem_append.1 hk with hk | hk
      · exact not_caret_num (coefText_chars hk).1
      · exact not_caret_name (plain_chars hn hk))
    (by
      intro k hk
      rcases List.mem_append.1 hk with hk | hk
      · exact not_caret_num (h2 k hk)
      · exact hbc k hk)
    (powStr_caret x) he (by simpa using hs)
  obtain ⟨hrb, rfl⟩ := hsp
  obtain ⟨cb, tb, hb0, hbl, _⟩ := basePat_head h4
  -- the base starts with a letter
  have hbne : ∃ t, b = cb :: t := by
    rcases b with _ | ⟨y, b⟩
    · have := basePat_head h4
      obtain ⟨_, _, _, _, h⟩ := this
      simp at h
    · simp at hb0; exact ⟨b, by rw [hb0.1]⟩
  obtain ⟨t, rfl⟩ := hbne
  have key : coefText c = r ∧ n = cb :: t := by
    rcases List.append_eq_append_iff.1 hrb with ⟨u, hu, hv⟩ | ⟨u, hu, hv⟩
    · -- the matched coefficient is longer
      rcases u with _ | ⟨y, u⟩
      · simp at hu hv; exact ⟨hu.symm, hv⟩
      · exfalso
        rcases h1 with ⟨_, h0⟩ | ⟨_, h0⟩
        · rw [h0] at hu; simp at hu
        · obtain ⟨l, d, hnd, hl, hl', hd'⟩ := hn
          have hul : ∀ k ∈ y :: u, isLetter k = true := by
            rw [hnd] at hv
            rcases List.append_eq_append_iff.1 hv with ⟨w, hw, hz⟩ | ⟨w, hw, hz⟩
            · -- y :: u reaches into the digits
              rcases w with _ | ⟨z, w⟩
              · rw [List.append_nil] at hw; rw [hw]; exact hl'
              · exfalso
                have : cb ∈ d := by rw [hz]; simp
                rw [not_letter_of_digit (hd' cb this)] at hbl; cases hbl
            · intro k hk; exact hl' k (by rw [hw]; exact List.mem_append_left _ hk)
          rcases rational_shape h0 with h' | h'
          · rw [hu] at h'
            exact not_numEnd_letters (by simp) hul h'
          · exact not_numStart_letter hbl h'
    · rcases u with _ | ⟨y, u⟩
      · simp at hu hv; exact ⟨hu, hv.symm⟩
      · exfalso
        simp at hv
        have : isLetter y = false := (coefText_chars (x := c) (by rw [hu]; simp)).2
        rw [← hv.1, hbl] at this; cases this
  obtain ⟨k1, k2⟩ := key
  refine ⟨?_, by rw [h3, k2], ?_⟩
  · rcases h1 with ⟨h, h0⟩ | ⟨h, h0⟩
    · rw [h]
      rw [h0] at k1
      unfold coefText at k1
      split at k1
      · next hc => subst hc; rfl
      · exact absurd k1 (ratStr_ne_nil c)
    · rw [h, ← k1]
      unfold coefText
      split
      · next hc => subst hc; rfl
      · exact stdCoef_ratStr c
  · rcases h5 with ⟨h, h0⟩ | ⟨h, h0⟩
    · rw [h]
      unfold powStr at h0
      split at h0
      · next hx => subst hx; rfl
      · cases h0
    · rw [h]
      unfold powStr at h0 ⊢
      split
      · next hx => rw [if_pos hx] at h0; simp at h0
      · exact stdExp_ratStr x

/-- A text `2a^3` is not a constant, unless the name looks like the exponent of a decimal number. -/
theorem constant_none {c : Rat} {n : Name} {x : Rat} (hn : Plain n) (he : c = 1 ∨ ¬ ENum n) :
    constantPat.fullmatch (coefText c ++ (n ++ powStr x)) = none := by
  cases hm : constantPat.fullmatch (coefText c ++ (n ++ powStr x)) with
  | none => rfl
  | some m =>
    exfalso
    obtain ⟨e, hs, hr, hc, h5⟩ := constant_full hm
    have hex : e = [] ∨ ∃ t, e = '^' :: t := by
      rcases h5 with h | h
      · exact Or.inl h.2
      · exact Or.inr h.2
    obtain ⟨h1, h2⟩ := split_caret (a := coefText c ++ n) (b := m.1) (x := powStr x) (y := e)
      (by
        intro k hk
        rcases List.mem_append.1 hk with hk | hk
        · exact not_caret_num (coefText_chars hk).1
        · exact not_caret_name (plain_chars hn hk))
      (fun k hk => not_caret_num (hc k hk)) (powStr_caret x) hex (by simpa using hs)
    rcases he with rfl | he
    · have hnil : rational (coefText 1 ++ (n ++ powStr x)) = [] := by
        apply rational_nil
        intro k t hk
        obtain ⟨k', t', rfl, hl⟩ := plain_cons hn
        simp [coefText] at hk
        rw [← hk.1]
        refine ⟨not_digit_of_letter hl, ?_, ?_, ?_⟩ <;> rintro rfl <;> exact absurd hl (by decide)
      rw [hnil] at hr
      simp at hr
    · apply he
      constructor
      · rcases rational_shape hr with h' | h'
        · obtain ⟨k, hk1, hk2⟩ := h'
          simp only at hk1
          rw [← h1, List.getLast?_append] at hk1
          obtain ⟨l, hl⟩ : ∃ l, n.getLast? = some l := by
            obtain ⟨k', t', rfl, _⟩ := plain_cons hn
            exact ⟨_, List.getLast?_eq_some_getLast (by simp)⟩
          rw [hl] at hk1
          simp at hk1
          subst hk1
          refine ⟨l, hl, ?_⟩
          rcases hk2 with h | rfl
          · exact h
          · have := plain_chars hn (List.mem_of_getLast? hl)
            revert this; decide
        · exfalso
          simp only at h'
          obtain ⟨k, t, hk, hk'⟩ := h'
          rcases hex with h | ⟨t', h⟩
          · rw [h] at hk; cases hk
          · rw [h] at hk
            injection hk with hk _
            subst hk
            revert hk'; decide
      · intro k hk hl
        have := hc k (by rw [← h1]; simp [hk])
        unfold NumChar at this
        rcases this with h | rfl | rfl | rfl | rfl | h | h
        · rw [not_letter_of_digit h] at hl; cases hl
        · exact absurd hl (by decide)
        · exact absurd hl (by decide)
        · exact absurd hl (by decide)
        · exact absurd hl (by decide)
        · exact Or.inl h
        · exact Or.inr h

theorem plain_ne_nil {n : Name} (hn : Plain n) : n ≠ [] := by
  obtain ⟨c, t, rfl, _⟩ := plain_cons hn; simp

theorem plain_ne_one {n : Name} (hn : Plain n) : n ≠ one := by
  obtain ⟨c, t, rfl, hc⟩ := plain_cons hn
  intro he
  injection he with h1 _
  subst h1
  exact absurd hc (by decide)

/-- The text `2a^3` as a whole is the term with these parts. -/
theorem fullSimplex_var {c : Rat} {n : Name} {x : Rat} (hc : c ≠ 0) (hn : Plain n) (hx : x ≠ 0)
    (he : c = 1 ∨ ¬ ENum n) :
    fullSimplex (coefText c ++ (n ++ powStr x)) = .ok (some ⟨c, n, x⟩) := by
  obtain ⟨m, hm, h1, h2, h3⟩ := variable_fullmatch (c := c) (x := x) hn
  unfold fullSimplex
  rw [hm, constant_none hn he]
  simp [buildVariable, h1, h2, h3, bind, Except.bind, pure, Except.pure, mkOperand, orOne, hc, hx,
    plain_ne_nil hn]

/-- A number as a whole is a constant. -/
theorem fullSimplex_num {c : Rat} (hc : c ≠ 0) (hf : IsDouble c) :
    fullSimplex (ratStr c) = .ok (some ⟨c, one, 1⟩) := by
  have hv : variablePat.fullmatch (ratStr c) = none := by
    cases hm : variablePat.fullmatch (ratStr c) with
    | none => rfl
    | some m =>
      exfalso
      obtain ⟨r, b, e, hs, _, _, _, h4, _⟩ := variable_full hm
      obtain ⟨k, t, hk, hl, _⟩ := basePat_head h4
      have := (ratStr_numChar (x := c) (c := k) (by rw [hs, hk]; simp)).2
      rw [hl] at this; cases this
  obtain ⟨m, hm⟩ := fullmatch_isSome (p := constantPat) (s := ratStr c) (a := (ratStr c, none))
    (mem_seq.2 ⟨(ratStr c, []), by simpa using mem_rational c [], (none, []),
      mem_opt.2 (Or.inr rfl), rfl⟩)
  obtain ⟨e, hs, hr, hch, h5⟩ := constant_full hm
  have h0 : m.2 = none ∧ e = [] := by
    rcases h5 with h | ⟨_, t, ht⟩
    · exact h
    · exfalso
      have := (ratStr_numChar (x := c) (c := '^') (by rw [hs, ht]; simp)).1
      revert this; unfold NumChar; decide
  have h1 : m.1 = ratStr c := by rw [hs, h0.2, List.append_nil]
  unfold fullSimplex
  rw [hv, hm]
  simp [buildConstant, h1, h0.1, stdCoef_ratStr, stdExp, powCoef_one_exp, toFloat_double hf, bind,
    Except.bind, pure, Except.pure, mkOperand, orOne, hc, one]

theorem sound_mono {f g : Char → Prop} {p : Pat (List Char)} (h : Sound f p) (hfg : ∀ c, f c → g c) :
    Sound g p := fun s m hm => ⟨(h s m hm).1, fun c hc => hfg c ((h s m hm).2 c hc)⟩

/-- A text with a character that occurs in no name or number is not a simple operand. -/
theorem fullSimplex_none {s : List Char} (k : Char) (hk : ¬ NumChar k) (hl : isLetter k = false)
    (hu : k ≠ '^') (h : k ∈ s) : fullSimplex s = .ok none := by
  have hnum : Sound (· ≠ k) rational :=
    sound_mono sound_rational (fun c hc => by rintro rfl; exact hk hc)
  have hbase : Sound (· ≠ k) basePat := sound_mono sound_basePat (fun c hc => by
    rintro rfl
    rcases hc with hc | hc
    · rw [hl] at hc; cases hc
    · exact hk (Or.inl hc))
  have hexp : Sound (· ≠ k) exponentPat :=
    sound_cat (sound_char (fun c hc => by simp at hc; rw [hc]; exact Ne.symm hu)) hnum
  have hopt : ∀ (p : Pat (List Char)), Sound (· ≠ k) p → ∀ s m, m ∈ Pat.opt p s →
      k ∈ s → k ∈ m.2 := by
    intro p hp s m hm hks
    rcases mem_opt.1 hm with ⟨a, ha, rfl⟩ | rfl
    · have := hp s a ha
      rw [this.1] at hks
      rcases List.mem_append.1 hks with h | h
      · exact absurd rfl (this.2 k h)
      · exact h
    · exact hks
  have hv : variablePat.fullmatch s = none := by
    apply fullmatch_none
    intro m hm
    obtain ⟨a, ha, x, hx, he⟩ := mem_seq.1 hm
    obtain ⟨r, hr, b, hb, rfl⟩ := mem_seq.1 ha
    have h1 := hopt _ hnum _ _ hr h
    have h2 := hbase _ _ hb
    rw [h2.1] at h1
    rcases List.mem_append.1 h1 with h1 | h1
    · exact absurd rfl (h2.2 k h1)
    · have h3 := hopt _ hexp _ _ hx h1
      have : x.2 = [] := by injection he with _ h; exact h.symm
      rw [this] at h3
      cases h3
  have hc : constantPat.fullmatch s = none := by
    apply fullmatch_none
    intro m hm
    obtain ⟨a, ha, x, hx, he⟩ := mem_seq.1 hm
    have h2 := hnum _ _ ha
    have h1 := h
    rw [h2.1] at h1
    rcases List.mem_append.1 h1 with h1 | h1
    · exact absurd rfl (h2.2 k h1)
    · have h3 := hopt _ hexp _ _ hx h1
      have : x.2 = [] := by injection he with _ h; exact h.symm
      rw [this] at h3
      cases h3
  unfold fullSimplex
  rw [hv, hc]

theorem fullSimplex_bracket {s : List Char} (h : '(' ∈ s) : fullSimplex s = .ok none :=
  fullSimplex_none '(' (by unfold NumChar; decide) (by decide) (by decide) h

/-! ## Brackets -/

theorem findBounds_prefix {pre a rest : List Char} (hpre : ∀ c ∈ pre, c ≠ '(' ∧ c ≠ ')')
    (ha : Balanced a) :
    findBounds (pre ++ ('(' :: a ++ ')' :: rest)) = some (pre.length, pre.length + a.length + 2) := by
  have hstart : findBounds (pre ++ ('(' :: a ++ ')' :: rest))
      = boundsLoop (pre.length + 1) (some pre.length) 1 (a ++ ')' :: rest) := by
    unfold findBounds
    rw [boundsLoop_before pre hpre, List.cons_append]
    conv_lhs => unfold boundsLoop
    simp
  rw [hstart]
  refine ((boundsLoop_open pre.length (a ++ ')' :: rest) (pre.length + 1) 1 (by omega)).1 _ _).2 ?_
  refine ⟨rfl, a ++ [')'], rest, by simp, by simp; omega, by simp, ?_, ?_⟩
  · rw [depth_append, ha.1]; simp [depth]
  · intro p q h hq
    rcases List.append_eq_append_iff.1 h with ⟨u, hu, hv⟩ | ⟨u, hu, hv⟩
    · rcases u with _ | ⟨y, u⟩
      · rw [hu]; simp [ha.1]
      · simp at hv
        obtain ⟨_, _, hv⟩ := hv
        exact absurd hv hq
    · have := ha.2 p u hu
      omega

theorem not_bracket_num {c : Char} (h : NumChar c) : c ≠ '(' ∧ c ≠ ')' := by
  constructor <;> rintro rfl <;> revert h <;> unfold NumChar <;> decide

theorem not_bracket_name {c : Char} (h : isLetter c = true ∨ isDigit c = true) :
    c ≠ '(' ∧ c ≠ ')' := by
  constructor <;> rintro rfl <;> revert h <;> decide

theorem powStr_not_bracket {x : Rat} {c : Char} (h : c ∈ powStr x) : c ≠ '(' ∧ c ≠ ')' := by
  unfold powStr at h
  split at h
  · simp at h
  · rcases List.mem_cons.1 h with rfl | h
    · decide
    · exact not_bracket_num (ratStr_numChar h).1

theorem nest_balanced : ∀ w : Nest, w.Ok → Balanced w.text := by
  intro w
  induction w with
  | num c =>
    intro _
    exact balanced_of_no_brackets (fun k hk => not_bracket_num (ratStr_numChar hk).1)
  | var c n x =>
    intro h
    apply balanced_of_no_brackets
    intro k hk
    simp only [Nest.text, List.mem_append] at hk
    rcases hk with hk | hk | hk
    · exact not_bracket_num (coefText_chars hk).1
    · exact not_bracket_name (plain_chars h.2.1 hk)
    · exact powStr_not_bracket hk
  | wrap k i p ih =>
    intro h
    have h1 : Balanced (coefText k) :=
      balanced_of_no_brackets (fun c hc => not_bracket_num (coefText_chars hc).1)
    have h2 : Balanced (powStr p) := balanced_of_no_brackets (fun c hc => powStr_not_bracket hc)
    have := h1.append ((ih h.2.1).bracket.append h2)
    simpa [Nest.text] using this

/-- The text `2(…)^3` as a whole is an operand with these parts. -/
theorem fullComplex_wrap {k : Rat} {a : List Char} {p : Int} (hk : k ≠ 0) (hf : IsDouble k)
    (ha : Balanced a) (hne : a ≠ []) (hp : p ≠ 0) :
    fullComplex (coefText k ++ ('(' :: a ++ ')' :: powStr p)) = .ok (some ⟨k, a, p⟩) := by
  have hb := findBounds_prefix (pre := coefText k) (rest := powStr p)
    (fun c hc => not_bracket_num (coefText_chars hc).1) ha
  have hdrop : (coefText k ++ ('(' :: a ++ ')' :: powStr p)).drop ((coefText k).length + a.length + 2)
      = powStr p := by
    have : coefText k ++ ('(' :: a ++ ')' :: powStr p)
        = (coefText k ++ ('(' :: a ++ [')'])) ++ powStr p := by simp
    rw [this]
    exact List.drop_left' (by simp; omega)
  have htake : (coefText k ++ ('(' :: a ++ ')' :: powStr p)).take (coefText k).length
      = coefText k := List.take_left' rfl
  have hint : ((coefText k ++ ('(' :: a ++ ')' :: powStr p)).take
      ((coefText k).length + a.length + 2 - 1)).drop ((coefText k).length + 1) = a := by
    have : coefText k ++ ('(' :: a ++ ')' :: powStr p)
        = (coefText k ++ ['(']) ++ a ++ (')' :: powStr p) := by simp
    rw [this, List.take_left' (by simp; omega)]
    exact List.drop_left' (by simp)
  have hfront : (fullSimplex (coefText k) = .ok none ∧ k = 1 ∧ (coefText k).length = 0)
      ∨ fullSimplex (coefText k) = .ok (some ⟨k, one, 1⟩) := by
    unfold coefText
    split
    · next h => exact Or.inl ⟨fullSimplex_nil, h, rfl⟩
    · exact Or.inr (fullSimplex_num hk hf)
  have hp' : (p : Rat) ≠ 0 := by exact_mod_cast hp
  have hmk : ∀ e : Rat, e ≠ 0 → mkOperand k a e = ⟨k, a, e⟩ := by
    intro e he; simp [mkOperand, orOne, hk, he, hne]
  have hexp : (exponentPat.match (powStr p) = none ∧ powStr p = [] ∧ (p : Rat) = 1)
      ∨ ∃ x, exponentPat.match (powStr p) = some (x, []) ∧ stdExp (some x) = .ok (p : Rat) := by
    by_cases h1 : (p : Rat) = 1
    · have hp1 : powStr p = [] := by simp [powStr, h1]
      left; rw [hp1]; exact ⟨rfl, rfl, h1⟩
    · right
      have hps : powStr p = '^' :: ratStr p := by unfold powStr; rw [if_neg h1]
      have := exponent_match (x := (p : Rat)) (by simp) (rest := []) (by intro c t h; cases h)
      rw [List.append_nil] at this
      exact ⟨_, by rw [hps, this], stdExp_ratStr p⟩
  unfold fullComplex
  rw [hb]
  simp only [hint, hdrop, htake, bind, Except.bind]
  rcases hfront with ⟨hf, hk1, hl⟩ | hf <;> rcases hexp with ⟨he, hp0, hp1⟩ | ⟨x, he, hx⟩
  · have := hmk 1 one_ne_zero
    rw [hk1] at this
    rw [hp0] at he
    simp only [hf, he, hp0, hl, pure, Except.pure, this]
    simp [hk1, hp1]
  · have := hmk p hp'
    rw [hk1] at this
    simp only [hf, he, hx, hl, pure, Except.pure, this]
    simp [hk1]
  · rw [hp0] at he
    simp only [hf, he, hp0, pure, Except.pure, hmk 1 one_ne_zero]
    simp [hp1]
  · simp only [hf, he, hx, pure, Except.pure, hmk p hp']
    simp

theorem powCoef_int {c : Rat} (hc : c ≠ 0) (z : Int) : powCoef c z = .ok (c ^ z) := by
  simp [powCoef, hc]

/-- No operand starts or ends with a raising token. -/
theorem nest_ends (w : Nest) (h : w.Ok) :
    w.text ≠ [] ∧ w.text.head? ≠ some '^' ∧ w.text.getLast? ≠ some '^' := by
  have hrl : ∀ x : Rat, (ratStr x).getLast? ≠ some '^' := by
    intro x hx
    have := ratStr_last x '^' hx
    revert this; decide
  have hpl : ∀ x : Rat, (powStr x) ≠ [] → (powStr x).getLast? ≠ some '^' := by
    intro x hx he
    unfold powStr at hx he
    split at hx
    · exact hx rfl
    · next h1 =>
      rw [if_neg h1, List.getLast?_cons] at he
      cases hr : (ratStr x).getLast? with
      | none => exact absurd (List.getLast?_eq_none_iff.1 hr) (ratStr_ne_nil x)
      | some c => rw [hr] at he; simp at he; exact hrl x (by rw [hr, he])
  have hrh : ∀ (x : Rat) (s : List Char), (ratStr x ++ s).head? ≠ some '^' := by
    intro x s hx
    obtain ⟨c, t, h, h'⟩ := ratStr_head x
    rw [h] at hx; simp at hx; subst hx
    rcases h' with h' | h'
    · revert h'; decide
    · revert h'; decide
  have hch : ∀ (x : Rat) (s : List Char), s.head? ≠ some '^' → (coefText x ++ s).head? ≠ some '^' := by
    intro x s hs
    unfold coefText; split
    · simpa using hs
    · exact hrh x s
  have happ : ∀ (a b : List Char), b ≠ [] → b.getLast? ≠ some '^' →
      (a ++ b).getLast? ≠ some '^' := by
    intro a b hb hl
    rw [List.getLast?_append]
    cases hr : b.getLast? with
    | none => exact absurd (List.getLast?_eq_none_iff.1 hr) hb
    | some c => rw [hr] at hl; simpa using hl
  cases w with
  | num c =>
    refine ⟨ratStr_ne_nil c, ?_, hrl c⟩
    have := hrh c []
    rw [List.append_nil] at this
    exact this
  | var c n x =>
    obtain ⟨k, t, hn, hl⟩ := plain_cons h.2.1
    refine ⟨by simp [Nest.text, hn], ?_, ?_⟩
    · apply hch
      rw [hn]; simp
      rintro rfl; revert hl; decide
    · apply happ _ _ (by simp [hn])
      by_cases hp : powStr x = []
      · rw [hp, List.append_nil]
        intro hlast
        exact not_caret_name (plain_chars h.2.1 (List.mem_of_getLast? hlast)) rfl
      · exact happ _ _ hp (hpl x hp)
  | wrap k i p =>
    refine ⟨by simp [Nest.text], ?_, ?_⟩
    · apply hch; simp
    · show (coefText k ++ ('(' :: i.text ++ ')' :: powStr p)).getLast? ≠ some '^'
      apply happ _ _ (by simp)
      apply happ _ _ (by simp)
      by_cases hp : powStr p = []
      · rw [hp]; simp
      · exact happ [')'] _ hp (hpl p hp)

theorem rpow_mul_int (v : Assignment) (n : Name) (x : Rat) (z : Int) :
    v.val n ^ ((x * z : Rat) : ℝ) = (v.val n ^ (x : ℝ)) ^ z := by
  push_cast
  rw [Real.rpow_mul (v.pos n).le, Real.rpow_intCast]

/-- The operand created from a text has the value of the text. -/
theorem createWith_nest : ∀ (w : Nest), w.Ok → ∀ (n : Nat), w.text.length ≤ n →
    ∀ (c0 : Rat) (e0 : Int), c0 ≠ 0 → e0 ≠ 0 →
    ∃ t, createWith (n + 1) c0 w.text e0 = .ok (.term t) ∧ t.coef ≠ 0 ∧ t.exp ≠ 0 ∧ t.base ≠ []
      ∧ ∀ v, termValue v t = (c0 : ℝ) * w.denote v ^ e0 := by
  intro w
  induction w with
  | num c =>
    intro h n _ c0 e0 hc0 he0
    have he : (e0 : Rat) ≠ 0 := by exact_mod_cast he0
    have hne := nest_ends _ h
    refine ⟨⟨c0 * c ^ e0, one, e0⟩, ?_, ?_, he, by simp [one], ?_⟩
    · unfold createWith
      rw [if_neg (by rintro (h | h); exacts [hne.2.1 h, hne.2.2 h])]
      simp only [Nest.text, fullSimplex_num h.1 h.2, bind, Except.bind, powCoef_int h.1, pure, Except.pure]
      have h0 : c0 * c ^ e0 ≠ 0 := mul_ne_zero hc0 (zpow_ne_zero _ h.1)
      simp [mkOperand, orOne, he0, hc0, zpow_ne_zero e0 h.1, one]
    · exact mul_ne_zero hc0 (zpow_ne_zero _ h.1)
    · intro v
      rw [value_const]
      simp [Nest.denote]
  | var c m x =>
    intro h n _ c0 e0 hc0 he0
    have he : (e0 : Rat) ≠ 0 := by exact_mod_cast he0
    have hne := nest_ends _ h
    obtain ⟨hc, hm, hx, hE⟩ := h
    refine ⟨⟨c0 * c ^ e0, m, x * e0⟩, ?_, ?_, mul_ne_zero hx he, plain_ne_nil hm, ?_⟩
    · unfold createWith
      rw [if_neg (by rintro (h | h); exacts [hne.2.1 h, hne.2.2 h])]
      simp only [Nest.text, fullSimplex_var hc hm hx hE, bind, Except.bind, powCoef_int hc, pure,
        Except.pure]
      simp [mkOperand, orOne, he0, hc0, zpow_ne_zero e0 hc, hx, plain_ne_nil hm]
    · exact mul_ne_zero hc0 (zpow_ne_zero _ hc)
    · intro v
      simp only [termValue, Nest.denote]
      rw [rpow_mul_int, mul_zpow]
      push_cast
      ring
  | wrap k i p ih =>
    intro h n hn c0 e0 hc0 he0
    have he : (e0 : Rat) ≠ 0 := by exact_mod_cast he0
    have hne := nest_ends _ h
    have hi := nest_ends i h.2.1
    obtain ⟨⟨hk, hf⟩, hio, hp⟩ := h
    have hp' : (p : Rat) ≠ 0 := by exact_mod_cast hp
    have hlen : i.text.length ≤ n - 1 := by
      simp [Nest.text] at hn; omega
    obtain ⟨n', rfl⟩ : ∃ n', n = n' + 1 := by
      refine ⟨n - 1, ?_⟩
      simp [Nest.text] at hn; omega
    obtain ⟨t, ht, ht1, ht2, htb, ht3⟩ := ih hio n' (by simpa using hlen) 1 1 one_ne_zero one_ne_zero
    have hpe : ((p : Rat) * (e0 : Rat)) = ((p * e0 : Int) : Rat) := by push_cast; rfl
    refine ⟨⟨c0 * k ^ e0 * t.coef ^ (p * e0), t.base, (p * e0 : Int) * t.exp⟩, ?_, ?_, ?_, htb, ?_⟩
    · have hbr : fullSimplex (Nest.wrap k i p).text = .ok none :=
        fullSimplex_bracket (by simp [Nest.text])
      have hcx : fullComplex (Nest.wrap k i p).text = .ok (some ⟨k, i.text, p⟩) :=
        fullComplex_wrap hk hf (nest_balanced i hio) hi.1 hp
      unfold createWith
      rw [if_neg (by rintro (h | h); exacts [hne.2.1 h, hne.2.2 h])]
      simp only [hbr, hcx, bind, Except.bind, powCoef_int hk, pure, Except.pure]
      have ht' : createWith (n' + 1) 1 i.text 1 = .ok (.term t) := by exact_mod_cast ht
      rw [ht']
      simp only [hpe, powCoef_int ht1]
      simp [mkOperand, orOne, he0, hc0, hp, zpow_ne_zero e0 hk, zpow_ne_zero (p * e0) ht1, ht1, ht2, htb]
    · exact mul_ne_zero (mul_ne_zero hc0 (zpow_ne_zero _ hk)) (zpow_ne_zero _ ht1)
    · rw [← hpe]; exact mul_ne_zero (mul_ne_zero hp' he) ht2
    · intro v
      have hv := ht3 v
      simp only [Rat.cast_one, one_mul, zpow_one] at hv
      simp only [termValue, Nest.denote] at hv ⊢
      rw [← hv, mul_comm ((p * e0 : Int) : Rat) t.exp, rpow_mul_int, mul_zpow, mul_zpow, mul_zpow,
        ← zpow_mul, ← zpow_mul]
      push_cast
      ring

end Verif.Terms
