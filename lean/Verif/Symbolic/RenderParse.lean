import Verif.Symbolic.Render
import Verif.Symbolic.Lemmas

/-!
# Helper lemmas for the parser: it reads written expressions correctly
-/

set_option linter.unusedSimpArgs false
set_option linter.unusedSectionVars false

namespace Verif.Symbolic

open Verif.Py

/-! ## Shape of written operands -/

/-- First character: neither white space nor an infix operator. -/
def Starts (s : List Char) : Prop :=
  ∃ c t, s = c :: t ∧ isSpace c = false ∧ c ≠ '*' ∧ c ≠ '/' ∧ (c = 's' → ¬ ['s', 'q', 'r', 't'] <+: s)

/-- The last character is not white space. -/
def Ends (s : List Char) : Prop := ∃ c, s.getLast? = some c ∧ isSpace c = false

theorem prefix_sqrt_append {n rest : List Char}
    (h : ['s', 'q', 'r', 't'] <+: n ++ rest) (hr : ∀ c t, rest = c :: t → isLetter c = false) :
    ['s', 'q', 'r', 't'] <+: n := by
  obtain ⟨u, hu⟩ := h
  rcases List.append_eq_append_iff.1 hu with ⟨a, ha, hb⟩ | ⟨a, ha, hb⟩
  · exact ⟨a, ha.symm⟩
  · cases a with
    | nil => simp at ha; rw [ha]
    | cons y a =>
      have hy : y ∈ ['s', 'q', 'r', 't'] := by rw [ha]; simp
      have := hr y (a ++ u) (by rw [hb]; rfl)
      simp at hy
      rcases hy with rfl | rfl | rfl | rfl <;> exact absurd this (by decide)

theorem ratStr_ends (x : Rat) : Ends (ratStr x) := by
  have hne := ratStr_ne_nil x
  refine ⟨(ratStr x).getLast hne, List.getLast?_eq_getLast_of_ne_nil hne, ?_⟩
  exact not_space_of_digit (ratStr_last x _ (List.getLast?_eq_getLast_of_ne_nil hne))

theorem Ends.append_left {a b : List Char} (h : Ends b) : Ends (a ++ b) := by
  obtain ⟨c, hc, hs⟩ := h
  exact ⟨c, by rw [List.getLast?_append, hc]; rfl, hs⟩

theorem powStr_ends {x : Rat} (h : x ≠ 1) : Ends (powStr x) := by
  unfold powStr
  rw [if_neg h]
  exact (ratStr_ends x).append_left (a := ['^'])

theorem validName_ends {n : Name} (hn : ValidName n) : Ends n := by
  have hne : n ≠ [] := by obtain ⟨c, t, rfl, _⟩ := hn.cons; simp
  refine ⟨n.getLast hne, List.getLast?_eq_getLast_of_ne_nil hne, ?_⟩
  have hmem := List.getLast_mem hne
  obtain ⟨l, d, h1, h2, h3, h4, h5⟩ := hn
  have : isLetter (n.getLast hne) = true ∨ isDigit (n.getLast hne) = true := by
    have hm : n.getLast hne ∈ l ++ d := Eq.subst (motive := fun z => n.getLast hne ∈ z) h1 hmem
    rcases List.mem_append.1 hm with h | h
    · exact Or.inl (h3 _ h)
    · exact Or.inr (h4 _ h)
  rcases this with h | h
  · exact not_space_of_letter h
  · exact not_space_of_digit h

theorem Tree.ends : ∀ (t : Tree), t.Ok → Ends t.render := by
  intro t
  induction t with
  | num c => intro _; exact ratStr_ends c
  | var n x =>
    intro h
    simp only [Tree.render]
    by_cases h1 : x = 1
    · simp [powStr, h1]; exact validName_ends h.1
    · exact (powStr_ends h1).append_left
  | group t x ih =>
    intro h
    simp only [Tree.render]
    by_cases h1 : x = 1
    · simp only [powStr, h1, if_true]
      exact Ends.append_left ⟨')', rfl, by decide⟩
    · have := (powStr_ends h1).append_left (a := '(' :: t.render ++ [')'])
      simpa using this
  | bin o a b iha ihb =>
    intro h
    simp only [Tree.render]
    exact ((ihb h.2.1).append_left).append_left

theorem Sep.str_cons (o : Sep) : ∃ t, o.str = ' ' :: t := by
  cases o <;> exact ⟨_, rfl⟩

theorem ends_append_cont {s rest : List Char} (hs : Ends s) (hr : Cont rest) :
    Ends (s ++ rest) := by
  rcases hr with rfl | ⟨⟨t, ht⟩, hlast⟩
  · simpa using hs
  · apply Ends.append_left
    subst ht
    have hne : (' ' :: t) ≠ [] := by simp
    exact ⟨_, List.getLast?_eq_getLast_of_ne_nil hne,
      hlast _ (List.getLast?_eq_getLast_of_ne_nil hne)⟩

theorem cont_sep (o : Sep) {s rest : List Char} (hs : Ends s) (hr : Cont rest) :
    Cont (o.str ++ (s ++ rest)) := by
  right
  obtain ⟨t, ht⟩ := o.str_cons
  refine ⟨⟨t ++ (s ++ rest), by rw [ht]; rfl⟩, ?_⟩
  obtain ⟨c, hc, hsp⟩ := (ends_append_cont hs hr).append_left (a := o.str)
  intro c' hc'
  rw [hc] at hc'
  injection hc' with hc'
  rw [← hc']; exact hsp

theorem Tree.starts : ∀ (t : Tree), t.Ok → ∀ rest, Cont rest → Starts (t.render ++ rest) := by
  intro t
  induction t with
  | num c =>
    intro _ rest _
    obtain ⟨y, s, hys, hy⟩ := ratStr_head c
    refine ⟨y, s ++ rest, by simp [Tree.render, hys], ?_, ?_, ?_, ?_⟩
    · rcases hy with h | rfl
      · exact not_space_of_digit h
      · decide
    · rcases hy with h | rfl
      · exact ne_of_digit h (by decide)
      · decide
    · rcases hy with h | rfl
      · exact ne_of_digit h (by decide)
      · decide
    · rintro rfl
      rcases hy with h | h
      · exact absurd h (by decide)
      · exact absurd h (by decide)
  | var n x =>
    intro hok rest hr
    obtain ⟨hn, hx⟩ := hok
    obtain ⟨c, t, hct, hc⟩ := hn.cons
    refine ⟨c, t ++ powStr x ++ rest, by simp [Tree.render, hct], not_space_of_letter hc,
      ne_of_letter hc (by decide), ne_of_letter hc (by decide), ?_⟩
    rintro rfl hpre
    obtain ⟨l, d, h1, h2, h3, h4, h5⟩ := hn
    apply h5
    simp only [Tree.render, List.append_assoc] at hpre
    refine prefix_sqrt_append hpre ?_
    intro y u hyu
    rcases powStr_head x rest hr hyu with rfl | rfl <;> decide
  | group t x ih =>
    intro _ rest _
    refine ⟨'(', t.render ++ ')' :: powStr x ++ rest, by simp [Tree.render], by decide,
      by decide, by decide, ?_⟩
    intro h; exact absurd h (by decide)
  | bin o a b iha ihb =>
    intro hok rest hr
    obtain ⟨ha, hb, _⟩ := hok
    have hc : Cont (o.str ++ (b.render ++ rest)) := cont_sep o (b.ends hb) hr
    have := iha ha _ hc
    simpa [Tree.render] using this

/-! ## Operators -/

theorem star_starts {s : List Char} (h : Starts s) : Pat.star isSpace s = [([], s)] := by
  obtain ⟨c, t, rfl, hc, _⟩ := h
  simp [Pat.star, hc]

theorem char_starts {s : List Char} (h : Starts s) {k : Char} (hk : k = '*' ∨ k = '/') :
    Pat.char (· = k) s = [] := by
  obtain ⟨c, t, rfl, hc, h1, h2, _⟩ := h
  rcases hk with rfl | rfl
  · simp [Pat.char, h1]
  · simp [Pat.char, h2]

theorem mem_char_cat {k : Char} {q : Pat (List Char)} {s : List Char} {m}
    (h : m ∈ Pat.cat (Pat.char (· = k)) q s) : ∃ t, s = k :: t ∧ ∃ b, b ∈ q t := by
  obtain ⟨a, ha, b, hb, _⟩ := mem_cat.1 h
  cases s with
  | nil => simp [Pat.char] at ha
  | cons c t =>
    simp only [Pat.char] at ha
    split at ha
    · next hc =>
      simp at hc ha
      subst ha; subst hc
      exact ⟨t, rfl, b, hb⟩
    · simp at ha

theorem sqrtTail_nil {s : List Char} (h : ¬ ['s', 'q', 'r', 't'] <+: s) :
    Pat.cat (Pat.char (· = 's')) (Pat.cat (Pat.char (· = 'q'))
    (Pat.cat (Pat.char (· = 'r')) (Pat.cat (Pat.char (· = 't')) (Pat.star isSpace)))) s = [] := by
  by_contra hne
  obtain ⟨m, hm⟩ := List.exists_mem_of_ne_nil _ hne
  obtain ⟨t1, rfl, b1, h1⟩ := mem_char_cat hm
  obtain ⟨t2, rfl, b2, h2⟩ := mem_char_cat h1
  obtain ⟨t3, rfl, b3, h3⟩ := mem_char_cat h2
  obtain ⟨t4, rfl, b4, h4⟩ := mem_char_cat h3
  exact h ⟨t4, rfl⟩

theorem Starts.not_sqrt {s : List Char} (h : Starts s) : ¬ ['s', 'q', 'r', 't'] <+: s := by
  obtain ⟨c, t, rfl, _, _, _, h⟩ := h
  intro hp
  have : c = 's' := by
    obtain ⟨u, hu⟩ := hp
    injection hu with hu _
    exact hu.symm
  exact h this hp

theorem parseOperator_none {s : List Char} (h : Starts s) : parseOperator s = none := by
  have hi : ∀ k a, (k = '*' ∨ k = '/') → (infixPat k a).match s = none := by
    intro k a hk
    unfold Pat.match infixPat
    have : Pat.cat (Pat.star isSpace) (Pat.cat (Pat.char (· = k)) (Pat.star isSpace)) s = [] := by
      rw [show Pat.cat (Pat.star isSpace) (Pat.cat (Pat.char (· = k)) (Pat.star isSpace)) s
        = (Pat.cat (Pat.char (· = k)) (Pat.star isSpace) s) from by
          rw [Pat.cat, Pat.seq, star_starts h]; simp [Function.comp_def]]
      exact cat_nil_of (char_starts h hk)
    rw [this]; rfl
  unfold parseOperator
  rw [hi '*' '/' (Or.inl rfl), hi '/' '*' (Or.inr rfl)]
  have : sqrtPat.match s = none := by
    unfold Pat.match sqrtPat
    rw [Pat.cat, Pat.seq, star_starts h]
    simp only [List.flatMap_cons, List.flatMap_nil]
    rw [sqrtTail_nil h.not_sqrt]
    rfl
  rw [this]

theorem star_blank {s : List Char} (h : Starts s) :
    Pat.star isSpace (' ' :: s) = [([' '], s), ([], ' ' :: s)] := by
  rw [Pat.star, star_starts h]
  simp [isSpace]

theorem parseOperator_blank {s : List Char} (h : Starts s) : parseOperator (' ' :: s) = none := by
  have hi : ∀ k a, (k = '*' ∨ k = '/') → (infixPat k a).match (' ' :: s) = none := by
    intro k a hk
    unfold Pat.match infixPat
    have : Pat.cat (Pat.star isSpace) (Pat.cat (Pat.char (· = k)) (Pat.star isSpace)) (' ' :: s)
        = [] := by
      rw [Pat.cat, Pat.seq, star_blank h]
      simp only [List.flatMap_cons, List.flatMap_nil]
      rw [cat_nil_of (char_starts h hk), cat_nil_of]
      · rfl
      · rcases hk with rfl | rfl <;> simp [Pat.char]
    rw [this]; rfl
  unfold parseOperator
  rw [hi '*' '/' (Or.inl rfl), hi '/' '*' (Or.inr rfl)]
  have : sqrtPat.match (' ' :: s) = none := by
    unfold Pat.match sqrtPat
    rw [Pat.cat, Pat.seq, star_blank h]
    simp only [List.flatMap_cons, List.flatMap_nil]
    rw [sqrtTail_nil h.not_sqrt, sqrtTail_nil]
    · rfl
    · rintro ⟨u, hu⟩; injection hu with hu _; exact absurd hu (by decide)
  rw [this]

theorem infix_head {k a : Char} {s : List Char} (h : Starts s) (hk : isSpace k = false)
    (ha : s.head? ≠ some a) :
    (infixPat k a).match (' ' :: k :: ' ' :: s) = some ([' ', k, ' '], s) := by
  have hstar : Pat.star isSpace (' ' :: k :: ' ' :: s)
      = [([' '], k :: ' ' :: s), ([], ' ' :: k :: ' ' :: s)] := by
    rw [Pat.star, Pat.star, hk]
    simp [isSpace]
  have h1 : Pat.cat (Pat.char (· = k)) (Pat.star isSpace) (k :: ' ' :: s)
      = [([k, ' '], s), ([k], ' ' :: s)] := by
    rw [Pat.cat, Pat.seq]
    simp [Pat.char, star_blank h]
  unfold Pat.match infixPat
  rw [Pat.cat, Pat.seq, hstar]
  simp only [List.flatMap_cons, h1]
  simp [List.filter_cons, ha]

theorem infix_nil {k k' a : Char} {s : List Char} (hk : isSpace k = false) (hne : k ≠ k')
    (hk' : k' ≠ ' ') : (infixPat k' a).match (' ' :: k :: s) = none := by
  have hstar : Pat.star isSpace (' ' :: k :: s) = [([' '], k :: s), ([], ' ' :: k :: s)] := by
    rw [Pat.star, Pat.star, hk]
    simp [isSpace]
  unfold Pat.match infixPat
  rw [Pat.cat, Pat.seq, hstar]
  simp only [List.flatMap_cons, List.flatMap_nil]
  rw [cat_nil_of (by simp [Pat.char, hne]), cat_nil_of (by simp [Pat.char, hk'.symm])]
  rfl

/-- The operator that a separator stands for. -/
def Sep.op : Sep → Option Op
  | .star => some .multiply
  | .slash => some .divide
  | .blank => none

theorem Starts.head_ne {s : List Char} (h : Starts s) {k : Char} (hk : k = '*' ∨ k = '/') :
    s.head? ≠ some k := by
  obtain ⟨c, t, rfl, _, h1, h2, _⟩ := h
  rcases hk with rfl | rfl
  · simpa using h1
  · simpa using h2

theorem parseOperator_star {s : List Char} (h : Starts s) :
    parseOperator (' ' :: '*' :: ' ' :: s) = some (.multiply, s) := by
  unfold parseOperator
  rw [infix_head h (by decide) (h.head_ne (Or.inr rfl))]

theorem parseOperator_slash {s : List Char} (h : Starts s) :
    parseOperator (' ' :: '/' :: ' ' :: s) = some (.divide, s) := by
  unfold parseOperator
  rw [infix_nil (by decide) (by decide) (by decide),
    infix_head h (by decide) (h.head_ne (Or.inl rfl))]

/-! ## White space -/

theorem strip_eq {s : List Char} (h1 : Starts s) (h2 : Ends s) : strip s = s := by
  unfold strip
  obtain ⟨c, t, hs, hc, _⟩ := h1
  have e1 : s.dropWhile isSpace = s := by rw [hs, List.dropWhile_cons]; simp [hc]
  rw [e1]
  obtain ⟨d, hd, hsp⟩ := h2
  have e2 : s.reverse.dropWhile isSpace = s.reverse := by
    have : s.reverse.head? = some d := by rw [List.head?_reverse]; exact hd
    cases hr : s.reverse with
    | nil => rfl
    | cons y u =>
      rw [hr] at this; simp at this; subst this
      rw [List.dropWhile_cons]; simp [hsp]
  rw [e2, List.reverse_reverse]

theorem strip_blank {s : List Char} (h1 : Starts s) (h2 : Ends s) : strip (' ' :: s) = s := by
  have : strip (' ' :: s) = strip s := by
    unfold strip
    rw [List.dropWhile_cons]
    simp [isSpace]
  rw [this, strip_eq h1 h2]

/-! ## Operands with their powers -/

/-- An integral power, or a power of one. -/
def ratPow (c q : Rat) : Rat := if c = 1 then 1 else c ^ q.num

theorem ratPow_ne_zero {c q : Rat} (hc : c ≠ 0) : ratPow c q ≠ 0 := by
  unfold ratPow; split
  · exact one_ne_zero
  · exact zpow_ne_zero _ hc

theorem powCoef_eq {c q : Rat} (hc : c ≠ 0) (h : c = 1 ∨ q.den = 1) :
    powCoef c q = .ok (ratPow c q) := by
  unfold powCoef ratPow
  by_cases hq : q.den = 1
  · simp only [hq, if_true, hc, false_and, if_false]
    split
    · next h1 => subst h1; simp
    · rfl
  · have h1 : c = 1 := by tauto
    simp [hq, h1]

theorem neg_den (q : Rat) : (-q).den = q.den := Rat.neg_den q

theorem powCoef_neg {c q : Rat} (hc : c ≠ 0) :
    powCoef (ratPow c q) (-1) = .ok (ratPow c (-q)) := by
  have h0 := ratPow_ne_zero (q := q) hc
  rw [powCoef_eq h0 (Or.inr rfl)]
  congr 1
  unfold ratPow
  by_cases h1 : c = 1
  · simp [h1]
  · simp only [h1, if_false]
    have : ((-1 : Rat)).num = -1 := rfl
    rw [this, Rat.neg_num]
    split
    · next h => rw [zpow_neg, h]; simp
    · rw [← zpow_mul]; congr 1; ring

/-- Exact power of an operand. -/
theorem operand_pow {c e p c' : Rat} {b : Name} (h : powCoef c p = .ok c') (hc : c' ≠ 0)
    (he : e * p ≠ 0) (hb : b ≠ []) :
    Operand.pow ⟨c, b, e⟩ p = .ok ⟨c', b, e * p⟩ := by
  unfold Operand.pow
  simp [h, bind, Except.bind, pure, Except.pure, mkOperand, orOne, hc, he, hb]

/-- The operand for a number, a variable or a group that enters with power `q`. -/
def atomPart : Tree → Rat → Part
  | .num c, q => .term ⟨ratPow c q, one, q⟩
  | .var n x, q => .term ⟨1, n, x * q⟩
  | .group t x, q => .group ⟨1, t.render, x * q⟩
  | .bin _ _ _, q => .term ⟨1, one, q⟩

/-- All operands of the outermost level. -/
def partsOf : Tree → Rat → List Part
  | .bin o a b, q => partsOf a q ++ partsOf b (o.sign q)
  | t, q => [atomPart t q]

/-- The terms that parsing results in, in order. -/
def termsOf : Tree → Rat → List Term
  | .num c, q => [⟨ratPow c q, one, q⟩]
  | .var n x, q => [⟨1, n, x * q⟩]
  | .group t x, q => termsOf t (x * q) ++ [⟨1, one, 1⟩]
  | .bin o a b, q => termsOf a q ++ termsOf b (o.sign q)

theorem Tree.render_ne_nil {t : Tree} (h : t.Ok) : t.render ≠ [] := by
  obtain ⟨c, u, hs, _⟩ := t.starts h [] (Or.inl rfl)
  intro h0
  rw [h0] at hs; simp at hs

theorem ValidName.ne_nil {n : Name} (h : ValidName n) : n ≠ [] := by
  obtain ⟨c, t, rfl, _⟩ := h.cons; simp

theorem powCoef_one_base (q : Rat) : powCoef 1 q = .ok 1 := by
  rw [powCoef_eq one_ne_zero (Or.inl rfl)]; simp [ratPow]

theorem Tree.balanced : ∀ t : Tree, t.Ok → Balanced t.render := by
  have hnum : ∀ x c, c ∈ ratStr x → c ≠ '(' ∧ c ≠ ')' := by
    intro x c hc
    rcases ratStr_chars hc with h | h | h
    · exact ⟨ne_of_digit h (by decide), ne_of_digit h (by decide)⟩
    · subst h; decide
    · subst h; decide
  have hpow : ∀ x c, c ∈ powStr x → c ≠ '(' ∧ c ≠ ')' := by
    intro x c hc
    unfold powStr at hc
    split at hc
    · cases hc
    · rcases List.mem_cons.1 hc with rfl | hc
      · decide
      · exact hnum x c hc
  intro t
  induction t with
  | num c => intro _; exact balanced_of_no_brackets (hnum c)
  | var n x =>
    intro h
    apply balanced_of_no_brackets
    intro c hc
    rcases List.mem_append.1 hc with hc | hc
    · obtain ⟨l, d, h1, h2, h3, h4, h5⟩ := h.1
      rw [h1] at hc
      rcases List.mem_append.1 hc with hc | hc
      · exact ⟨ne_of_letter (h3 c hc) (by decide), ne_of_letter (h3 c hc) (by decide)⟩
      · exact ⟨ne_of_digit (h4 c hc) (by decide), ne_of_digit (h4 c hc) (by decide)⟩
    · exact hpow x c hc
  | group t x ih =>
    intro h
    have := (ih h.1).bracket.append (balanced_of_no_brackets (hpow x))
    simpa [Tree.render] using this
  | bin o a b iha ihb =>
    intro h
    have ho : Balanced o.str := by
      apply balanced_of_no_brackets
      intro c hc
      have : c = ' ' ∨ c = '*' ∨ c = '/' := by cases o <;> simp [Sep.str] at hc <;> tauto
      rcases this with rfl | rfl | rfl <;> decide
    exact (iha h.1).append (ho.append (ihb h.2.1))

/-- The operand found at the start of a written operand. -/
theorem parseOperand_atom {b : Tree} (hb : b.IsAtom) (hok : b.Ok) {rest : List Char}
    (hr : Cont rest) (s : List Char) (hs : strip s = b.render ++ rest) :
    parseOperand s = .ok (some (atomPart b 1, rest)) := by
  unfold parseOperand
  simp only [hs]
  cases b with
  | num c =>
    simp only [Tree.render]
    rw [matchSimplex_num hok hr]
    simp [bind, Except.bind, pure, Except.pure, atomPart, ratPow]
  | var n x =>
    simp only [Tree.render]
    rw [matchSimplex_var hok.1 hok.2 hr]
    simp [bind, Except.bind, pure, Except.pure, atomPart]
  | group t x =>
    simp only [Tree.render]
    have h1 := matchSimplex_open (t.render ++ ')' :: powStr x ++ rest)
    have h2 := matchComplex_group (t.balanced hok.1) (Tree.render_ne_nil hok.1) hok.2 hr
    simp only [List.cons_append, List.append_assoc] at h1 h2 ⊢
    rw [h1]
    simp only [bind, Except.bind]
    rw [h2]
    simp [pure, Except.pure, atomPart]
  | bin o a b => exact absurd hb (by simp [Tree.IsAtom])

theorem atomPart_pow {b : Tree} (hb : b.IsAtom) (hok : b.Ok) {q : Rat} (hq : q ≠ 0)
    (he : b.Exact q) : (atomPart b 1).pow q = .ok (atomPart b q) := by
  cases b with
  | num c =>
    simp only [atomPart, Part.pow]
    have h1 : ratPow c 1 = c := by simp [ratPow]; intro h; exact h.symm
    rw [h1, operand_pow (powCoef_eq hok.1.1 he) (ratPow_ne_zero hok.1.1) (by simpa using hq)
      (by simp [one])]
    simp [bind, Except.bind, pure, Except.pure]
  | var n x =>
    simp only [atomPart, Part.pow, mul_one]
    rw [operand_pow (powCoef_one_base q) one_ne_zero (mul_ne_zero hok.2.1 hq) hok.1.ne_nil]
    simp [bind, Except.bind, pure, Except.pure]
  | group t x =>
    simp only [atomPart, Part.pow, mul_one]
    rw [operand_pow (powCoef_one_base q) one_ne_zero (mul_ne_zero hok.2.1 hq)
      (Tree.render_ne_nil hok.1)]
    simp [bind, Except.bind, pure, Except.pure]
  | bin o a b => exact absurd hb (by simp [Tree.IsAtom])

theorem atomPart_inv {b : Tree} (hb : b.IsAtom) (hok : b.Ok) {q : Rat} (hq : q ≠ 0) :
    (atomPart b q).pow (-1) = .ok (atomPart b (-q)) := by
  have hm : ∀ x : Rat, x ≠ 0 → x * q * (-1) ≠ 0 := fun x hx =>
    mul_ne_zero (mul_ne_zero hx hq) (by norm_num)
  cases b with
  | num c =>
    simp only [atomPart, Part.pow]
    rw [operand_pow (powCoef_neg hok.1.1) (ratPow_ne_zero hok.1.1) (by simpa using hq)
      (by simp [one])]
    simp [bind, Except.bind, pure, Except.pure]
  | var n x =>
    simp only [atomPart, Part.pow]
    rw [operand_pow (powCoef_one_base (-1)) one_ne_zero (hm x hok.2.1) hok.1.ne_nil]
    simp [bind, Except.bind, pure, Except.pure]
  | group t x =>
    simp only [atomPart, Part.pow]
    rw [operand_pow (powCoef_one_base (-1)) one_ne_zero (hm x hok.2.1)
      (Tree.render_ne_nil hok.1)]
    simp [bind, Except.bind, pure, Except.pure]
  | bin o a b => exact absurd hb (by simp [Tree.IsAtom])

/-! ## The loop -/

/-- The loop with enough fuel, without looking back. -/
def loop (p : Rat) (s : List Char) : Res (List Part) := parseLoop false p s.length none s

theorem parseStep_prev (p : Rat) (prev : Option Op) (s : List Char) :
    parseStep false p prev s = parseStep false p none s := by
  unfold parseStep getOperator
  cases parseOperator s with
  | none => rfl
  | some r => obtain ⟨o, rest⟩ := r; rfl

theorem parseLoop_prev (p : Rat) (n : Nat) (prev : Option Op) (s : List Char) :
    parseLoop false p n prev s = parseLoop false p n none s := by
  cases n with
  | zero => cases s <;> rfl
  | succ n =>
    cases s with
    | nil => rfl
    | cons c s => simp only [parseLoop]; rw [parseStep_prev]

theorem loop_step {p : Rat} {s : List Char} {new : Part} {op : Option Op} {rest : List Char}
    {ps : List Part} (hne : s ≠ []) (h : parseStep false p none s = .ok (new, op, rest))
    (hrest : loop p rest = .ok ps) : loop p s = .ok (new :: ps) := by
  unfold loop at *
  have hl := (parseStep_length h).1
  obtain ⟨c, t, rfl⟩ := List.exists_cons_of_ne_nil hne
  simp only [List.length_cons, parseLoop, h, bind, Except.bind]
  rw [parseLoop_prev, parseLoop_fuel false p t.length rest.length none rest
    (by simp at hl; omega) (le_refl _), hrest]
  rfl

theorem step_first {b : Tree} (hb : b.IsAtom) (hok : b.Ok) {p : Rat} (hp : p ≠ 0)
    (he : b.Exact p) {rest : List Char} (hr : Cont rest) :
    parseStep false p none (b.render ++ rest) = .ok (atomPart b p, none, rest) := by
  have hst := b.starts hok rest hr
  have hen := ends_append_cont (b.ends hok) hr
  unfold parseStep getOperator
  rw [parseOperator_none hst]
  simp only [bind, Except.bind, getOperand]
  rw [parseOperand_atom hb hok hr _ (strip_eq hst hen)]
  simp [atomPart_pow hb hok hp he, computeOperand, pure, Except.pure]

theorem step_sep {b : Tree} (hb : b.IsAtom) (hok : b.Ok) {p : Rat} (hp : p ≠ 0) (o : Sep)
    (he : b.Exact (o.sign p)) {rest : List Char} (hr : Cont rest) :
    parseStep false p none (o.str ++ (b.render ++ rest))
      = .ok (atomPart b (o.sign p), o.op, rest) := by
  have hst := b.starts hok rest hr
  have hen := ends_append_cont (b.ends hok) hr
  unfold parseStep getOperator
  have hex : b.Exact p := by
    cases o with
    | star => exact he
    | blank => exact he
    | slash =>
      have key : ∀ t : Tree, ∀ q, t.Exact (-q) → t.Exact q := by
        intro t
        induction t with
        | num c => intro q h; simpa [Tree.Exact] using h
        | var n x => intro q h; trivial
        | group t x ih => intro q h; simp only [Tree.Exact] at *; apply ih; simpa using h
        | bin o a b iha ihb =>
          intro q h
          simp only [Tree.Exact] at *
          refine ⟨iha q h.1, ihb _ ?_⟩
          have := h.2
          cases o <;> simpa [Sep.sign] using this
      exact key b p he
  cases o with
  | star =>
    simp only [Sep.str, List.cons_append, List.nil_append]
    rw [parseOperator_star hst]
    simp only [bind, Except.bind, getOperand, operatorError]
    simp only [Bool.not_false, if_true]
    rw [parseOperand_atom hb hok hr _ (strip_eq hst hen)]
    simp [atomPart_pow hb hok hp hex, computeOperand, evaluate, pure, Except.pure, Sep.sign, Sep.op]
  | slash =>
    simp only [Sep.str, List.cons_append, List.nil_append]
    rw [parseOperator_slash hst]
    simp only [bind, Except.bind, getOperand, operatorError]
    simp only [Bool.not_false, if_true]
    rw [parseOperand_atom hb hok hr _ (strip_eq hst hen)]
    simp [atomPart_pow hb hok hp hex, atomPart_inv hb hok hp, computeOperand, evaluate, pure,
      Except.pure, Sep.sign, Sep.op]
  | blank =>
    simp only [Sep.str, List.cons_append, List.nil_append]
    rw [parseOperator_blank hst]
    simp only [bind, Except.bind, getOperand]
    rw [parseOperand_atom hb hok hr _ (strip_blank hst hen)]
    simp [atomPart_pow hb hok hp hex, computeOperand, pure, Except.pure, Sep.sign, Sep.op]

theorem partsOf_atom {b : Tree} (hb : b.IsAtom) (q : Rat) : partsOf b q = [atomPart b q] := by
  cases b with
  | bin o a b => exact absurd hb (by simp [Tree.IsAtom])
  | _ => rfl

theorem loop_render : ∀ (t : Tree) (p : Rat), t.Ok → p ≠ 0 → t.Exact p → ∀ rest ps, Cont rest →
    loop p rest = .ok ps → loop p (t.render ++ rest) = .ok (partsOf t p ++ ps) := by
  have hatom : ∀ (t : Tree), t.IsAtom → ∀ (p : Rat), t.Ok → p ≠ 0 → t.Exact p → ∀ rest ps,
      Cont rest → loop p rest = .ok ps → loop p (t.render ++ rest) = .ok (partsOf t p ++ ps) := by
    intro t ht p hok hp he rest ps hr hl
    rw [partsOf_atom ht]
    refine loop_step ?_ (step_first ht hok hp he hr) hl
    intro h
    exact Tree.render_ne_nil hok (List.append_eq_nil_iff.1 h).1
  intro t
  induction t with
  | num c => exact hatom _ trivial
  | var n x => exact hatom _ trivial
  | group t x _ => exact hatom _ trivial
  | bin o a b iha ihb =>
    intro p hok hp he rest ps hr hl
    obtain ⟨ha, hb, hat⟩ := hok
    have hc : Cont (o.str ++ (b.render ++ rest)) := cont_sep o (b.ends hb) hr
    have h1 : loop p (o.str ++ (b.render ++ rest)) = .ok (partsOf b (o.sign p) ++ ps) := by
      rw [partsOf_atom hat]
      refine loop_step ?_ (step_sep hat hb hp o he.2 hr) hl
      obtain ⟨t, ht⟩ := o.str_cons
      rw [ht]; simp
    have := iha p ha hp he.1 _ _ hc h1
    simpa [Tree.render, partsOf] using this

/-! ## The recursion -/

theorem mapM_append_ok {α β : Type} (f : α → Res β) (xs ys : List α) (us vs : List β)
    (h1 : xs.mapM f = .ok us) (h2 : ys.mapM f = .ok vs) : (xs ++ ys).mapM f = .ok (us ++ vs) := by
  induction xs generalizing us with
  | nil => simp [pure, Except.pure] at h1; subst h1; simpa using h2
  | cons x xs ih =>
    rw [List.cons_append, List.mapM_cons]
    rw [List.mapM_cons] at h1
    obtain ⟨a, ha, h1⟩ := bind_ok_iff.1 h1
    obtain ⟨as, has, h1⟩ := bind_ok_iff.1 h1
    rw [pure_ok] at h1; subst h1
    rw [ha, ih as has]
    rfl

theorem resolve_parts : ∀ (t : Tree) (q : Rat) (n : Nat), t.Ok → q ≠ 0 → t.Exact q →
    t.render.length ≤ n →
    ∃ ls, (partsOf t q).mapM (Part.resolveWith (resolve false n)) = .ok ls
      ∧ ls.flatten = termsOf t q := by
  intro t
  induction t with
  | num c =>
    intro q n _ _ _ _
    exact ⟨[[⟨ratPow c q, one, q⟩]], by simp [partsOf, atomPart, Part.resolveWith, bind,
      Except.bind, pure, Except.pure], by simp [termsOf]⟩
  | var m x =>
    intro q n _ _ _ _
    exact ⟨[[⟨1, m, x * q⟩]], by simp [partsOf, atomPart, Part.resolveWith, bind, Except.bind,
      pure, Except.pure], by simp [termsOf]⟩
  | group t x ih =>
    intro q n hok hq he hn
    obtain ⟨hok, hx⟩ := hok
    have hxq : x * q ≠ 0 := mul_ne_zero hx.1 hq
    have hlen : t.render.length + 2 ≤ n := by
      simp [Tree.render] at hn; omega
    cases n with
    | zero => omega
    | succ n =>
      obtain ⟨ls, h1, h2⟩ := ih (x * q) n hok hxq he (by omega)
      have hl := loop_render t (x * q) hok hxq he [] [] (Or.inl rfl) rfl
      unfold loop at hl
      simp only [List.append_nil] at hl
      refine ⟨[termsOf t (x * q) ++ [⟨1, one, 1⟩]], ?_, by simp [termsOf]⟩
      simp only [partsOf, atomPart, List.mapM_cons, List.mapM_nil, Part.resolveWith, resolve]
      rw [hl]
      simp only [bind, Except.bind]
      rw [h1]
      simp [pure, Except.pure, h2, mkOperand, orOne, one]
  | bin o a b iha ihb =>
    intro q n hok hq he hn
    obtain ⟨ha, hb, _⟩ := hok
    have hsq : o.sign q ≠ 0 := by cases o <;> simpa [Sep.sign] using hq
    have hn' : a.render.length + b.render.length ≤ n := by
      simp [Tree.render] at hn; omega
    obtain ⟨l1, e1, e2⟩ := iha q n ha hq he.1 (by omega)
    obtain ⟨l2, e3, e4⟩ := ihb (o.sign q) n hb hsq he.2 (by omega)
    exact ⟨l1 ++ l2, mapM_append_ok _ _ _ _ _ e1 e3, by simp [e2, e4, termsOf]⟩

/-- Parsing a written expression. -/
theorem parse_render (t : Tree) (hok : t.Ok) (he : t.Exact 1) :
    parse false t.render = .ok (termsOf t 1 ++ [⟨1, one, 1⟩]) := by
  have hne := Tree.render_ne_nil hok
  unfold parse
  have hmk : mkOperand 1 t.render 1 = ⟨1, t.render, 1⟩ := by simp [mkOperand, orOne, hne]
  rw [hmk]
  obtain ⟨ls, h1, h2⟩ := resolve_parts t 1 (t.render.length + 1) hok one_ne_zero he (by omega)
  have hl := loop_render t 1 hok one_ne_zero he [] [] (Or.inl rfl) rfl
  unfold loop at hl
  simp only [List.append_nil] at hl
  rw [resolve]
  simp only [hl, bind, Except.bind, h1]
  simp [pure, Except.pure, h2, mkOperand, orOne, one]

end Verif.Symbolic
