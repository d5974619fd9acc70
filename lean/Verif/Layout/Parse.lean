import Verif.Layout.Operands

/-!
# Helper lemmas: the parser reads expressions as written
-/

set_option linter.unusedSimpArgs false

namespace Verif.Layout

open Verif.Py Verif.Symbolic Verif.Terms

/-! ## Shape of written operands -/

theorem starts_of {c : Char} {t : List Char} (h : isDigit c = true ∨ c = '-' ∨ c = '.' ∨ c = '(') :
    Starts (c :: t) := by
  refine ⟨c, t, rfl, ?_, ?_, ?_, ?_⟩
  · rcases h with h | rfl | rfl | rfl
    · exact not_space_of_digit h
    all_goals decide
  · rcases h with h | rfl | rfl | rfl
    · exact ne_of_digit h (by decide)
    all_goals decide
  · rcases h with h | rfl | rfl | rfl
    · exact ne_of_digit h (by decide)
    all_goals decide
  · rintro rfl
    rcases h with h | h | h | h <;> exact absurd h (by decide)

theorem coefText_cons {k : Rat} (h : k ≠ 1) :
    ∃ c t, coefText k = c :: t ∧ (isDigit c = true ∨ c = '-') := by
  obtain ⟨c, s, hcs, hc⟩ := ratStr_head k
  exact ⟨c, s, by simp [coefText, h, hcs], hc⟩

/-- An operand with what follows: it starts neither with white space nor with an operator. -/
theorem atom_starts {b : Lay} (hb : b.IsAtom) (hok : b.Ok) {rest : List Char}
    (hr : Follows b rest) : Starts (b.render ++ rest) := by
  cases b with
  | num n x =>
    obtain ⟨c, t, h1, h2⟩ := lit_first hok.1
    simp only [Lay.render, h1]
    exact starts_of (by tauto)
  | var k n x =>
    simp only [Lay.render]
    by_cases hk : k = 1
    · subst hk
      obtain ⟨_, hn, hx, _⟩ := hok
      obtain ⟨c, t, hct, hc⟩ := hn.cons
      have hst : Stop rest := by
        rcases hr with ⟨h, _⟩ | ⟨h, _⟩
        · exact absurd h (by simp [Lay.EndsGroup])
        · exact h
      refine ⟨c, t ++ powStr x ++ rest, by simp [coefText, hct], not_space_of_letter hc,
        ne_of_letter hc (by decide), ne_of_letter hc (by decide), ?_⟩
      rintro rfl hpre
      obtain ⟨l, d, h1, h2, h3, h4, h5⟩ := hn
      apply h5
      simp only [coefText, if_true, List.nil_append, List.append_assoc] at hpre
      exact prefix_sqrt_append hpre (fun y u hyu => (powStr_stop hst hyu).facts.1)
    · obtain ⟨c, t, h1, h2⟩ := coefText_cons hk
      rw [h1]
      exact starts_of (by tauto)
  | group l t r x => exact starts_of (by simp)
  | root r b => exact absurd hb (by simp [Lay.IsAtom])
  | bin o l r a b => exact absurd hb (by simp [Lay.IsAtom])

theorem lit_ends {n : Lit} (hn : n.Ok) : Ends n.text := by
  cases n with
  | frac x => exact ratStr_ends x
  | dec neg i f e =>
    obtain ⟨h1, h2, h3, h4, _⟩ := hn
    have hd : ∀ s : List Char, s ≠ [] → Digits s → Ends s := by
      intro s hne hs
      exact ⟨s.getLast hne, List.getLast?_eq_some_getLast hne,
        not_space_of_digit (hs _ (List.getLast_mem hne))⟩
    simp only [Lit.text]
    apply Ends.append_left
    cases e with
    | some p =>
      obtain ⟨big, d⟩ := p
      obtain ⟨hne, hdd⟩ := h4 big d rfl
      exact Ends.append_left (Ends.append_left ((hd d hne hdd).append_left (a := [_])))
    | none =>
      simp only [expText, List.append_nil]
      cases f with
      | none =>
        simp only [fracText, List.append_nil]
        rcases h3 with h | ⟨d, h, _⟩
        · exact hd i h h1
        · cases h
      | some d =>
        apply Ends.append_left
        simp only [fracText]
        by_cases h0 : d = []
        · subst h0; exact ⟨'.', rfl, by decide⟩
        · exact (hd d h0 (h2 d rfl)).append_left (a := ['.'])

theorem ends_pow {s : List Char} (hs : Ends s) (x : Rat) : Ends (s ++ powStr x) := by
  by_cases h1 : x = 1
  · simpa [powStr, h1] using hs
  · exact (powStr_ends h1).append_left

theorem Lay.ends : ∀ (t : Lay), t.Ok → Ends t.render := by
  intro t
  induction t with
  | num n x => intro h; exact ends_pow (lit_ends h.1) x
  | var k n x =>
    intro h
    exact (ends_pow (validName_ends h.2.1) x).append_left
  | group l t r x ih =>
    intro h
    have := ends_pow (s := '(' :: (l ++ (t.render ++ (r ++ [')']))))
      (by
        have : '(' :: (l ++ (t.render ++ (r ++ [')']))) = ('(' :: (l ++ (t.render ++ r))) ++ [')'] := by
          simp
        rw [this]
        exact Ends.append_left ⟨')', rfl, by decide⟩) x
    simpa [Lay.render] using this
  | root r b ih => intro h; exact (ih h.2.1).append_left.append_left
  | bin o l r a b iha ihb =>
    intro h
    exact (ihb h.2.2.2.1).append_left.append_left.append_left.append_left

theorem Lay.render_ne {t : Lay} (h : t.Ok) : t.render ≠ [] := by
  obtain ⟨c, hc, _⟩ := t.ends h
  intro h0
  rw [h0] at hc; cases hc

theorem ends_tail {s rest : List Char} (hs : Ends s) (hr : Tail rest) : Ends (s ++ rest) := by
  by_cases h0 : rest = []
  · subst h0; simpa using hs
  · have := List.getLast?_eq_some_getLast h0
    exact Ends.append_left ⟨_, this, hr _ this⟩

theorem Ends.tail {s : List Char} (h : Ends s) : Tail s := by
  obtain ⟨c, h1, h2⟩ := h
  intro c' h'
  rw [h1] at h'; injection h' with h'
  rw [← h']; exact h2

/-! ## White space -/

theorem strip_around {z1 s z2 : List Char} (h1 : Blank z1) (hs : Starts s) (he : Ends s)
    (h2 : Blank z2) : strip (z1 ++ (s ++ z2)) = s := by
  unfold strip
  rw [List.dropWhile_append_of_pos h1]
  obtain ⟨c, t, hst, hc, _⟩ := hs
  have e1 : (s ++ z2).dropWhile isSpace = s ++ z2 := by
    rw [hst, List.cons_append, List.dropWhile_cons]; simp [hc]
  rw [e1, List.reverse_append, List.dropWhile_append_of_pos (by
    intro x hx; exact h2 x (by simpa using hx))]
  obtain ⟨d, hd, hsp⟩ := he
  have e2 : s.reverse.dropWhile isSpace = s.reverse := by
    have : s.reverse.head? = some d := by rw [List.head?_reverse]; exact hd
    cases hr : s.reverse with
    | nil => rfl
    | cons y u =>
      rw [hr] at this; simp at this; subst this
      rw [List.dropWhile_cons]; simp [hsp]
  rw [e2, List.reverse_reverse]

theorem star_blanks {l s : List Char} (hl : Blank l) (hs : ∀ c t, s = c :: t → isSpace c = false) :
    (Pat.star isSpace (l ++ s)).head? = some (l, s) := by
  rw [star_head, List.takeWhile_append_of_pos hl, List.dropWhile_append_of_pos hl]
  cases s with
  | nil => simp
  | cons c t => simp [List.takeWhile_cons, List.dropWhile_cons, hs c t rfl]

/-- After white space, nothing but the first other character can match. -/
theorem blanks_nil {l s : List Char} (hl : Blank l) {k : Char} (hk : isSpace k = false)
    {q : Pat (List Char)} (hs0 : ∀ c t, s = c :: t → isSpace c = false)
    (hs : ∀ t, s = k :: t → q t = []) :
    Pat.cat (Pat.star isSpace) (Pat.cat (Pat.char (· = k)) q) (l ++ s) = [] := by
  by_contra hne
  obtain ⟨m, hm⟩ := List.exists_mem_of_ne_nil _ hne
  obtain ⟨a, ha, b, hb, _⟩ := mem_cat.1 hm
  obtain ⟨t, ht, c, hc⟩ := mem_char_cat hb
  obtain ⟨h1, h2⟩ := sound_star (f := fun c => isSpace c = true) (fun _ h => h) _ a ha
  rw [ht] at h1
  rcases List.append_eq_append_iff.1 h1 with ⟨u, hu, hv⟩ | ⟨u, hu, hv⟩
  · -- the blanks reach beyond `l`
    rcases u with _ | ⟨y, u⟩
    · simp at hv; have := hs t hv; rw [this] at hc; cases hc
    · exfalso
      have g1 := hs0 y (u ++ k :: t) (by rw [hv]; rfl)
      have g2 : isSpace y = true := h2 y (by rw [hu]; simp)
      rw [g1] at g2; cases g2
  · rcases u with _ | ⟨y, u⟩
    · simp at hv; have := hs t hv.symm; rw [this] at hc; cases hc
    · simp at hv
      have := hl y (by rw [hu]; simp)
      rw [← hv.1, hk] at this; cases this

/-! ## Operators -/

def Link.op : Link → Option Op
  | .star => some .multiply
  | .slash => some .divide
  | .next => none
  | .root => some .sqrt

theorem starts_space {s : List Char} (h : Starts s) : ∀ c t, s = c :: t → isSpace c = false := by
  obtain ⟨c, t, rfl, hc, _⟩ := h
  intro c' t' h'
  injection h' with h' _
  rw [← h']; exact hc

theorem infix_none {l s : List Char} (hl : Blank l) {k a : Char} (hk : isSpace k = false)
    (hs0 : ∀ c t, s = c :: t → isSpace c = false) (hs : ∀ t, s ≠ k :: t) :
    (infixPat k a).match (l ++ s) = none := by
  unfold Pat.match infixPat
  rw [blanks_nil hl hk hs0 (fun t h => absurd h (hs t))]
  rfl

theorem infix_some {l r s : List Char} (hl : Blank l) (hr : Blank r) {k a : Char}
    (hk : isSpace k = false) (hs : ∀ c t, s = c :: t → isSpace c = false) (ha : s.head? ≠ some a) :
    ∃ m, (infixPat k a).match (l ++ (k :: (r ++ s))) = some (m, s) := by
  have h1 := star_blanks hl (s := k :: (r ++ s)) (by
    intro c t h; injection h with h _; rw [← h]; exact hk)
  have h2 := head_cat (p := Pat.char (· = k)) (q := Pat.star isSpace) (s := k :: (r ++ s))
    (a := ([k], r ++ s)) (by simp [Pat.char]) (star_blanks hr hs)
  have h3 := head_cat h1 h2
  refine ⟨l ++ ([k] ++ r), ?_⟩
  unfold Pat.match infixPat
  generalize Pat.cat (Pat.star isSpace) (Pat.cat (Pat.char fun x => decide (x = k))
    (Pat.star isSpace)) (l ++ (k :: (r ++ s))) = z at h3
  cases z with
  | nil => simp at h3
  | cons y z =>
    simp at h3
    subst h3
    simp [List.filter_cons, ha]

theorem sqrt_none {l s : List Char} (hl : Blank l) (h : Starts s) : sqrtPat.match (l ++ s) = none := by
  unfold Pat.match sqrtPat
  rw [blanks_nil hl (by decide) (starts_space h)]
  · rfl
  · intro t ht
    by_contra hne
    obtain ⟨m, hm⟩ := List.exists_mem_of_ne_nil _ hne
    obtain ⟨t2, rfl, b2, h2⟩ := mem_char_cat hm
    obtain ⟨t3, rfl, b3, h3⟩ := mem_char_cat h2
    obtain ⟨t4, rfl, b4, h4⟩ := mem_char_cat h3
    exact h.not_sqrt ⟨t4, by rw [ht]; rfl⟩

theorem sqrt_some {l r s : List Char} (hl : Blank l) (hr : Blank r)
    (hs : ∀ c t, s = c :: t → isSpace c = false) :
    ∃ m, sqrtPat.match (l ++ ('s' :: 'q' :: 'r' :: 't' :: (r ++ s))) = some (m, s) := by
  have h0 := star_blanks hl (s := 's' :: 'q' :: 'r' :: 't' :: (r ++ s)) (by
    intro c t h; injection h with h _; rw [← h]; decide)
  have h1 := head_cat (p := Pat.char (· = 't')) (q := Pat.star isSpace) (s := 't' :: (r ++ s))
    (a := (['t'], r ++ s)) (by simp [Pat.char]) (star_blanks hr hs)
  have h2 := head_cat (p := Pat.char (· = 'r')) (s := 'r' :: 't' :: (r ++ s))
    (a := (['r'], 't' :: (r ++ s))) (by simp [Pat.char]) h1
  have h3 := head_cat (p := Pat.char (· = 'q')) (s := 'q' :: 'r' :: 't' :: (r ++ s))
    (a := (['q'], 'r' :: 't' :: (r ++ s))) (by simp [Pat.char]) h2
  have h4 := head_cat (p := Pat.char (· = 's')) (s := 's' :: 'q' :: 'r' :: 't' :: (r ++ s))
    (a := (['s'], 'q' :: 'r' :: 't' :: (r ++ s))) (by simp [Pat.char]) h3
  exact ⟨_, head_cat h0 h4⟩

/-- The operator in front of an operand, and what is left. -/
theorem parseOperator_link (o : Link) {l r s : List Char} (hl : Blank l) (hr : Blank r)
    (hs : Starts s) :
    parseOperator (l ++ (o.text ++ (r ++ s)))
      = o.op.map (fun p => (p, s)) := by
  have hsp := starts_space hs
  cases o with
  | star =>
    obtain ⟨m, hm⟩ := infix_some hl hr (k := '*') (a := '/') (by decide) hsp
      (hs.head_ne (Or.inr rfl))
    simp only [Link.text, List.cons_append, List.nil_append, Link.op, Option.map_some]
    unfold parseOperator
    rw [hm]
  | slash =>
    have h1 := infix_none hl (s := '/' :: (r ++ s)) (k := '*') (a := '/') (by decide)
      (by intro c t h; injection h with h _; rw [← h]; decide)
      (by intro t h; injection h with h _; exact absurd h (by decide))
    obtain ⟨m, hm⟩ := infix_some hl hr (k := '/') (a := '*') (by decide) hsp
      (hs.head_ne (Or.inl rfl))
    simp only [Link.text, List.cons_append, List.nil_append, Link.op, Option.map_some]
    unfold parseOperator
    rw [h1, hm]
  | next =>
    have hlr : Blank (l ++ r) := by
      intro c hc
      rcases List.mem_append.1 hc with h | h
      · exact hl c h
      · exact hr c h
    obtain ⟨c, t, hst, hc, n1, n2, _⟩ := id hs
    have h1 := infix_none hlr (k := '*') (a := '/') (by decide) hsp
      (by intro t' h; rw [hst] at h; injection h with h _; exact n1 h)
    have h2 := infix_none hlr (k := '/') (a := '*') (by decide) hsp
      (by intro t' h; rw [hst] at h; injection h with h _; exact n2 h)
    simp only [Link.text, List.nil_append, Link.op, Option.map_none]
    rw [← List.append_assoc]
    unfold parseOperator
    rw [h1, h2, sqrt_none hlr hs]
  | root =>
    have hn : ∀ k a, (k = '*' ∨ k = '/') →
        (infixPat k a).match (l ++ ('s' :: 'q' :: 'r' :: 't' :: (r ++ s))) = none := by
      intro k a hk
      apply infix_none hl
      · rcases hk with rfl | rfl <;> decide
      · intro c t h; injection h with h _; rw [← h]; decide
      · intro t h; injection h with h _
        rcases hk with rfl | rfl <;> exact absurd h (by decide)
    obtain ⟨m, hm⟩ := sqrt_some hl hr hsp
    simp only [Link.text, List.cons_append, List.nil_append, Link.op, Option.map_some]
    unfold parseOperator
    rw [hn '*' '/' (Or.inl rfl), hn '/' '*' (Or.inr rfl), hm]

/-! ## Operands with their powers -/

/-- The text within brackets. -/
def inner (l : List Char) (t : Lay) (r : List Char) : List Char := l ++ (t.render ++ r)

/-- The operand for a number, a name or brackets that enters with power `q`. -/
def atomPart : Lay → Rat → Part
  | .num n x, q => .term ⟨ratPow (ratPow n.value x) q, one, q⟩
  | .var k n x, q => .term ⟨ratPow k q, n, x * q⟩
  | .group l t r x, q => .group ⟨1, inner l t r, x * q⟩
  | _, q => .term ⟨1, one, q⟩

/-- All operands of the outermost level. -/
def partsOf : Lay → Rat → List Part
  | .bin o _ _ a b, q => partsOf a q ++ partsOf b (o.power q)
  | .root _ b, q => partsOf b (q / 2)
  | t, q => [atomPart t q]

/-- The terms that parsing results in, in order. -/
def termsOf : Lay → Rat → List Term
  | .num n x, q => [⟨ratPow (ratPow n.value x) q, one, q⟩]
  | .var k n x, q => [⟨ratPow k q, n, x * q⟩]
  | .group _ t _ x, q => termsOf t (x * q) ++ [⟨1, one, 1⟩]
  | .root _ b, q => termsOf b (q / 2)
  | .bin o _ _ a b, q => termsOf a q ++ termsOf b (o.power q)

/-- The part of exactness that concerns the operand itself. -/
def Own : Lay → Rat → Prop
  | .num n x, q => n.value = 1 ∨ x.den = 1 ∧ q.den = 1
  | .var k _ _, q => k = 1 ∨ q.den = 1
  | _, _ => True

theorem own_of_exact {b : Lay} {o : Link} {q : Rat} (hp : o = .root → b.Pure)
    (he : b.Exact (o.power q)) : Own b q := by
  cases b with
  | num n x =>
    simp only [Lay.Exact, Own] at *
    cases o with
    | root => exact Or.inl (hp rfl)
    | slash => simpa [Link.power] using he
    | star => simpa [Link.power] using he
    | next => simpa [Link.power] using he
  | var k n x =>
    simp only [Lay.Exact, Own] at *
    cases o with
    | root => exact Or.inl (hp rfl)
    | slash => simpa [Link.power] using he
    | star => simpa [Link.power] using he
    | next => simpa [Link.power] using he
  | group l t r x => trivial
  | root r b => trivial
  | bin o l r a b => trivial

theorem balanced_blank {s : List Char} (h : Blank s) : Balanced s := by
  apply balanced_of_no_brackets
  intro c hc
  rcases space_cases (h c hc) with rfl | rfl | rfl | rfl <;> decide

theorem lit_brackets {n : Lit} (hn : n.Ok) : ∀ c ∈ n.text, c ≠ '(' ∧ c ≠ ')' := by
  intro c hc
  have h := rational_lit hn (rest := []) (by intro c t h; cases h)
  unfold Pat.match at h
  have := (sound_rational _ _ (mem_of_head? h)).2 c hc
  constructor
  · rintro rfl; revert this; unfold NumChar; decide
  · rintro rfl; revert this; unfold NumChar; decide

theorem Lay.balanced : ∀ t : Lay, t.Ok → Balanced t.render := by
  have hpow : ∀ x c, c ∈ powStr x → c ≠ '(' ∧ c ≠ ')' := by
    intro x c hc
    unfold powStr at hc
    split at hc
    · cases hc
    · rcases List.mem_cons.1 hc with rfl | hc
      · decide
      · have := (ratStr_numChar hc).1
        constructor
        · rintro rfl; revert this; unfold NumChar; decide
        · rintro rfl; revert this; unfold NumChar; decide
  intro t
  induction t with
  | num n x =>
    intro h
    exact (balanced_of_no_brackets (lit_brackets h.1)).append (balanced_of_no_brackets (hpow x))
  | var k n x =>
    intro h
    apply balanced_of_no_brackets
    intro c hc
    simp only [Lay.render, List.mem_append] at hc
    rcases hc with hc | hc | hc
    · have := (coefText_chars hc).1
      constructor
      · rintro rfl; revert this; unfold NumChar; decide
      · rintro rfl; revert this; unfold NumChar; decide
    · have := plain_chars (validName_plain h.2.1) hc
      constructor
      · rintro rfl; revert this; decide
      · rintro rfl; revert this; decide
    · exact hpow x c hc
  | group l t r x ih =>
    intro h
    have := ((balanced_blank h.1).append ((ih h.2.1).append (balanced_blank h.2.2.1))).bracket.append
      (balanced_of_no_brackets (hpow x))
    simpa [Lay.render] using this
  | root r b ih =>
    intro h
    exact (balanced_of_no_brackets (by decide)).append ((balanced_blank h.1).append (ih h.2.1))
  | bin o l r a b iha ihb =>
    intro h
    have ho : Balanced o.text := balanced_of_no_brackets (by cases o <;> decide)
    exact (iha h.2.2.1).append ((balanced_blank h.1).append (ho.append ((balanced_blank h.2.1).append
      (ihb h.2.2.2.1))))

theorem inner_ne {l r : List Char} {t : Lay} (h : t.Ok) : inner l t r ≠ [] := by
  unfold inner
  intro h0
  have := (List.append_eq_nil_iff.1 h0).2
  exact Lay.render_ne h (List.append_eq_nil_iff.1 this).1

theorem inner_balanced {l r : List Char} {t : Lay} (hl : Blank l) (hr : Blank r) (h : t.Ok) :
    Balanced (inner l t r) :=
  (balanced_blank hl).append ((t.balanced h).append (balanced_blank hr))

/-- The operand found at the start. -/
theorem parseOperand_lay {b : Lay} (hb : b.IsAtom) (hok : b.Ok) {rest : List Char}
    (hr : Follows b rest) {q : Rat} (ho : Own b q) (s : List Char)
    (hs : strip s = b.render ++ rest) :
    parseOperand s = .ok (some (atomPart b 1, rest)) := by
  unfold parseOperand
  simp only [hs]
  cases b with
  | num n x =>
    rcases hr with ⟨h, _⟩ | ⟨h1, h2⟩
    · exact absurd h (by simp [Lay.EndsGroup])
    have hx : n.value = 1 ∨ x.den = 1 := by
      rcases ho with h | h
      · exact Or.inl h
      · exact Or.inr h.1
    simp only [Lay.render, List.append_assoc]
    rw [matchSimplex_lit hok.1 hok.2.1 hok.2.2 hx h1 (h2 trivial)]
    have h1' : ∀ c : Rat, ratPow c 1 = c := by
      intro c; simp [ratPow]; intro h; exact h.symm
    simp [bind, Except.bind, pure, Except.pure, atomPart, h1']
  | var k n x =>
    rcases hr with ⟨h, _⟩ | ⟨h1, h2⟩
    · exact absurd h (by simp [Lay.EndsGroup])
    simp only [Lay.render, List.append_assoc]
    rw [matchSimplex_coef hok.1 hok.2.1 hok.2.2.2 hok.2.2.1 h1 h2]
    have h1' : ∀ c : Rat, ratPow c 1 = c := by
      intro c; simp [ratPow]; intro h; exact h.symm
    simp [bind, Except.bind, pure, Except.pure, atomPart, h1']
  | group l t r x =>
    obtain ⟨hl, ht, hr', hx⟩ := hok
    have hc : x ≠ 1 → Halt rest := by
      intro h
      rcases hr with ⟨h', _⟩ | ⟨h1, h2⟩
      · exact absurd h' h
      · exact h1.halt (h2 h)
    have hn : x = 1 → ∀ t, rest ≠ '^' :: t := by
      intro _
      rcases hr with ⟨_, h'⟩ | ⟨h1, _⟩
      · exact h'
      · exact h1.not_caret
    have h2 := matchComplex_bracket (inner_balanced hl hr' ht) (inner_ne ht) hx hc hn
    have hrw : (Lay.group l t r x).render ++ rest
        = '(' :: (inner l t r ++ ')' :: (powStr x ++ rest)) := by
      simp [Lay.render, inner]
    rw [hrw, matchSimplex_open]
    simp only [bind, Except.bind]
    rw [h2]
    simp [pure, Except.pure, atomPart]
  | root r b => exact absurd hb (by simp [Lay.IsAtom])
  | bin o l r a b => exact absurd hb (by simp [Lay.IsAtom])

theorem ratPow_one (q : Rat) : ratPow 1 q = 1 := by simp [ratPow]

theorem atom_pow {b : Lay} (hb : b.IsAtom) (hok : b.Ok) {q : Rat} (hq : q ≠ 0) (ho : Own b q) :
    (atomPart b 1).pow q = .ok (atomPart b q) := by
  have h1' : ∀ c : Rat, ratPow c 1 = c := by
    intro c; simp [ratPow]; intro h; exact h.symm
  cases b with
  | num n x =>
    have hv := ratPow_ne_zero (q := x) (lit_value_ne hok.1)
    have hx : ratPow n.value x = 1 ∨ q.den = 1 := by
      rcases ho with h | h
      · left; rw [h, ratPow_one]
      · exact Or.inr h.2
    simp only [atomPart, Part.pow, h1']
    rw [operand_pow (powCoef_eq hv hx) (ratPow_ne_zero hv) (by simpa using hq) (by simp [one])]
    simp [bind, Except.bind, pure, Except.pure]
  | var k n x =>
    simp only [atomPart, Part.pow, h1', mul_one]
    rw [operand_pow (powCoef_eq hok.1 ho) (ratPow_ne_zero hok.1) (mul_ne_zero hok.2.2.1.1 hq)
      hok.2.1.ne_nil]
    simp [bind, Except.bind, pure, Except.pure]
  | group l t r x =>
    simp only [atomPart, Part.pow, mul_one]
    rw [operand_pow (powCoef_one_base q) one_ne_zero (mul_ne_zero hok.2.2.2.1 hq)
      (inner_ne hok.2.1)]
    simp [bind, Except.bind, pure, Except.pure]
  | root r b => exact absurd hb (by simp [Lay.IsAtom])
  | bin o l r a b => exact absurd hb (by simp [Lay.IsAtom])

theorem link_eval {b : Lay} (hb : b.IsAtom) (hok : b.Ok) {q : Rat} (hq : q ≠ 0) (o : Link)
    (hp : o = .root → b.Pure) :
    computeOperand o.op (atomPart b q) = .ok (atomPart b (o.power q)) := by
  have hm : ∀ x y : Rat, x ≠ 0 → y ≠ 0 → x * q * y ≠ 0 := fun x y hx hy =>
    mul_ne_zero (mul_ne_zero hx hq) hy
  cases o with
  | star => rfl
  | next => rfl
  | slash =>
    simp only [Link.op, computeOperand, evaluate, Link.power]
    cases b with
    | num n x =>
      have hv := ratPow_ne_zero (q := x) (lit_value_ne hok.1)
      simp only [atomPart, Part.pow]
      rw [operand_pow (powCoef_neg hv) (ratPow_ne_zero hv) (by simpa using hq) (by simp [one])]
      simp [bind, Except.bind, pure, Except.pure]
    | var k n x =>
      simp only [atomPart, Part.pow]
      rw [operand_pow (powCoef_neg hok.1) (ratPow_ne_zero hok.1)
        (hm x (-1) hok.2.2.1.1 (by norm_num)) hok.2.1.ne_nil]
      simp [bind, Except.bind, pure, Except.pure]
    | group l t r x =>
      simp only [atomPart, Part.pow]
      rw [operand_pow (powCoef_one_base (-1)) one_ne_zero
        (hm x (-1) hok.2.2.2.1 (by norm_num)) (inner_ne hok.2.1)]
      simp [bind, Except.bind, pure, Except.pure]
    | root r b => exact absurd hb (by simp [Lay.IsAtom])
    | bin o l r a b => exact absurd hb (by simp [Lay.IsAtom])
  | root =>
    have hpu := hp rfl
    have h2 : ∀ x : Rat, x * q * (1 / 2) = x * (q / 2) := fun x => by ring
    simp only [Link.op, computeOperand, evaluate, Link.power]
    cases b with
    | num n x =>
      simp only [Lay.Pure] at hpu
      simp only [atomPart, Part.pow, hpu, ratPow_one]
      rw [operand_pow (powCoef_one_base (1/2)) one_ne_zero
        (mul_ne_zero hq (by norm_num)) (by simp [one])]
      simp [bind, Except.bind, pure, Except.pure]
      ring
    | var k n x =>
      simp only [Lay.Pure] at hpu
      subst hpu
      simp only [atomPart, Part.pow, ratPow_one]
      rw [operand_pow (powCoef_one_base (1/2)) one_ne_zero
        (hm x (1/2) hok.2.2.1.1 (by norm_num)) hok.2.1.ne_nil, h2]
      simp [bind, Except.bind, pure, Except.pure]
    | group l t r x =>
      simp only [atomPart, Part.pow]
      rw [operand_pow (powCoef_one_base (1/2)) one_ne_zero
        (hm x (1/2) hok.2.2.2.1 (by norm_num)) (inner_ne hok.2.1), h2]
      simp [bind, Except.bind, pure, Except.pure]
    | root r b => exact absurd hb (by simp [Lay.IsAtom])
    | bin o l r a b => exact absurd hb (by simp [Lay.IsAtom])

/-! ## The loop -/

theorem follows_blank {b : Lay} {rest z : List Char} (hz : Blank z) (h : Follows b rest) :
    Follows b (rest ++ z) := by
  have hsp : ∀ c t, z = c :: t → isSpace c = true := fun c t h => hz c (by rw [h]; simp)
  rcases h with ⟨h1, h2⟩ | ⟨h1, h2⟩
  · left
    refine ⟨h1, ?_⟩
    intro t ht
    rcases rest with _ | ⟨c, rest⟩
    · exact absurd (hsp '^' t ht) (by decide)
    · simp at ht; exact h2 rest (by rw [ht.1])
  · right
    constructor
    · intro c t ht
      rcases rest with _ | ⟨y, rest⟩
      · exact Or.inl (hsp c t ht)
      · simp at ht; rw [← ht.1]; exact h1 y rest rfl
    · intro hn t ht
      rcases rest with _ | ⟨y, rest⟩
      · exact absurd (hsp '/' t ht) (by decide)
      · simp at ht
        obtain ⟨rfl, rfl⟩ := ht
        rintro ⟨c, t, h3, h4⟩
        rcases rest with _ | ⟨y, rest⟩
        · have := hsp c t h3
          rw [not_space_of_digit h4] at this; cases this
        · simp at h3
          exact h2 hn (y :: rest) rfl ⟨y, rest, rfl, by rw [h3.1]; exact h4⟩

theorem step_link {b : Lay} (hb : b.IsAtom) (hok : b.Ok) {p : Rat} (hp : p ≠ 0) (o : Link)
    (hpu : o = .root → b.Pure) (he : b.Exact (o.power p)) {l r rest z : List Char} (hl : Blank l)
    (hr : Blank r) (hz : Blank z) (hf : Follows b rest) (ht : Tail rest) :
    parseStep false p none (l ++ (o.text ++ (r ++ (b.render ++ (rest ++ z)))))
      = .ok (atomPart b (o.power p), o.op, rest) := by
  have hst := atom_starts hb hok (follows_blank hz hf)
  have hst' := atom_starts hb hok hf
  have hen := ends_tail (b.ends hok) ht
  have ho := own_of_exact hpu he
  have hop := parseOperator_link o hl hr hst
  have hstrip : ∀ w, Blank w → strip (w ++ (b.render ++ (rest ++ z))) = b.render ++ rest := by
    intro w hw
    have := strip_around hw hst' hen hz
    simpa using this
  unfold parseStep getOperator
  rw [hop]
  cases ho' : o.op with
  | none =>
    have hno : o = .next := by cases o <;> simp [Link.op] at ho' ⊢
    subst hno
    simp only [Option.map_none, bind, Except.bind, getOperand]
    rw [parseOperand_lay hb hok hf ho _ (by
      have := hstrip (l ++ r) (by
        intro c hc
        rcases List.mem_append.1 hc with h | h
        · exact hl c h
        · exact hr c h)
      simpa [Link.text] using this)]
    have := link_eval hb hok hp .next hpu
    simp only [Link.op] at this
    simp [atom_pow hb hok hp ho, this, pure, Except.pure]
  | some op =>
    simp only [Option.map_some, bind, Except.bind, getOperand, operatorError, Bool.not_false,
      if_true]
    rw [parseOperand_lay hb hok hf ho _ (by
      have := hstrip [] (by intro c hc; cases hc)
      simpa using this)]
    have := link_eval hb hok hp o hpu
    rw [ho'] at this
    simp [atom_pow hb hok hp ho, this, pure, Except.pure]

theorem partsOf_atom {b : Lay} (hb : b.IsAtom) (q : Rat) : partsOf b q = [atomPart b q] := by
  cases b with
  | root r b => exact absurd hb (by simp [Lay.IsAtom])
  | bin o l r a b => exact absurd hb (by simp [Lay.IsAtom])
  | _ => rfl

theorem tail_link {l r rest : List Char} {o : Link} {b : Lay} (hb : b.Ok) (ht : Tail rest) :
    Tail (l ++ (o.text ++ (r ++ (b.render ++ rest)))) :=
  Ends.tail (((ends_tail (b.ends hb) ht).append_left).append_left.append_left)

theorem follows_link {a b : Lay} {o : Link} {l r rest : List Char} (hl : Blank l) (hr : Blank r)
    (hb : b.IsAtom) (hok : b.Ok) (hf : Follows b rest) (hc : o.Clear l r a b) :
    Follows a (l ++ (o.text ++ (r ++ (b.render ++ rest)))) := by
  rcases l with _ | ⟨c, l⟩
  · have hst := atom_starts hb hok hf
    have hcaret : ∀ t, b.render ++ rest ≠ '^' :: t := by
      intro t h
      have hne := Lay.render_ne hok
      obtain ⟨y, u, hyu⟩ := List.exists_cons_of_ne_nil hne
      rw [hyu] at h
      simp at h
      obtain ⟨rfl, _⟩ := h
      cases b with
      | num n x =>
        obtain ⟨c', t', h1, h2⟩ := lit_first hok.1
        simp only [Lay.render, h1] at hyu
        simp at hyu
        rw [hyu.1] at h2
        rcases h2 with h | h | h <;> exact absurd h (by decide)
      | var k n x =>
        simp only [Lay.render] at hyu
        by_cases hk : k = 1
        · obtain ⟨c', t', h1, h2⟩ := hok.2.1.cons
          simp [coefText, hk, h1] at hyu
          rw [hyu.1] at h2; exact absurd h2 (by decide)
        · obtain ⟨c', t', h1, h2⟩ := coefText_cons hk
          rw [h1] at hyu
          simp at hyu
          rw [hyu.1] at h2
          rcases h2 with h | h <;> exact absurd h (by decide)
      | group l t r x => simp [Lay.render] at hyu
      | root r b => exact absurd hb (by simp [Lay.IsAtom])
      | bin o l r a b => exact absurd hb (by simp [Lay.IsAtom])
    cases o with
    | star =>
      right
      constructor
      · intro c t h; simp [Link.text] at h; rw [← h.1]; simp
      · intro _ t h; simp [Link.text] at h
    | slash =>
      right
      constructor
      · intro c t h; simp [Link.text] at h; rw [← h.1]; simp
      · intro hn t h
        simp [Link.text] at h
        subst h
        rintro ⟨c, t, h1, h2⟩
        rcases hc with h | h | h | h
        · exact h rfl
        · obtain ⟨y, u, rfl⟩ := List.exists_cons_of_ne_nil h
          simp at h1
          have := hr y (by simp)
          rw [h1.1, not_space_of_digit h2] at this; cases this
        · exact h hn
        · rcases r with _ | ⟨y, r⟩
          · obtain ⟨y, u, hyu⟩ := List.exists_cons_of_ne_nil (Lay.render_ne hok)
            rw [hyu] at h1
            simp at h1
            exact h ⟨y, u, hyu, by rw [h1.1]; exact h2⟩
          · simp at h1
            have := hr y (by simp)
            rw [h1.1, not_space_of_digit h2] at this; cases this
    | next =>
      simp only [Link.text, List.nil_append]
      rcases r with _ | ⟨y, r⟩
      · simp only [List.nil_append]
        rcases hc with h | h | h | h
        · exact absurd rfl h
        · exact absurd rfl h
        · right
          cases b with
          | group l t r x =>
            constructor
            · intro c t' h; simp [Lay.render] at h; rw [← h.1]; simp
            · intro _ t' h; simp [Lay.render] at h
          | _ => exact absurd h (by simp [Lay.IsGroup])
        · left; exact ⟨h, hcaret⟩
      · right
        have hy := hr y (by simp)
        constructor
        · intro c t h; simp at h; rw [← h.1]; exact Or.inl hy
        · intro _ t h; simp at h; rw [h.1] at hy; exact absurd hy (by decide)
    | root =>
      left
      rcases hc.1 with h | h
      · exact absurd rfl h
      · exact ⟨h, by intro t h'; simp [Link.text] at h'⟩
  · right
    have hy := hl c (by simp)
    constructor
    · intro c' t h; simp at h; rw [← h.1]; exact Or.inl hy
    · intro _ t h; simp at h; rw [h.1] at hy; exact absurd hy (by decide)

theorem power_ne {o : Link} {q : Rat} (hq : q ≠ 0) : o.power q ≠ 0 := by
  cases o <;> simp [Link.power, hq]

theorem blank_nil : Blank [] := by intro c h; cases h

theorem loop_lay : ∀ (t : Lay) (p : Rat), t.Ok → p ≠ 0 → t.Exact p → ∀ l rest z ps, Blank l →
    Blank z → Follows t rest → Tail rest → loop p rest = .ok ps →
    loop p (l ++ (t.render ++ (rest ++ z))) = .ok (partsOf t p ++ ps) := by
  have hatom : ∀ (t : Lay), t.IsAtom → ∀ (p : Rat), t.Ok → p ≠ 0 → t.Exact p → ∀ l rest z ps,
      Blank l → Blank z → Follows t rest → Tail rest → loop p rest = .ok ps →
      loop p (l ++ (t.render ++ (rest ++ z))) = .ok (partsOf t p ++ ps) := by
    intro t ht p hok hp he l rest z ps hl hz hf htl hlp
    rw [partsOf_atom ht]
    have := step_link ht hok hp .next (by simp) he hl blank_nil hz hf htl
    simp only [Link.text, List.nil_append] at this
    refine loop_step ?_ this hlp
    intro h
    exact Lay.render_ne hok (List.append_eq_nil_iff.1 (List.append_eq_nil_iff.1 h).2).1
  intro t
  induction t with
  | num n x => exact hatom _ trivial
  | var k n x => exact hatom _ trivial
  | group l t r x _ => exact hatom _ trivial
  | root r b _ =>
    intro p hok hp he l rest z ps hl hz hf htl hlp
    obtain ⟨h1, h2, h3, h4⟩ := hok
    have := step_link h3 h2 hp .root (fun _ => he.1) he.2 hl h1 hz hf htl
    simp only [partsOf, partsOf_atom h3]
    refine loop_step ?_ (by simpa [Lay.render, Link.power] using this) hlp
    simp [Lay.render, Link.text]
  | bin o l' r' a b iha _ =>
    intro p hok hp he l rest z ps hl hz hf htl hlp
    obtain ⟨h1, h2, ha, hb, hat, hc⟩ := hok
    have hf' : Follows b rest := hf
    have hstep := step_link hat hb hp o he.2.1 he.2.2 h1 h2 blank_nil hf' htl
    simp only [List.append_nil] at hstep
    have hl' : loop p (l' ++ (o.text ++ (r' ++ (b.render ++ rest))))
        = .ok (partsOf b (o.power p) ++ ps) := by
      rw [partsOf_atom hat]
      refine loop_step ?_ hstep hlp
      intro h
      have h := (List.append_eq_nil_iff.1 h).2
      have h := (List.append_eq_nil_iff.1 h).2
      have h := (List.append_eq_nil_iff.1 h).2
      exact Lay.render_ne hb (List.append_eq_nil_iff.1 h).1
    have := iha p ha hp he.1 l _ z _ hl hz (follows_link h1 h2 hat hb hf' hc) (tail_link hb htl) hl'
    simpa [Lay.render, partsOf] using this

/-! ## The recursion -/

theorem follows_nil (t : Lay) : Follows t [] :=
  Or.inr ⟨fun c t h => by simp at h, fun _ t h => by simp at h⟩

theorem tail_nil : Tail [] := by intro c h; simp at h

theorem loop_inner {l r : List Char} {t : Lay} (hl : Blank l) (hr : Blank r) (h : t.Ok) {p : Rat}
    (hp : p ≠ 0) (he : t.Exact p) : loop p (inner l t r) = .ok (partsOf t p) := by
  have := loop_lay t p h hp he l [] r [] hl hr (follows_nil t) tail_nil rfl
  simpa [inner] using this

theorem resolve_lay : ∀ (t : Lay) (q : Rat) (n : Nat), t.Ok → q ≠ 0 → t.Exact q →
    t.render.length ≤ n →
    ∃ ls, (partsOf t q).mapM (Part.resolveWith (resolve false n)) = .ok ls
      ∧ ls.flatten = termsOf t q := by
  intro t
  induction t with
  | num c x =>
    intro q n _ _ _ _
    exact ⟨[[⟨ratPow (ratPow c.value x) q, one, q⟩]], by simp [partsOf, atomPart,
      Part.resolveWith, bind, Except.bind, pure, Except.pure], by simp [termsOf]⟩
  | var k m x =>
    intro q n _ _ _ _
    exact ⟨[[⟨ratPow k q, m, x * q⟩]], by simp [partsOf, atomPart, Part.resolveWith, bind,
      Except.bind, pure, Except.pure], by simp [termsOf]⟩
  | group l t r x ih =>
    intro q n hok hq he hn
    obtain ⟨hl, hok, hr, hx⟩ := hok
    have hxq : x * q ≠ 0 := mul_ne_zero hx.1 hq
    have hlen : t.render.length + 2 ≤ n := by
      simp [Lay.render] at hn; omega
    cases n with
    | zero => omega
    | succ n =>
      obtain ⟨ls, h1, h2⟩ := ih (x * q) n hok hxq he (by omega)
      have hlp := loop_inner hl hr hok hxq he
      unfold loop at hlp
      refine ⟨[termsOf t (x * q) ++ [⟨1, one, 1⟩]], ?_, by simp [termsOf]⟩
      simp only [partsOf, atomPart, List.mapM_cons, List.mapM_nil, Part.resolveWith, resolve]
      rw [hlp]
      simp only [bind, Except.bind]
      rw [h1]
      simp [pure, Except.pure, h2, mkOperand, orOne, one]
  | root r b ih =>
    intro q n hok hq he hn
    obtain ⟨ls, h1, h2⟩ := ih (q / 2) n hok.2.1 (by simpa using hq) he.2 (by
      simp [Lay.render] at hn; omega)
    exact ⟨ls, h1, h2⟩
  | bin o l r a b iha ihb =>
    intro q n hok hq he hn
    obtain ⟨_, _, ha, hb, _, _⟩ := hok
    have hn' : a.render.length + b.render.length ≤ n := by
      simp [Lay.render] at hn; omega
    obtain ⟨l1, e1, e2⟩ := iha q n ha hq he.1 (by omega)
    obtain ⟨l2, e3, e4⟩ := ihb (o.power q) n hb (power_ne hq) he.2.2 (by omega)
    exact ⟨l1 ++ l2, mapM_append_ok _ _ _ _ _ e1 e3, by simp [e2, e4, termsOf]⟩

/-- Parsing an expression as written. -/
theorem parse_lay {l r : List Char} (hl : Blank l) (hr : Blank r) (t : Lay) (hok : t.Ok)
    (he : t.Exact 1) :
    parse false (inner l t r) = .ok (termsOf t 1 ++ [⟨1, one, 1⟩]) := by
  have hne := inner_ne (l := l) (r := r) hok
  unfold parse
  have hmk : mkOperand 1 (inner l t r) 1 = ⟨1, inner l t r, 1⟩ := by simp [mkOperand, orOne, hne]
  rw [hmk]
  obtain ⟨ls, h1, h2⟩ := resolve_lay t 1 ((inner l t r).length + 1) hok one_ne_zero he (by
    simp [inner]; omega)
  have hlp := loop_inner hl hr hok one_ne_zero he
  unfold loop at hlp
  rw [resolve]
  simp only [hlp, bind, Except.bind, h1]
  simp [pure, Except.pure, h2, mkOperand, orOne, one]

end Verif.Layout
