import Verif.Layout.Numbers

/-!
# Helper lemmas: reading single operands and operators
-/

set_option linter.unusedSimpArgs false

namespace Verif.Layout

open Verif.Py Verif.Symbolic Verif.Terms

/-! ## What may follow -/

/-- Nothing, white space, an operator or an opening bracket. -/
def Stop (rest : List Char) : Prop :=
  ∀ c t, rest = c :: t → isSpace c = true ∨ c = '*' ∨ c = '/' ∨ c = '('

/-- No bar that is followed by a digit. -/
def NoBar (rest : List Char) : Prop := ∀ t, rest = '/' :: t → ¬ DigitFirst t

/-- What may follow an expression. -/
def Follows (b : Lay) (rest : List Char) : Prop :=
  (b.EndsGroup ∧ ∀ t, rest ≠ '^' :: t) ∨ (Stop rest ∧ (b.EndsNum → NoBar rest))

/-- Does not end in white space. -/
def Tail (rest : List Char) : Prop := ∀ c, rest.getLast? = some c → isSpace c = false

theorem space_cases {c : Char} (h : isSpace c = true) : c = ' ' ∨ c = '\t' ∨ c = '\n' ∨ c = '\r' := by
  simpa [isSpace, or_assoc] using h

/-- Characters that may follow an operand (with its exponent). -/
def StopChar (c : Char) : Prop := c = '^' ∨ isSpace c = true ∨ c = '*' ∨ c = '/' ∨ c = '('

theorem StopChar.facts {c : Char} (h : StopChar c) :
    isLetter c = false ∧ isDigit c = false ∧ c ≠ '.' ∧ c ≠ 'e' ∧ c ≠ 'E' ∧ (NumChar c → c = '/')
      ∧ c ≠ '-' ∧ c ≠ '+' := by
  have key : ∀ c ∈ ['^', ' ', '\t', '\n', '\r', '*', '/', '('],
      isLetter c = false ∧ isDigit c = false ∧ c ≠ '.' ∧ c ≠ 'e' ∧ c ≠ 'E' ∧ (NumChar c → c = '/')
      ∧ c ≠ '-' ∧ c ≠ '+' := by
    unfold NumChar; decide
  apply key
  rcases h with rfl | h | rfl | rfl | rfl
  · simp
  · rcases space_cases h with rfl | rfl | rfl | rfl <;> simp
  all_goals simp

theorem Stop.char {rest : List Char} (h : Stop rest) {c : Char} {t : List Char}
    (hr : rest = c :: t) : StopChar c := Or.inr (h c t hr)

theorem Stop.not_caret {rest : List Char} (h : Stop rest) : ∀ t, rest ≠ '^' :: t := by
  intro t hr
  rcases h _ _ hr with h | h | h | h <;> exact absurd h (by decide)

theorem Stop.halt {rest : List Char} (h : Stop rest) (hb : NoBar rest) : Halt rest := by
  intro c t hr
  obtain ⟨_, h2, h3, h4, h5, _⟩ := (h.char hr).facts
  exact ⟨h2, h3, h4, h5, fun hc => hb t (by rw [hr, hc])⟩

theorem powStr_stop {x : Rat} {rest : List Char} (hr : Stop rest) {c : Char} {t : List Char}
    (h : powStr x ++ rest = c :: t) : StopChar c := by
  unfold powStr at h
  split at h
  · exact hr.char (by simpa using h)
  · simp at h; exact Or.inl h.1.symm

theorem caret_halt (s : List Char) : Halt ('^' :: s) := by
  intro c t h
  injection h with h _
  subst h
  exact ⟨by decide, by decide, by decide, by decide, fun h => absurd h (by decide)⟩

/-- After a number there may be an exponent. -/
theorem powStr_halt {x : Rat} {rest : List Char} (hr : Halt rest) : Halt (powStr x ++ rest) := by
  unfold powStr
  split
  · simpa using hr
  · exact caret_halt _

/-- The optional exponent of an operand. -/
theorem opt_exponent {x : Rat} (hw : Writable x) {rest : List Char}
    (hr : x ≠ 1 → Halt rest) (hc : x = 1 → ∀ t, rest ≠ '^' :: t) :
    ∃ o, (Pat.opt exponentPat (powStr x ++ rest)).head? = some (o, rest) ∧ stdExp o = .ok x := by
  unfold powStr
  split
  · next h =>
    refine ⟨none, ?_, by rw [h]; rfl⟩
    unfold Pat.opt
    rw [List.nil_append, exponent_nil (hc h)]
    rfl
  · next h =>
    refine ⟨some ('^' :: ratStr x), ?_, stdExp_ratStr x⟩
    unfold Pat.opt
    apply head_append_left
    have h2 : (exponentPat ('^' :: ratStr x ++ rest)).head? = some ('^' :: ratStr x, rest) := by
      have := head_cat (p := Pat.char (· = '^')) (q := rational) (s := '^' :: ratStr x ++ rest)
        (a := (['^'], ratStr x ++ rest)) (by simp [Pat.char]) (rational_ratStr hw.2 (hr h))
      simpa [exponentPat] using this
    rw [List.head?_map, h2]
    rfl

/-! ## First matches of sequences -/

theorem seq_head_mem {α β : Type} {p : Pat α} {q : Pat β} {s : List Char} {m : (α × β) × List Char}
    (h : (Pat.seq p q s).head? = some m) :
    ∃ a ∈ p s, ∃ b, (q a.2).head? = some b ∧ m = ((a.1, b.1), b.2) := by
  unfold Pat.seq at h
  generalize p s = l at h
  induction l with
  | nil => simp at h
  | cons a l ih =>
    simp only [List.flatMap_cons, List.head?_append, List.head?_map] at h
    cases hq : (q a.2).head? with
    | some b =>
      rw [hq] at h
      simp at h
      exact ⟨a, by simp, b, hq, h.symm⟩
    | none =>
      rw [hq] at h
      simp only [Option.map_none, Option.none_or] at h
      obtain ⟨a', h1, h2⟩ := ih h
      exact ⟨a', List.mem_cons_of_mem _ h1, h2⟩

theorem seq_head_inv {α β : Type} {p : Pat α} {q : Pat β} {s : List Char} {m : (α × β) × List Char}
    (hq : ∀ t, q t ≠ []) (h : (Pat.seq p q s).head? = some m) :
    ∃ a b, (p s).head? = some a ∧ (q a.2).head? = some b ∧ m = ((a.1, b.1), b.2) := by
  unfold Pat.seq at h
  cases hp : p s with
  | nil => rw [hp] at h; simp at h
  | cons a l =>
    rw [hp] at h
    obtain ⟨b, bs, hb⟩ := List.exists_cons_of_ne_nil (hq a.2)
    simp only [List.flatMap_cons, hb, List.map_cons, List.cons_append, List.head?_cons] at h
    injection h with h
    exact ⟨a, b, rfl, by rw [hb]; rfl, h.symm⟩

theorem opt_ne_nil {α : Type} (p : Pat α) (s : List Char) : Pat.opt p s ≠ [] := by
  simp [Pat.opt]

/-! ## Numbers -/

theorem lit_split {n : Lit} (hn : n.Ok) : ∃ pre w, n.text = pre ++ w
    ∧ (∀ c ∈ pre, isLetter c = false)
    ∧ (w = [] ∨ ∃ e ds, w = e :: ds ∧ (e = 'e' ∨ e = 'E') ∧ Digits ds) := by
  cases n with
  | frac x => exact ⟨ratStr x, [], by simp [Lit.text], fun c hc => (ratStr_numChar hc).2, Or.inl rfl⟩
  | dec neg i f e =>
    obtain ⟨h1, h2, h3, h4, _⟩ := hn
    refine ⟨(if neg then ['-'] else []) ++ (i ++ fracText f), expText e, by simp [Lit.text], ?_, ?_⟩
    · intro c hc
      rw [List.mem_append, List.mem_append] at hc
      rcases hc with h | h | h
      · cases neg
        · simp at h
        · simp at h; subst h; decide
      · exact not_letter_of_digit (h1 c h)
      · cases f with
        | none => cases h
        | some d =>
          rcases List.mem_cons.1 h with rfl | h
          · decide
          · exact not_letter_of_digit (h2 d rfl c h)
    · cases e with
      | none => exact Or.inl rfl
      | some p =>
        obtain ⟨big, d⟩ := p
        exact Or.inr ⟨_, d, rfl, by cases big <;> simp, (h4 big d rfl).2⟩

/-- First character of a written number. -/
theorem lit_first {n : Lit} (hn : n.Ok) :
    ∃ c t, n.text = c :: t ∧ (isDigit c = true ∨ c = '-' ∨ c = '.') := by
  cases n with
  | frac x =>
    obtain ⟨c, s, h, hc⟩ := ratStr_head x
    exact ⟨c, s, h, by tauto⟩
  | dec neg i f e =>
    obtain ⟨h1, h2, h3, h4, _⟩ := hn
    obtain ⟨c, t, hct, hc⟩ := dec_first (e := e) h1 h3
    cases neg
    · exact ⟨c, t, by simp [Lit.text, hct], by tauto⟩
    · exact ⟨'-', c :: t, by simp [Lit.text, hct], by simp⟩

theorem first_not_letter {c : Char} (h : isDigit c = true ∨ c = '-' ∨ c = '.') :
    isLetter c = false := by
  rcases h with h | rfl | rfl
  · exact not_letter_of_digit h
  all_goals decide

/-- The only letter after which a number could end early is that of its decimal exponent. -/
theorem lit_letter {n : Lit} (hn : n.Ok) {tail : List Char}
    (ht : ∀ c t, tail = c :: t → StopChar c) (hb : NoBar tail)
    {m : List Char × List Char} (hm : m ∈ rational (n.text ++ tail)) {y : Char} {t : List Char}
    (hy : m.2 = y :: t) (hl : isLetter y = true) :
    ∃ e ds, m.2 = e :: ds ++ tail ∧ (e = 'e' ∨ e = 'E') ∧ Digits ds := by
  have hs := (sound_rational _ _ hm).1
  have hnum := (sound_rational _ _ hm).2
  rw [hy] at hs
  rcases List.append_eq_append_iff.1 hs with ⟨u, hu, hv⟩ | ⟨u, hu, hv⟩
  · -- the match goes beyond the number
    rcases u with _ | ⟨c, u⟩
    · exfalso
      simp at hv
      have := (ht y t hv).facts.1
      rw [this] at hl; cases hl
    · exfalso
      have hc := ht c (u ++ y :: t) (by rw [hv]; rfl)
      have : c = '/' := hc.facts.2.2.2.2.2.1 (hnum c (by rw [hu]; simp))
      subst this
      obtain ⟨_, h2, h3⟩ := rational_slash hm hu
      obtain ⟨d, ds, rfl⟩ := List.exists_cons_of_ne_nil h2
      exact hb (d :: ds ++ y :: t) (by rw [hv]; rfl) ⟨d, _, rfl, h3 d (by simp)⟩
  · rcases u with _ | ⟨c, u⟩
    · exfalso
      simp at hv
      have := (ht y t hv.symm).facts.1
      rw [this] at hl; cases hl
    · simp at hv
      obtain ⟨rfl, hv⟩ := hv
      obtain ⟨pre, w, h1, h2, h3⟩ := lit_split hn
      rw [h1] at hu
      have hmem : ∀ z ∈ pre, z ≠ y := by
        rintro z hz rfl; rw [h2 z hz] at hl; cases hl
      rcases List.append_eq_append_iff.1 hu with ⟨a, ha, hb'⟩ | ⟨a, ha, hb'⟩
      · -- the letter is in the exponent part
        rcases h3 with rfl | ⟨e, ds, rfl, he, hd⟩
        · exfalso; simp at hb'
        · rcases a with _ | ⟨z, a⟩
          · simp at hb'
            refine ⟨e, ds, ?_, he, hd⟩
            rw [hy, hv, hb'.1, ← hb'.2]; rfl
          · exfalso
            simp at hb'
            obtain ⟨_, hb'⟩ := hb'
            have : y ∈ ds := by rw [hb']; simp
            rw [not_letter_of_digit (hd y this)] at hl; cases hl
      · rcases a with _ | ⟨z, a⟩
        · simp at hb'
          rcases h3 with rfl | ⟨e, ds, rfl, he, hd⟩
          · simp at hb'
          · simp at hb'
            refine ⟨e, ds, ?_, he, hd⟩
            rw [hy, hv, ← hb'.1, hb'.2]; rfl
        · exfalso
          simp at hb'
          exact hmem z (by rw [ha]; simp) hb'.1.symm

theorem eName {e : Char} {ds : List Char} (he : e = 'e' ∨ e = 'E') (hd : Digits ds) :
    ValidName (e :: ds) := by
  refine ⟨[e], ds, rfl, by simp, ?_, hd, ?_⟩
  · intro c hc; simp at hc; subst hc; rcases he with rfl | rfl <;> decide
  · rintro ⟨u, hu⟩
    simp at hu
    rcases he with rfl | rfl
    · exact absurd hu.1 (by decide)
    · exact absurd hu.1 (by decide)

/-- If a number could also be a variable (`1e5`), then that variable has the same text. -/
theorem variable_of_lit {n : Lit} (hn : n.Ok) {x : Rat} (hx : Writable x) {rest : List Char}
    (hr : Stop rest) (hb : NoBar rest) {v}
    (hv : variablePat.match (n.text ++ (powStr x ++ rest)) = some v) : v.2 = rest := by
  have ht : ∀ c t, powStr x ++ rest = c :: t → StopChar c := fun c t h => powStr_stop hr h
  have hb' : NoBar (powStr x ++ rest) := by
    intro t h
    unfold powStr at h
    split at h
    · exact hb t (by simpa using h)
    · simp at h
  unfold Pat.match variablePat at hv
  obtain ⟨a, b, ha, hbh, rfl⟩ := seq_head_inv (opt_ne_nil _) hv
  obtain ⟨r, hrm, c, hc, rfl⟩ := seq_head_mem ha
  have hcm := mem_of_head? hc
  obtain ⟨y, t, hyt, hyl, _⟩ := basePat_head hcm
  rcases mem_opt.1 hrm with ⟨k, hk, rfl⟩ | rfl
  · simp only at hyt hc hbh
    obtain ⟨e, ds, h1, h2, h3⟩ := lit_letter hn ht hb' hk hyt hyl
    rw [h1, base_head (eName h2 h3) (fun c t h => ⟨(ht c t h).facts.1, (ht c t h).facts.2.1⟩)] at hc
    injection hc with hc
    subst hc
    simp only at hbh
    obtain ⟨o, ho, _⟩ := opt_exponent hx (rest := rest) (fun _ => hr.halt hb)
      (fun _ => hr.not_caret)
    rw [ho] at hbh
    injection hbh with hbh
    rw [← hbh]
  · exfalso
    simp only at hyt
    obtain ⟨c', t', h1, h2⟩ := lit_first hn
    rw [h1] at hyt
    simp at hyt
    rw [← hyt.1, first_not_letter h2] at hyl
    cases hyl

theorem matchSimplex_lit {n : Lit} (hn : n.Ok) {x : Rat} (hx : Writable x)
    (hf : IsDouble (n.value ^ x.num)) (he : n.value = 1 ∨ x.den = 1) {rest : List Char}
    (hr : Stop rest) (hb : NoBar rest) :
    matchSimplex (n.text ++ (powStr x ++ rest))
      = .ok (some (⟨ratPow n.value x, one, 1⟩, rest)) := by
  obtain ⟨o, ho, hox⟩ := opt_exponent hx (rest := rest) (fun _ => hr.halt hb)
    (fun _ => hr.not_caret)
  have hconst : constantPat.match (n.text ++ (powStr x ++ rest)) = some ((n.text, o), rest) := by
    unfold Pat.match constantPat
    exact head_seq (a := (n.text, powStr x ++ rest))
      (rational_lit hn (powStr_halt (hr.halt hb))) ho
  have hbuild : buildConstant (n.text, o) = .ok ⟨ratPow n.value x, one, 1⟩ := by
    have hp : ratPow n.value x = n.value ^ x.num := by
      unfold ratPow
      split
      · next h => rw [h]; simp
      · rfl
    simp only [buildConstant, stdCoef_lit hn, hox, bind, Except.bind, pure, Except.pure,
      powCoef_eq (lit_value_ne hn) he, toFloat_double (hp ▸ hf : IsDouble (ratPow n.value x))]
    simp [mkOperand, orOne, ratPow_ne_zero (lit_value_ne hn), one]
  unfold matchSimplex
  rw [hconst]
  cases hv : variablePat.match (n.text ++ (powStr x ++ rest)) with
  | none => simp [hbuild, bind, Except.bind, pure, Except.pure]
  | some v =>
    have := variable_of_lit hn hx hr hb hv
    simp [this, hbuild, bind, Except.bind, pure, Except.pure]

/-! ## Names with coefficients -/

theorem validName_plain {n : Name} (h : ValidName n) : Plain n := by
  obtain ⟨l, d, h1, h2, h3, h4, _⟩ := h
  exact ⟨l, d, h1, h2, h3, h4⟩

/-- A number that is followed by a letter of the text is the coefficient. -/
theorem coef_letter {k : Rat} {n : Name} (hn : Plain n) {tail : List Char}
    (ht : ∀ c t, tail = c :: t → StopChar c)
    {m : List Char × List Char} (hm : m ∈ rational (ratStr k ++ (n ++ tail))) {y : Char}
    {t : List Char} (hy : m.2 = y :: t) (hl : isLetter y = true) :
    m.1 = ratStr k ∧ m.2 = n ++ tail := by
  have hs := (sound_rational _ _ hm).1
  rcases List.append_eq_append_iff.1 hs with ⟨u, hu, hv⟩ | ⟨u, hu, hv⟩
  · rcases u with _ | ⟨c, u⟩
    · simp at hu hv; exact ⟨hu, hv.symm⟩
    · exfalso
      -- the match goes into the name
      obtain ⟨c0, n', rfl, hc0⟩ := plain_cons hn
      simp at hv
      obtain ⟨rfl, hv⟩ := hv
      obtain ⟨_, _, sg, ds, h3, h4, h5, h6⟩ := rational_letter hm hu hc0
      subst h3
      have hn' : ∀ z ∈ n', isLetter z = true ∨ isDigit z = true := fun z hz =>
        plain_chars hn (List.mem_cons_of_mem _ hz)
      -- no sign
      have hsg : sg = [] := by
        rcases h4 with h | h
        · exact h
        · exfalso
          have : ∃ z, sg = [z] ∧ isLetter z = false ∧ isDigit z = false ∧ (z = '-' ∨ z = '+') := by
            rcases h with rfl | rfl
            · exact ⟨'-', rfl, by decide, by decide, Or.inl rfl⟩
            · exact ⟨'+', rfl, by decide, by decide, Or.inr rfl⟩
          obtain ⟨z, rfl, z1, z2, z3⟩ := this
          rcases n' with _ | ⟨w, n'⟩
          · simp at hv
            have := (ht z _ hv).facts
            rcases z3 with h | h
            · exact this.2.2.2.2.2.2.1 h
            · exact this.2.2.2.2.2.2.2 h
          · simp at hv
            rcases hn' w (by simp) with h | h
            · rw [hv.1, z1] at h; cases h
            · rw [hv.1, z2] at h; cases h
      subst hsg
      simp only [List.nil_append] at hv
      rw [hy] at hv
      -- all that follows in the name are digits
      have hdig : Digits n' := by
        obtain ⟨l, d, h1, h2, h3, h4⟩ := hn
        rcases l with _ | ⟨l0, l⟩
        · exact absurd rfl h2
        · simp at h1
          obtain ⟨rfl, rfl⟩ := h1
          rcases l with _ | ⟨l1, l⟩
          · exact h4
          · exfalso
            obtain ⟨d0, ds', rfl⟩ := List.exists_cons_of_ne_nil h5
            simp at hv
            have := h3 l1 (by simp)
            rw [hv.1, not_letter_of_digit (h6 d0 (by simp))] at this
            cases this
      rcases List.append_eq_append_iff.1 hv with ⟨a, ha, hb⟩ | ⟨a, ha, hb⟩
      · rcases a with _ | ⟨z, a⟩
        · simp at hb
          have := (ht y t hb).facts.1
          rw [this] at hl; cases hl
        · have h1 := (ht z (a ++ y :: t) (by rw [hb]; rfl)).facts.2.1
          have h2 := h6 z (by rw [ha]; simp)
          rw [h1] at h2; cases h2
      · rcases a with _ | ⟨z, a⟩
        · simp at hb
          have := (ht y t hb.symm).facts.1
          rw [this] at hl; cases hl
        · simp at hb
          have := hdig z (by rw [ha]; simp)
          rw [hb.1, not_letter_of_digit this] at hl; cases hl
  · rcases u with _ | ⟨c, u⟩
    · simp at hu hv; exact ⟨hu.symm, hv⟩
    · exfalso
      rw [hy] at hv
      simp at hv
      have : isLetter c = false := (ratStr_numChar (x := k) (by rw [hu]; simp)).2
      rw [← hv.1, hl] at this; cases this

/-- The first match among those of a list in which only one kind of element can succeed. -/
theorem seq_head_only {α β : Type} {p : Pat α} {q : Pat β} {s : List Char} {a : α × List Char}
    {b : β × List Char} (hmem : a ∈ p s) (honly : ∀ x ∈ p s, q x.2 ≠ [] → x = a)
    (hb : (q a.2).head? = some b) : (Pat.seq p q s).head? = some ((a.1, b.1), b.2) := by
  cases h : (Pat.seq p q s).head? with
  | some m =>
    obtain ⟨x, hx, c, hc, rfl⟩ := seq_head_mem h
    have := honly x hx (by intro h0; rw [h0] at hc; simp at hc)
    subst this
    rw [hb] at hc; injection hc with hc; rw [hc]
  | none =>
    exfalso
    rw [List.head?_eq_none_iff] at h
    have hbm := mem_of_head? hb
    have : ((a.1, b.1), b.2) ∈ Pat.seq p q s := mem_seq.2 ⟨a, hmem, b, hbm, rfl⟩
    rw [h] at this; cases this

theorem matchSimplex_coef {k : Rat} (hk : k ≠ 0) {n : Name} (hn : ValidName n)
    (he : k = 1 ∨ ¬ ENum n) {x : Rat} (hx : Writable x) {rest : List Char} (hr : Stop rest)
    (hb : x ≠ 1 → NoBar rest) :
    matchSimplex (coefText k ++ (n ++ (powStr x ++ rest))) = .ok (some (⟨k, n, x⟩, rest)) := by
  have hp := validName_plain hn
  have ht : ∀ c t, powStr x ++ rest = c :: t → StopChar c := fun c t h => powStr_stop hr h
  obtain ⟨o, ho, hox⟩ := opt_exponent hx (rest := rest) (fun h => hr.halt (hb h))
    (fun _ => hr.not_caret)
  have hbase := base_head hn (rest := powStr x ++ rest)
    (fun c t h => ⟨(ht c t h).facts.1, (ht c t h).facts.2.1⟩)
  have hmk : mkOperand k n x = ⟨k, n, x⟩ := by simp [mkOperand, orOne, hk, hx.1, hn.ne_nil]
  by_cases h1 : k = 1
  · subst h1
    obtain ⟨c, t, hct, hc⟩ := hn.cons
    simp only [coefText, if_true, List.nil_append]
    have hnil : rational (n ++ (powStr x ++ rest)) = [] := by
      apply rational_nil
      intro c' t' h
      rw [hct] at h
      injection h with h _
      subst h
      exact ⟨not_digit_of_letter hc, ne_of_letter hc (by decide), ne_of_letter hc (by decide),
        ne_of_letter hc (by decide)⟩
    have hconst : constantPat.match (n ++ (powStr x ++ rest)) = none := by
      unfold Pat.match constantPat Pat.seq
      rw [hnil]; rfl
    have hvar : variablePat.match (n ++ (powStr x ++ rest)) = some (((none, n), o), rest) := by
      unfold Pat.match variablePat
      refine head_seq (a := ((none, n), powStr x ++ rest)) ?_ ho
      refine head_seq (a := (none, n ++ (powStr x ++ rest))) ?_ hbase
      unfold Pat.opt
      rw [hnil]
      simp
    unfold matchSimplex
    rw [hvar, hconst]
    simp only [buildVariable, stdCoef, hox, bind, Except.bind, pure, Except.pure, hmk]
  · have hen := he.resolve_left h1
    simp only [coefText, h1, if_false]
    have hvar : variablePat.match (ratStr k ++ (n ++ (powStr x ++ rest)))
        = some (((some (ratStr k), n), o), rest) := by
      unfold Pat.match variablePat
      refine head_seq (a := ((some (ratStr k), n), powStr x ++ rest)) ?_ ho
      refine seq_head_only (a := (some (ratStr k), n ++ (powStr x ++ rest)))
        (b := (n, powStr x ++ rest)) ?_ ?_ hbase
      · exact mem_opt.2 (Or.inl ⟨_, mem_rational k _, rfl⟩)
      · intro z hz hne
        obtain ⟨w, hw⟩ := List.exists_mem_of_ne_nil _ hne
        obtain ⟨y, t, hyt, hyl, _⟩ := basePat_head hw
        rcases mem_opt.1 hz with ⟨m, hm, rfl⟩ | rfl
        · simp only at hyt
          obtain ⟨e1, e2⟩ := coef_letter hp ht hm hyt hyl
          rw [e1, e2]
        · exfalso
          simp only at hyt
          obtain ⟨c, s, hcs, hc⟩ := ratStr_head k
          rw [hcs] at hyt
          simp at hyt
          rw [← hyt.1, first_not_letter (by tauto)] at hyl
          cases hyl
    have hbuild : buildVariable ((some (ratStr k), n), o) = .ok ⟨k, n, x⟩ := by
      simp only [buildVariable, stdCoef_ratStr, hox, bind, Except.bind, pure, Except.pure, hmk]
    unfold matchSimplex
    rw [hvar]
    cases hc : constantPat.match (ratStr k ++ (n ++ (powStr x ++ rest))) with
    | none => simp [hbuild, bind, Except.bind, pure, Except.pure]
    | some c =>
      have hne : rest ≠ c.2 := by
        intro hcr
        -- the constant would have the same text
        unfold Pat.match constantPat at hc
        obtain ⟨m, hm, w, hw, rfl⟩ := seq_head_mem hc
        simp only at hcr
        have hs := (sound_rational _ _ hm).1
        have hw' := mem_of_head? hw
        have hE : ∃ E, m.2 = E ++ rest ∧ (E = [] ∨ ∃ t, E = '^' :: t) := by
          rcases mem_opt.1 hw' with ⟨z, hz, rfl⟩ | rfl
          · simp only at hcr
            obtain ⟨a, ha, b, hb', rfl⟩ := mem_cat.1 hz
            obtain ⟨c', t', h1, h2, rfl⟩ := mem_char ha
            simp at h2; subst h2
            have h3 := (sound_rational _ _ hb').1
            simp only at h3 hcr
            exact ⟨'^' :: b.1, by rw [h1, h3, hcr]; simp, Or.inr ⟨_, rfl⟩⟩
          · simp only at hcr
            exact ⟨[], by simpa using hcr.symm, Or.inl rfl⟩
        obtain ⟨E, hE1, hE2⟩ := hE
        have heq : (m.1 ++ E) ++ rest = (ratStr k ++ n ++ powStr x) ++ rest := by
          rw [hE1] at hs
          simpa using hs.symm
        have heq := List.append_cancel_right heq
        obtain ⟨g1, _⟩ := split_caret (a := m.1) (b := ratStr k ++ n) (x := E) (y := powStr x)
          (fun c hc => not_caret_num ((sound_rational _ _ hm).2 c hc))
          (by
            intro c hc
            rcases List.mem_append.1 hc with h | h
            · exact not_caret_num (ratStr_numChar h).1
            · exact not_caret_name (plain_chars hp h))
          hE2 (powStr_caret x) heq
        obtain ⟨c0, n', rfl, hc0⟩ := plain_cons hp
        obtain ⟨_, q2, sg, ds, q3, q4, q5, q6⟩ := rational_letter hm g1 hc0
        have hsg : sg = [] := by
          rcases q4 with h | h
          · exact h
          · exfalso
            have : ∃ z, z ∈ sg ∧ isLetter z = false ∧ isDigit z = false := by
              rcases h with rfl | rfl
              · exact ⟨'-', by simp, by decide, by decide⟩
              · exact ⟨'+', by simp, by decide, by decide⟩
            obtain ⟨z, z1, z2, z3⟩ := this
            rcases plain_chars hp (c := z) (by rw [q3]; simp [z1]) with h | h
            · rw [z2] at h; cases h
            · rw [z3] at h; cases h
        subst hsg
        simp only [List.nil_append] at q3
        subst q3
        apply hen
        refine ⟨⟨n'.getLast q5, ?_, q6 _ (List.getLast_mem q5)⟩, ?_⟩
        · rw [List.getLast?_cons, List.getLast?_eq_some_getLast q5]; rfl
        · intro c hc hl
          rcases List.mem_cons.1 hc with rfl | hc
          · exact q2
          · rw [not_letter_of_digit (q6 c hc)] at hl; cases hl
      simp only [hne, if_false, hbuild, bind, Except.bind, pure, Except.pure]

/-! ## Brackets -/

theorem matchComplex_bracket {a : List Char} (ha : Balanced a) (hne : a ≠ []) {x : Rat}
    (hx : Writable x) {rest : List Char} (hr : x ≠ 1 → Halt rest)
    (hc : x = 1 → ∀ t, rest ≠ '^' :: t) :
    matchComplex ('(' :: (a ++ ')' :: (powStr x ++ rest))) = .ok (some (⟨1, a, x⟩, rest)) := by
  have hb : findBounds ('(' :: (a ++ ')' :: (powStr x ++ rest))) = some (0, a.length + 2) := by
    have := findBounds_group (rest := powStr x ++ rest) ha
    simpa using this
  have hdrop : ('(' :: (a ++ ')' :: (powStr x ++ rest))).drop (a.length + 2) = powStr x ++ rest := by
    have : '(' :: (a ++ ')' :: (powStr x ++ rest)) = ('(' :: a ++ [')']) ++ (powStr x ++ rest) := by
      simp
    rw [this]
    exact List.drop_left' (by simp)
  have hint : (('(' :: (a ++ ')' :: (powStr x ++ rest))).take (a.length + 2 - 1)).drop (0 + 1)
      = a := by
    have : '(' :: (a ++ ')' :: (powStr x ++ rest)) = ('(' :: a) ++ (')' :: (powStr x ++ rest)) := by
      simp
    rw [this, List.take_left' (by simp)]
    simp
  unfold matchComplex
  rw [hb]
  simp only [hint, hdrop, List.take_zero, fullSimplex_nil, bind, Except.bind]
  rw [if_neg (by simp)]
  have hmk : mkOperand 1 a x = ⟨1, a, x⟩ := by simp [mkOperand, orOne, hx.1, hne]
  by_cases h1 : x = 1
  · have hn : exponentPat.match (powStr x ++ rest) = none := by
      unfold Pat.match
      rw [show powStr x = [] from by simp [powStr, h1], List.nil_append, exponent_nil (hc h1)]
      rfl
    rw [hn]
    subst h1
    simp only [pure, Except.pure, hmk]
    rfl
  · have hp : powStr x = '^' :: ratStr x := by simp [powStr, h1]
    have hm : exponentPat.match ('^' :: ratStr x ++ rest) = some ('^' :: ratStr x, rest) := by
      have := head_cat (p := Pat.char (· = '^')) (q := rational) (s := '^' :: ratStr x ++ rest)
        (a := (['^'], ratStr x ++ rest)) (by simp [Pat.char]) (rational_ratStr hx.2 (hr h1))
      simpa [exponentPat, Pat.match] using this
    rw [hp, hm]
    simp only [stdExp_ratStr, bind, Except.bind, pure, Except.pure, hmk]

end Verif.Layout
