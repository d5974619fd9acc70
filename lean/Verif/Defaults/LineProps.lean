import Verif.Defaults.ConstProps

/-!
# Reading source lines: properties C131, C132, C133
-/

set_option linter.unusedSimpArgs false
set_option linter.unusedSectionVars false

namespace Verif.Defaults

open Verif.Py Verif.Runtime

/-! ## Runs of characters -/

theorem takeWhile_run {p : Char → Bool} {a b : Str} (ha : ∀ c ∈ a, p c = true)
    (hb : ∀ c, b.head? = some c → p c = false) : (a ++ b).takeWhile p = a := by
  induction a with
  | nil =>
    cases b with
    | nil => rfl
    | cons c b => simp [hb c rfl]
  | cons x a ih =>
    rw [List.cons_append, List.takeWhile_cons, if_pos (ha x (by simp)),
      ih (fun c hc => ha c (by simp [hc]))]

theorem dropWhile_run {p : Char → Bool} {a b : Str} (ha : ∀ c ∈ a, p c = true)
    (hb : ∀ c, b.head? = some c → p c = false) : (a ++ b).dropWhile p = b := by
  induction a with
  | nil =>
    cases b with
    | nil => rfl
    | cons c b => simp [hb c rfl]
  | cons x a ih =>
    rw [List.cons_append, List.dropWhile_cons, if_pos (ha x (by simp)),
      ih (fun c hc => ha c (by simp [hc]))]

theorem afterPrefix_append (p s : Str) : afterPrefix p (p ++ s) = some s := by
  unfold afterPrefix
  rw [if_pos]
  · simp
  · rw [List.isPrefixOf_iff_prefix]; exact List.prefix_append p s

theorem afterPrefix_none {p s : Str} (h : ¬ p <+: s) : afterPrefix p s = none := by
  unfold afterPrefix
  rw [if_neg]
  rwa [List.isPrefixOf_iff_prefix]

/-! ## Dictionaries of parsed lines -/

/-- The value that the last matching line gives to a key. -/
def lastValue {α : Type} (f : Str → Option (Str × α)) (n : Str) : List Str → Option α
  | [] => none
  | l :: ls => (lastValue f n ls).or (match f l with
    | some (k, v) => if k = n then some v else none
    | none => none)

theorem extract_get {α : Type} (f : Str → Option (Str × α)) (n : Str) :
    ∀ (lines : List Str) (d : Dict Str α),
      (extract f lines d).get? n = (lastValue f n lines).or (d.get? n) := by
  intro lines
  induction lines with
  | nil => intro d; rfl
  | cons l ls ih =>
    intro d
    rw [extract, lastValue]
    cases h : f l with
    | none => simp [ih]
    | some kv =>
      obtain ⟨k, v⟩ := kv
      simp only [ih]
      by_cases hk : k = n
      · subst hk
        simp [Dict.get?_set_self]
      · rw [Dict.get?_set_ne _ _ hk]
        simp [hk]

/-! ## C131: constants in a header file -/

/-- White space only. -/
def Blank (w : Str) : Prop := ∀ c ∈ w, isSpace c = true

/-- A line of a header file: the definition of a constant, or a line that is not a `#define`. -/
inductive HeaderLine where
  | define (indent gap name gap' value tail : Str)
  | other (line : Str)

/-- The line as written. -/
def HeaderLine.text : HeaderLine → Str
  | .define i g n g' v t => i ++ (c!"#define" ++ (g ++ (n ++ (g' ++ v)))) ++ t
  | .other l => l

/-- Names are capital letters and underscores; values are numerals, names, brackets and arithmetic
operators, without surrounding blanks. -/
def HeaderLine.Ok : HeaderLine → Prop
  | .define i g n g' v t => Blank i ∧ Blank g ∧ g ≠ [] ∧ n ≠ [] ∧ (∀ c ∈ n, c.isUpper ∨ c = '_')
      ∧ Blank g' ∧ g' ≠ [] ∧ v ≠ [] ∧ Trimmed v ∧ (∀ c ∈ v, isValueChar c = true) ∧ Blank t
  | .other l => ¬ c!"#define" <+: strip l

/-- The value of a constant according to the file: that of the last definition. -/
def headerValue (n : Str) : List HeaderLine → Option Str
  | [] => none
  | .define _ _ m _ v _ :: ls => (headerValue n ls).or (if m = n then some v else none)
  | .other _ :: ls => headerValue n ls

theorem trimmed_mid {a v : Str} {c : Char} (hc : isSpace c = false) (ha : a.head? = some c)
    (hv : v ≠ []) (ht : Trimmed v) (m : Str) : Trimmed (a ++ (m ++ v)) := by
  constructor
  · intro d hd
    cases a with
    | nil => simp at ha
    | cons x a =>
      simp at ha hd
      subst ha; subst hd; exact hc
  · intro d hd
    refine ht.2 d ?_
    rw [← List.append_assoc, List.getLast?_append] at hd
    cases h : v.getLast? with
    | none => exact absurd (List.getLast?_eq_none_iff.1 h) hv
    | some x => rw [h] at hd; simpa using hd

theorem matchDefine_define {i g n g' v t : Str} (h : (HeaderLine.define i g n g' v t).Ok) :
    matchDefine (HeaderLine.define i g n g' v t).text = some (n, v) := by
  obtain ⟨hi, hg, hg0, hn0, hn, hg', hg0', hv0, hv, hvc, ht⟩ := h
  have hname : ∀ c ∈ n, isNameChar c = true := by
    intro c hc
    unfold isNameChar
    rcases hn c hc with h | h
    · simp [h]
    · simp [h]
  have hns : ∀ c ∈ n, isSpace c = false := by
    intro c hc
    rcases hn c hc with h | h
    · have hr : (65 ≤ c.toNat ∧ c.toNat ≤ 90) := by
        unfold Char.isUpper at h
        simp only [Bool.and_eq_true, decide_eq_true_eq] at h
        exact ⟨h.1, h.2⟩
      unfold isSpace
      simp only [Bool.or_eq_false_iff, Bool.and_eq_false_iff, decide_eq_false_iff_not, beq_eq_false_iff_ne]
      omega
    · rw [h]; decide
  have hgn : ∀ c ∈ g', isNameChar c = false := by
    intro c hc
    have h := hg' c hc
    by_contra hx
    have hx : isNameChar c = true := by simpa using hx
    unfold isNameChar at hx
    simp only [Bool.or_eq_true, beq_iff_eq] at hx
    rcases hx with hx | hx
    · have hr : (65 ≤ c.toNat ∧ c.toNat ≤ 90) := by
        unfold Char.isUpper at hx
        simp only [Bool.and_eq_true, decide_eq_true_eq] at hx
        exact ⟨hx.1, hx.2⟩
      unfold isSpace at h
      simp only [Bool.or_eq_true, Bool.and_eq_true, decide_eq_true_eq, beq_iff_eq] at h
      omega
    · rw [hx] at h; exact absurd h (by decide)
  have hstrip : strip (HeaderLine.define i g n g' v t).text = c!"#define" ++ (g ++ (n ++ (g' ++ v))) := by
    refine strip_spaced ?_ hi ht
    have := trimmed_mid (a := c!"#define") (c := '#') (by decide) rfl hv0 hv (g ++ (n ++ g'))
    simpa only [List.append_assoc] using this
  have hvh : ∀ c, v.head? = some c → isSpace c = false := hv.1
  have hnh : ∀ c, (n ++ (g' ++ v)).head? = some c → isSpace c = false := by
    intro c hc
    cases n with
    | nil => exact absurd rfl hn0
    | cons x n => simp at hc; subst hc; exact hns x (by simp)
  have hgh : ∀ c, (g' ++ v).head? = some c → isNameChar c = false := by
    intro c hc
    cases g' with
    | nil => exact absurd rfl hg0'
    | cons x n => simp at hc; subst hc; exact hgn x (by simp)
  unfold matchDefine
  rw [hstrip, afterPrefix_append]
  simp only
  rw [takeWhile_run hg hnh, dropWhile_run hg hnh, if_neg hg0, takeWhile_run hname hgh,
    dropWhile_run hname hgh, takeWhile_run hg' hvh, dropWhile_run hg' hvh, if_pos]
  exact ⟨hn0, hg0', hv0, List.all_eq_true.2 hvc⟩

theorem matchDefine_other {l : Str} (h : (HeaderLine.other l).Ok) : matchDefine l = none := by
  unfold matchDefine
  rw [afterPrefix_none h]

/-- **C131 (part).** For every header file made of definitions of constants (capital names, values
written with numerals, names, brackets and operators, any white space) and of other lines: loading
the file gives every constant the text of its last definition, and knows no other constant. -/
theorem c131_partial (ls : List HeaderLine) (h : ∀ l ∈ ls, l.Ok) (n : Str) :
    (loadBases (ls.map HeaderLine.text)).get? n = headerValue n ls := by
  rw [loadBases, extract_get]
  have : lastValue matchDefine n (ls.map HeaderLine.text) = headerValue n ls := by
    induction ls with
    | nil => rfl
    | cons l ls ih =>
      have hl := h l (by simp)
      have ih := ih (fun x hx => h x (by simp [hx]))
      rw [List.map_cons, lastValue, ih]
      cases l with
      | define i g m g' v t => rw [matchDefine_define hl, headerValue]
      | other l =>
        have : matchDefine (HeaderLine.other l).text = none := matchDefine_other hl
        rw [this, headerValue]; simp
  rw [this]
  simp [Dict.get?]

/-- A small header file, with a constant defined twice. -/
def sampleHeader : List HeaderLine :=
  [.other c!"/* baseTypes.h */", .define [] [' '] c!"AU" c!"   " c!"1.5e13" c!"\n",
   .define c!"  " c!"\t" c!"TAU" [' '] c!"( AU / C )" [], .other c!"int x;",
   .define [] [' '] c!"AU" [' '] c!"1.495978707e13" []]

example : (loadBases (sampleHeader.map HeaderLine.text)).get? c!"AU" = some c!"1.495978707e13"
    ∧ (loadBases (sampleHeader.map HeaderLine.text)).get? c!"TAU" = some c!"( AU / C )"
    ∧ (loadBases (sampleHeader.map HeaderLine.text)).get? c!"C" = none := by decide +kernel

example : ∀ l ∈ sampleHeader, l.Ok := by
  intro l hl
  simp only [sampleHeader, List.mem_cons, List.not_mem_nil, or_false] at hl
  rcases hl with rfl | rfl | rfl | rfl | rfl
  all_goals first
    | (unfold HeaderLine.Ok; decide +kernel)
    | (unfold HeaderLine.Ok Blank Trimmed; decide +kernel)

/-- **C131 fails in the code** for a name with a digit: the definition is not seen at all. -/
theorem c131_digit_counterexample :
    loadBases [c!"#define AU 1.5e13", c!"#define RSUN2 4.8e21"] = [(c!"AU", c!"1.5e13")] := by
  decide +kernel

/-- **C131 fails in the code** for a definition followed by a comment: the comment becomes part of
the value, which then cannot be evaluated. -/
theorem c131_comment_counterexample :
    (loadBases [c!"#define MP 1.6726e-24 /* g */"]).get? c!"MP" = some c!"1.6726e-24 /* g */"
    ∧ (loadBases [c!"#define MP 1.6726e-24 // g"]).get? c!"MP" = some c!"1.6726e-24 // g"
    ∧ getConstant (rationalBases [(c!"MP", c!"1.6726e-24 /* g */")]) 9 c!"MP"
      = .error (.named "ParsingValueError")
    ∧ getConstant (rationalBases [(c!"MP", c!"1.6726e-24 // g")]) 9 c!"MP"
      = .error (.named "ParsingValueError") := by
  decide +kernel

/-! ## C132: parameters in `configuration.c` -/

/-- An argument of a call: a text between blanks and quotes. -/
structure CallArg where
  before : Str
  body : Str
  after : Str

/-- The argument as written. -/
def CallArg.text (a : CallArg) : Str := a.before ++ a.body ++ a.after

/-- Only blanks and quotes surround the text, which has no commas and neither starts nor ends with a
blank or quote. -/
def CallArg.Ok (a : CallArg) : Prop :=
  (∀ c ∈ a.before, c = ' ' ∨ c = '"') ∧ (∀ c ∈ a.after, c = ' ' ∨ c = '"') ∧ ',' ∉ a.body
    ∧ (∀ c, a.body.head? = some c → c ≠ ' ' ∧ c ≠ '"')
    ∧ (∀ c, a.body.getLast? = some c → c ≠ ' ' ∧ c ≠ '"')

/-- Arguments separated by commas. -/
def argsText : List CallArg → Str
  | [] => []
  | [a] => a.text
  | a :: as => a.text ++ ',' :: argsText as

/-- A line that reads a parameter: `config.name = (char*)readMode("label", arguments);`. -/
structure CallLine where
  indent : Str
  name : Str
  gap : Str
  gap' : Str
  cast : Bool
  mode : Mode
  label : Str
  gap'' : Str
  args : List CallArg
  tail : Str

/-- The optional cast. -/
def castText (b : Bool) : Str := if b then c!"(char*)" else []

/-- The text from the equals sign to the first argument. -/
def CallLine.middle (c : CallLine) (rest : Str) : Str :=
  '=' :: (c.gap' ++ (castText c.cast ++ (modeName c.mode ++ ('(' :: ('"' :: (c.label ++
    ('"' :: (c.gap'' ++ (',' :: rest)))))))))

/-- The line as written. -/
def CallLine.text (c : CallLine) : Str :=
  c.indent ++ (c!"config." ++ (c.name ++ (c.gap ++ c.middle (argsText c.args ++ c!");")))) ++ c.tail

/-- Names are words, gaps are blank, and there is at least one argument (two for an array). -/
def CallLine.Ok (c : CallLine) : Prop :=
  Blank c.indent ∧ c.name ≠ [] ∧ (∀ x ∈ c.name, isWord x = true) ∧ Blank c.gap ∧ Blank c.gap'
    ∧ (∀ x ∈ c.label, isWord x = true) ∧ Blank c.gap'' ∧ c.args ≠ []
    ∧ (c.mode = .readDoubleArray → 2 ≤ c.args.length) ∧ (∀ a ∈ c.args, a.Ok) ∧ Blank c.tail

theorem word_not_space {c : Char} (h : isWord c = true) : isSpace c = false := by
  have hr : (48 ≤ c.toNat ∧ c.toNat ≤ 57) ∨ (65 ≤ c.toNat ∧ c.toNat ≤ 90)
      ∨ (97 ≤ c.toNat ∧ c.toNat ≤ 122) ∨ c.toNat = 95 := by
    unfold isWord Char.isAlphanum Char.isAlpha Char.isUpper Char.isLower Char.isDigit at h
    simp only [Bool.or_eq_true, Bool.and_eq_true, decide_eq_true_eq, beq_iff_eq] at h
    rcases h with ((⟨h1, h2⟩ | ⟨h1, h2⟩) | ⟨h1, h2⟩) | h
    · exact Or.inr (Or.inl ⟨h1, h2⟩)
    · exact Or.inr (Or.inr (Or.inl ⟨h1, h2⟩))
    · exact Or.inl ⟨h1, h2⟩
    · rw [h]; exact Or.inr (Or.inr (Or.inr rfl))
  unfold isSpace
  simp only [Bool.or_eq_false_iff, Bool.and_eq_false_iff, decide_eq_false_iff_not,
    beq_eq_false_iff_ne]
  omega

theorem space_not_word {c : Char} (h : isSpace c = true) : isWord c = false := by
  cases hw : isWord c with
  | false => rfl
  | true => rw [word_not_space hw] at h; cases h

theorem head_append_blank {p : Char → Bool} {w : Str} {x : Char} {s : Str}
    (hw : ∀ c ∈ w, p c = false) (hx : p x = false) :
    ∀ c, (w ++ x :: s).head? = some c → p c = false := by
  intro c hc
  cases w with
  | nil => simp at hc; subst hc; exact hx
  | cons y w => simp at hc; subst hc; exact hw y (by simp)

theorem trim_run {p : Char → Bool} {w a w' : Str} (hw : ∀ c ∈ w, p c = true)
    (hw' : ∀ c ∈ w', p c = true) (h1 : ∀ c, a.head? = some c → p c = false)
    (h2 : ∀ c, a.getLast? = some c → p c = false) :
    (((w ++ a ++ w').dropWhile p).reverse.dropWhile p).reverse = a := by
  cases a with
  | nil =>
    have : ((w ++ [] ++ w').dropWhile p) = [] := by
      rw [List.append_nil, List.dropWhile_eq_nil_iff]
      intro c hc
      rcases List.mem_append.1 hc with h | h
      · exact hw c h
      · exact hw' c h
    rw [this]; rfl
  | cons x a =>
    rw [List.append_assoc, dropWhile_run hw (by
      intro c hc
      rw [List.cons_append, List.head?_cons] at hc
      injection hc with hc
      subst hc
      exact h1 x rfl), List.reverse_append, dropWhile_run (by
      intro c hc
      exact hw' c (List.mem_reverse.1 hc)) (by
      intro c hc
      rw [List.head?_reverse] at hc
      exact h2 c hc), List.reverse_reverse]

theorem stripArg_text {a : CallArg} (h : a.Ok) : stripArg a.text = a.body := by
  obtain ⟨h1, h2, _, h4, h5⟩ := h
  have key : ∀ c, c = ' ' ∨ c = '"' → isQuoteOrBlank c = true := by
    rintro c (rfl | rfl) <;> decide
  have key' : ∀ c, c ≠ ' ' ∧ c ≠ '"' → isQuoteOrBlank c = false := by
    intro c h
    simp [isQuoteOrBlank, h.1, h.2]
  exact trim_run (fun c hc => key c (h1 c hc)) (fun c hc => key c (h2 c hc))
    (fun c hc => key' c (h4 c hc)) (fun c hc => key' c (h5 c hc))

theorem comma_text {a : CallArg} (h : a.Ok) : ',' ∉ a.text := by
  obtain ⟨h1, h2, h3, _, _⟩ := h
  simp only [CallArg.text, List.mem_append, not_or]
  refine ⟨⟨fun h => ?_, h3⟩, fun h => ?_⟩
  · rcases h1 _ h with h | h <;> exact absurd h (by decide)
  · rcases h2 _ h with h | h <;> exact absurd h (by decide)

theorem split_args : ∀ as : List CallArg, as ≠ [] → (∀ a ∈ as, a.Ok) →
    (splitChar ',' (argsText as)).map stripArg = as.map CallArg.body := by
  intro as
  induction as with
  | nil => intro h; exact absurd rfl h
  | cons a as ih =>
    intro _ h
    have ha := h a (by simp)
    cases as with
    | nil => simp [argsText, splitChar_none (comma_text ha), stripArg_text ha]
    | cons b bs =>
      rw [argsText, splitChar_append (comma_text ha), List.map_cons, stripArg_text ha,
        ih (by simp) (fun x hx => h x (by simp [hx]))]
      · rfl
      · simp

theorem matchMode_mode (m : Mode) (s : Str) : matchMode (modeName m ++ '(' :: s) = some (m, s) := by
  cases m <;> simp [matchMode, modeName, afterPrefix, List.isPrefixOf]

theorem skipCast_cast (b : Bool) (m : Mode) (s : Str) :
    skipCast (castText b ++ (modeName m ++ s)) = modeName m ++ s := by
  cases b
  · cases m <;> simp [skipCast, castText, modeName, afterPrefix, List.isPrefixOf]
  · rw [skipCast, castText, if_pos rfl, afterPrefix_append]; rfl

theorem beforeEnd_append (s : Str) : beforeEnd (s ++ c!");") = some s := by
  simp [beforeEnd]

theorem matchAlias_alias {a g s : Str} (ha : ∀ x ∈ a, isWord x = true) (hg : Blank g) :
    matchAlias ('"' :: (a ++ ('"' :: (g ++ (',' :: s))))) = some (a, s) := by
  have hq : isWord '"' = false := by decide
  have hc : isSpace ',' = false := by decide
  have h1 : ∀ c, ('"' :: (g ++ (',' :: s))).head? = some c → isWord c = false := by
    intro c h; simp at h; subst h; exact hq
  have h2 : ∀ c, (',' :: s).head? = some c → isSpace c = false := by
    intro c h; simp at h; subst h; exact hc
  rw [matchAlias]
  simp only [takeWhile_run ha h1, dropWhile_run ha h1, dropWhile_run hg h2]

theorem head_mode (b : Bool) (m : Mode) (s : Str) :
    ∀ c, (castText b ++ (modeName m ++ s)).head? = some c → isSpace c = false := by
  intro c hc
  cases b
  · cases m <;> (simp [castText, modeName] at hc; subst hc; decide)
  · simp [castText] at hc; subst hc; decide

theorem strip_call {c : CallLine} (h : c.Ok) : strip c.text
    = c!"config." ++ (c.name ++ (c.gap ++ c.middle (argsText c.args ++ c!");"))) := by
  obtain ⟨h1, _, _, _, _, _, _, _, _, _, h11⟩ := h
  refine strip_spaced ?_ h1 h11
  have := trimmed_mid (a := c!"config.") (v := c!");") (c := 'c') (by decide) rfl (by simp)
    ⟨by decide, by decide⟩ (c.name ++ (c.gap ++ c.middle (argsText c.args)))
  simpa [CallLine.middle, List.append_assoc] using this

theorem matchCall_call {c : CallLine} (h : c.Ok) :
    matchCall c.text = some ⟨c.name, c.mode, c.label, argsText c.args⟩ := by
  have hs := strip_call h
  obtain ⟨h1, h2, h3, h4, h5, h6, h7, h8, h9, h10, h11⟩ := h
  have e1 : ∀ x, (c.gap ++ c.middle (argsText c.args ++ c!");")).head? = some x → isWord x = false :=
    head_append_blank (fun x hx => space_not_word (h4 x hx)) (by decide)
  have e2 : ∀ x, (c.middle (argsText c.args ++ c!");")).head? = some x → isSpace x = false := by
    intro x hx
    simp [CallLine.middle] at hx
    subst hx; decide
  unfold matchCall
  rw [hs, afterPrefix_append]
  simp only
  rw [dropWhile_run h3 e1, takeWhile_run h3 e1, dropWhile_run h4 e2]
  simp only [CallLine.middle]
  rw [dropWhile_run h5 (head_mode _ _ _), skipCast_cast, matchMode_mode]
  simp only
  rw [matchAlias_alias h6 h7]
  simp only [beforeEnd_append, if_neg h2]

/-- What the package should know about a parameter read by a call: how it is read, the name in the
configuration file if that differs, and the arguments in their documented positions. -/
structure Describes (c : CallLine) (attrs : Attrs) : Prop where
  mode : attrs.get? c!"mode" = some (modeName c.mode)
  label : attrs.get? c!"alias" = if c.label = c.name then none else some c.label
  default : attrs.get? c!"default"
    = (c.args.map CallArg.body)[if c.mode = .readDoubleArray then 1 else 0]?
  minimum : attrs.get? c!"minimum" = if c.mode = .readInt ∨ c.mode = .readDouble
    then (c.args.map CallArg.body)[1]? else none
  maximum : attrs.get? c!"maximum" = if c.mode = .readInt ∨ c.mode = .readDouble
    then (c.args.map CallArg.body)[2]? else none
  size : attrs.get? c!"size" = if c.mode = .readDoubleArray
    then (c.args.map CallArg.body)[0]? else none

theorem parseCall_describes {c : CallLine} (h : c.Ok) :
    (parseCall ⟨c.name, c.mode, c.label, argsText c.args⟩).1 = c.name
    ∧ Describes c (parseCall ⟨c.name, c.mode, c.label, argsText c.args⟩).2 := by
  refine ⟨rfl, ?_⟩
  have hargs := split_args c.args h.2.2.2.2.2.2.2.1 h.2.2.2.2.2.2.2.2.2.1
  have key : (parseCall ⟨c.name, c.mode, c.label, argsText c.args⟩).2
      = if c.label ≠ c.name
        then (c!"alias", c.label) :: (c!"mode", modeName c.mode)
          :: (modeKeys c.mode).zip (c.args.map CallArg.body)
        else (c!"mode", modeName c.mode) :: (modeKeys c.mode).zip (c.args.map CallArg.body) := by
    simp only [parseCall, normalize, hargs]
  rw [key]
  obtain ⟨_, name, _, _, _, mode, label, _, args, _⟩ := c
  simp only
  clear key hargs h
  by_cases hl : label = name
  · rw [if_neg (by simp [hl])]
    cases mode <;> rcases args with _ | ⟨a, _ | ⟨b, _ | ⟨d, r⟩⟩⟩ <;>
      (constructor <;> simp [modeKeys, Dict.get?, hl])
  · rw [if_pos hl]
    cases mode <;> rcases args with _ | ⟨a, _ | ⟨b, _ | ⟨d, r⟩⟩⟩ <;>
      (constructor <;> simp [modeKeys, Dict.get?, hl])

/-- A line that declares an array of one number: `Scalar_t name[1] = {value};`. -/
structure ArrayLine where
  indent : Str
  gap : Str
  name : Str
  size : Str
  gap' : Str
  gap'' : Str
  value : Str
  tail : Str

/-- The line as written. -/
def ArrayLine.text (a : ArrayLine) : Str :=
  a.indent ++ (c!"Scalar_t" ++ (a.gap ++ (a.name ++ ('[' :: (a.size ++ (']' :: (a.gap' ++
    ('=' :: (a.gap'' ++ ('{' :: (a.value ++ c!"};"))))))))))) ++ a.tail

/-- The name is a word, the size is a number, the value is a plain decimal and gaps are blank. -/
def ArrayLine.Ok (a : ArrayLine) : Prop :=
  Blank a.indent ∧ Blank a.gap ∧ a.name ≠ [] ∧ (∀ x ∈ a.name, isWord x = true) ∧ a.size ≠ []
    ∧ (∀ x ∈ a.size, x.isDigit = true) ∧ Blank a.gap' ∧ Blank a.gap'' ∧ isPlainValue a.value = true
    ∧ Blank a.tail

/-- A line of `configuration.c`. -/
inductive SourceLine where
  | call (c : CallLine)
  | array (a : ArrayLine)
  | other (line : Str)

/-- The line as written. -/
def SourceLine.text : SourceLine → Str
  | .call c => c.text
  | .array a => a.text
  | .other l => l

/-- Other lines neither set a member of `config` nor declare a `Scalar_t`. -/
def SourceLine.Ok : SourceLine → Prop
  | .call c => c.Ok
  | .array a => a.Ok
  | .other l => ¬ c!"config." <+: strip l ∧ ¬ c!"Scalar_t" <+: strip l

theorem strip_array {a : ArrayLine} (h : a.Ok) : strip a.text
    = c!"Scalar_t" ++ (a.gap ++ (a.name ++ ('[' :: (a.size ++ (']' :: (a.gap' ++
    ('=' :: (a.gap'' ++ ('{' :: (a.value ++ c!"};")))))))))) := by
  obtain ⟨h1, _, _, _, _, _, _, _, _, h11⟩ := h
  refine strip_spaced ?_ h1 h11
  have := trimmed_mid (a := c!"Scalar_t") (v := c!"};") (c := 'S') (by decide) rfl (by simp)
    ⟨by decide, by decide⟩ (a.gap ++ (a.name ++ ('[' :: (a.size ++ (']' :: (a.gap' ++
    ('=' :: (a.gap'' ++ ('{' :: a.value)))))))))
  simpa [List.append_assoc] using this

theorem head_word {n s : Str} (h0 : n ≠ []) (h : ∀ x ∈ n, isWord x = true) :
    ∀ c, (n ++ s).head? = some c → isSpace c = false := by
  intro c hc
  cases n with
  | nil => exact absurd rfl h0
  | cons x n => simp at hc; subst hc; exact word_not_space (h x (by simp))

theorem matchArray_array {a : ArrayLine} (h : a.Ok) :
    matchArray a.text = some (a.name, '[' :: a.value ++ [']']) := by
  have hs := strip_array h
  obtain ⟨h1, h2, h3, h4, h5, h6, h7, h8, h9, h10⟩ := h
  unfold matchArray
  rw [hs, afterPrefix_append]
  have hh : ∀ {p : Char → Bool} {x : Char} {s : Str}, p x = false →
      ∀ c, (x :: s).head? = some c → p c = false := by
    intro p x s hx c hc
    simp at hc; subst hc; exact hx
  simp only
  rw [dropWhile_run h2 (head_word h3 h4), dropWhile_run h4 (hh (by decide)),
    takeWhile_run h4 (hh (by decide))]
  simp only
  rw [dropWhile_run h6 (hh (by decide)), takeWhile_run h6 (hh (by decide))]
  simp only
  rw [dropWhile_run h7 (hh (by decide))]
  simp only
  rw [dropWhile_run h8 (hh (by decide))]
  simp only [List.reverse_append]
  simp [h3, h5, h9]

theorem not_prefix_append {a b s : Str} (h : ¬ a <+: b) (h' : ¬ b <+: a) : ¬ a <+: b ++ s := by
  intro hp
  rcases List.prefix_or_prefix_of_prefix hp (List.prefix_append b s) with h1 | h1
  · exact h h1
  · exact h' h1

theorem matchCall_array {a : ArrayLine} (h : a.Ok) : matchCall a.text = none := by
  unfold matchCall
  rw [strip_array h, afterPrefix_none (not_prefix_append (by decide) (by decide))]

theorem matchArray_call {c : CallLine} (h : c.Ok) : matchArray c.text = none := by
  unfold matchArray
  rw [strip_call h, afterPrefix_none (not_prefix_append (by decide) (by decide))]

/-- The last call that sets a parameter. -/
def lastCall (n : Str) : List SourceLine → Option CallLine
  | [] => none
  | .call c :: ls => (lastCall n ls).or (if c.name = n then some c else none)
  | .array _ :: ls => lastCall n ls
  | .other _ :: ls => lastCall n ls

/-- The value in the last declaration of an array. -/
def lastArray (m : Str) : List SourceLine → Option Str
  | [] => none
  | .array a :: ls => (lastArray m ls).or (if a.name = m then some a.value else none)
  | .call _ :: ls => lastArray m ls
  | .other _ :: ls => lastArray m ls

/-- The argument of a call that gives the default. -/
def CallLine.default (c : CallLine) : Option Str :=
  (c.args.map CallArg.body)[if c.mode = .readDoubleArray then 1 else 0]?

theorem default_some {c : CallLine} (h : c.Ok) : ∃ d, c.default = some d := by
  obtain ⟨_, _, _, _, _, _, _, h0, h2, _⟩ := h
  unfold CallLine.default
  by_cases hm : c.mode = .readDoubleArray
  · rw [if_pos hm]
    have : 1 < c.args.length := h2 hm
    exact ⟨_, List.getElem?_eq_getElem (by simpa using this)⟩
  · rw [if_neg hm]
    have : 0 < c.args.length := List.length_pos_iff.2 h0
    exact ⟨_, List.getElem?_eq_getElem (by simpa using this)⟩

theorem arrays_get (ls : List SourceLine) (h : ∀ l ∈ ls, l.Ok) (m : Str) :
    (arrayDefaults (ls.map SourceLine.text)).get? m
      = (lastArray m ls).map (fun v => '[' :: v ++ [']']) := by
  rw [arrayDefaults, extract_get]
  simp only [Dict.get?_nil, Option.or_none]
  induction ls with
  | nil => rfl
  | cons l ls ih =>
    have hl := h l (by simp)
    rw [List.map_cons, lastValue, ih (fun x hx => h x (by simp [hx]))]
    cases l with
    | call c =>
      have : matchArray (SourceLine.call c).text = none := matchArray_call hl
      simp [this, lastArray]
    | array a =>
      have : matchArray (SourceLine.array a).text = _ := matchArray_array hl
      rw [this, lastArray]
      cases lastArray m ls with
      | none => by_cases hm : a.name = m <;> simp [hm]
      | some v => simp
    | other l =>
      have : matchArray (SourceLine.other l).text = none := by
        unfold matchArray SourceLine.text
        rw [afterPrefix_none hl.2]
      simp [this, lastArray]

/-- The attributes parsed from a call. -/
def callAttrs (c : CallLine) : Attrs := (parseCall ⟨c.name, c.mode, c.label, argsText c.args⟩).2

theorem call_step {l : SourceLine} (hl : l.Ok) :
    (matchCall l.text).map parseCall = match l with
      | .call c => some (c.name, callAttrs c)
      | _ => none := by
  cases l with
  | call c =>
    have : matchCall (SourceLine.call c).text = _ := matchCall_call hl
    rw [this]; rfl
  | array a =>
    have : matchCall (SourceLine.array a).text = none := matchCall_array hl
    rw [this]; rfl
  | other l =>
    have : matchCall (SourceLine.other l).text = none := by
      unfold matchCall SourceLine.text
      rw [afterPrefix_none hl.1]
    rw [this]; rfl

theorem assignments_get (ls : List SourceLine) (h : ∀ l ∈ ls, l.Ok) (n : Str) :
    (assignments (ls.map SourceLine.text)).get? n = (lastCall n ls).map callAttrs := by
  rw [assignments, extract_get]
  simp only [Dict.get?_nil, Option.or_none]
  induction ls with
  | nil => rfl
  | cons l ls ih =>
    have hl := h l (by simp)
    rw [List.map_cons, lastValue, ih (fun x hx => h x (by simp [hx])), call_step hl]
    cases l with
    | call c =>
      rw [lastCall]
      cases lastCall n ls with
      | none => by_cases hm : c.name = n <;> simp [hm]
      | some v => simp
    | array a => simp [lastCall]
    | other l => simp [lastCall]

theorem lastCall_ok {ls : List SourceLine} (h : ∀ l ∈ ls, l.Ok) {n : Str} {c : CallLine}
    (hc : lastCall n ls = some c) : c.Ok := by
  induction ls with
  | nil => cases hc
  | cons l ls ih =>
    have ih := fun hc => ih (fun x hx => h x (by simp [hx])) hc
    cases l with
    | call d =>
      rw [lastCall] at hc
      cases hl : lastCall n ls with
      | some e => rw [hl] at hc ih; exact ih hc
      | none =>
        rw [hl] at hc
        by_cases hn : d.name = n
        · rw [if_pos hn] at hc
          simp at hc
          subst hc
          exact h (.call d) (by simp)
        · rw [if_neg hn] at hc; cases hc
    | array a => exact ih hc
    | other l => exact ih hc

theorem nodup_extract {α : Type} (f : Str → Option (Str × α)) :
    ∀ (lines : List Str) (d : Dict Str α), d.keys.Nodup → (extract f lines d).keys.Nodup := by
  intro lines
  induction lines with
  | nil => intro d h; exact h
  | cons l ls ih =>
    intro d h
    rw [extract]
    cases hf : f l with
    | none => exact ih d h
    | some kv => exact ih _ (Dict.nodup_keys_set h _ _)

theorem mapDict_get {α β : Type} (f : α → Res β) :
    ∀ d : Dict Str α, (∀ e ∈ d, ∃ b, f e.2 = .ok b) →
      ∃ d', mapDict f d = .ok d' ∧ ∀ n, d'.get? n = (d.get? n).bind (fun a => (f a).toOption) := by
  intro d
  induction d with
  | nil => intro _; exact ⟨[], rfl, fun n => rfl⟩
  | cons e d ih =>
    intro h
    obtain ⟨k, a⟩ := e
    obtain ⟨b, hb⟩ := h (k, a) (by simp)
    obtain ⟨d', hd', hg⟩ := ih (fun x hx => h x (by simp [hx]))
    refine ⟨(k, b) :: d', ?_, ?_⟩
    · have hb : f a = .ok b := hb
      rw [mapDict, hb]; simp only [hd']
    · intro n
      rw [Dict.get?_cons, Dict.get?_cons]
      by_cases hk : k = n
      · have hb : f a = .ok b := hb
        simp [hk, hb, Except.toOption]
      · simp [hk, hg]

/-- Loading a source file: the entry of every parameter comes from its last call. -/
theorem load_get (ls : List SourceLine) (h : ∀ l ∈ ls, l.Ok) :
    ∃ d, loadConfiguration (ls.map SourceLine.text) = .ok d ∧
      (∀ n, lastCall n ls = none → d.get? n = none) ∧
      (∀ n c m, lastCall n ls = some c → c.default = some m → lastArray m ls = none →
        d.get? n = some (callAttrs c)) ∧
      (∀ n c m v, lastCall n ls = some c → c.default = some m → lastArray m ls = some v →
        d.get? n = some [(c!"mode", modeName c.mode), (c!"default", '[' :: v ++ [']'])]) := by
  have hsub : ∀ n c m, lastCall n ls = some c → c.default = some m →
      substitute (arrayDefaults (ls.map SourceLine.text)) (callAttrs c)
        = match lastArray m ls with
          | none => .ok (callAttrs c)
          | some v => .ok [(c!"mode", modeName c.mode), (c!"default", '[' :: v ++ [']'])] := by
    intro n c m hc hm
    have hd := (parseCall_describes (lastCall_ok h hc)).2
    have h1 : (callAttrs c).get? c!"default" = some m := hd.default.trans hm
    have h2 : (callAttrs c).get? c!"mode" = some (modeName c.mode) := hd.mode
    unfold substitute
    rw [h1, h2]
    simp only [arrays_get ls h]
    cases lastArray m ls <;> rfl
  have hnd : (assignments (ls.map SourceLine.text)).keys.Nodup :=
    nodup_extract _ _ _ (by simp)
  obtain ⟨d, hd, hg⟩ := mapDict_get (substitute (arrayDefaults (ls.map SourceLine.text)))
    (assignments (ls.map SourceLine.text)) (by
      intro e he
      have hge := Dict.get?_of_mem hnd (k := e.1) (v := e.2) he
      rw [assignments_get ls h] at hge
      cases hc : lastCall e.1 ls with
      | none => rw [hc] at hge; cases hge
      | some c =>
        rw [hc] at hge
        simp only [Option.map_some, Option.some.injEq] at hge
        obtain ⟨m, hm⟩ := default_some (lastCall_ok h hc)
        rw [← hge, hsub _ c m hc hm]
        cases lastArray m ls with
        | none => exact ⟨_, rfl⟩
        | some v => exact ⟨_, rfl⟩)
  refine ⟨d, hd, ?_, ?_, ?_⟩
  · intro n hn
    rw [hg, assignments_get ls h, hn]; rfl
  · intro n c m hc hm ha
    rw [hg, assignments_get ls h, hc]
    simp only [Option.map_some, Option.bind_some, hsub n c m hc hm, ha]; rfl
  · intro n c m v hc hm ha
    rw [hg, assignments_get ls h, hc]
    simp only [Option.map_some, Option.bind_some, hsub n c m hc hm, ha]; rfl

/-- **C132 (part).** For every source file made of calls `config.name = readMode("label", …);`, one
per line, with arguments that contain no commas, of declarations of one-element arrays, and of other
lines: the file loads, only the parameters it sets are known, and, unless the default is the name of
an array, each is described as in its last call: its mode, its label if that differs from its name,
its default, and its bounds or size. -/
theorem c132_partial (ls : List SourceLine) (h : ∀ l ∈ ls, l.Ok) :
    ∃ d, loadConfiguration (ls.map SourceLine.text) = .ok d ∧ ∀ n,
      match lastCall n ls with
      | none => d.get? n = none
      | some c => (∀ m, c.default = some m → lastArray m ls = none) →
          ∃ attrs, d.get? n = some attrs ∧ Describes c attrs := by
  obtain ⟨d, hd, h1, h2, _⟩ := load_get ls h
  refine ⟨d, hd, fun n => ?_⟩
  cases hc : lastCall n ls with
  | none => exact h1 n hc
  | some c =>
    intro ha
    obtain ⟨m, hm⟩ := default_some (lastCall_ok h hc)
    exact ⟨_, h2 n c m hc hm (ha m hm), (parseCall_describes (lastCall_ok h hc)).2⟩

/-- **C133 (part).** In such a file, a parameter whose default is the name of a declared array gets
the array's value, in brackets, as its default, and keeps its mode. -/
theorem c133_partial (ls : List SourceLine) (h : ∀ l ∈ ls, l.Ok) (n m v : Str) (c : CallLine)
    (hc : lastCall n ls = some c) (hm : c.default = some m) (hv : lastArray m ls = some v) :
    ∃ d attrs, loadConfiguration (ls.map SourceLine.text) = .ok d ∧ d.get? n = some attrs
      ∧ attrs.get? c!"default" = some ('[' :: v ++ [']'])
      ∧ attrs.get? c!"mode" = some (modeName c.mode) := by
  obtain ⟨d, hd, _, _, h3⟩ := load_get ls h
  exact ⟨d, _, hd, h3 n c m v hc hm hv, by simp [Dict.get?], by simp [Dict.get?]⟩

/-- A small source file. -/
def sampleSource : List SourceLine :=
  [.other c!"Config_t config;", .array ⟨c!"  ", [' '], c!"defaultMass", ['1'], [' '], [' '], c!"1.0", []⟩,
   .call ⟨c!"  ", c!"numNodesPerStream", [' '], [' '], false, .readInt, c!"numNodesPerStream", [],
     [⟨[' '], c!"N_PROCS", []⟩, ⟨[' '], c!"N_PROCS", []⟩, ⟨[' '], c!"LARGEINT", []⟩], []⟩,
   .call ⟨c!"  ", c!"mass", [' '], [' '], false, .readDoubleArray, c!"mass", [' '],
     [⟨[' '], c!"1", []⟩, ⟨[], c!"defaultMass", [' ']⟩], c!"\n"⟩,
   .call ⟨c!"  ", c!"warningsFile", [], [], true, .readString, c!"warnings", [],
     [⟨c!" \"", c!"warningsXXX.txt", c!"\""⟩], []⟩]

example : sampleSource.map SourceLine.text = [c!"Config_t config;",
    c!"  Scalar_t defaultMass[1] = {1.0};",
    c!"  config.numNodesPerStream = readInt(\"numNodesPerStream\", N_PROCS, N_PROCS, LARGEINT);",
    c!"  config.mass = readDoubleArray(\"mass\" , 1,defaultMass );\n",
    c!"  config.warningsFile=(char*)readString(\"warnings\", \"warningsXXX.txt\");"] := by
  decide +kernel

example : loadConfiguration (sampleSource.map SourceLine.text) = .ok
    [(c!"numNodesPerStream", [(c!"mode", c!"readInt"), (c!"default", c!"N_PROCS"),
      (c!"minimum", c!"N_PROCS"), (c!"maximum", c!"LARGEINT")]),
     (c!"mass", [(c!"mode", c!"readDoubleArray"), (c!"default", c!"[1.0]")]),
     (c!"warningsFile", [(c!"alias", c!"warnings"), (c!"mode", c!"readString"),
      (c!"default", c!"warningsXXX.txt")])] := by decide +kernel

example : ∀ l ∈ sampleSource, l.Ok := by
  intro l hl
  simp only [sampleSource, List.mem_cons, List.not_mem_nil, or_false] at hl
  rcases hl with rfl | rfl | rfl | rfl | rfl
  all_goals
    (unfold SourceLine.Ok
     try unfold CallLine.Ok Blank
     try unfold ArrayLine.Ok Blank
     try unfold CallArg.Ok
     decide +kernel)

/-- **C132 fails in the code** for an argument with a comma: a quoted text or a nested call is cut at
its first comma, and the rest moves to the next position. -/
theorem c132_comma_counterexample :
    loadConfiguration [c!"config.warningsFile = (char*)readString(\"warningsFile\", \"a,b.txt\");"]
      = .ok [(c!"warningsFile", [(c!"mode", c!"readString"), (c!"default", c!"a")])]
    ∧ loadConfiguration [c!"config.x = readDouble(\"x\", pow(2.0, 3.0), 1.0, 9.0);"]
      = .ok [(c!"x", [(c!"mode", c!"readDouble"), (c!"default", c!"pow(2.0"),
          (c!"minimum", c!"3.0)"), (c!"maximum", c!"1.0")])] :=
  ⟨by decide +kernel, by decide +kernel⟩

/-- **C132 fails in the code** for a statement followed by a comment, or spread over two lines: the
parameter is silently missing. -/
theorem c132_layout_counterexample :
    loadConfiguration [c!"config.x = readDouble(\"x\", 1.0, 0.0, 2.0); // fraction"] = .ok []
    ∧ loadConfiguration [c!"config.x = readDouble(\"x\", 1.0,", c!"    0.0, 2.0);"] = .ok [] :=
  ⟨by decide +kernel, by decide +kernel⟩

/-- **C133 fails in the code** for an array of two elements, or of one number written with a sign or
an exponent: the default stays the name of a C variable. -/
theorem c133_array_counterexample :
    loadConfiguration [c!"Scalar_t m[2] = {1.0, 4.0};",
        c!"config.mass = readDoubleArray(\"mass\", 2, m);"]
      = .ok [(c!"mass", [(c!"mode", c!"readDoubleArray"), (c!"size", c!"2"), (c!"default", c!"m")])]
    ∧ loadConfiguration [c!"Scalar_t m[1] = {-1.0};",
        c!"config.charge = readDoubleArray(\"charge\", 1, m);"]
      = .ok [(c!"charge", [(c!"mode", c!"readDoubleArray"), (c!"size", c!"1"), (c!"default", c!"m")])]
    ∧ loadConfiguration [c!"Scalar_t m[1] = {1e3};",
        c!"config.mass = readDoubleArray(\"mass\", 1, m);"]
      = .ok [(c!"mass", [(c!"mode", c!"readDoubleArray"), (c!"size", c!"1"), (c!"default", c!"m")])] :=
  ⟨by decide +kernel, by decide +kernel, by decide +kernel⟩

/-- **C132 fails in the code** when the default is the name of an array: the label under which the
configuration file names the parameter is forgotten. -/
theorem c133_label_counterexample :
    loadConfiguration [c!"Scalar_t m[1] = {1.0};",
        c!"config.mass = readDoubleArray(\"massNumber\", 1, m);"]
      = .ok [(c!"mass", [(c!"mode", c!"readDoubleArray"), (c!"default", c!"[1.0]")])]
    ∧ loadConfiguration [c!"config.mass = readDoubleArray(\"massNumber\", 1, m);"]
      = .ok [(c!"mass", [(c!"alias", c!"massNumber"), (c!"mode", c!"readDoubleArray"),
          (c!"size", c!"1"), (c!"default", c!"m")])] :=
  ⟨by decide +kernel, by decide +kernel⟩

end Verif.Defaults
