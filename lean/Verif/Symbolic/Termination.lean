import Verif.Symbolic.ParserLemmas

/-!
# Helper lemmas for the parser: termination and the errors that can occur
-/

set_option linter.unusedSimpArgs false
set_option linter.unusedSectionVars false

namespace Verif.Symbolic

open Verif.Py

/-- The errors that the parser documents. -/
def Documented (e : Err) : Prop :=
  e = .named "ParsingValueError" ∨ e = .named "RatioError" ∨ e = .named "ProductError"

/-- The arithmetic errors that escape from the parser. -/
def Arithmetic (e : Err) : Prop :=
  e = .zeroDivision ∨ e = .typeError ∨ e = .named "OverflowError" ∨ e = .named "inexact"

theorem bind_ok_iff {α β : Type} {r : Res α} {f : α → Res β} {b : β} :
    (r >>= f) = .ok b ↔ ∃ a, r = .ok a ∧ f a = .ok b := by
  cases r with
  | error e => simp [bind, Except.bind]
  | ok a => simp [bind, Except.bind]

theorem bind_error_iff {α β : Type} {r : Res α} {f : α → Res β} {e : Err} :
    (r >>= f) = .error e ↔ r = .error e ∨ ∃ a, r = .ok a ∧ f a = .error e := by
  cases r with
  | error e => simp [bind, Except.bind]
  | ok a => simp [bind, Except.bind]

theorem pure_ok {α : Type} {a b : α} : (pure a : Res α) = .ok b ↔ a = b := by
  simp [pure, Except.pure]

theorem pure_error {α : Type} {a : α} {e : Err} : (pure a : Res α) = .error e ↔ False := by
  simp [pure, Except.pure]

theorem powCoef_error {c p : Rat} {e : Err} (h : powCoef c p = .error e) : Arithmetic e := by
  unfold powCoef at h
  unfold Arithmetic
  repeat' split at h
  all_goals first | (cases h; done) | (injection h with h; subst h; simp)

theorem operandPow_error {t : Operand} {p : Rat} {e : Err} (h : t.pow p = .error e) :
    Arithmetic e := by
  unfold Operand.pow at h
  rcases bind_error_iff.1 h with h | ⟨a, _, h⟩
  · exact powCoef_error h
  · simp [pure_error] at h

theorem partPow_error {t : Part} {p : Rat} {e : Err} (h : t.pow p = .error e) :
    Arithmetic e := by
  unfold Part.pow at h
  cases t with
  | term t =>
    rcases bind_error_iff.1 h with h | ⟨a, _, h⟩
    · exact operandPow_error h
    · simp [pure_error] at h
  | group t =>
    rcases bind_error_iff.1 h with h | ⟨a, _, h⟩
    · exact operandPow_error h
    · simp [pure_error] at h

theorem fractionOf_error {s : List Char} {e : Err} (h : fractionOf s = .error e) :
    Arithmetic e := by
  unfold fractionOf at h
  simp only at h
  unfold Arithmetic
  split at h
  · split at h
    · injection h with h; subst h; simp
    · cases h
  · cases h
  · cases h

theorem stdCoef_error {s : Option (List Char)} {e : Err} (h : stdCoef s = .error e) :
    Arithmetic e := by
  unfold stdCoef at h
  split at h
  · cases h
  · cases h
  · exact fractionOf_error h

theorem stdExp_error {s : Option (List Char)} {e : Err} (h : stdExp s = .error e) :
    Arithmetic e := by
  unfold stdExp at h
  split at h
  · cases h
  · cases h
  · split at h
    · cases h
    · exact fractionOf_error h

theorem buildVariable_error {m} {e : Err} (h : buildVariable m = .error e) : Arithmetic e := by
  unfold buildVariable at h
  rcases bind_error_iff.1 h with h | ⟨a, _, h⟩
  · exact stdCoef_error h
  rcases bind_error_iff.1 h with h | ⟨a, _, h⟩
  · exact stdExp_error h
  · simp [pure_error] at h

theorem toFloat_error {x : Rat} {e : Err} (h : toFloat x = .error e) : Arithmetic e := by
  unfold toFloat at h
  simp only at h
  split at h
  · cases h
  · injection h with h; subst h; simp [Arithmetic]

theorem buildConstant_error {m} {e : Err} (h : buildConstant m = .error e) : Arithmetic e := by
  unfold buildConstant at h
  rcases bind_error_iff.1 h with h | ⟨a, _, h⟩
  · exact stdCoef_error h
  rcases bind_error_iff.1 h with h | ⟨a, _, h⟩
  · exact stdExp_error h
  rcases bind_error_iff.1 h with h | ⟨a, _, h⟩
  · exact powCoef_error h
  rcases bind_error_iff.1 h with h | ⟨a, _, h⟩
  · exact toFloat_error h
  · simp [pure_error] at h

theorem matchSimplex_error {s : List Char} {e : Err} (h : matchSimplex s = .error e) :
    Arithmetic e := by
  unfold matchSimplex at h
  split at h
  · cases h
  · rcases bind_error_iff.1 h with h | ⟨a, _, h⟩
    · exact buildVariable_error h
    · simp [pure_error] at h
  · rcases bind_error_iff.1 h with h | ⟨a, _, h⟩
    · exact buildConstant_error h
    · simp [pure_error] at h
  · split at h
    · rcases bind_error_iff.1 h with h | ⟨a, _, h⟩
      · exact buildConstant_error h
      · simp [pure_error] at h
    · rcases bind_error_iff.1 h with h | ⟨a, _, h⟩
      · exact buildVariable_error h
      · simp [pure_error] at h

theorem fullSimplex_error {s : List Char} {e : Err} (h : fullSimplex s = .error e) :
    Arithmetic e := by
  unfold fullSimplex at h
  split at h
  · cases h
  · rcases bind_error_iff.1 h with h | ⟨a, _, h⟩
    · exact buildVariable_error h
    · simp [pure_error] at h
  · rcases bind_error_iff.1 h with h | ⟨a, _, h⟩
    · exact buildConstant_error h
    · simp [pure_error] at h

theorem matchComplex_error {s : List Char} {e : Err} (h : matchComplex s = .error e) :
    Arithmetic e := by
  unfold matchComplex at h
  split at h
  · cases h
  · simp only at h
    rcases bind_error_iff.1 h with h | ⟨a, _, h⟩
    · exact fullSimplex_error h
    · split at h
      · simp [pure_error] at h
      · split at h
        · rcases bind_error_iff.1 h with h | ⟨a, _, h⟩
          · exact stdExp_error h
          · simp [pure_error] at h
        · simp [pure_error] at h

theorem parseOperand_error {s : List Char} {e : Err} (h : parseOperand s = .error e) :
    Arithmetic e := by
  unfold parseOperand at h
  simp only at h
  rcases bind_error_iff.1 h with h | ⟨a, _, h⟩
  · exact matchSimplex_error h
  · split at h
    · simp [pure_error] at h
    · rcases bind_error_iff.1 h with h | ⟨a, _, h⟩
      · exact matchComplex_error h
      · split at h <;> simp [pure_error] at h

theorem operatorError_documented {strict : Bool} {cur : Op} {prev : Option Op} {e : Err}
    (h : operatorError strict cur prev = some e) : Documented e := by
  unfold operatorError at h
  unfold Documented
  split at h
  · cases h
  · split at h
    · cases cur <;> simp at h <;> subst h <;> simp
    · cases h

theorem evaluate_error {o : Op} {p : Part} {e : Err} (h : evaluate o p = .error e) :
    Arithmetic e := by
  unfold evaluate at h
  split at h
  · cases h
  · exact partPow_error h
  · exact partPow_error h

theorem parseStep_error {strict : Bool} {power : Rat} {prev : Option Op} {s : List Char} {e : Err}
    (h : parseStep strict power prev s = .error e) : Documented e ∨ Arithmetic e := by
  unfold parseStep at h
  rcases bind_error_iff.1 h with h | ⟨a, _, h⟩
  · unfold getOperator at h
    split at h
    · cases h
    · split at h
      · next he => injection h with h; subst h; exact Or.inl (operatorError_documented he)
      · cases h
  · rcases bind_error_iff.1 h with h | ⟨b, _, h⟩
    · unfold getOperand at h
      rcases bind_error_iff.1 h with h | ⟨c, _, h⟩
      · exact Or.inr (parseOperand_error h)
      · split at h
        · injection h with h; subst h; left; simp [Documented]
        · rcases bind_error_iff.1 h with h | ⟨p', _, h⟩
          · exact Or.inr (partPow_error h)
          · simp [pure_error] at h
    · rcases bind_error_iff.1 h with h | ⟨new, _, h⟩
      · unfold computeOperand at h
        split at h
        · exact Or.inr (evaluate_error h)
        · cases h
      · simp [pure_error] at h

/-! ## Progress -/

theorem strip_length (s : List Char) : (strip s).length ≤ s.length := by
  unfold strip
  rw [List.length_reverse]
  calc _ ≤ (s.dropWhile isSpace).reverse.length := (List.dropWhile_sublist _).length_le
    _ = (s.dropWhile isSpace).length := List.length_reverse
    _ ≤ _ := (List.dropWhile_sublist _).length_le

/-- The text that a part still has to resolve. -/
def Part.Smaller (p : Part) (n : Nat) : Prop :=
  match p with
  | .term _ => True
  | .group o => o.base.length < n

theorem parseOperand_length {s : List Char} {p : Part} {rest : List Char}
    (h : parseOperand s = .ok (some (p, rest))) : rest.length < s.length ∧ p.Smaller s.length := by
  have hs := strip_length s
  unfold parseOperand at h
  simp only at h
  obtain ⟨a, ha, h⟩ := bind_ok_iff.1 h
  split at h
  · simp only [pure_ok, Option.some.injEq, Prod.mk.injEq] at h
    obtain ⟨rfl, rfl⟩ := h
    have := matchSimplex_length ha
    exact ⟨by omega, trivial⟩
  · obtain ⟨b, hb, h⟩ := bind_ok_iff.1 h
    split at h
    · simp only [pure_ok, Option.some.injEq, Prod.mk.injEq] at h
      obtain ⟨rfl, rfl⟩ := h
      have := matchComplex_length hb
      exact ⟨by omega, by simp only [Part.Smaller]; omega⟩
    · simp [pure_ok] at h

theorem infixPat_length {t a : Char} {s : List Char} {m} (h : (infixPat t a).match s = some m) :
    m.2.length ≤ s.length := by
  have hm := (List.mem_filter.1 (mem_of_head? h)).1
  have := (sound_cat (f := fun _ => True) (sound_star (fun _ _ => trivial))
    (sound_cat (sound_char (fun _ _ => trivial)) (sound_star (fun _ _ => trivial))) s m hm).1
  rw [this]; simp

theorem sqrtPat_length {s : List Char} {m} (h : sqrtPat.match s = some m) :
    m.2.length ≤ s.length := by
  have := (sound_cat (f := fun _ => True) (sound_star (fun _ _ => trivial))
    (sound_cat (sound_char (fun _ _ => trivial)) (sound_cat (sound_char (fun _ _ => trivial))
    (sound_cat (sound_char (fun _ _ => trivial)) (sound_cat (sound_char (fun _ _ => trivial))
    (sound_star (fun _ _ => trivial)))))) s m (mem_of_head? h)).1
  rw [this]; simp

theorem parseOperator_length {s rest : List Char} {o : Op} (h : parseOperator s = some (o, rest)) :
    rest.length ≤ s.length := by
  unfold parseOperator at h
  split at h
  · next hm => injection h with h; injection h with _ h; subst h; exact infixPat_length hm
  · split at h
    · next hm => injection h with h; injection h with _ h; subst h; exact infixPat_length hm
    · split at h
      · next hm => injection h with h; injection h with _ h; subst h; exact sqrtPat_length hm
      · cases h

theorem partPow_smaller {p q : Part} {x : Rat} {n : Nat} (hp : p.Smaller n) (hn : 1 < n)
    (h : p.pow x = .ok q) : q.Smaller n := by
  unfold Part.pow at h
  cases p with
  | term t =>
    obtain ⟨a, _, h⟩ := bind_ok_iff.1 h
    rw [pure_ok] at h; subst h; trivial
  | group o =>
    obtain ⟨a, ha, h⟩ := bind_ok_iff.1 h
    rw [pure_ok] at h; subst h
    unfold Operand.pow at ha
    obtain ⟨c, _, ha⟩ := bind_ok_iff.1 ha
    rw [pure_ok] at ha; subst ha
    simp only [Part.Smaller, mkOperand] at *
    split
    · simpa [one] using hn
    · exact hp

theorem partPow_smaller' {p q : Part} {x : Rat} {n : Nat} (hp : p.Smaller n)
    (h : p.pow x = .ok q) (hb : ∀ o, p = .group o → 1 < n) : q.Smaller n := by
  cases p with
  | term t =>
    unfold Part.pow at h
    obtain ⟨a, _, h⟩ := bind_ok_iff.1 h
    rw [pure_ok] at h; subst h; trivial
  | group o => exact partPow_smaller hp (hb o rfl) h

theorem parseOperand_group_length {s : List Char} {o : Operand} {rest : List Char}
    (h : parseOperand s = .ok (some (.group o, rest))) : 1 < s.length := by
  have hs := strip_length s
  unfold parseOperand at h
  simp only at h
  obtain ⟨a, ha, h⟩ := bind_ok_iff.1 h
  split at h
  · simp [pure_ok] at h
  · obtain ⟨b, hb, h⟩ := bind_ok_iff.1 h
    split at h
    · unfold matchComplex at hb
      split at hb
      · cases hb
      · next i0 stop hf =>
        have := findBounds_bounds hf
        omega
    · simp [pure_ok] at h

theorem partPow_group {p q : Part} {x : Rat} (h : p.pow x = .ok q) {o : Operand}
    (hq : q = .group o) : ∃ o', p = .group o' := by
  cases p with
  | term t =>
    unfold Part.pow at h
    obtain ⟨a, _, h⟩ := bind_ok_iff.1 h
    rw [pure_ok] at h; subst h; cases hq
  | group o' => exact ⟨o', rfl⟩

theorem getOperator_length {strict : Bool} {prev : Option Op} {s : List Char}
    {r : Option Op × List Char} (h : getOperator strict prev s = .ok r) :
    r.2.length ≤ s.length := by
  unfold getOperator at h
  split at h
  · injection h with h; subst h; exact le_refl _
  · next o r hop =>
    split at h
    · cases h
    · injection h with h; subst h; exact parseOperator_length hop

theorem parseStep_length {strict : Bool} {power : Rat} {prev : Option Op} {s : List Char}
    {r : Part × Option Op × List Char} (h : parseStep strict power prev s = .ok r) :
    r.2.2.length < s.length ∧ r.1.Smaller s.length := by
  unfold parseStep at h
  obtain ⟨⟨op, s1⟩, h1, h⟩ := bind_ok_iff.1 h
  have hs1 := getOperator_length h1
  simp only at h hs1
  obtain ⟨⟨p', rest⟩, hb, h⟩ := bind_ok_iff.1 h
  obtain ⟨new, hnew, h⟩ := bind_ok_iff.1 h
  rw [pure_ok] at h
  subst h
  simp only at hnew ⊢
  unfold getOperand at hb
  obtain ⟨b, hb, h⟩ := bind_ok_iff.1 hb
  rcases b with _ | ⟨p0, r0⟩
  · cases h
  · simp only at h
    have hlen := parseOperand_length (p := p0) (rest := r0) hb
    obtain ⟨p1, hp', h⟩ := bind_ok_iff.1 h
    rw [pure_ok] at h
    injection h with h2 h3
    subst h2; subst h3
    have l1 := hlen.1
    have l2 := hlen.2
    refine ⟨by omega, ?_⟩
    have hg : ∀ o, p0 = .group o → 1 < s1.length := by
      rintro o rfl; exact parseOperand_group_length hb
    have hp1 := partPow_smaller' l2 hp' hg
    have hp2 : new.Smaller s1.length := by
      unfold computeOperand at hnew
      rcases op with _ | o
      · injection hnew with hnew; subst hnew; exact hp1
      · simp only [evaluate] at hnew
        have hg' : ∀ o, p1 = .group o → 1 < s1.length := by
          intro o ho
          obtain ⟨o', ho'⟩ := partPow_group hp' ho
          exact hg o' ho'
        cases o with
        | multiply => injection hnew with hnew; subst hnew; exact hp1
        | divide => exact partPow_smaller' hp1 hnew hg'
        | sqrt => exact partPow_smaller' hp1 hnew hg'
    cases new with
    | term t => trivial
    | group o => simp only [Part.Smaller] at *; omega

theorem parseLoop_spec (strict : Bool) (power : Rat) : ∀ (n : Nat) (prev : Option Op)
    (s : List Char), s.length ≤ n →
    (∀ e, parseLoop strict power n prev s = .error e → Documented e ∨ Arithmetic e)
    ∧ (∀ ps, parseLoop strict power n prev s = .ok ps → ∀ p ∈ ps, p.Smaller s.length) := by
  intro n
  induction n with
  | zero =>
    intro prev s hs
    have : s = [] := List.length_eq_zero_iff.1 (by omega)
    subst this
    exact ⟨by intro e h; simp [parseLoop] at h, by intro ps h; simp [parseLoop] at h; subst h; simp⟩
  | succ n ih =>
    intro prev s hs
    cases s with
    | nil =>
      exact ⟨by intro e h; simp [parseLoop] at h,
        by intro ps h; simp [parseLoop] at h; subst h; simp⟩
    | cons c s =>
      constructor
      · intro e h
        simp only [parseLoop] at h
        rcases bind_error_iff.1 h with h | ⟨r, h1, h⟩
        · exact parseStep_error h
        · have := parseStep_length h1
          rcases bind_error_iff.1 h with h | ⟨more, _, h⟩
          · exact (ih r.2.1 r.2.2 (by simp at *; omega)).1 e h
          · simp [pure_error] at h
      · intro ps h p hp
        simp only [parseLoop] at h
        obtain ⟨r, h1, h⟩ := bind_ok_iff.1 h
        have hl := parseStep_length h1
        obtain ⟨more, h2, h⟩ := bind_ok_iff.1 h
        rw [pure_ok] at h; subst h
        rcases List.mem_cons.1 hp with rfl | hp
        · exact hl.2
        · have := (ih r.2.1 r.2.2 (by simp at *; omega)).2 more h2 p hp
          cases p with
          | term t => trivial
          | group o => simp only [Part.Smaller] at *; omega

theorem resolve_error (strict : Bool) : ∀ (n : Nat) (o : Operand), o.base.length < n →
    ∀ e, resolve strict n o = .error e → Documented e ∨ Arithmetic e := by
  intro n
  induction n with
  | zero => intro o h; omega
  | succ n ih =>
    intro o ho e h
    simp only [resolve] at h
    have hl := parseLoop_spec strict o.exp o.base.length none o.base (le_refl _)
    rcases bind_error_iff.1 h with h | ⟨parts, hp, h⟩
    · exact hl.1 e h
    · rcases bind_error_iff.1 h with h | ⟨more, _, h⟩
      · obtain ⟨p, hpm, hpe⟩ := Verif.Iterables.exists_of_mapM_error _ _ _ h
        have hsm := hl.2 parts hp p hpm
        cases p with
        | term t => simp [Part.resolveWith] at hpe
        | group g => exact ih g (by simp only [Part.Smaller] at hsm; omega) e hpe
      · simp [pure_error] at h

/-! ## More fuel changes nothing -/

theorem parseLoop_fuel (strict : Bool) (power : Rat) : ∀ (n m : Nat) (prev : Option Op)
    (s : List Char), s.length ≤ n → s.length ≤ m →
    parseLoop strict power n prev s = parseLoop strict power m prev s := by
  intro n
  induction n with
  | zero =>
    intro m prev s hs _
    have : s = [] := List.length_eq_zero_iff.1 (by omega)
    subst this
    cases m <;> rfl
  | succ n ih =>
    intro m prev s hs hm
    cases s with
    | nil => cases m <;> rfl
    | cons c s =>
      cases m with
      | zero => simp at hm
      | succ m =>
        simp only [parseLoop]
        cases hst : parseStep strict power prev (c :: s) with
        | error e => rfl
        | ok r =>
          have := (parseStep_length hst).1
          simp only [bind, Except.bind]
          rw [ih m r.2.1 r.2.2 (by simp at *; omega) (by simp at *; omega)]

theorem resolve_fuel (strict : Bool) : ∀ (n m : Nat) (o : Operand), o.base.length < n →
    o.base.length < m → resolve strict n o = resolve strict m o := by
  intro n
  induction n with
  | zero => intro m o h; omega
  | succ n ih =>
    intro m o hn hm
    cases m with
    | zero => omega
    | succ m =>
      simp only [resolve]
      have hl := parseLoop_spec strict o.exp o.base.length none o.base (le_refl _)
      cases hp : parseLoop strict o.exp o.base.length none o.base with
      | error e => rfl
      | ok parts =>
        have hsm := hl.2 parts hp
        simp only [bind, Except.bind]
        have : ∀ ps : List Part, (∀ p ∈ ps, p.Smaller o.base.length) →
            ps.mapM (Part.resolveWith (resolve strict n))
            = ps.mapM (Part.resolveWith (resolve strict m)) := by
          intro ps hps
          induction ps with
          | nil => rfl
          | cons p ps ihp =>
            simp only [List.mapM_cons]
            rw [ihp (fun q hq => hps q (List.mem_cons_of_mem _ hq))]
            have h0 := hps p (by simp)
            cases p with
            | term t => rfl
            | group g =>
              simp only [Part.Smaller] at h0
              simp only [Part.resolveWith]
              rw [ih m g (by omega) (by omega)]
        rw [this parts hsm]

end Verif.Symbolic
