import Verif.Symbolic.Parser
import Verif.Iterables.Lemmas
import Mathlib.Tactic.Linarith

/-!
# Helper lemmas for the parser: matchers, progress and brackets
-/

set_option linter.unusedSimpArgs false
set_option linter.unusedSectionVars false

namespace Verif.Symbolic

open Verif.Py

/-! ## Matchers -/

/-- Every match splits the string, and the captured text consists of allowed characters. -/
def Sound (f : Char → Prop) (p : Pat (List Char)) : Prop :=
  ∀ s m, m ∈ p s → s = m.1 ++ m.2 ∧ ∀ c ∈ m.1, f c

theorem sound_char {f : Char → Prop} {g : Char → Bool} (h : ∀ c, g c = true → f c) :
    Sound f (Pat.char g) := by
  intro s m hm
  cases s with
  | nil => simp [Pat.char] at hm
  | cons c s =>
    simp only [Pat.char] at hm
    split at hm
    · next hc => simp at hm; subst hm; simp [h c hc]
    · simp at hm

theorem sound_star {f : Char → Prop} {g : Char → Bool} (h : ∀ c, g c = true → f c) :
    Sound f (Pat.star g) := by
  intro s
  induction s with
  | nil => intro m hm; simp [Pat.star] at hm; subst hm; simp
  | cons c s ih =>
    intro m hm
    simp only [Pat.star] at hm
    split at hm
    · next hc =>
      rcases List.mem_append.1 hm with hm | hm
      · obtain ⟨k, hk, rfl⟩ := List.mem_map.1 hm
        have := ih k hk
        refine ⟨by simp [← this.1], ?_⟩
        intro c' hc'
        rcases List.mem_cons.1 hc' with rfl | h'
        · exact h _ hc
        · exact this.2 c' h'
      · simp at hm; subst hm; simp
    · simp at hm; subst hm; simp

theorem sound_lazyStar {f : Char → Prop} {g : Char → Bool} (h : ∀ c, g c = true → f c) :
    Sound f (Pat.lazyStar g) := by
  intro s
  induction s with
  | nil => intro m hm; simp [Pat.lazyStar] at hm; subst hm; simp
  | cons c s ih =>
    intro m hm
    simp only [Pat.lazyStar] at hm
    rcases List.mem_cons.1 hm with hm | hm
    · subst hm; simp
    · split at hm
      · next hc =>
        obtain ⟨k, hk, rfl⟩ := List.mem_map.1 hm
        have := ih k hk
        refine ⟨by simp [← this.1], ?_⟩
        intro c' hc'
        rcases List.mem_cons.1 hc' with rfl | h'
        · exact h _ hc
        · exact this.2 c' h'
      · simp at hm

theorem mem_cat {p q : Pat (List Char)} {s : List Char} {m : List Char × List Char} :
    m ∈ Pat.cat p q s ↔ ∃ a ∈ p s, ∃ b ∈ q a.2, m = (a.1 ++ b.1, b.2) := by
  simp only [Pat.cat, Pat.seq, List.mem_map, List.mem_flatMap]
  constructor
  · rintro ⟨_, ⟨a, ha, ⟨b, hb, rfl⟩⟩, rfl⟩; exact ⟨a, ha, b, hb, rfl⟩
  · rintro ⟨a, ha, b, hb, rfl⟩; exact ⟨_, ⟨a, ha, b, hb, rfl⟩, rfl⟩

theorem sound_cat {f : Char → Prop} {p q : Pat (List Char)} (hp : Sound f p) (hq : Sound f q) :
    Sound f (Pat.cat p q) := by
  intro s m hm
  obtain ⟨a, ha, b, hb, rfl⟩ := mem_cat.1 hm
  obtain ⟨h1, h2⟩ := hp s a ha
  obtain ⟨h3, h4⟩ := hq _ b hb
  refine ⟨by simp [← h3, ← h1], ?_⟩
  intro c hc
  rcases List.mem_append.1 hc with h | h
  · exact h2 c h
  · exact h4 c h

theorem sound_optText {f : Char → Prop} {p : Pat (List Char)} (hp : Sound f p) :
    Sound f (Pat.optText p) := by
  intro s m hm
  rcases List.mem_append.1 hm with h | h
  · exact hp s m h
  · simp at h; subst h; simp

theorem sound_alt {f : Char → Prop} {p q : Pat (List Char)} (hp : Sound f p) (hq : Sound f q) :
    Sound f (fun s => p s ++ q s) := by
  intro s m hm
  rcases List.mem_append.1 hm with h | h
  · exact hp s m h
  · exact hq s m h

theorem sound_guard {f : Char → Prop} {p : Pat (List Char)} (g : List Char → Bool)
    (hp : Sound f p) : Sound f (fun s => if g s then p s else []) := by
  intro s m hm
  simp only at hm
  split at hm
  · exact hp s m hm
  · simp at hm

/-- The characters of numbers. -/
def NumChar (c : Char) : Prop :=
  isDigit c = true ∨ c = '+' ∨ c = '-' ∨ c = '/' ∨ c = '.' ∨ c = 'e' ∨ c = 'E'

/-- The signed tail after the sign. -/
def unsigned : Pat (List Char) := fun s => if numberAhead s then
      Pat.cat (Pat.star isDigit)
        (fun t =>
          Pat.cat (Pat.char (· = '/')) (Pat.cat (Pat.char isDigit) (Pat.lazyStar isDigit)) t
          ++ Pat.cat
              (Pat.optText (Pat.cat (Pat.char (· = '.')) (Pat.star isDigit)))
              (Pat.optText (Pat.cat (Pat.char (fun c => c = 'e' || c = 'E'))
                (Pat.cat (Pat.optText (Pat.char (fun c => c = '-' || c = '+')))
                  (Pat.cat (Pat.char isDigit) (Pat.star isDigit))))) t) s
      else []

theorem rational_eq :
    rational = Pat.cat (Pat.optText (Pat.char (fun c => c = '-' || c = '+'))) unsigned := rfl

theorem sound_rational : Sound NumChar rational := by
  have hd : ∀ c, isDigit c = true → NumChar c := fun c h => Or.inl h
  have hsgn : ∀ c : Char, (decide (c = '-') || decide (c = '+')) = true → NumChar c := by
    intro c h; simp at h; unfold NumChar; tauto
  apply sound_cat (sound_optText (sound_char hsgn))
  apply sound_guard
  apply sound_cat (sound_star hd)
  apply sound_alt
  · exact sound_cat (sound_char (by intro c h; simp at h; unfold NumChar; tauto))
      (sound_cat (sound_char hd) (sound_lazyStar hd))
  · apply sound_cat (sound_optText (sound_cat (sound_char (by
      intro c h; simp at h; unfold NumChar; tauto)) (sound_star hd)))
    exact sound_optText (sound_cat (sound_char (by
      intro c h; simp at h; unfold NumChar; tauto)) (sound_cat (sound_optText (sound_char hsgn))
        (sound_cat (sound_char hd) (sound_star hd))))

theorem sound_true_of {f : Char → Prop} {p : Pat (List Char)} (h : Sound f p) :
    Sound (fun _ => True) p := fun s m hm => ⟨(h s m hm).1, fun _ _ => trivial⟩

theorem sound_basePat : Sound (fun c => isLetter c = true ∨ isDigit c = true) basePat :=
  sound_cat (sound_cat (sound_char (fun _ h => Or.inl h)) (sound_star (fun _ h => Or.inl h)))
    (sound_star (fun _ h => Or.inr h))

theorem basePat_head {s : List Char} {m : List Char × List Char} (h : m ∈ basePat s) :
    ∃ c t, s = c :: t ∧ isLetter c = true ∧ m.1 ≠ [] := by
  obtain ⟨a, ha, b, hb, rfl⟩ := mem_cat.1 h
  obtain ⟨a', ha', b', hb', rfl⟩ := mem_cat.1 ha
  cases s with
  | nil => simp [Pat.char] at ha'
  | cons c t =>
    simp only [Pat.char] at ha'
    split at ha'
    · next hc => simp at ha'; subst ha'; exact ⟨c, t, rfl, hc, by simp⟩
    · simp at ha'

theorem sound_exponentPat : Sound (fun _ => True) exponentPat :=
  sound_cat (sound_char (fun _ _ => trivial)) (sound_true_of sound_rational)

theorem mem_opt {α : Type} {p : Pat α} {s : List Char} {m : Option α × List Char} :
    m ∈ Pat.opt p s ↔ (∃ k ∈ p s, m = (some k.1, k.2)) ∨ m = (none, s) := by
  simp only [Pat.opt, List.mem_append, List.mem_map, List.mem_singleton]
  constructor
  · rintro (⟨k, hk, rfl⟩ | h)
    · exact Or.inl ⟨k, hk, rfl⟩
    · exact Or.inr h
  · rintro (⟨k, hk, rfl⟩ | h)
    · exact Or.inl ⟨k, hk, rfl⟩
    · exact Or.inr h

theorem mem_seq {α β : Type} {p : Pat α} {q : Pat β} {s : List Char} {m : (α × β) × List Char} :
    m ∈ Pat.seq p q s ↔ ∃ a ∈ p s, ∃ b ∈ q a.2, m = ((a.1, b.1), b.2) := by
  simp only [Pat.seq, List.mem_flatMap, List.mem_map]
  constructor
  · rintro ⟨a, ha, b, hb, rfl⟩; exact ⟨a, ha, b, hb, rfl⟩
  · rintro ⟨a, ha, b, hb, rfl⟩; exact ⟨a, ha, b, hb, rfl⟩

theorem opt_length {p : Pat (List Char)} (hp : Sound (fun _ => True) p) {s : List Char}
    {m : Option (List Char) × List Char} (h : m ∈ Pat.opt p s) : m.2.length ≤ s.length := by
  rcases mem_opt.1 h with ⟨k, hk, rfl⟩ | rfl
  · rw [(hp s k hk).1]; simp
  · simp

theorem variablePat_length {s : List Char} {m} (h : m ∈ variablePat s) :
    m.2.length < s.length := by
  obtain ⟨a, ha, b, hb, rfl⟩ := mem_seq.1 h
  obtain ⟨a', ha', b', hb', rfl⟩ := mem_seq.1 ha
  have h1 := opt_length (sound_true_of sound_rational) ha'
  have h2 := (sound_basePat _ _ hb').1
  obtain ⟨_, _, _, _, hne⟩ := basePat_head hb'
  have h3 := opt_length sound_exponentPat hb
  have h4 : b'.2.length < a'.2.length := by
    rw [h2]
    have : 0 < b'.1.length := List.length_pos_iff.2 hne
    simp; omega
  simp only at h3 ⊢
  omega

/-! ### First matches -/

theorem head_cat {p q : Pat (List Char)} {s : List Char} {a b : List Char × List Char}
    (ha : (p s).head? = some a) (hb : (q a.2).head? = some b) :
    (Pat.cat p q s).head? = some (a.1 ++ b.1, b.2) := by
  unfold Pat.cat Pat.seq
  cases hp : p s with
  | nil => rw [hp] at ha; simp at ha
  | cons x xs =>
    rw [hp] at ha; simp at ha; subst ha
    cases hq : q x.2 with
    | nil => rw [hq] at hb; simp at hb
    | cons y ys =>
      rw [hq] at hb; simp at hb; subst hb
      simp [hq]

theorem head_seq {α β : Type} {p : Pat α} {q : Pat β} {s : List Char} {a : α × List Char}
    {b : β × List Char} (ha : (p s).head? = some a) (hb : (q a.2).head? = some b) :
    (Pat.seq p q s).head? = some ((a.1, b.1), b.2) := by
  unfold Pat.seq
  cases hp : p s with
  | nil => rw [hp] at ha; simp at ha
  | cons x xs =>
    rw [hp] at ha; simp at ha; subst ha
    cases hq : q x.2 with
    | nil => rw [hq] at hb; simp at hb
    | cons y ys =>
      rw [hq] at hb; simp at hb; subst hb
      simp [hq]

theorem star_head (f : Char → Bool) (s : List Char) :
    (Pat.star f s).head? = some (s.takeWhile f, s.dropWhile f) := by
  induction s with
  | nil => rfl
  | cons c s ih =>
    simp only [Pat.star, List.takeWhile_cons, List.dropWhile_cons]
    split
    · next h =>
      cases hs : Pat.star f s with
      | nil => rw [hs] at ih; simp at ih
      | cons x xs =>
        rw [hs] at ih; simp at ih; subst ih
        simp [hs]
    · simp

theorem optText_head_isSome (p : Pat (List Char)) (s : List Char) :
    ∃ m, (Pat.optText p s).head? = some m := by
  unfold Pat.optText
  cases p s <;> simp

theorem cat_nil_of {p q : Pat (List Char)} {s : List Char} (h : p s = []) : Pat.cat p q s = [] := by
  simp [Pat.cat, Pat.seq, h]

theorem head_append_left {α : Type _} {a b : List α} {x : α} (h : a.head? = some x) :
    (a ++ b).head? = some x := by
  cases a with
  | nil => simp at h
  | cons y a => simpa using h

/-- A number that is there is consumed. -/
theorem unsigned_head_length {s : List Char} {m : List Char × List Char}
    (h : (unsigned s).head? = some m) : m.2.length < s.length := by
  unfold unsigned at h
  split at h
  · next hahead =>
    -- the digits
    obtain ⟨tail, htail⟩ : ∃ tail : Pat (List Char), (fun t =>
          Pat.cat (Pat.char (· = '/')) (Pat.cat (Pat.char isDigit) (Pat.lazyStar isDigit)) t
          ++ Pat.cat
              (Pat.optText (Pat.cat (Pat.char (· = '.')) (Pat.star isDigit)))
              (Pat.optText (Pat.cat (Pat.char (fun c => c = 'e' || c = 'E'))
                (Pat.cat (Pat.optText (Pat.char (fun c => c = '-' || c = '+')))
                  (Pat.cat (Pat.char isDigit) (Pat.star isDigit))))) t) = tail := ⟨_, rfl⟩
    have hsound : Sound (fun _ => True) tail := by
      rw [← htail]
      apply sound_alt
      · exact sound_cat (sound_char (fun _ _ => trivial))
          (sound_cat (sound_char (fun _ _ => trivial)) (sound_lazyStar (fun _ _ => trivial)))
      · exact sound_cat (sound_optText (sound_cat (sound_char (fun _ _ => trivial))
          (sound_star (fun _ _ => trivial)))) (sound_optText (sound_cat
            (sound_char (fun _ _ => trivial)) (sound_cat (sound_optText
              (sound_char (fun _ _ => trivial))) (sound_cat (sound_char (fun _ _ => trivial))
                (sound_star (fun _ _ => trivial))))))
    have hsome : ∀ t, ∃ k, (tail t).head? = some k := by
      intro t
      rw [← htail]
      simp only
      cases h1 : Pat.cat (Pat.char (· = '/'))
          (Pat.cat (Pat.char isDigit) (Pat.lazyStar isDigit)) t with
      | cons x xs => exact ⟨x, by simp⟩
      | nil =>
        obtain ⟨a, ha⟩ := optText_head_isSome (Pat.cat (Pat.char (· = '.')) (Pat.star isDigit)) t
        obtain ⟨b, hb⟩ := optText_head_isSome (Pat.cat (Pat.char (fun c => c = 'e' || c = 'E'))
                (Pat.cat (Pat.optText (Pat.char (fun c => c = '-' || c = '+')))
                  (Pat.cat (Pat.char isDigit) (Pat.star isDigit)))) a.2
        exact ⟨_, by rw [List.nil_append]; exact head_cat ha hb⟩
    rw [htail] at h
    obtain ⟨k, hk⟩ := hsome (s.dropWhile isDigit)
    have := head_cat (star_head isDigit s) hk
    rw [this] at h
    injection h with h; subst h
    simp only
    have hkle : k.2.length ≤ (s.dropWhile isDigit).length := by
      have := (hsound _ k (by
        cases ht : tail (s.dropWhile isDigit) with
        | nil => rw [ht] at hk; simp at hk
        | cons y ys => rw [ht] at hk; simp at hk; subst hk; simp)).1
      rw [this]; simp
    cases s with
    | nil => simp [numberAhead] at hahead
    | cons c s =>
      by_cases hc : isDigit c = true
      · have hd : (List.dropWhile isDigit (c :: s)).length ≤ s.length := by
          rw [List.dropWhile_cons, if_pos hc]
          exact (List.dropWhile_sublist _).length_le
        simp only [List.length_cons]; omega
      · -- a point followed by a digit
        have hdot : c = '.' := by
          unfold numberAhead at hahead
          split at hahead
          · next heq => injection heq with h1
          · next heq => injection heq with h1 h2; subst h1; exact absurd hahead hc
          · next heq => cases heq
        subst hdot
        have hdrop : List.dropWhile isDigit ('.' :: s) = '.' :: s := by
          rw [List.dropWhile_cons, if_neg hc]
        rw [hdrop] at hk
        have h1 : Pat.cat (Pat.char (· = '/'))
            (Pat.cat (Pat.char isDigit) (Pat.lazyStar isDigit)) ('.' :: s) = [] :=
          cat_nil_of (by simp [Pat.char])
        have ha : (Pat.optText (Pat.cat (Pat.char (· = '.')) (Pat.star isDigit)) ('.' :: s)).head?
            = some ('.' :: s.takeWhile isDigit, s.dropWhile isDigit) := by
          apply head_append_left
          have := head_cat (p := Pat.char (· = '.')) (q := Pat.star isDigit) (s := '.' :: s)
            (a := (['.'], s)) (by simp [Pat.char]) (star_head isDigit s)
          simpa using this
        obtain ⟨b, hb⟩ := optText_head_isSome (Pat.cat (Pat.char (fun c => c = 'e' || c = 'E'))
                (Pat.cat (Pat.optText (Pat.char (fun c => c = '-' || c = '+')))
                  (Pat.cat (Pat.char isDigit) (Pat.star isDigit)))) (s.dropWhile isDigit)
        have hb' := head_cat ha hb
        rw [← htail] at hk
        simp only [h1, List.nil_append] at hk
        rw [hb'] at hk
        injection hk with hk; subst hk
        simp only
        have hbs := (sound_optText (f := fun _ => True) (sound_cat
            (sound_char (fun _ _ => trivial)) (sound_cat (sound_optText
              (sound_char (fun _ _ => trivial))) (sound_cat (sound_char (fun _ _ => trivial))
                (sound_star (fun _ _ => trivial))))) _ b (List.mem_of_mem_head? hb)).1
        have h5 : b.2.length ≤ (s.dropWhile isDigit).length := by rw [hbs]; simp
        have h6 : (s.dropWhile isDigit).length ≤ s.length := (List.dropWhile_sublist _).length_le
        simp only [List.length_cons]; omega
  · simp at h

theorem mem_of_head? {α : Type _} {l : List α} {x : α} (h : l.head? = some x) : x ∈ l :=
  List.mem_of_mem_head? h

theorem seq_split {p : Pat (List Char)} {q : Pat (List Char)} {s : List Char}
    {m : List Char × List Char} (h : (Pat.cat p q s).head? = some m)
    (hp : Sound (fun _ => True) p)
    (hq : ∀ t k, (q t).head? = some k → k.2.length < t.length) :
    m.2.length < s.length := by
  unfold Pat.cat Pat.seq at h
  have hgen : ∀ l : List (List Char × List Char), (∀ a ∈ l, a.2.length ≤ s.length) →
      (List.map (fun m : (List Char × List Char) × List Char => (m.1.1 ++ m.1.2, m.2))
        (List.flatMap (fun a => List.map (fun b => ((a.1, b.1), b.2)) (q a.2)) l)).head? = some m →
      m.2.length < s.length := by
    intro l
    induction l with
    | nil => intro _ h; simp at h
    | cons a l ih =>
      intro hl h
      cases hqa : q a.2 with
      | nil =>
        apply ih (fun b hb => hl b (List.mem_cons_of_mem _ hb))
        simpa [List.flatMap_cons, hqa] using h
      | cons b bs =>
        simp [List.flatMap_cons, hqa] at h
        subst h
        have := hq a.2 b (by rw [hqa]; rfl)
        have := hl a (by simp)
        simp only; omega
  apply hgen (p s) _ h
  intro a ha
  have := (hp s a ha).1
  rw [this]; simp

theorem rational_head_length {s : List Char} {m : List Char × List Char}
    (h : (rational s).head? = some m) : m.2.length < s.length := by
  rw [rational_eq] at h
  exact seq_split h (sound_optText (sound_char (fun _ _ => trivial)))
    (fun t k hk => unsigned_head_length hk)

theorem constantPat_length {s : List Char} {m} (h : constantPat.match s = some m) :
    m.2.length < s.length := by
  unfold Pat.match constantPat at h
  cases hr : rational s with
  | nil => simp [Pat.seq, hr] at h
  | cons a l =>
    have ha : (rational s).head? = some a := by rw [hr]; rfl
    have h1 := rational_head_length ha
    obtain ⟨b, hb⟩ : ∃ b, (Pat.opt exponentPat a.2).head? = some b := by
      unfold Pat.opt; cases exponentPat a.2 <;> simp
    have := head_seq ha hb
    rw [this] at h
    injection h with h; subst h
    have h2 := opt_length sound_exponentPat (mem_of_head? hb)
    simp only; omega

theorem matchSimplex_length {s : List Char} {t rest} (h : matchSimplex s = .ok (some (t, rest))) :
    rest.length < s.length := by
  have hv : ∀ v, variablePat.match s = some v → v.2.length < s.length := fun v hv =>
    variablePat_length (mem_of_head? hv)
  have hc : ∀ c, constantPat.match s = some c → c.2.length < s.length := fun c hc =>
    constantPat_length hc
  unfold matchSimplex at h
  have hbind : ∀ (r : Res Term) (x : List Char),
      (do return some (← r, x) : Res (Option (Term × List Char))) = .ok (some (t, rest)) →
      x = rest := by
    intro r x hx
    cases r with
    | error e => simp [bind, Except.bind] at hx
    | ok a => simp [bind, Except.bind, pure, Except.pure] at hx; exact hx.2
  split at h
  · cases h
  · next v hv' _ => rw [← hbind _ _ h]; exact hv v hv'
  · next c _ hc' => rw [← hbind _ _ h]; exact hc c hc'
  · next v c hv' hc' =>
    split at h
    · rw [← hbind _ _ h]; exact hc c hc'
    · rw [← hbind _ _ h]; exact hv v hv'

/-! ## Brackets -/

/-- Number of opening minus number of closing brackets. -/
def depth : List Char → Int
  | [] => 0
  | c :: s => (if c = '(' then 1 else if c = ')' then -1 else 0) + depth s

theorem depth_append (a b : List Char) : depth (a ++ b) = depth a + depth b := by
  induction a with
  | nil => simp [depth]
  | cons c a ih => simp [depth, ih]; omega

/-- The scan after the first opening bracket: it stops at the first position at which the
count returns to zero. -/
theorem boundsLoop_open (i0 : Nat) : ∀ (s : List Char) (i : Nat) (count : Int), 0 < count →
    (∀ a e, boundsLoop i (some i0) count s = some (a, e) ↔
      a = i0 ∧ ∃ r t, s = r ++ t ∧ e = i + r.length ∧ r ≠ [] ∧ count + depth r = 0
        ∧ ∀ p q, r = p ++ q → q ≠ [] → 0 < count + depth p)
    ∧ (boundsLoop i (some i0) count s = none ↔ ∀ r t, s = r ++ t → 0 < count + depth r) := by
  intro s
  induction s with
  | nil =>
    intro i count hc
    constructor
    · intro a e
      simp only [boundsLoop, reduceCtorEq, false_iff]
      rintro ⟨_, r, t, h, _, hr, _⟩
      rcases r with _ | ⟨c, r⟩
      · exact hr rfl
      · simp at h
    · simp only [boundsLoop, true_iff]
      intro r t h
      rcases r with _ | ⟨c, r⟩
      · simp [depth]; exact hc
      · simp at h
  | cons c s ih =>
    intro i count hc
    -- the new count
    obtain ⟨count', hcount'⟩ : ∃ count', count' = count + depth [c] := ⟨_, rfl⟩
    have hloop : boundsLoop i (some i0) count (c :: s)
        = if count' = 0 then some (i0, i + 1) else boundsLoop (i + 1) (some i0) count' s := by
      rw [hcount']
      conv_lhs => unfold boundsLoop
      by_cases h1 : c = '('
      · subst h1; simp [depth]
      · by_cases h2 : c = ')'
        · subst h2; simp [depth, Int.sub_eq_add_neg]
        · simp [depth, h1, h2]
    have hnn : 0 ≤ count' := by
      rw [hcount']; simp only [depth]
      split <;> (try split) <;> omega
    have hdc : ∀ r, count' + depth r = count + depth (c :: r) := by
      intro r; rw [hcount']; simp [depth]; omega
    by_cases hz : count' = 0
    · rw [hloop, if_pos hz]
      constructor
      · intro a e
        constructor
        · intro h
          injection h with h; injection h with h1 h2
          refine ⟨h1.symm, [c], s, rfl, by simp [← h2], by simp, ?_, ?_⟩
          · have := hdc []; simp only [depth, add_zero] at this hz ⊢; omega
          · intro p q hpq hq
            rcases p with _ | ⟨c', p⟩
            · simp [depth]; exact hc
            · exfalso
              have h' := congrArg List.length hpq
              have : 0 < q.length := List.length_pos_iff.2 hq
              simp only [List.length_cons, List.length_append, List.length_nil] at h'; omega
        · rintro ⟨rfl, r, t, hs, rfl, hr, hd, hmin⟩
          rcases r with _ | ⟨c', r⟩
          · exact absurd rfl hr
          · simp only [List.cons_append, List.cons.injEq] at hs
            obtain ⟨rfl, hs⟩ := hs
            rcases r with _ | ⟨c2, r⟩
            · simp
            · exfalso
              have := hmin [c] (c2 :: r) rfl (by simp)
              have h0 := hdc []
              simp only [depth, add_zero] at h0 this
              omega
      · constructor
        · intro h; cases h
        · intro h
          have := h [c] s rfl
          have h0 := hdc []
          simp only [depth, add_zero] at h0 this
          omega
    · rw [hloop, if_neg hz]
      obtain ⟨i1, i2⟩ := ih (i + 1) count' (by omega)
      constructor
      · intro a e
        rw [i1]
        constructor
        · rintro ⟨rfl, r, t, rfl, rfl, hr, hd, hmin⟩
          refine ⟨rfl, c :: r, t, rfl, by simp; omega, by simp, ?_, ?_⟩
          · rw [← hdc]; exact hd
          · intro p q hpq hq
            rcases p with _ | ⟨c', p⟩
            · simp [depth]; exact hc
            · simp only [List.cons_append, List.cons.injEq] at hpq
              obtain ⟨rfl, hpq⟩ := hpq
              rw [← hdc]; exact hmin p q hpq hq
        · rintro ⟨rfl, r, t, hs, rfl, hr, hd, hmin⟩
          rcases r with _ | ⟨c', r⟩
          · exact absurd rfl hr
          · simp only [List.cons_append, List.cons.injEq] at hs
            obtain ⟨rfl, hs⟩ := hs
            have hrne : r ≠ [] := by
              rintro rfl
              have h0 := hdc []
              simp only [depth, add_zero] at h0 hd
              omega
            refine ⟨rfl, r, t, hs, by simp; omega, hrne, by rw [hdc]; exact hd, ?_⟩
            intro p q hpq hq
            rw [hdc]
            exact hmin (c :: p) q (by rw [hpq]; rfl) hq
      · rw [i2]
        constructor
        · intro h r t hs
          rcases r with _ | ⟨c', r⟩
          · simp [depth]; exact hc
          · simp only [List.cons_append, List.cons.injEq] at hs
            obtain ⟨rfl, hs⟩ := hs
            rw [← hdc]; exact h r t hs
        · intro h r t hs
          rw [hdc]; exact h (c :: r) t (by rw [hs]; rfl)

theorem boundsLoop_before (pre : List Char) (hpre : ∀ c ∈ pre, c ≠ '(' ∧ c ≠ ')')
    (s : List Char) : ∀ i, boundsLoop i none 0 (pre ++ s) = boundsLoop (i + pre.length) none 0 s := by
  induction pre with
  | nil => intro i; simp
  | cons c pre ih =>
    intro i
    have := hpre c (by simp)
    rw [List.cons_append]
    conv_lhs => unfold boundsLoop
    simp only [this.1, this.2, if_false]
    rw [ih (fun c hc => hpre c (List.mem_cons_of_mem _ hc))]
    simp; congr 1; omega

theorem boundsLoop_none (s : List Char) : ∀ i count, (∀ c ∈ s, c ≠ '(') →
    boundsLoop i none count s = none := by
  induction s with
  | nil => intro i count _; rfl
  | cons c s ih =>
    intro i count h
    unfold boundsLoop
    have hc := h c (by simp)
    by_cases h2 : c = ')'
    · simp [h2]; exact ih _ _ (fun c hc => h c (List.mem_cons_of_mem _ hc))
    · simp [hc, h2]; exact ih _ _ (fun c hc => h c (List.mem_cons_of_mem _ hc))

theorem boundsLoop_bounds : ∀ (s : List Char) (i : Nat) (start : Option Nat) (count : Int) (a e : Nat),
    boundsLoop i start count s = some (a, e) → (∀ j, start = some j → j < i) →
    a < e ∧ i < e ∧ e ≤ i + s.length := by
  intro s
  induction s with
  | nil => intro i start count a e h; simp [boundsLoop] at h
  | cons c s ih =>
    intro i start count a e h hst
    unfold boundsLoop at h
    simp only at h
    -- the new start
    have key : ∀ (start' : Option Nat) (count' : Int), (∀ j, start' = some j → j < i + 1) →
        (match start' with
          | some i0 => if count' = 0 then some (i0, i + 1) else boundsLoop (i + 1) start' count' s
          | none => boundsLoop (i + 1) start' count' s) = some (a, e) →
        a < e ∧ i < e ∧ e ≤ i + (c :: s).length := by
      intro start' count' hst' h
      cases start' with
      | none =>
        have := ih (i + 1) none count' a e h (by simp)
        simp; omega
      | some i0 =>
        simp only at h
        split at h
        · injection h with h; injection h with h1 h2
          have := hst' i0 rfl
          simp; omega
        · have := ih (i + 1) (some i0) count' a e h hst'
          simp; omega
    by_cases h1 : c = '('
    · simp only [h1, if_true] at h
      apply key (some (start.getD i)) (count + 1) _ h
      intro j hj
      injection hj with hj
      cases start with
      | none => simp at hj; omega
      | some k => simp at hj; have := hst k rfl; omega
    · by_cases h2 : c = ')'
      · simp only [h1, h2, if_true, if_false] at h
        exact key start (count - 1) (fun j hj => by have := hst j hj; omega) h
      · simp only [h1, h2, if_false] at h
        exact key start count (fun j hj => by have := hst j hj; omega) h

theorem findBounds_bounds {s : List Char} {a e : Nat} (h : findBounds s = some (a, e)) :
    a < e ∧ 2 ≤ e ∧ e ≤ s.length := by
  have h0 := boundsLoop_bounds s 0 none 0 a e h (by simp)
  refine ⟨h0.1, ?_, by simpa using h0.2.2⟩
  unfold findBounds at h
  cases s with
  | nil => simp [boundsLoop] at h
  | cons c s =>
    unfold boundsLoop at h
    by_cases h1 : c = '('
    · simp [h1] at h
      exact (boundsLoop_bounds s 1 _ _ a e h (by simp)).2.1
    · by_cases h2 : c = ')'
      · simp [h1, h2] at h
        exact (boundsLoop_bounds s 1 _ _ a e h (by simp)).2.1
      · simp [h1, h2] at h
        exact (boundsLoop_bounds s 1 _ _ a e h (by simp)).2.1

/-! ## Progress -/

theorem matchComplex_length {s : List Char} {o : Operand} {rest : List Char}
    (h : matchComplex s = .ok (some (o, rest))) :
    rest.length < s.length ∧ o.base.length < s.length := by
  unfold matchComplex at h
  split at h
  · cases h
  · next i0 stop hb =>
    obtain ⟨h1, h3, h2⟩ := findBounds_bounds hb
    have hbase : ∀ c x, (mkOperand c ((s.take (stop - 1)).drop (i0 + 1)) x).base.length
        < s.length := by
      intro c x
      simp only [mkOperand]
      split
      · simp [one]; omega
      · simp; omega
    simp only [bind, Except.bind] at h
    split at h
    · cases h
    · split at h
      · simp [pure, Except.pure] at h
      · split at h
        · next x rest' hx =>
          split at h
          · cases h
          · simp only [pure, Except.pure, Except.ok.injEq, Option.some.injEq, Prod.mk.injEq] at h
            obtain ⟨rfl, rfl⟩ := h
            have hs := (sound_exponentPat _ _ (mem_of_head? hx)).1
            have := congrArg List.length hs
            simp at this
            exact ⟨by omega, hbase _ _⟩
        · simp only [pure, Except.pure, Except.ok.injEq, Option.some.injEq, Prod.mk.injEq] at h
          obtain ⟨rfl, rfl⟩ := h
          exact ⟨by simp; omega, hbase _ _⟩

end Verif.Symbolic
