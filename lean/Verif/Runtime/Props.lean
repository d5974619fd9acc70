import Mathlib.Data.List.TakeWhile
import Verif.Runtime.Model

/-!
# Configuration files: properties C48, C49, C53, C95
-/

set_option linter.unusedSimpArgs false
set_option linter.unusedSectionVars false

namespace Verif.Runtime

open Verif.Py

/-! ## Lemmas on splitting -/

theorem splitChar_ne_nil (c : Char) : ∀ s : Str, splitChar c s ≠ [] := by
  intro s
  cases s with
  | nil => simp [splitChar]
  | cons x xs =>
    simp only [splitChar]
    split
    · simp
    · split <;> simp

theorem splitChar_none {c : Char} : ∀ {s : Str}, c ∉ s → splitChar c s = [s] := by
  intro s
  induction s with
  | nil => intro _; rfl
  | cons x xs ih =>
    intro h
    simp only [List.mem_cons, not_or] at h
    simp [splitChar, Ne.symm h.1, ih h.2]

theorem splitChar_append {c : Char} {t : Str} : ∀ {s : Str}, c ∉ s →
    splitChar c (s ++ c :: t) = s :: splitChar c t := by
  intro s
  induction s with
  | nil => intro _; simp [splitChar]
  | cons x xs ih =>
    intro h
    simp only [List.mem_cons, not_or] at h
    simp [splitChar, Ne.symm h.1, ih h.2]

/-- Every string is its part up to the first `c`, or contains no `c`. -/
theorem split_cases (c : Char) (s : Str) :
    c ∉ s ∨ ∃ a b, c ∉ a ∧ s = a ++ c :: b := by
  induction s with
  | nil => simp
  | cons x xs ih =>
    by_cases h : x = c
    · exact Or.inr ⟨[], xs, by simp, by simp [h]⟩
    · rcases ih with ih | ⟨a, b, ha, rfl⟩
      · exact Or.inl (by simp [Ne.symm h, ih])
      · exact Or.inr ⟨x :: a, b, by simp [Ne.symm h, ha], by simp⟩

theorem cutAt_eq (c : Char) (s : Str) : cutAt s c = s.takeWhile (· ≠ c) := by
  rcases split_cases c s with h | ⟨a, b, ha, rfl⟩
  · rw [cutAt, splitChar_none h]
    symm
    simp only [List.headD_cons]
    rw [List.takeWhile_eq_self_iff]
    intro x hx
    simp only [decide_eq_true_eq]
    rintro rfl; exact h hx
  · rw [cutAt, splitChar_append ha]
    simp only [List.headD_cons]
    rw [List.takeWhile_append_of_pos]
    · simp
    · intro x hx
      simp only [decide_eq_true_eq]
      rintro rfl; exact ha hx

theorem takeWhile_takeWhile' {α : Type _} (p q : α → Bool) (s : List α) :
    (s.takeWhile p).takeWhile q = s.takeWhile (fun x => p x && q x) := by
  induction s with
  | nil => rfl
  | cons x xs ih =>
    by_cases hp : p x = true <;> by_cases hq : q x = true <;> simp [List.takeWhile_cons, hp, hq, ih]

theorem foldl_cutAt : ∀ (cs : List Char) (s : Str),
    cs.foldl cutAt s = s.takeWhile (fun x => decide (x ∉ cs)) := by
  intro cs
  induction cs with
  | nil =>
    intro s
    symm
    simp only [List.foldl_nil]
    rw [List.takeWhile_eq_self_iff]
    simp
  | cons c cs ih =>
    intro s
    rw [List.foldl_cons, ih, cutAt_eq, takeWhile_takeWhile']
    congr 1
    funext x
    simp [List.mem_cons, not_or]

/-! ## C49: inline comments -/

/-- The longest part of the text before any marker. -/
def BeforeMarkers (cs : List Char) (s p : Str) : Prop :=
  p <+: s ∧ (∀ c ∈ p, c ∉ cs) ∧ ∀ q, q <+: s → (∀ c ∈ q, c ∉ cs) → q <+: p

/-- Leading and trailing white space is absent. -/
def Trimmed (s : Str) : Prop :=
  (∀ c, s.head? = some c → isSpace c = false) ∧ (∀ c, s.getLast? = some c → isSpace c = false)

theorem head_dropWhile {α : Type _} (p : α → Bool) (s : List α) (c : α)
    (h : (s.dropWhile p).head? = some c) : p c = false := by
  induction s with
  | nil => simp at h
  | cons x xs ih =>
    rw [List.dropWhile_cons] at h
    split at h
    · exact ih h
    · next hx => simp at h; subst h; simpa using hx

theorem dropWhile_all {α : Type _} (p : α → Bool) (s : List α) :
    ∃ w, s = w ++ s.dropWhile p ∧ ∀ c ∈ w, p c = true :=
  ⟨s.takeWhile p, (List.takeWhile_append_dropWhile).symm, fun _ hc => List.mem_takeWhile_imp hc⟩

theorem strip_spec (s : Str) :
    Trimmed (strip s) ∧ ∃ l r, s = l ++ strip s ++ r ∧ (∀ c ∈ l, isSpace c = true)
      ∧ ∀ c ∈ r, isSpace c = true := by
  obtain ⟨l, hl, hla⟩ := dropWhile_all isSpace s
  obtain ⟨r, hr, hra⟩ := dropWhile_all isSpace (s.dropWhile isSpace).reverse
  have hmid : s.dropWhile isSpace = strip s ++ r.reverse := by
    have := congrArg List.reverse hr
    simpa [strip] using this
  refine ⟨⟨?_, ?_⟩, l, r.reverse, ?_, hla, ?_⟩
  · intro c hc
    apply head_dropWhile isSpace s c
    rw [hmid]
    cases h : strip s with
    | nil => rw [h] at hc; simp at hc
    | cons x xs => rw [h] at hc; simpa using hc
  · intro c hc
    apply head_dropWhile isSpace (s.dropWhile isSpace).reverse c
    rw [← List.head?_reverse] at hc
    simpa [strip] using hc
  · rw [List.append_assoc, ← hmid]; exact hl
  · intro c hc; exact hra c (by simpa using hc)

theorem beforeMarkers_takeWhile (cs : List Char) (s : Str) :
    BeforeMarkers cs s (s.takeWhile (fun x => decide (x ∉ cs))) := by
  refine ⟨List.takeWhile_prefix _, ?_, ?_⟩
  · intro c hc
    have := List.mem_takeWhile_imp hc
    simpa using this
  · intro q
    induction s generalizing q with
    | nil => intro h _; simpa using h
    | cons x xs ih =>
      intro hq hc
      cases q with
      | nil => simp
      | cons y ys =>
        obtain ⟨t, ht⟩ := hq
        simp only [List.cons_append, List.cons.injEq] at ht
        obtain ⟨rfl, ht⟩ := ht
        have hy := hc y (by simp)
        rw [List.takeWhile_cons]
        simp only [hy, not_false_eq_true, decide_true, if_true]
        exact List.cons_prefix_cons.2 ⟨rfl, ih ys ⟨t, ht⟩ (fun c h => hc c (by simp [h]))⟩

/-- **C49.** For every text and every list of single-character markers: the result contains no
marker, has no white space at either end, and is what lies before the first marker up to
surrounding white space; the order (and repetition) of the markers does not matter. -/
theorem c49_strip_comments (s : Str) (cs : List Char) :
    (∀ c ∈ stripComments s cs, c ∉ cs)
    ∧ Trimmed (stripComments s cs)
    ∧ (∃ l p r, BeforeMarkers cs s p ∧ p = l ++ stripComments s cs ++ r
        ∧ (∀ c ∈ l, isSpace c = true) ∧ ∀ c ∈ r, isSpace c = true)
    ∧ ∀ ds, (∀ c, c ∈ ds ↔ c ∈ cs) → stripComments s ds = stripComments s cs := by
  have hb := beforeMarkers_takeWhile cs s
  have he : stripComments s cs = strip (s.takeWhile (fun x => decide (x ∉ cs))) := by
    rw [stripComments, foldl_cutAt]
  obtain ⟨ht, l, r, hlr, hl, hr⟩ := strip_spec (s.takeWhile (fun x => decide (x ∉ cs)))
  rw [← he] at ht hlr
  refine ⟨?_, ht, ⟨l, _, r, hb, hlr, hl, hr⟩, ?_⟩
  · intro c hc
    apply hb.2.1 c
    rw [hlr]; simp [hc]
  · intro ds hds
    rw [he, stripComments, foldl_cutAt]
    congr 2
    funext x
    simp [hds x]

example : stripComments c!"  5.0 # five ! six" ['!', '#'] = c!"5.0"
    ∧ stripComments c!"# only" ['#'] = [] ∧ stripComments c!"a b" ['#'] = c!"a b" := by
  decide +kernel

/-! ## C48: reading configuration files -/

/-- What a line of a configuration file says. -/
inductive Line where
  /-- an empty line -/
  | blank
  /-- a line starting with a marker -/
  | comment (c : Char) (s : Str)
  /-- `key=value`, possibly with white space around the value and an inline comment -/
  | setting (key left value right : Str) (inline : Option (Char × Str))
  deriving DecidableEq

/-- What follows the equals sign. -/
def rightSide (l v r : Str) : Option (Char × Str) → Str
  | none => l ++ v ++ r
  | some (c, s) => l ++ v ++ r ++ c :: s

/-- The text of a line. -/
def Line.text : Line → Str
  | .blank => []
  | .comment c s => c :: s
  | .setting k l v r i => k ++ '=' :: rightSide l v r i

/-- An inline comment that the format admits: no `=`, no line end. -/
def InlineOk (cs : List Char) : Option (Char × Str) → Prop
  | none => True
  | some (c, s) => c ∈ cs ∧ '=' ∉ c :: s ∧ '\n' ∉ c :: s

/-- Lines that the format admits. -/
def Line.Ok (cs : List Char) : Line → Prop
  | .blank => True
  | .comment c s => c ∈ cs ∧ '\n' ∉ c :: s
  | .setting k l v r i =>
    (∀ c, k.head? = some c → c ∉ cs) ∧ ('=' ∉ k) ∧ ('\n' ∉ k)
    ∧ (∀ c ∈ l ++ r, isSpace c = true) ∧ ('\n' ∉ l ++ v ++ r) ∧ Trimmed v
    ∧ ('=' ∉ l ++ v ++ r) ∧ (∀ c ∈ l ++ v ++ r, c ∉ cs)
    ∧ InlineOk cs i

/-- The parameter that a line sets. -/
def Line.sets : Line → Option (Str × Str)
  | .setting k _ v _ _ => some (k, v)
  | _ => none

/-- The text of a file. -/
def fileText : List Line → Str
  | [] => []
  | [l] => l.text
  | l :: ls => l.text ++ '\n' :: fileText ls

/-- The value of a parameter according to the lines: the last line that sets it. -/
def lastValue (ls : List Line) (k : Str) : Option Str :=
  ((ls.filterMap Line.sets).reverse.find? (fun p => p.1 = k)).map (·.2)

theorem strip_of (l v r : Str) (hl : ∀ c ∈ l, isSpace c = true) (hr : ∀ c ∈ r, isSpace c = true)
    (hv : Trimmed v) : strip (l ++ v ++ r) = v := by
  have hdl : ∀ (w x : Str), (∀ c ∈ w, isSpace c = true) →
      (w ++ x).dropWhile isSpace = x.dropWhile isSpace := by
    intro w x hw
    induction w with
    | nil => rfl
    | cons y ys ih =>
      rw [List.cons_append, List.dropWhile_cons, if_pos (hw y (by simp))]
      exact ih (fun c hc => hw c (by simp [hc]))
  have hid : ∀ x : Str, (∀ c, x.head? = some c → isSpace c = false) → x.dropWhile isSpace = x := by
    intro x hx
    cases x with
    | nil => rfl
    | cons y ys => rw [List.dropWhile_cons, hx y rfl]; simp
  unfold strip
  rw [List.append_assoc, hdl l _ hl]
  by_cases hv0 : v = []
  · subst hv0
    have : (r.dropWhile isSpace) = [] := by
      have := hdl r [] hr
      simpa using this
    simp [this]
  · have h1 : (v ++ r).dropWhile isSpace = v ++ r := by
      apply hid
      intro c hc
      apply hv.1
      cases v with
      | nil => exact absurd rfl hv0
      | cons y ys => simpa using hc
    rw [h1, List.reverse_append, hdl r.reverse _ (fun c hc => hr c (by simpa using hc)), hid]
    · simp
    · intro c hc
      rw [List.head?_reverse] at hc
      exact hv.2 c hc

theorem stripComments_of {cs : List Char} {l v r : Str} (hl : ∀ c ∈ l ++ r, isSpace c = true)
    (hv : Trimmed v) (hm : ∀ c ∈ l ++ v ++ r, c ∉ cs) (i : Option (Char × Str))
    (hi : ∀ p, i = some p → p.1 ∈ cs) :
    stripComments (rightSide l v r i) cs = v := by
  rw [stripComments, foldl_cutAt]
  have key : (rightSide l v r i).takeWhile (fun x => decide (x ∉ cs)) = l ++ v ++ r := by
    cases i with
    | none =>
      rw [rightSide, List.takeWhile_eq_self_iff]
      intro x hx; simpa using hm x hx
    | some p =>
      obtain ⟨c, s⟩ := p
      have hc := hi _ rfl
      simp only [rightSide]
      rw [List.takeWhile_append_of_pos]
      · simp [List.takeWhile_cons, hc]
      · intro x hx; simpa using hm x hx
  rw [key, strip_of l v r (fun c h => hl c (by simp [h])) (fun c h => hl c (by simp [h])) hv]

theorem parseLine_text {cs : List Char} {x : Line} (h : x.Ok cs) (he : '=' ∉ cs) :
    parseLine cs x.text = .ok x.sets := by
  cases x with
  | blank => rfl
  | comment c s => simp [Line.text, parseLine, h.1, Line.sets]
  | setting k l v r i =>
    obtain ⟨hk, hke, _, hsp, _, hv, hve, hm, hi⟩ := h
    have ht : (Line.setting k l v r i).text = k ++ '=' :: (rightSide l v r i) := rfl
    have hne : '=' ∉ (rightSide l v r i) := by
      cases i with
      | none => exact hve
      | some p =>
        obtain ⟨c, s⟩ := p
        simp only [rightSide, List.mem_append, not_or] at hve ⊢
        exact ⟨hve, hi.2.1⟩
    have hs := stripComments_of (cs := cs) hsp hv hm i (by
      intro p hp; subst hp; exact hi.1)
    rw [ht]
    have hhead : ∃ c t, (k ++ '=' :: (rightSide l v r i)) = c :: t ∧ c ∉ cs := by
      cases k with
      | nil => exact ⟨'=', _, rfl, he⟩
      | cons y ys => exact ⟨y, _, rfl, hk y rfl⟩
    have hsplit := splitChar_append (t := (rightSide l v r i)) hke
    rw [splitChar_none hne] at hsplit
    obtain ⟨c, t, hct, hc⟩ := hhead
    rw [hct] at hsplit ⊢
    simp only [parseLine, hc, if_false, hsplit]
    rw [hs]; rfl

theorem parseLines_texts {cs : List Char} (he : '=' ∉ cs) : ∀ (ls : List Line) (d : Dict Str Str),
    (∀ x ∈ ls, x.Ok cs) →
    parseLines cs (ls.map Line.text) d = .ok (d.update (ls.filterMap Line.sets)) := by
  intro ls
  induction ls with
  | nil => intro d _; rfl
  | cons x xs ih =>
    intro d h
    simp only [List.map_cons, parseLines, parseLine_text (h x (by simp)) he]
    rw [ih _ (fun y hy => h y (by simp [hy]))]
    cases hx : x.sets with
    | none => simp [store, hx]
    | some p => obtain ⟨k, v⟩ := p; simp [store, hx, Dict.update_cons]

theorem Line.no_newline {cs : List Char} {x : Line} (h : x.Ok cs) : '\n' ∉ x.text := by
  cases x with
  | blank => simp [Line.text]
  | comment c s => exact h.2
  | setting k l v r i =>
    obtain ⟨_, _, hk, _, hn, _, _, _, hi⟩ := h
    cases i with
    | none =>
      simp only [Line.text, rightSide, List.mem_append, List.mem_cons, not_or] at hn ⊢
      exact ⟨hk, by decide, hn⟩
    | some p =>
      obtain ⟨c, s⟩ := p
      simp only [Line.text, rightSide, InlineOk, List.mem_append, List.mem_cons, not_or] at hn hi ⊢
      exact ⟨hk, by decide, hn, hi.2.2⟩

theorem linesOf_fileText {cs : List Char} : ∀ (ls : List Line), ls ≠ [] → (∀ x ∈ ls, x.Ok cs) →
    linesOf (fileText ls) = ls.map Line.text := by
  intro ls
  induction ls with
  | nil => intro h; exact absurd rfl h
  | cons x xs ih =>
    intro _ h
    cases xs with
    | nil =>
      simp only [fileText, List.map_cons, List.map_nil]
      exact splitChar_none (Line.no_newline (h x (by simp)))
    | cons y ys =>
      simp only [fileText, linesOf]
      rw [splitChar_append (Line.no_newline (h x (by simp)))]
      have := ih (by simp) (fun z hz => h z (by simp [hz]))
      simp only [linesOf] at this
      rw [this]; rfl

theorem get?_eq_find {ν : Type _} (ps : List (Str × ν)) (k : Str) :
    Dict.get? ps k = (ps.find? (fun p => p.1 = k)).map (·.2) := by
  induction ps with
  | nil => rfl
  | cons p ps ih =>
    obtain ⟨a, b⟩ := p
    by_cases h : a = k <;> simp [Dict.get?, List.find?_cons, h, ih]

/-- **C48 (part).** For every file made of empty lines, lines that begin with a comment marker,
and lines `key=value` (white space around the value and an inline comment without `=` allowed;
keys and values free of `=`, markers and line ends): the file is accepted, its keys are exactly
those set, and each key has the value of the last line that sets it. -/
theorem c48_partial (cs : List Char) (he : '=' ∉ cs) (ls : List Line) (h : ∀ x ∈ ls, x.Ok cs) :
    ∃ d, parseConfig cs (fileText ls) = .ok d ∧ d.keys.Nodup ∧ ∀ k,
      d.get? k = lastValue ls k
      ∧ (∀ v, lastValue ls k = some v → configItem d k = .ok v)
      ∧ (lastValue ls k = none → configItem d k = .error (.named "ConfigKeyError")) := by
  refine ⟨Dict.ofPairs (ls.filterMap Line.sets), ?_, Dict.nodup_keys_ofPairs _, ?_⟩
  · unfold parseConfig
    cases ls with
    | nil => rfl
    | cons x xs =>
      rw [linesOf_fileText _ (by simp) h, parseLines_texts he _ _ h]
      rfl
  · intro k
    have : (Dict.ofPairs (ls.filterMap Line.sets)).get? k = lastValue ls k := by
      rw [Dict.ofPairs, Dict.get?_update, Dict.get?_nil, Option.or_none, get?_eq_find, lastValue]
    refine ⟨this, ?_, ?_⟩
    · intro v hv; rw [configItem, this, hv]
    · intro hv; rw [configItem, this, hv]

/-- Lines of any other form are rejected: if some line is not empty, does not begin with a marker
and does not contain exactly one `=`, the whole file is rejected with `ValueError`. -/
theorem c48_rejects (cs : List Char) (text : Str) :
    (∃ line ∈ linesOf text, line ≠ [] ∧ (∀ c, line.head? = some c → c ∉ cs)
      ∧ line.count '=' ≠ 1) ↔ parseConfig cs text = .error .valueError := by
  have hlen : ∀ s : Str, (splitChar '=' s).length = s.count '=' + 1 := by
    intro s
    induction s with
    | nil => rfl
    | cons x xs ih =>
      by_cases hx : x = '='
      · subst hx; simp [splitChar, ih]
      · simp only [splitChar, hx, if_false]
        rw [List.count_cons_of_ne hx, ← ih]
        cases hs : splitChar '=' xs with
        | nil => exact absurd hs (splitChar_ne_nil _ _)
        | cons w ws => simp
  have hone : ∀ line : Str, (line ≠ [] ∧ (∀ c, line.head? = some c → c ∉ cs)
      ∧ line.count '=' ≠ 1) ↔ parseLine cs line = .error .valueError := by
    intro line
    cases line with
    | nil => simp [parseLine]
    | cons c t =>
      by_cases hc : c ∈ cs
      · simp [parseLine, hc]
      · have hl := hlen (c :: t)
        simp only [parseLine, hc, if_false]
        constructor
        · rintro ⟨_, _, h3⟩
          split
          · next k v hk => rw [hk] at hl; simp at hl; omega
          · rfl
        · intro h
          refine ⟨by simp, by simp [hc], ?_⟩
          intro h1
          rw [h1] at hl
          match hk : splitChar '=' (c :: t), hl with
          | [k, v], _ => rw [hk] at h; simp at h
  have herr : ∀ line e, parseLine cs line = .error e → e = .valueError := by
    intro line e h
    cases line with
    | nil => simp [parseLine] at h
    | cons c t =>
      simp only [parseLine] at h
      split at h
      · simp at h
      · split at h
        · simp at h
        · injection h with h; exact h.symm
  have hall : ∀ (lines : List Str) (d : Dict Str Str),
      (∃ line ∈ lines, parseLine cs line = .error .valueError)
      ↔ parseLines cs lines d = .error .valueError := by
    intro lines
    induction lines with
    | nil => intro d; simp [parseLines]
    | cons x xs ih =>
      intro d
      simp only [parseLines, List.mem_cons, exists_eq_or_imp]
      cases hx : parseLine cs x with
      | error e => rw [herr x e hx]; simp
      | ok p => simp only [reduceCtorEq, false_or]; exact ih _
  rw [parseConfig, ← hall]
  constructor
  · rintro ⟨l, hl, h⟩; exact ⟨l, hl, (hone l).1 h⟩
  · rintro ⟨l, hl, h⟩; exact ⟨l, hl, (hone l).2 h⟩

/-- **C48 fails in the code** for lines that any reader of such files would call blank, a comment
or a setting: a line of white space is rejected, an inline comment must not contain `=`, and an
indented comment with one `=` becomes a parameter. -/
theorem c48_counterexample :
    parseConfig ['#'] c!"a=1\n \nb=2" = .error .valueError
    ∧ parseConfig ['#'] c!"a=1 # was a=2" = .error .valueError
    ∧ parseConfig ['#'] c!" # a=2" = .ok [(c!" # a", c!"2")] := by
  decide +kernel

example : parseConfig ['#'] c!"# file\n\na=1\nb= [0, 1] # list\na=3\n"
    = .ok [(c!"a", c!"3"), (c!"b", c!"[0, 1]")] := by decide +kernel

example : (Line.setting c!"b" c!" " c!"[0, 1]" c!" " (some ('#', c!" list"))).Ok ['#'] := by
  unfold Line.Ok Trimmed InlineOk
  decide +kernel

/-! ## C95: blanks around the equals sign -/

/-- **C95 (part).** White space after the equals sign, and at the end of the line, never matters. -/
theorem c95_partial (cs : List Char) (k l r v : Str) (hk : '=' ∉ k)
    (hh : ∀ c, k.head? = some c → c ∉ cs) (he : '=' ∉ cs) (hv : '=' ∉ v)
    (hl : ∀ c ∈ l ++ r, isSpace c = true) (hm : ∀ c ∈ l, c ∉ cs) (ht : Trimmed v)
    (hc : ∀ c ∈ v ++ r, c ∉ cs) :
    parseLine cs (k ++ '=' :: (l ++ v ++ r)) = parseLine cs (k ++ '=' :: v) := by
  have hsp : '=' ∉ l ++ r := fun h => by have := hl _ h; revert this; decide
  have h1 : '=' ∉ l ++ v ++ r := by
    simp only [List.mem_append, not_or] at hsp ⊢
    exact ⟨⟨hsp.1, hv⟩, hsp.2⟩
  have hcase : ∀ w : Str, '=' ∉ w →
      parseLine cs (k ++ '=' :: w) = .ok (some (k, stripComments w cs)) := by
    intro w hw
    have hs := splitChar_append (t := w) hk
    rw [splitChar_none hw] at hs
    cases k with
    | nil =>
      simp only [List.nil_append] at hs ⊢
      simp only [parseLine, he, if_false, hs]
    | cons y ys =>
      simp only [List.cons_append] at hs ⊢
      simp only [parseLine, hh y rfl, if_false, hs]
  rw [hcase _ h1, hcase _ hv]
  have a := stripComments_of (cs := cs) hl ht (by
    intro c h
    simp only [List.mem_append] at h
    rcases h with (h | h) | h
    · exact hm c h
    · exact hc c (by simp [h])
    · exact hc c (by simp [h])) none (by simp)
  have b := stripComments_of (cs := cs) (l := []) (r := []) (by simp) ht (by
    intro c h
    exact hc c (by simp at h; simp [h])) none (by simp)
  simp only [rightSide, List.nil_append, List.append_nil] at a b
  rw [a, b]

/-- **C95 fails in the code.** White space before the equals sign becomes part of the key, so the
parameter is not found under its name. -/
theorem c95_counterexample :
    parseConfig ['#'] c!"eMin = 5" = .ok [(c!"eMin ", c!"5")]
    ∧ (∀ d, parseConfig ['#'] c!"eMin = 5" = .ok d →
        configItem d c!"eMin" = .error (.named "ConfigKeyError")) := by
  have h : parseConfig ['#'] c!"eMin = 5" = .ok [(c!"eMin ", c!"5")] := by decide +kernel
  refine ⟨h, ?_⟩
  intro d hd
  rw [h] at hd
  injection hd with hd
  subst hd
  decide +kernel

/-! ## C53: comparing configurations -/

theorem mem_unionKeys (a b : Dict Str Str) (k : Str) :
    k ∈ unionKeys a b ↔ k ∈ a.keys ∨ k ∈ b.keys := by
  unfold unionKeys
  rw [(List.perm_insertionSort _ _).mem_iff, List.mem_dedup, List.mem_append]

theorem nodup_unionKeys (a b : Dict Str Str) : (unionKeys a b).Nodup :=
  ((List.perm_insertionSort _ _).nodup_iff).2 (List.nodup_dedup _)

theorem sorted_unionKeys (a b : Dict Str Str) : (unionKeys a b).Pairwise (· ≤ ·) :=
  List.pairwise_insertionSort _ _

theorem unionKeys_comm (a b : Dict Str Str) : unionKeys a b = unionKeys b a := by
  have hp : (unionKeys a b).Perm (unionKeys b a) := by
    rw [List.perm_ext_iff_of_nodup (nodup_unionKeys a b) (nodup_unionKeys b a)]
    intro k
    rw [mem_unionKeys, mem_unionKeys, or_comm]
  exact hp.eq_of_pairwise (fun _ _ _ _ h1 h2 => le_antisymm h1 h2)
    (sorted_unionKeys a b) (sorted_unionKeys b a)

theorem get?_map_pair {ν : Type _} (f : Str → ν) : ∀ (ks : List Str) (k : Str),
    Dict.get? (ks.map (fun k => (k, f k))) k = if k ∈ ks then some (f k) else none := by
  intro ks k
  induction ks with
  | nil => rfl
  | cons x xs ih =>
    simp only [List.map_cons, Dict.get?]
    by_cases h : x = k
    · subst h; simp
    · simp [h, Ne.symm h, ih]

/-- **C53.** For every pair of configurations: the comparison lists exactly the parameters that
occur in at least one of them, each once, in order, with its value (or nothing) on each side; the
opposite comparison lists the same parameters with the columns swapped; and the key differences
are the parameters that occur on one side only. -/
theorem c53_compare (a b : Dict Str Str) :
    (∀ k, k ∈ (compare a b).keys ↔ (∃ v, a.get? k = some v) ∨ ∃ v, b.get? k = some v)
    ∧ (compare a b).keys.Nodup ∧ (compare a b).keys.Pairwise (· ≤ ·)
    ∧ (∀ k x y, (compare a b).get? k = some (x, y) → x = a.get? k ∧ y = b.get? k)
    ∧ compare b a = (compare a b).map (fun e => (e.1, e.2.swap))
    ∧ (∀ k, (k ∈ (diffKeys a b).1 ↔ (∃ v, a.get? k = some v) ∧ b.get? k = none)
      ∧ (k ∈ (diffKeys a b).2 ↔ (∃ v, b.get? k = some v) ∧ a.get? k = none)) := by
  have hk : (compare a b).keys = unionKeys a b := by
    simp [compare, Dict.keys, Function.comp_def]
  have hex : ∀ (d : Dict Str Str) k, k ∈ d.keys ↔ ∃ v, d.get? k = some v := by
    intro d k
    rw [← Dict.get?_isSome_iff, Option.isSome_iff_exists]
  refine ⟨?_, ?_, ?_, ?_, ?_, ?_⟩
  · intro k; rw [hk, mem_unionKeys, hex, hex]
  · rw [hk]; exact nodup_unionKeys a b
  · rw [hk]; exact sorted_unionKeys a b
  · intro k x y h
    rw [compare, get?_map_pair] at h
    split at h
    · simp only [Option.some.injEq, Prod.mk.injEq] at h
      exact ⟨h.1.symm, h.2.symm⟩
    · simp at h
  · simp [compare, unionKeys_comm b a, Function.comp_def]
  · intro k
    simp only [diffKeys, List.mem_filter, decide_eq_true_eq]
    rw [Dict.get?_eq_none_iff, Dict.get?_eq_none_iff, hex, hex]
    simp [hex]

example : compare [(c!"b", c!"1"), (c!"a", c!"2")] [(c!"c", c!"3"), (c!"a", c!"4")]
    = [(c!"a", some c!"2", some c!"4"), (c!"b", some c!"1", none), (c!"c", none, some c!"3")] := by
  decide +kernel

end Verif.Runtime
