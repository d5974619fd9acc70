import Verif.Runtime.Props

/-!
# Property C271: the order of lines in a configuration file
-/

set_option linter.unusedSimpArgs false
set_option linter.unusedSectionVars false

namespace Verif.Runtime

open Verif.Py

/-- The text with the given lines. -/
def textOf : List Str → Str
  | [] => []
  | [l] => l
  | l :: ls => l ++ '\n' :: textOf ls

/-- A line that sets nothing: it is empty or begins with a marker of comments. -/
def Idle (cs : List Char) (l : Str) : Prop := l = [] ∨ ∃ c ∈ l.head?, c ∈ cs

instance (cs : List Char) (l : Str) : Decidable (Idle cs l) := by unfold Idle; infer_instance

/-- The name that a line sets: the text before the first equals sign. -/
def nameIn (cs : List Char) (l : Str) : Option Str := if Idle cs l then none else some (l.takeWhile (· ≠ '='))

theorem lines_textOf (ls : List Str) (hne : ls ≠ []) (h : ∀ l ∈ ls, '\n' ∉ l) : linesOf (textOf ls) = ls := by
  induction ls with
  | nil => exact absurd rfl hne
  | cons l ls ih =>
    cases ls with
    | nil => exact splitChar_none (h l (by simp))
    | cons m ms =>
      simp only [textOf, linesOf]
      rw [splitChar_append (h l (by simp))]
      have := ih (by simp) (fun x hx => h x (by simp [hx]))
      simp only [linesOf] at this
      rw [this]

theorem parse_textOf (cs : List Char) (ls : List Str) (h : ∀ l ∈ ls, '\n' ∉ l) :
    parseConfig cs (textOf ls) = parseLines cs ls [] := by
  cases ls with
  | nil => rfl
  | cons l ls => unfold parseConfig; rw [lines_textOf _ (by simp) h]

theorem parseLine_idle {cs : List Char} {l : Str} (h : Idle cs l) : parseLine cs l = .ok none := by
  cases l with
  | nil => rfl
  | cons c t =>
    rcases h with h | ⟨d, hd, hm⟩
    · exact absurd h (by simp)
    · simp only [List.head?_cons, Option.mem_def, Option.some.injEq] at hd
      subst hd
      simp [parseLine, hm]

theorem parseLine_busy {cs : List Char} {l : Str} (h : ¬ Idle cs l) :
    parseLine cs l = .error .valueError ∨ ∃ v, parseLine cs l = .ok (some (l.takeWhile (· ≠ '='), v)) := by
  cases l with
  | nil => exact absurd (Or.inl rfl) h
  | cons c t =>
    have hc : c ∉ cs := fun hm => h (Or.inr ⟨c, rfl, hm⟩)
    unfold parseLine
    simp only [if_neg hc]
    have hcut := cutAt_eq '=' (c :: t)
    unfold cutAt at hcut
    rcases hs : splitChar '=' (c :: t) with _ | ⟨a, _ | ⟨b, _ | ⟨d, r⟩⟩⟩
    · exact Or.inl rfl
    · exact Or.inl rfl
    · right
      rw [hs] at hcut
      simp only [List.headD_cons] at hcut
      exact ⟨_, by rw [← hcut]⟩
    · exact Or.inl rfl

/-- The pair that a line sets, if it is accepted. -/
def pairIn (cs : List Char) (l : Str) : Option (Str × Str) :=
  match parseLine cs l with
  | .ok p => p
  | .error _ => none

/-- Lines that are accepted. -/
def Accepted (cs : List Char) (l : Str) : Prop := ∃ p, parseLine cs l = .ok p

theorem parseLines_accepted (cs : List Char) (ls : List Str) (d : Dict Str Str) (h : ∀ l ∈ ls, Accepted cs l) :
    parseLines cs ls d = .ok (d.update (ls.filterMap (pairIn cs))) := by
  induction ls generalizing d with
  | nil => rfl
  | cons l ls ih =>
    obtain ⟨p, hp⟩ := h l (by simp)
    have hpi : pairIn cs l = p := by unfold pairIn; rw [hp]
    rw [parseLines, hp]
    simp only
    rw [ih _ (fun x hx => h x (by simp [hx])), List.filterMap_cons, hpi]
    cases p with
    | none => rfl
    | some q => rfl

theorem parseLines_rejected (cs : List Char) (ls : List Str) (d : Dict Str Str) (h : ¬ ∀ l ∈ ls, Accepted cs l) :
    parseLines cs ls d = .error .valueError := by
  induction ls generalizing d with
  | nil => exact absurd (by simp) h
  | cons l ls ih =>
    rw [parseLines]
    by_cases hl : Accepted cs l
    · obtain ⟨p, hp⟩ := hl
      rw [hp]
      simp only
      refine ih _ fun hall => h fun x hx => ?_
      rcases List.mem_cons.1 hx with rfl | hx
      · exact ⟨p, hp⟩
      · exact hall x hx
    · by_cases hi : Idle cs l
      · exact absurd ⟨none, parseLine_idle hi⟩ hl
      · rcases parseLine_busy hi with e | ⟨v, e⟩
        · rw [e]
        · exact absurd ⟨_, e⟩ hl

theorem pairIn_name {cs : List Char} {l : Str} (h : Accepted cs l) : (pairIn cs l).map (·.1) = nameIn cs l := by
  unfold pairIn nameIn
  by_cases hi : Idle cs l
  · rw [parseLine_idle hi, if_pos hi]; rfl
  · rw [if_neg hi]
    rcases parseLine_busy hi with e | ⟨v, e⟩
    · obtain ⟨p, hp⟩ := h
      rw [hp] at e
      exact absurd e (by simp)
    · rw [e]; rfl

/-- **C271, order.** For all lines without line ends and markers of comments, if no two lines set the same name: all orders of the lines give
files that are rejected alike or have the same value for every name. -/
theorem c271_order (cs : List Char) (ls ls' : List Str) (hp : ls.Perm ls') (hn : ∀ l ∈ ls, '\n' ∉ l)
    (hk : (ls.filterMap (nameIn cs)).Nodup) :
    (parseConfig cs (textOf ls) = .error .valueError ∧ parseConfig cs (textOf ls') = .error .valueError)
      ∨ ∃ d d', parseConfig cs (textOf ls) = .ok d ∧ parseConfig cs (textOf ls') = .ok d' ∧ ∀ k, configItem d k = configItem d' k := by
  rw [parse_textOf cs ls hn, parse_textOf cs ls' (fun l hl => hn l (hp.mem_iff.2 hl))]
  by_cases h : ∀ l ∈ ls, Accepted cs l
  · right
    have h' : ∀ l ∈ ls', Accepted cs l := fun l hl => h l (hp.mem_iff.2 hl)
    refine ⟨_, _, parseLines_accepted cs ls [] h, parseLines_accepted cs ls' [] h', fun k => ?_⟩
    have hpp : (ls.filterMap (pairIn cs)).Perm (ls'.filterMap (pairIn cs)) := hp.filterMap _
    have hnames : (ls.filterMap (pairIn cs)).map (·.1) = ls.filterMap (nameIn cs) := by
      rw [List.map_filterMap]
      clear hp hn hk hpp h'
      induction ls with
      | nil => rfl
      | cons l ls ih =>
        rw [List.filterMap_cons, List.filterMap_cons, pairIn_name (h l (by simp)), ih (fun x hx => h x (by simp [hx]))]
    rw [← hnames] at hk
    have hget : ∀ ps qs : List (Str × Str), ps.Perm qs → (ps.map (·.1)).Nodup →
        (ps.find? (fun p => p.1 = k)) = (qs.find? (fun p => p.1 = k)) := by
      intro ps qs hpq hnd
      have key : ∀ (rs : List (Str × Str)), (rs.map (·.1)).Nodup → ∀ x, rs.find? (fun p => p.1 = k) = some x ↔ x ∈ rs ∧ x.1 = k := by
        intro rs
        induction rs with
        | nil => intro _ x; simp
        | cons r rs ih =>
          intro hnd x
          rw [List.map_cons, List.nodup_cons] at hnd
          by_cases hr : r.1 = k
          · rw [List.find?_cons_of_pos (by simpa using hr), Option.some.injEq]
            constructor
            · rintro rfl; exact ⟨by simp, hr⟩
            · rintro ⟨hx, hxk⟩
              rcases List.mem_cons.1 hx with rfl | hx
              · rfl
              · exact absurd (List.mem_map.2 ⟨x, hx, hxk.trans hr.symm⟩) hnd.1
          · rw [List.find?_cons_of_neg (by simpa using hr), ih hnd.2]
            constructor
            · rintro ⟨a, b⟩; exact ⟨by simp [a], b⟩
            · rintro ⟨a, b⟩
              rcases List.mem_cons.1 a with rfl | a
              · exact absurd b hr
              · exact ⟨a, b⟩
      apply Option.ext
      intro x
      rw [key ps hnd, key qs ((hpq.map _).nodup_iff.1 hnd), hpq.mem_iff]
    have hval : ∀ ps : List (Str × Str), (Dict.update [] ps).get? k = (ps.reverse.find? (fun p => p.1 = k)).map (·.2) := by
      intro ps
      rw [Dict.get?_update, Dict.get?_nil, Option.or_none, get?_eq_find]
    unfold configItem
    rw [hval, hval, hget _ _ ((List.reverse_perm _).trans (hpp.trans (List.reverse_perm _).symm))
      (by rw [List.map_reverse]; exact List.nodup_reverse.2 hk)]
  · left
    exact ⟨parseLines_rejected cs ls [] h, parseLines_rejected cs ls' [] (fun h' => h fun l hl => h' l (hp.mem_iff.1 hl))⟩

/-- **C271, comments.** Adding an empty line or a line of comments anywhere changes nothing. -/
theorem c271_comments (cs : List Char) (a b : List Str) (l : Str) (hl : Idle cs l) (hn : ∀ x ∈ a ++ l :: b, '\n' ∉ x) :
    parseConfig cs (textOf (a ++ l :: b)) = parseConfig cs (textOf (a ++ b)) := by
  rw [parse_textOf cs _ hn, parse_textOf cs _ (fun x hx => hn x (by
    rcases List.mem_append.1 hx with h | h <;> simp [h]))]
  generalize ([] : Dict Str Str) = d
  clear hn
  induction a generalizing d with
  | nil => simp [parseLines, parseLine_idle hl, store]
  | cons x a ih =>
    simp only [List.cons_append, parseLines]
    cases parseLine cs x with
    | error e => rfl
    | ok p => exact ih _

/-- **C271, parts.** The lines of one file after those of another: the values are those of the second where it sets the name and those of
the first elsewhere; if one is rejected, so are both together. -/
theorem c271_parts (cs : List Char) (a b : List Str) (hn : ∀ x ∈ a ++ b, '\n' ∉ x) :
    (parseConfig cs (textOf (a ++ b)) = .error .valueError ∧
        (parseConfig cs (textOf a) = .error .valueError ∨ parseConfig cs (textOf b) = .error .valueError))
      ∨ ∃ d e f, parseConfig cs (textOf a) = .ok d ∧ parseConfig cs (textOf b) = .ok e ∧ parseConfig cs (textOf (a ++ b)) = .ok f
        ∧ ∀ k, configItem f k = (match configItem e k with | .ok v => .ok v | .error _ => configItem d k) := by
  rw [parse_textOf cs _ hn, parse_textOf cs a (fun x hx => hn x (by simp [hx])), parse_textOf cs b (fun x hx => hn x (by simp [hx]))]
  by_cases h : ∀ l ∈ a ++ b, Accepted cs l
  · right
    refine ⟨_, _, _, parseLines_accepted cs a [] (fun l hl => h l (by simp [hl])),
      parseLines_accepted cs b [] (fun l hl => h l (by simp [hl])), parseLines_accepted cs (a ++ b) [] h, fun k => ?_⟩
    have hval : ∀ ps : List (Str × Str), (Dict.update [] ps).get? k = (ps.reverse.find? (fun p => p.1 = k)).map (·.2) := by
      intro ps
      rw [Dict.get?_update, Dict.get?_nil, Option.or_none, get?_eq_find]
    unfold configItem
    rw [hval, hval, hval, List.filterMap_append, List.reverse_append, List.find?_append]
    cases (b.filterMap (pairIn cs)).reverse.find? (fun p => p.1 = k) with
    | some p => rfl
    | none => rfl
  · left
    refine ⟨parseLines_rejected cs _ [] h, ?_⟩
    by_cases ha : ∀ l ∈ a, Accepted cs l
    · right
      refine parseLines_rejected cs b [] fun hb => h fun l hl => ?_
      rcases List.mem_append.1 hl with h' | h'
      · exact ha l h'
      · exact hb l h'
    · exact Or.inl (parseLines_rejected cs a [] ha)

/-- Two orders of lines with comments and blanks. -/
example : textOf [c!"# units", c!"boundary=1", [], c!"tDel= 0.5 # days"] = c!"# units\nboundary=1\n\ntDel= 0.5 # days" := by decide +kernel

example : ([c!"# units", c!"boundary=1", [], c!"tDel= 0.5 # days"].filterMap (nameIn ['#'])) = [c!"boundary", c!"tDel"] := by decide +kernel

example : parseConfig ['#'] (textOf [c!"# units", c!"boundary=1", [], c!"tDel= 0.5 # days"])
    = .ok [(c!"boundary", c!"1"), (c!"tDel", c!"0.5")] := by decide +kernel

example : parseConfig ['#'] (textOf [c!"tDel= 0.5 # days", [], c!"# units", c!"boundary=1"])
    = .ok [(c!"tDel", c!"0.5"), (c!"boundary", c!"1")] := by decide +kernel

end Verif.Runtime
