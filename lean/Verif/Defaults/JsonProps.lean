import Verif.Defaults.LineProps

/-!
# The packaged database of defaults

Writing the defaults found in the source code to `runtime.json` and reading them back (C134), and the
two ways of writing (C135).
-/

set_option linter.unusedSimpArgs false

namespace Verif.Defaults

open Verif.Py Verif.Runtime

/-! ## C134: writing and reading the database -/

/-- The type of Python values that each mode of reading gives. -/
def modeType : Mode → Typ
  | .readInt => .int
  | .readDouble => .float
  | .readString => .str
  | .readDoubleArray => .list

theorem typeOfMode_mode (m : Mode) : typeOfMode (.text (modeName m)) = .ok (.typ (modeType m)) := by
  cases m <;> decide +kernel

theorem modeOfType_type (m : Mode) : modeOfType (.typ (modeType m)) = .ok (.text (modeName m)) := by
  cases m <;> decide +kernel

theorem get_filter {β : Type} (d : Dict Str β) (old k : Str) :
    Dict.get? (d.filter (fun e => e.1 ≠ old)) k = if k = old then none else d.get? k := by
  have := Dict.get?_del d old k
  unfold Dict.del at this
  rw [this]
  by_cases h : k = old
  · rw [if_pos h, if_pos h.symm]
  · rw [if_neg h, if_neg (fun h' => h h'.symm)]

theorem replaceOne_get {old new : Str} {conv : Attr → Res Attr} {i : Dict Str Attr} {a b : Attr}
    (ha : i.get? old = some a) (hb : conv a = .ok b) (hn : i.get? new = none) :
    ∃ r, replaceOne old new conv i = .ok r
      ∧ ∀ k, r.get? k = if k = new then some b else if k = old then none else i.get? k := by
  have hnone : Dict.get? (i.filter (fun e => e.1 ≠ old)) new = none := by
    rw [get_filter, hn]; simp
  refine ⟨(new, b) :: i.filter (fun e => e.1 ≠ old), ?_, ?_⟩
  · unfold replaceOne
    rw [ha]
    simp only [hb]
    show Except.ok (withFirst new b _) = _
    unfold withFirst
    rw [hnone]
  · intro k
    rw [Dict.get?_cons, get_filter]
    by_cases hk : k = new
    · simp [hk]
    · rw [if_neg (fun h => hk h.symm), if_neg hk]

/-- Two dictionaries of dictionaries with the same values. -/
def Same {β : Type} (d e : Dict Str (Dict Str β)) : Prop :=
  ∀ n, (d.get? n).isSome = (e.get? n).isSome ∧
    ∀ i j, d.get? n = some i → e.get? n = some j → ∀ k, i.get? k = j.get? k

/-- A parsed parameter: it has a mode, and no attribute is called `type`. -/
def Parsed (i : Dict Str Attr) : Prop :=
  (∃ m : Mode, i.get? c!"mode" = some (.text (modeName m))) ∧ i.get? c!"type" = none

/-- A standard definition: it has a type, and no attribute is called `mode`. -/
def Standard (i : Dict Str Attr) : Prop :=
  (∃ m : Mode, i.get? c!"type" = some (.typ (modeType m))) ∧ i.get? c!"mode" = none

theorem standardizeOne {i : Dict Str Attr} (h : Parsed i) :
    ∃ r, replaceOne c!"mode" c!"type" typeOfMode i = .ok r ∧ Standard r
      ∧ (∀ m : Mode, i.get? c!"mode" = some (.text (modeName m)) →
          r.get? c!"type" = some (.typ (modeType m)))
      ∧ ∀ k, k ≠ c!"mode" → k ≠ c!"type" → r.get? k = i.get? k := by
  obtain ⟨⟨m, hm⟩, ht⟩ := h
  obtain ⟨r, hr, hg⟩ := replaceOne_get hm (typeOfMode_mode m) ht
  refine ⟨r, hr, ⟨⟨m, by rw [hg]; simp⟩, by rw [hg]; simp⟩, ?_, ?_⟩
  · intro m' hm'
    rw [hm] at hm'
    have : m = m' := by
      have hi : modeName m = modeName m' := by
        injection hm' with h1; injection h1
      revert hi; cases m <;> cases m' <;> simp [modeName]
    rw [hg, if_pos rfl, this]
  · intro k h1 h2
    rw [hg, if_neg h2, if_neg h1]

theorem formatOne {i : Dict Str Attr} (h : Standard i) :
    ∃ r, replaceOne c!"type" c!"mode" modeOfType i = .ok r ∧ Parsed r
      ∧ (∀ m : Mode, i.get? c!"type" = some (.typ (modeType m)) →
          r.get? c!"mode" = some (.text (modeName m)))
      ∧ ∀ k, k ≠ c!"mode" → k ≠ c!"type" → r.get? k = i.get? k := by
  obtain ⟨⟨m, hm⟩, ht⟩ := h
  obtain ⟨r, hr, hg⟩ := replaceOne_get hm (modeOfType_type m) ht
  refine ⟨r, hr, ⟨⟨m, by rw [hg]; simp⟩, by rw [hg]; simp⟩, ?_, ?_⟩
  · intro m' hm'
    rw [hm] at hm'
    have : m = m' := by
      have hi : modeType m = modeType m' := by
        injection hm' with h1; injection h1
      revert hi; cases m <;> cases m' <;> simp [modeType]
    rw [hg, if_pos rfl, this]
  · intro k h1 h2
    rw [hg, if_neg h1, if_neg h2]

theorem mapDict_rel {α β : Type} {f : α → Res β} {P : α → Prop} {Q : α → β → Prop}
    (hf : ∀ a, P a → ∃ b, f a = .ok b ∧ Q a b) :
    ∀ d : Dict Str α, (∀ e ∈ d, P e.2) → ∃ d', mapDict f d = .ok d'
      ∧ (∀ n, (d'.get? n).isSome = (d.get? n).isSome)
      ∧ (∀ n a b, d.get? n = some a → d'.get? n = some b → Q a b)
      ∧ (∀ e ∈ d', ∃ a, P a ∧ Q a e.2) := by
  intro d
  induction d with
  | nil => exact fun _ => ⟨[], rfl, fun n => rfl, by simp, by simp⟩
  | cons e d ih =>
    intro h
    obtain ⟨k, a⟩ := e
    have hpa : P a := h (k, a) (by simp)
    obtain ⟨b, hb, hq⟩ := hf a hpa
    obtain ⟨d', hd', h1, h2, h3⟩ := ih (fun x hx => h x (by simp [hx]))
    refine ⟨(k, b) :: d', ?_, ?_, ?_, ?_⟩
    · rw [mapDict, hb]; simp only [hd']
    · intro n
      rw [Dict.get?_cons, Dict.get?_cons]
      by_cases hk : k = n
      · simp [hk]
      · simp [hk, h1]
    · intro n x y hx hy
      rw [Dict.get?_cons] at hx hy
      by_cases hk : k = n
      · rw [if_pos hk] at hx hy
        injection hx with hx; injection hy with hy
        subst hx; subst hy; exact hq
      · rw [if_neg hk] at hx hy
        exact h2 n x y hx hy
    · intro e he
      rcases List.mem_cons.1 he with rfl | he
      · exact ⟨a, hpa, hq⟩
      · exact h3 e he

/-- **C134.** For every collection of parsed parameters: they have standard definitions, in which the
type corresponds to the mode and all other attributes are as parsed; the text of the database written
from these definitions has the same attributes as were parsed; and reading that text back gives the
same definitions. -/
theorem c134_round_trip (m : Dict Str (Dict Str Attr)) (h : ∀ e ∈ m, Parsed e.2) :
    ∃ s j s', standardize m = .ok s ∧ formatJson s = .ok j ∧ standardize j = .ok s'
      ∧ (∀ n, (s.get? n).isSome = (m.get? n).isSome)
      ∧ (∀ n a r, m.get? n = some a → s.get? n = some r →
          (∀ o : Mode, a.get? c!"mode" = some (.text (modeName o)) →
            r.get? c!"type" = some (.typ (modeType o)))
          ∧ ∀ k, k ≠ c!"mode" → k ≠ c!"type" → r.get? k = a.get? k)
      ∧ Same m j ∧ Same s s' := by
  obtain ⟨s, hs, s1, s2, s3⟩ := mapDict_rel (fun a ha => standardizeOne (i := a) ha) m h
  have hS : ∀ e ∈ s, Standard e.2 := fun e he => by
    obtain ⟨a, _, hq⟩ := s3 e he; exact hq.1
  obtain ⟨j, hj, j1, j2, j3⟩ := mapDict_rel (fun a ha => formatOne (i := a) ha) s hS
  have hP : ∀ e ∈ j, Parsed e.2 := fun e he => by
    obtain ⟨a, _, hq⟩ := j3 e he; exact hq.1
  obtain ⟨t, ht, t1, t2, t3⟩ := mapDict_rel (fun a ha => standardizeOne (i := a) ha) j hP
  refine ⟨s, j, t, hs, hj, ht, s1, fun n a r ha hr => (s2 n a r ha hr).2, ?_, ?_⟩
  · intro n
    refine ⟨by rw [j1, s1], ?_⟩
    intro a b ha hb k
    have hs' : (s.get? n).isSome := by rw [s1, ha]; rfl
    obtain ⟨r, hr⟩ := Option.isSome_iff_exists.1 hs'
    have q1 := s2 n a r ha hr
    have q2 := j2 n r b hr hb
    have pa := h (n, a) (Dict.mem_of_get? ha)
    by_cases k1 : k = c!"mode"
    · obtain ⟨⟨o, ho⟩, _⟩ := pa
      subst k1
      rw [ho, q2.2.1 o (q1.2.1 o ho)]
    · by_cases k2 : k = c!"type"
      · subst k2
        rw [pa.2, q2.1.2]
      · rw [q2.2.2 k k1 k2, q1.2.2 k k1 k2]
  · intro n
    refine ⟨by rw [t1, j1], ?_⟩
    intro a b ha hb k
    have hs' : (j.get? n).isSome := by rw [j1, ha]; rfl
    obtain ⟨r, hr⟩ := Option.isSome_iff_exists.1 hs'
    have q1 := j2 n a r ha hr
    have q2 := t2 n r b hr hb
    have pa := hS (n, a) (Dict.mem_of_get? ha)
    by_cases k1 : k = c!"type"
    · obtain ⟨⟨o, ho⟩, _⟩ := pa
      subst k1
      rw [ho, q2.2.1 o (q1.2.1 o ho)]
    · by_cases k2 : k = c!"mode"
      · subst k2
        rw [pa.2, q2.1.2]
      · rw [q2.2.2 k k2 k1, q1.2.2 k k2 k1]

/-- The attributes of a parsed source file as values of the database. -/
def asAttrs (a : Attrs) : Dict Str Attr := a.map (fun e => (e.1, Attr.text e.2))

theorem asAttrs_get (a : Attrs) (k : Str) : (asAttrs a).get? k = (a.get? k).map Attr.text := by
  induction a with
  | nil => rfl
  | cons e a ih =>
    obtain ⟨x, v⟩ := e
    show Dict.get? ((x, Attr.text v) :: asAttrs a) k = _
    rw [Dict.get?_cons, Dict.get?_cons, ih]
    by_cases h : x = k <;> simp [h]

theorem callAttrs_type {c : CallLine} (h : c.Ok) : (callAttrs c).get? c!"type" = none := by
  have hargs := split_args c.args h.2.2.2.2.2.2.2.1 h.2.2.2.2.2.2.2.2.2.1
  have key : callAttrs c = if c.label ≠ c.name
        then (c!"alias", c.label) :: (c!"mode", modeName c.mode)
          :: (modeKeys c.mode).zip (c.args.map CallArg.body)
        else (c!"mode", modeName c.mode) :: (modeKeys c.mode).zip (c.args.map CallArg.body) := by
    simp only [callAttrs, parseCall, normalize, hargs]
  rw [key]
  obtain ⟨_, name, _, _, _, mode, label, _, args, _⟩ := c
  simp only
  clear key hargs h
  by_cases hl : label = name
  · rw [if_neg (by simp [hl])]
    cases mode <;> rcases args with _ | ⟨a, _ | ⟨b, _ | ⟨d, r⟩⟩⟩ <;> simp [modeKeys, Dict.get?]
  · rw [if_pos hl]
    cases mode <;> rcases args with _ | ⟨a, _ | ⟨b, _ | ⟨d, r⟩⟩⟩ <;> simp [modeKeys, Dict.get?]

/-- The hypothesis of C134 holds for every source file of C132. -/
theorem c134_source (ls : List SourceLine) (h : ∀ l ∈ ls, l.Ok) :
    ∃ d, loadConfiguration (ls.map SourceLine.text) = .ok d
      ∧ ∀ n a, d.get? n = some a → Parsed (asAttrs a) := by
  obtain ⟨d, hd, h1, h2, h3⟩ := load_get ls h
  refine ⟨d, hd, fun n a ha => ?_⟩
  cases hc : lastCall n ls with
  | none => rw [h1 n hc] at ha; cases ha
  | some c =>
    have hok := lastCall_ok h hc
    obtain ⟨m, hm⟩ := default_some hok
    cases hv : lastArray m ls with
    | none =>
      rw [h2 n c m hc hm hv] at ha
      injection ha with ha
      subst ha
      have hmode : (callAttrs c).get? c!"mode" = some (modeName c.mode) :=
        (parseCall_describes hok).2.mode
      exact ⟨⟨c.mode, by rw [asAttrs_get, hmode]; rfl⟩, by
        rw [asAttrs_get, callAttrs_type hok]; rfl⟩
    | some v =>
      rw [h3 n c m v hc hm hv] at ha
      injection ha with ha
      subst ha
      exact ⟨⟨c.mode, by rw [asAttrs_get]; simp [Dict.get?]⟩, by rw [asAttrs_get]; simp [Dict.get?]⟩

example : standardize [(c!"mass", asAttrs [(c!"mode", c!"readDoubleArray"), (c!"default", c!"[1.0]")])]
    = .ok [(c!"mass", [(c!"type", .typ .list), (c!"default", .text c!"[1.0]")])]
    ∧ formatJson [(c!"mass", [(c!"type", .typ .list), (c!"default", .text c!"[1.0]")])]
    = .ok [(c!"mass", [(c!"mode", .text c!"readDoubleArray"), (c!"default", .text c!"[1.0]")])] :=
  ⟨by decide +kernel, by decide +kernel⟩

/-! ## C135: replacing and extending the database -/

/-- **C135 (part).** For all new and old databases: writing replaces the old database by the new one;
appending keeps what the old database says, and adds only what it lacked. -/
theorem c135_partial {β : Type} (new old : Dict Str β) (h : old.keys.Nodup) (k : Str) :
    (generateDefaults false new old).get? k = new.get? k
    ∧ (generateDefaults true new old).get? k = (old.get? k).or (new.get? k) := by
  refine ⟨rfl, ?_⟩
  unfold generateDefaults
  rw [if_pos rfl]
  induction old generalizing new with
  | nil => simp [Dict.update]
  | cons p old ih =>
    obtain ⟨x, v⟩ := p
    rw [Dict.update_cons, ih _ (by simp at h; exact h.2), Dict.get?_cons]
    by_cases hx : x = k
    · subst hx
      have : Dict.get? old x = none := by
        rw [Dict.get?_eq_none_iff]
        simp at h
        exact h.1
      simp [this]
    · rw [if_neg hx, Dict.get?_set_ne _ _ hx]

/-- **C135 fails in the code** for a source whose defaults have changed: after appending them to a
database that has both sections, as every database written by this function does, the database is the
old one. -/
theorem c135_counterexample :
    generateDefaults true
      [(c!"_BASETYPES_H", [(c!"AU", c!"1.495978707e13")]),
       (c!"_CONFIGURATION_C", [(c!"rScale", c!"0.01")])]
      [(c!"_BASETYPES_H", [(c!"AU", c!"1.5e13")]), (c!"_CONFIGURATION_C", [])]
    = [(c!"_BASETYPES_H", [(c!"AU", c!"1.5e13")]), (c!"_CONFIGURATION_C", [])] := by
  decide +kernel

/-- In general: appending to a database with the same sections changes nothing. -/
theorem c135_append_counterexample {β : Type} (new old : Dict Str β) (h : old.keys.Nodup)
    (hk : ∀ k ∈ new.keys, k ∈ old.keys) (k : Str) :
    (generateDefaults true new old).get? k = old.get? k := by
  rw [(c135_partial new old h k).2]
  cases ho : old.get? k with
  | some v => rfl
  | none =>
    have : new.get? k = none := by
      rw [Dict.get?_eq_none_iff] at ho ⊢
      exact fun hn => ho (hk k hn)
    rw [this]; rfl

end Verif.Defaults
