import Verif.Display.Spec

/-!
# Displays: theorems
-/

set_option linter.unusedSimpArgs false

namespace Verif.Display

open Verif.Py

/-! ## Formatting -/

theorem formatGo_name (look : Str → Res Str) (name rest acc : Str) (h1 : '{' ∉ name)
    (h2 : '}' ∉ name) :
    formatGo look (name ++ '}' :: rest) (some acc)
      = (do let v ← look (acc ++ name); (formatGo look rest none).map (v ++ ·)) := by
  induction name generalizing acc with
  | nil => simp [formatGo]
  | cons c cs ih =>
    have h3 : c ≠ '{' := fun h => h1 (by simp [h])
    have h4 : c ≠ '}' := fun h => h2 (by simp [h])
    have := ih (acc ++ [c]) (fun h => h1 (by simp [h])) (fun h => h2 (by simp [h]))
    rw [List.cons_append, formatGo, this]
    · simp
    · exact h4
    · exact h3

theorem formatGo_lit (look : Str → Res Str) (c : Char) (rest : Str) :
    formatGo look ((Seg.lit c).text ++ rest) none = (formatGo look rest none).map (c :: ·) := by
  unfold Seg.text
  by_cases h1 : c = '{'
  · subst h1; simp [formatGo]
  · by_cases h2 : c = '}'
    · subst h2; simp [formatGo]
    · simp only [h1, h2, or_self, if_false, List.cons_append, List.nil_append]
      rw [formatGo]
      · intro _ h; exact absurd h h1
      · intro _ h; exact absurd h h2
      · exact h1
      · exact h2

theorem formatGo_field (look : Str → Res Str) (name rest : Str) (h : (Seg.field name).Plain) :
    formatGo look ((Seg.field name).text ++ rest) none
      = (do let v ← look name; (formatGo look rest none).map (v ++ ·)) := by
  have h1 := formatGo_name look name rest [] h.1 h.2
  rw [List.nil_append] at h1
  rw [← h1]
  show formatGo look ('{' :: (name ++ ['}'] ++ rest)) none = _
  rw [List.append_assoc, List.singleton_append]
  cases name with
  | nil => rw [List.nil_append, formatGo]; simp
  | cons c cs =>
    have h3 : c ≠ '{' := fun hc => h.1 (by simp [hc])
    rw [List.cons_append, formatGo]
    intro _ hc
    injection hc with hc
    exact h3 hc

/-- The values that a lookup gives. -/
theorem lookAttr_ok (fields : Dict Str Str) (attrs : Dict Str Attr) (name v : Str) :
    lookAttr fields attrs name = .ok v ↔ Shows fields attrs name v := by
  unfold lookAttr Shows
  cases h : fields.get? name with
  | none => simp
  | some a =>
    cases h2 : attrs.get? a with
    | none => simp [h2]
    | some b => cases b <;> simp [h2]

theorem formatGo_segs (look : Str → Res Str) (segs : List Seg) (h : ∀ s ∈ segs, s.Plain) (out : Str) :
    formatGo look (segs.flatMap Seg.text) none = .ok out
      ↔ Filled (fun n v => look n = .ok v) segs out := by
  induction segs generalizing out with
  | nil =>
    constructor
    · intro h
      simp [formatGo] at h
      subst h; exact .nil
    · intro h
      cases h
      simp [formatGo]
  | cons s segs ih =>
    have ih := ih (fun t ht => h t (by simp [ht]))
    rw [List.flatMap_cons]
    cases s with
    | lit c =>
      rw [formatGo_lit]
      constructor
      · intro h1
        cases h2 : formatGo look (segs.flatMap Seg.text) none with
        | error e => rw [h2] at h1; simp [Except.map] at h1
        | ok r =>
          rw [h2] at h1
          simp [Except.map] at h1
          subst h1
          exact .lit ((ih r).1 h2)
      · intro h1
        cases h1 with
        | lit h2 => rw [(ih _).2 h2]; rfl
    | field name =>
      rw [formatGo_field _ _ _ (h _ (by simp))]
      constructor
      · intro h1
        cases hv : look name with
        | error e => rw [hv] at h1; simp [bind, Except.bind] at h1
        | ok v =>
          cases h2 : formatGo look (segs.flatMap Seg.text) none with
          | error e => rw [hv, h2] at h1; simp [Except.map, bind, Except.bind] at h1
          | ok r =>
            rw [hv, h2] at h1
            simp [Except.map, bind, Except.bind] at h1
            subst h1
            exact .field hv ((ih r).1 h2)
      · intro h1
        cases h1 with
        | field hv h2 => rw [(ih _).2 h2, hv]; rfl

/-! ## Splitting and joining -/

theorem join_cons (sep p : Str) (ps : List Str) (h : ps ≠ []) :
    join sep (p :: ps) = p ++ sep ++ join sep ps := by
  cases ps with
  | nil => exact absurd rfl h
  | cons q qs => rfl

theorem splitGo_ne (sep s : Str) (k : Nat) (cur : Str) : splitGo sep s k cur ≠ [] := by
  induction s generalizing k cur with
  | nil => simp [splitGo]
  | cons c cs ih =>
    cases k with
    | succ k => simpa [splitGo] using ih k cur
    | zero =>
      rw [splitGo]
      split
      · simp
      · exact ih _ _

/-- Splitting and joining gives the text back. -/
theorem join_splitGo (sep s : Str) (hs : sep ≠ []) (k : Nat) (cur : Str) :
    join sep (splitGo sep s k cur) = cur ++ s.drop k := by
  induction s generalizing k cur with
  | nil => simp [splitGo, join]
  | cons c cs ih =>
    cases k with
    | succ k => simpa [splitGo] using ih k cur
    | zero =>
      rw [splitGo]
      split
      · rename_i hp
        rw [join_cons _ _ _ (splitGo_ne _ _ _ _), ih, List.drop_zero, List.nil_append]
        obtain ⟨t, ht⟩ := List.isPrefixOf_iff_prefix.1 hp
        cases sep with
        | nil => exact absurd rfl hs
        | cons d ds =>
          rw [List.cons_append] at ht
          injection ht with h1 h2
          subst h1 h2
          simp
      · rw [ih]; simp

theorem join_split (sep s : Str) (hs : sep ≠ []) : join sep (split sep s) = s := by
  have := join_splitGo sep s hs 0 []
  rwa [List.drop_zero, List.nil_append] at this

theorem join_append (sep : Str) (ps qs : List Str) (hp : ps ≠ []) (hq : qs ≠ []) :
    join sep (ps ++ qs) = join sep ps ++ sep ++ join sep qs := by
  induction ps with
  | nil => exact absurd rfl hp
  | cons p ps ih =>
    by_cases h : ps = []
    · subst h
      rw [List.singleton_append, join_cons _ _ _ hq]; rfl
    · rw [List.cons_append, join_cons _ _ _ (by simp [h]), ih h, join_cons _ _ _ h]
      simp

/-- Passing over the rest of a separator. -/
theorem splitGo_skip (sep a s : Str) (cur : Str) :
    splitGo sep (a ++ s) a.length cur = splitGo sep s 0 cur := by
  induction a with
  | nil => rfl
  | cons c cs ih => simpa [splitGo] using ih

theorem not_prefix_of_apart (d : Char) (ds : Str) (c : Char) (cs : Str) (h : c ≠ d) :
    (d :: ds).isPrefixOf (c :: cs) = false := by
  simp [List.isPrefixOf, Ne.symm h]

theorem splitGo_part (d : Char) (ds part s cur : Str) (h : d ∉ part) :
    splitGo (d :: ds) (part ++ s) 0 cur = splitGo (d :: ds) s 0 (cur ++ part) := by
  induction part generalizing cur with
  | nil => simp
  | cons c cs ih =>
    have h1 : c ≠ d := fun hc => h (by simp [hc])
    rw [List.cons_append, splitGo, not_prefix_of_apart _ _ _ _ h1, if_neg (by simp),
      ih _ (fun hc => h (by simp [hc]))]
    simp

theorem splitGo_sep (d : Char) (ds s cur : Str) :
    splitGo (d :: ds) (d :: ds ++ s) 0 cur = cur :: splitGo (d :: ds) s 0 [] := by
  have h : (d :: ds).isPrefixOf (d :: (ds ++ s)) = true :=
    List.isPrefixOf_iff_prefix.2 ⟨s, by simp⟩
  rw [List.cons_append, splitGo, if_pos h]
  have := splitGo_skip (d :: ds) ds s []
  simpa using this

/-- Joining and splitting gives the parts back. -/
theorem split_join (sep : Str) (hs : sep ≠ []) (ps : List Str) (hp : ps ≠ [])
    (h : ∀ p ∈ ps, Apart sep p) : split sep (join sep ps) = ps := by
  obtain ⟨d, ds, rfl⟩ : ∃ d ds, sep = d :: ds := by
    cases sep with
    | nil => exact absurd rfl hs
    | cons d ds => exact ⟨d, ds, rfl⟩
  have h2 : ∀ p ∈ ps, d ∉ p := fun p hm => h p hm d (by simp)
  clear h
  unfold split
  induction ps with
  | nil => exact absurd rfl hp
  | cons p ps ih =>
    by_cases h0 : ps = []
    · subst h0
      have := splitGo_part d ds p [] [] (h2 p (by simp))
      rw [List.append_nil] at this
      show splitGo (d :: ds) p 0 [] = _
      rw [this]; rfl
    · rw [join_cons _ _ _ h0, List.append_assoc, splitGo_part d ds p _ [] (h2 p (by simp)),
        splitGo_sep, ih h0 (fun q hq => h2 q (by simp [hq]))]
      simp

/-! ## C241: the text of a quantity -/

/-- **C241** (partial). The text of an object is its format string with every field replaced by the text
of the attribute that it stands for *now*, called if it can be called; it raises exactly if that is not
possible. -/
theorem c241_template_partial (o : Obj) (segs : List Seg) (h : ∀ s ∈ segs, s.Plain)
    (hd : o.display.str.data = segs.flatMap Seg.text) (out : Str) :
    o.str = .ok out ↔ Filled (Shows o.display.fields o.attrs) segs out := by
  have h1 := formatGo_segs (lookAttr o.display.fields o.attrs) segs h out
  unfold Obj.str DString.formatMap
  rw [hd, h1]
  have h2 : (fun n v => lookAttr o.display.fields o.attrs n = .ok v)
      = Shows o.display.fields o.attrs := by
    funext n v
    exact propext (lookAttr_ok _ _ n v)
  rw [h2]

/-- **C241** (partial). The text of a quantity that was given a name shows the name that it has now,
then the data and the unit; for an array, the type of the data stands in for the data. -/
theorem c241_partial (data kind unit : Str) (old new : List Str) (m c : Str) (h : old ≠ [[]]) :
    (((Quantity.scalar data kind unit old).rename new).obj m c).str
        = .ok (c!"'" ++ nameText new ++ c!"': " ++ data ++ c!" [" ++ unit ++ c!"]") ∧
    (((Quantity.scalar data kind unit old).rename new).obj m c).repr
        = .ok (m ++ c!"." ++ c ++ c!"(" ++ data ++ c!", unit='" ++ unit ++ c!"', name='" ++ nameText new
            ++ c!"')") ∧
    (((Quantity.array data kind unit old).rename new).obj m c).str
        = .ok (c!"'" ++ nameText new ++ c!"': " ++ kind ++ c!" [" ++ unit ++ c!"]") ∧
    (((Quantity.array data kind unit old).rename new).obj m c).repr
        = .ok (m ++ c!"." ++ c ++ c!"(" ++ kind ++ c!", unit='" ++ unit ++ c!"', name='" ++ nameText new
            ++ c!"')") := by
  have h1 : nameTrue old = true := by simp [nameTrue, h]
  have hs : (physical true).str.data = c!"'{name}': {data} [{unit}]" := by decide +kernel
  have hr : (physical true).repr.data = c!"{data}, unit='{unit}', name='{name}'" := by decide +kernel
  have as : (array true).str.data = c!"'{name}': {data} [{unit}]" := by decide +kernel
  have ar : (array true).repr.data = c!"{data}, unit='{unit}', name='{name}'" := by decide +kernel
  have hf : (physical true).fields = [(c!"data", c!"data"), (c!"unit", c!"unit"), (c!"name", c!"name")] := by
    decide +kernel
  have af : (array true).fields
      = [(c!"data", c!"_get_data_type"), (c!"unit", c!"unit"), (c!"name", c!"name")] := by
    decide +kernel
  refine ⟨?_, ?_, ?_, ?_⟩ <;>
    simp [Obj.str, Obj.repr, DString.formatMap, Quantity.obj, Quantity.rename, Quantity.scalar,
      Quantity.array, h1, hs, hr, as, ar, hf, af, formatGo, lookAttr, Dict.get?, Except.map, bind,
      Except.bind]

/-- **C241** (partial). The text of a quantity without a name shows the data and the unit. -/
theorem c241_unnamed_partial (data kind unit : Str) (m c : Str) :
    ((Quantity.scalar data kind unit [[]]).obj m c).str = .ok (data ++ c!" [" ++ unit ++ c!"]") ∧
    ((Quantity.scalar data kind unit [[]]).obj m c).repr
        = .ok (m ++ c!"." ++ c ++ c!"(" ++ data ++ c!", unit='" ++ unit ++ c!"')") ∧
    ((Quantity.array data kind unit [[]]).obj m c).str = .ok (kind ++ c!" [" ++ unit ++ c!"]") := by
  refine ⟨?_, ?_, ?_⟩ <;>
    simp [Obj.str, Obj.repr, DString.formatMap, Quantity.obj, Quantity.scalar, Quantity.array, nameTrue,
      physical, array, quantified, Display.register, Display.new, DString.ofText, Dict.update, Dict.set,
      formatGo, lookAttr, Dict.get?, Except.map, bind, Except.bind]

/-- **C241** fails: a quantity that gets its name after it was made never shows it, a name is quoted
twice, and an option that has no name shows an empty one. -/
theorem c241_counterexample :
    (∀ data kind unit m c new,
      (((Quantity.scalar data kind unit [[]]).rename new).obj m c).str
        = .ok (data ++ c!" [" ++ unit ++ c!"]")) ∧
    ((Quantity.scalar c!"1.0" [] c!"kg" [c!"mass"]).obj c!"core.physical" c!"Scalar").str
      = .ok c!"''mass'': 1.0 [kg]" ∧
    (optionObj c!"3" [[]]).str = .ok c!"'''':  3" := by
  refine ⟨?_, by decide +kernel, by decide +kernel⟩
  intro data kind unit m c new
  simp [Obj.str, Obj.repr, DString.formatMap, Quantity.obj, Quantity.scalar, Quantity.rename, nameTrue,
    physical, quantified, Display.register, Display.new, DString.ofText, Dict.update, Dict.set,
    formatGo, lookAttr, Dict.get?, Except.map, bind, Except.bind]

/-- An array of one value with two names. -/
example : (((Quantity.array c!"[1.0]" c!"<class 'list'>" c!"m s^-1" [c!"v"]).rename
      [c!"v", c!"speed"]).obj c!"core.physical" c!"Array").str
    = .ok c!"''v' = 'speed'': <class 'list'> [m s^-1]" := by decide +kernel

/-- Braces in the data are not format fields. -/
example : ((Quantity.scalar c!"{unit}" [] c!"1" [c!"x"]).obj c!"m" c!"S").str
    = .ok c!"''x'': {unit} [1]" := by decide +kernel

/-! ## C242: displays are lists of parts -/

/-- **C242** (partial). Appending to a display adds the separator and the text; inserting puts the text
among the parts; the parts can be read back by index, from either end. The separator must not begin
within a part. -/
theorem c242_partial (sep : Str) (hs : sep ≠ []) (ps : List Str) (hp : ps ≠ [])
    (h : ∀ p ∈ ps, Apart sep p) (x : Str) (hx : Apart sep x) (i : Int) :
    let d : DString := ⟨join sep ps, sep⟩
    (d.append x).data = d.data ++ sep ++ x ∧
    (d.append x).parts = ps ++ [x] ∧
    (d.insert i x).parts
        = ps.take (insertAt ps.length i) ++ x :: ps.drop (insertAt ps.length i) ∧
    ((i < 0 ∧ insertAt ps.length i = ps.length - (-i).toNat) ∨
      (0 ≤ i ∧ insertAt ps.length i = min i.toNat ps.length)) ∧
    (∀ (k : Nat) p, ps[k]? = some p → d.getItem k = .ok p) ∧
    (∀ (k : Nat) p, ps.reverse[k]? = some p → d.getItem (-1 - k) = .ok p) ∧
    (∀ k : Int, k < -ps.length ∨ ps.length ≤ k → d.getItem k = .error .indexError) := by
  have hd : split sep (join sep ps) = ps := split_join sep hs ps hp h
  refine ⟨?_, ?_, ?_, ?_, ?_, ?_, ?_⟩
  · show join sep (split sep (join sep ps) ++ [x]) = _
    rw [hd, join_append sep ps [x] hp (by simp)]; rfl
  · show split sep (join sep (split sep (join sep ps) ++ [x])) = _
    rw [hd]
    refine split_join sep hs _ (by simp) ?_
    intro p hm
    rcases List.mem_append.1 hm with hm | hm
    · exact h p hm
    · rw [List.mem_singleton.1 hm]; exact hx
  · show split sep (join sep (insertPart (split sep (join sep ps)) i x)) = _
    rw [hd]
    refine split_join sep hs _ (by simp [insertPart]) ?_
    intro p hm
    unfold insertPart at hm
    rcases List.mem_append.1 hm with hm | hm
    · exact h p (List.mem_of_mem_take hm)
    · rcases List.mem_cons.1 hm with rfl | hm
      · exact hx
      · exact h p (List.mem_of_mem_drop hm)
  · unfold insertAt
    by_cases hi : i < 0
    · left; refine ⟨hi, ?_⟩; rw [if_pos hi]; omega
    · right; refine ⟨by omega, ?_⟩; rw [if_neg hi]
  · intro k p hk
    simp only [DString.getItem, DString.parts, hd]
    have h1 : ¬ ((k : Int) < 0) := by omega
    simp only [h1, if_false, Int.toNat_natCast, hk]
  · intro k p hk
    have hl : k < ps.length := by
      have := (List.getElem?_eq_some_iff.1 hk).1
      simpa using this
    rw [List.getElem?_reverse hl] at hk
    simp only [DString.getItem, DString.parts, hd]
    have h1 : (-1 - (k : Int)) < 0 := by omega
    have h2 : ¬ (-1 - (k : Int) + (ps.length : Int) < 0) := by omega
    have h3 : (-1 - (k : Int) + (ps.length : Int)).toNat = ps.length - 1 - k := by omega
    simp only [h1, if_true, h2, if_false, h3, hk]
  · intro k hk
    simp only [DString.getItem, DString.parts, hd]
    by_cases h1 : k < 0
    · have h2 : k + (ps.length : Int) < 0 := by omega
      simp only [h1, if_true, h2]
    · have h2 : ps[k.toNat]? = none := List.getElem?_eq_none (by omega)
      simp only [h1, if_false, h2]

/-- **C242** (partial). Changing a display leaves the rest of its text alone, whatever the parts are. -/
theorem c242_text_partial (d : DString) (hs : d.separator ≠ []) (x : Str) (i : Int) :
    (d.append x).data = d.data ++ d.separator ++ x ∧
    ∃ front back : List Str, front ++ back = d.parts ∧
      join d.separator (front ++ back) = d.data ∧
      (d.insert i x).data = join d.separator (front ++ x :: back) := by
  have hj := join_split d.separator d.data hs
  refine ⟨?_, _, _, List.take_append_drop (insertAt d.parts.length i) d.parts, ?_, rfl⟩
  · show join d.separator (split d.separator d.data ++ [x]) = _
    rw [join_append d.separator (split d.separator d.data) [x] (splitGo_ne d.separator d.data 0 []) (by simp), hj]; rfl
  · rw [List.take_append_drop]; exact hj

/-- **C242** fails: a new display is not an empty list of parts; what is appended to it comes after a
separator. -/
theorem c242_counterexample (x : Str) :
    (Display.new.str.append x).data = ' ' :: x ∧ (Display.new.str.insert 0 x).data = x ++ [' '] := by
  constructor
  · rfl
  · simp [Display.new, DString.insert, DString.ofText, DString.parts, split, splitGo, insertPart,
      insertAt, join]

/-- A part is put before the last of three. -/
example : ((⟨c!"a, b, c", c!", "⟩ : DString).insert (-1) c!"x").data = c!"a, b, x, c" := by decide +kernel

end Verif.Display
