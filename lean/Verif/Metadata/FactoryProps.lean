import Verif.Metadata.Factory
import Mathlib.Tactic.Tauto
import Mathlib.Tactic.Set

/-!
# Registered attributes: property C250
-/

set_option linter.unusedSimpArgs false
set_option linter.unusedSectionVars false

namespace Verif.Metadata

open Verif.Py

variable {κ ν : Type _} [DecidableEq κ]

namespace Spec

/-- The attributes that were named at the creation or in some registration. -/
def Registered (parameters : List κ) (es : List (Event κ)) (k : κ) : Prop :=
  k ∈ parameters ∨ ∃ names, Event.register names ∈ es ∧ k ∈ names

/-- A dictionary with one entry for each key of a kind, with its value, and no others. -/
def Tabulates (d : Dict κ ν) (P : κ → Prop) (value : κ → ν) : Prop :=
  d.keys.Nodup ∧ ∀ k v, d.get? k = some v ↔ P k ∧ v = value k

end Spec

theorem mem_uniqueNames (names : List κ) (k : κ) : k ∈ uniqueNames names ↔ k ∈ names := by
  have gen : ∀ (l c : List κ), k ∈ l.foldl (fun c i => if i ∈ c then c else c ++ [i]) c ↔ k ∈ c ∨ k ∈ l := by
    intro l
    induction l with
    | nil => intro c; simp
    | cons i l ih =>
      intro c
      rw [List.foldl_cons, ih]
      by_cases hi : i ∈ c
      · rw [if_pos hi, List.mem_cons]
        constructor
        · rintro (h | h)
          · exact .inl h
          · exact .inr (.inr h)
        · rintro (h | rfl | h)
          · exact .inl h
          · exact .inl hi
          · exact .inr h
      · rw [if_neg hi, List.mem_append, List.mem_singleton, List.mem_cons, or_assoc]
  unfold uniqueNames
  rw [gen]
  simp

theorem get?_computeAll (compute : κ → ν) (params : List κ) (k : κ) (v : ν) :
    (computeAll compute params).get? k = some v ↔ k ∈ params ∧ v = compute k := by
  have gen : ∀ (l : List κ) (d : Dict κ ν), (∀ k v, d.get? k = some v → v = compute k) →
      ((d.update (l.map (fun p => (p, compute p)))).get? k = some v ↔ (k ∈ d.keys ∨ k ∈ l) ∧ v = compute k) := by
    intro l
    induction l with
    | nil =>
      intro d hd
      simp only [List.map_nil, Dict.update_nil, List.not_mem_nil, or_false]
      constructor
      · intro h
        exact ⟨(Dict.get?_isSome_iff d k).1 (by rw [h]; rfl), hd k v h⟩
      · rintro ⟨hk, rfl⟩
        obtain ⟨w, hw⟩ := Option.isSome_iff_exists.1 ((Dict.get?_isSome_iff d k).2 hk)
        rw [hw, hd k w hw]
    | cons i l ih =>
      intro d hd
      rw [List.map_cons, Dict.update_cons, ih]
      · rw [Dict.mem_keys_set, List.mem_cons]
        constructor
        · rintro ⟨(h | h) | h, hv⟩
          · exact ⟨.inr (.inl h), hv⟩
          · exact ⟨.inl h, hv⟩
          · exact ⟨.inr (.inr h), hv⟩
        · rintro ⟨h | rfl | h, hv⟩
          · exact ⟨.inl (by tauto), hv⟩
          · exact ⟨.inl (by tauto), hv⟩
          · exact ⟨.inr h, hv⟩
      · intro k' v' h
        rw [Dict.get?_set] at h
        split at h
        · next he => injection h with h; subst h; subst he; rfl
        · exact hd k' v' h
  unfold computeAll Dict.ofPairs
  rw [gen params [] (by intro k v h; cases h)]
  simp

theorem tabulates_computeAll (compute : κ → ν) (params : List κ) (P : κ → Prop) (h : ∀ k, k ∈ params ↔ P k) :
    Spec.Tabulates (computeAll compute params) P compute :=
  ⟨Dict.nodup_keys_ofPairs _, fun k v => by rw [get?_computeAll, h]⟩

theorem mem_updateParams (names : List κ) (k : κ) : ∀ (t : Nat) (ps : List κ),
    k ∈ updateParams names t ps ↔ k ∈ ps ∨ (0 < t ∧ k ∈ names) := by
  intro t
  induction t with
  | zero => intro ps; simp [updateParams]
  | succ t ih =>
    intro ps
    rw [updateParams, ih, List.mem_append]
    constructor
    · rintro ((h | h) | ⟨_, h⟩)
      · exact .inl h
      · exact .inr ⟨by omega, h⟩
      · exact .inr ⟨by omega, h⟩
    · rintro (h | ⟨_, h⟩)
      · exact .inl (.inl h)
      · exact .inl (.inr h)

/-- The invariant: all lists of parameters have the members of a kind, and there is one for each operation. -/
def Holds (n : Nat) (P : κ → Prop) (f : Factory κ) : Prop :=
  (∀ k, k ∈ f.params ↔ P k) ∧ (f.operations n).length = n ∧ ∀ ps ∈ f.operations n, ∀ k, k ∈ ps ↔ P k

theorem holds_new (n : Nat) (parameters : List κ) : Holds n (· ∈ parameters) (newFactory parameters) := by
  refine ⟨mem_uniqueNames parameters, by simp [Factory.operations, newFactory], ?_⟩
  intro ps hps k
  have : ps = uniqueNames parameters := List.eq_of_mem_replicate hps
  rw [this, mem_uniqueNames]

theorem holds_use (counts : List Nat) (P : κ → Prop) (f : Factory κ) (h : Holds counts.length P f) :
    Holds counts.length P (f.use counts) := ⟨h.1, h.2.1, h.2.2⟩

theorem holds_register (counts : List Nat) (hc : ∀ c ∈ counts, 0 < c) (P : κ → Prop) (f : Factory κ)
    (h : Holds counts.length P f) (names : List κ) :
    Holds counts.length (fun k => P k ∨ k ∈ names) (f.register counts names).1 := by
  obtain ⟨hp, hl, ho⟩ := h
  set f' : Factory κ := { f with params := f.params ++ uniqueNames names } with hf'
  have hp' : ∀ k, k ∈ f'.params ↔ P k ∨ k ∈ names := by
    intro k
    rw [hf', List.mem_append, hp, mem_uniqueNames]
  have hl' : (f'.operations counts.length).length = counts.length := by
    rw [hf']
    unfold Factory.operations at hl ⊢
    cases hops : f.ops with
    | none => simp
    | some ops => rw [hops] at hl; exact hl
  have ho' : ∀ ps ∈ f'.operations counts.length, ∀ k, (P k → k ∈ ps) ∧ (k ∈ ps → P k ∨ k ∈ names) := by
    intro ps hps k
    rw [hf'] at hps
    unfold Factory.operations at ho hps
    cases hops : f.ops with
    | none =>
      rw [hops] at hps
      have he : ps = f.params ++ uniqueNames names := List.eq_of_mem_replicate hps
      rw [he, List.mem_append, hp, mem_uniqueNames]
      exact ⟨Or.inl, id⟩
    | some ops =>
      rw [hops] at hps ho
      exact ⟨fun h => (ho ps hps k).2 h, fun h => .inl ((ho ps hps k).1 h)⟩
  unfold Factory.register
  by_cases hn : names = [] ∧ counts ≠ []
  · simp only [hn, and_self, if_true]
    obtain ⟨rfl, hne⟩ := hn
    rw [if_pos ⟨trivial, hne⟩]
    refine ⟨hp', hl', ?_⟩
    intro ps hps k
    have := ho' ps hps k
    simp only [List.not_mem_nil, or_false] at this ⊢
    exact ⟨this.2, this.1⟩
  · simp only [hn, if_false]
    refine ⟨hp', ?_, ?_⟩
    · show (List.zipWith _ (f'.operations counts.length) counts).length = _
      rw [List.length_zipWith, hl', Nat.min_self]
    · intro ps hps k
      have hps : ps ∈ List.zipWith (fun ps t => updateParams names t ps) (f'.operations counts.length) counts := hps
      rw [List.mem_iff_getElem] at hps
      obtain ⟨i, hi, rfl⟩ := hps
      rw [List.length_zipWith, hl', Nat.min_self] at hi
      rw [List.getElem_zipWith, mem_updateParams]
      have := ho' ((f'.operations counts.length)[i]'(by omega)) (List.getElem_mem _) k
      have hpos := hc (counts[i]'hi) (List.getElem_mem _)
      constructor
      · rintro (h | ⟨_, h⟩)
        · exact this.2 h
        · exact .inr h
      · rintro (h | h)
        · exact .inl (this.1 h)
        · exact .inr ⟨hpos, h⟩

theorem holds_run (counts : List Nat) (hc : ∀ c ∈ counts, 0 < c) (es : List (Event κ)) :
    ∀ (f : Factory κ) (P : κ → Prop), Holds counts.length P f →
      Holds counts.length (fun k => P k ∨ ∃ names, Event.register names ∈ es ∧ k ∈ names) (f.run counts es) := by
  induction es with
  | nil =>
    intro f P h
    have : (fun k => P k ∨ ∃ names, Event.register names ∈ ([] : List (Event κ)) ∧ k ∈ names) = P := by
      funext k; simp
    rw [this]; exact h
  | cons e es ih =>
    intro f P h
    unfold Factory.run
    rw [List.foldl_cons]
    cases e with
    | use =>
      have := ih _ P (holds_use counts P f h)
      have he : (fun k => P k ∨ ∃ names, Event.register names ∈ (Event.use :: es) ∧ k ∈ names)
          = (fun k => P k ∨ ∃ names, Event.register names ∈ es ∧ k ∈ names) := by
        funext k; simp
      rw [he]; exact this
    | register names =>
      have := ih _ _ (holds_register counts hc P f h names)
      have he : (fun k => P k ∨ ∃ ns, Event.register ns ∈ (Event.register names :: es) ∧ k ∈ ns)
          = (fun k => (P k ∨ k ∈ names) ∨ ∃ ns, Event.register ns ∈ es ∧ k ∈ ns) := by
        funext k
        apply propext
        constructor
        · rintro (h | ⟨ns, h1, h2⟩)
          · exact .inl (.inl h)
          · rcases List.mem_cons.1 h1 with h1 | h1
            · injection h1 with h1; subst h1; exact .inl (.inr h2)
            · exact .inr ⟨ns, h1, h2⟩
        · rintro ((h | h) | ⟨ns, h1, h2⟩)
          · exact .inl h
          · exact .inr ⟨names, by simp, h⟩
          · exact .inr ⟨ns, by simp [h1], h2⟩
      rw [he]; exact this

/-- **C250.** For every series of registrations and uses: every operation, and every operator that is implemented afterwards, gives
one value for each attribute that was registered, and for no others. -/
theorem c250 (counts : List Nat) (hc : ∀ c ∈ counts, 0 < c) (parameters : List κ) (es : List (Event κ)) (compute : κ → ν) :
    let f := (newFactory parameters).run counts es
    (∀ i < counts.length, ∃ d, f.evaluate counts compute i = some d ∧
      Spec.Tabulates d (Spec.Registered parameters es) compute) ∧
    Spec.Tabulates (f.implement compute) (Spec.Registered parameters es) compute := by
  intro f
  obtain ⟨hp, hl, ho⟩ := holds_run counts hc es _ _ (holds_new counts.length parameters)
  constructor
  · intro i hi
    have hi' : i < (f.operations counts.length).length := by rw [hl]; exact hi
    refine ⟨computeAll compute (f.operations counts.length)[i], ?_, ?_⟩
    · unfold Factory.evaluate
      rw [List.getElem?_eq_getElem hi']
      rfl
    · exact tabulates_computeAll compute _ _ (ho _ (List.getElem_mem hi'))
  · exact tabulates_computeAll compute _ _ hp

/-- **C250, counts.** The list of attributes repeats a name that is registered twice, and a registration of nothing raises
`ValueError`. -/
theorem c250_lists (counts : List Nat) (hn : counts ≠ []) (names : List κ) (f : Factory κ) :
    (f.register counts names).1.params = f.params ++ uniqueNames names ∧
    ((f.register counts names).2 = some .valueError ↔ names = []) := by
  unfold Factory.register
  by_cases h : names = []
  · simp [h, hn]
  · simp [h]

/-! ## Cases meeting the hypotheses -/

example : ((newFactory []).run [1, 2] [.register ["unit"], .use, .register ["name"]]).evaluate [1, 2] String.length 1
    = some [("unit", 4), ("name", 4)] := by decide
example : ((newFactory ["unit"]).run [1, 2] [.register ["unit"]]).params = ["unit", "unit"] := by decide

end Verif.Metadata
