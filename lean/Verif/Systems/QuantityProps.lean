import Verif.Systems.ConsistencyProps

/-!
# C163-C164: equivalent quantities, and conversion within a quantity
-/

set_option linter.unusedSimpArgs false

namespace Verif.Systems

open Verif.Py Verif.Symbolic Verif.Metric

attribute [local irreducible] units allUnits prefixes identify canonicalUnits canonicalDimensions quantities

/-! ## C163: `Quantity.__or__` -/

/-- Specification: the dimension of a quantity, where a missing dimension counts as `1`. -/
def shown (d : Option (List Term)) : List Term := d.getD [⟨1, one, 1⟩]

theorem dimensionNe_ok (x y : Option (List Term)) : ∃ r, dimensionNe x y = .ok r ∧
    (r = false ↔ (shown x).Perm (shown y)) := by
  have hb : ∀ b : Bool, (!b) = false ↔ b = true := by decide
  cases x with
  | none =>
    cases y with
    | none => exact ⟨false, rfl, by simp [shown]⟩
    | some f =>
      refine ⟨_, by simp only [dimensionNe, ofString_one]; rfl, ?_⟩
      rw [hb, exprEq_iff_perm, List.perm_comm]; rfl
  | some e =>
    cases y with
    | none =>
      refine ⟨_, by simp only [dimensionNe, ofString_one]; rfl, ?_⟩
      rw [hb, exprEq_iff_perm]; rfl
    | some f =>
      refine ⟨_, rfl, ?_⟩
      rw [hb, exprEq_iff_perm]; rfl

/-- **C163.** Two quantities whose dimensions can be computed are equivalent exactly when, in each metric system, their
dimensions are the same up to the order of the factors. -/
theorem c163_equivalent (b : Book) {q r : Str} {dq dr : System → Option (List Term)}
    (hq : ∀ s, quantityDimension b s q = .ok (dq s)) (hr : ∀ s, quantityDimension b s r = .ok (dr s)) :
    ∃ a, quantityOr b q r = .ok a ∧ (a = true ↔ ∀ s, (shown (dq s)).Perm (shown (dr s))) := by
  obtain ⟨x, h1, h2⟩ := dimensionNe_ok (dq .mks) (dr .mks)
  obtain ⟨y, h3, h4⟩ := dimensionNe_ok (dq .cgs) (dr .cgs)
  refine ⟨!x && !y, ?_, ?_⟩
  · unfold quantityOr
    simp only [hq, hr, h1, h3, bind, Except.bind, pure, Except.pure]
    cases x <;> cases y <;> rfl
  · have : (!x && !y) = true ↔ x = false ∧ y = false := by cases x <;> cases y <;> simp
    rw [this, h2, h4]
    constructor
    · rintro ⟨a, b⟩ (_ | _)
      · exact a
      · exact b
    · intro h; exact ⟨h _, h _⟩

/-- **C163, an equivalence.** Equivalence of quantities is reflexive, symmetric and transitive. -/
theorem c163_equivalence (b : Book) (Q : Str → Prop) (hQ : ∀ q, Q q → ∀ s, ∃ d, quantityDimension b s q = .ok d) :
    (∀ q, Q q → quantityOr b q q = .ok true) ∧
    (∀ q r, Q q → Q r → quantityOr b q r = .ok true → quantityOr b r q = .ok true) ∧
    (∀ q r t, Q q → Q r → Q t → quantityOr b q r = .ok true → quantityOr b r t = .ok true →
      quantityOr b q t = .ok true) := by
  classical
  have key : ∀ q r, Q q → Q r → ∃ dq dr : System → Option (List Term),
      (∀ s, quantityDimension b s q = .ok (dq s)) ∧ (∀ s, quantityDimension b s r = .ok (dr s)) ∧
      (quantityOr b q r = .ok true ↔ ∀ s, (shown (dq s)).Perm (shown (dr s))) := by
    intro q r h1 h2
    obtain ⟨a, ha, hi⟩ := c163_equivalent b (q := q) (r := r) (dq := fun s => (hQ q h1 s).choose)
      (dr := fun s => (hQ r h2 s).choose) (fun s => (hQ q h1 s).choose_spec) (fun s => (hQ r h2 s).choose_spec)
    refine ⟨_, _, fun s => (hQ q h1 s).choose_spec, fun s => (hQ r h2 s).choose_spec, ?_⟩
    rw [ha, ← hi]
    simp
  have uniq : ∀ {q} {d e : System → Option (List Term)}, (∀ s, quantityDimension b s q = .ok (d s)) →
      (∀ s, quantityDimension b s q = .ok (e s)) → d = e := by
    intro q d e h1 h2
    funext s
    have := (h1 s).symm.trans (h2 s)
    injection this
  refine ⟨?_, ?_, ?_⟩
  · intro q h
    obtain ⟨d, e, h1, h2, h3⟩ := key q q h h
    rw [h3, uniq h1 h2]
    exact fun s => List.Perm.refl _
  · intro q r h h' ho
    obtain ⟨d, e, h1, h2, h3⟩ := key q r h h'
    obtain ⟨d', e', g1, g2, g3⟩ := key r q h' h
    rw [g3, uniq g1 h2, uniq g2 h1]
    exact fun s => ((h3.1 ho) s).symm
  · intro q r t hq hr ht h1 h2
    obtain ⟨d, e, a1, a2, a3⟩ := key q r hq hr
    obtain ⟨d', e', b1, b2, b3⟩ := key r t hr ht
    obtain ⟨d'', e'', c1, c2, c3⟩ := key q t hq ht
    rw [c3, uniq c1 a1, uniq c2 b2]
    have h1' := a3.1 h1
    have h2' := b3.1 h2
    rw [uniq b1 a2] at h2'
    exact fun s => (h1' s).trans (h2' s)

/-- Energy is equivalent to work; not to the force. The potential and the resistance are distinguished, though their units
are consistent (C162). -/
example : quantityOr actualBook c!"energy" c!"work" = .ok true ∧ quantityOr actualBook c!"energy" c!"force" = .ok false ∧
    quantityOr actualBook c!"potential" c!"resistance" = .ok false := by
  rw [actualBook_eq]
  refine ⟨?_, ?_, ?_⟩ <;> decide +kernel

/-! ## C164: `Quantity.convert` -/

/-- **C164, systems.** A system stands for the canonical unit of the quantity: the factor from `mks` to `cgs` and back is
the factor between the canonical units, or 1 when they are written the same way. -/
theorem c164_systems (conv : Str → Str → Res Rat) (w : PerSystem Str) (hm : w.mks ≠ []) (hc : w.cgs ≠ []) :
    convertTo conv w c!"mks" c!"cgs" = (if w.mks = w.cgs then .ok 1 else conv w.mks w.cgs) ∧
    convertTo conv w c!"cgs" c!"mks" = (if w.cgs = w.mks then .ok 1 else conv w.cgs w.mks) := by
  have h1 : substitute w c!"mks" = w.mks := by simp [substitute, hm]
  have h2 : substitute w c!"cgs" = w.cgs := by
    have : ¬ (c!"cgs" = c!"mks") := by decide
    unfold substitute
    simp only [this, if_false, if_true, hc]
  constructor
  · unfold convertTo; rw [h1, h2]
  · unfold convertTo; rw [h1, h2]

/-- **C164, round trip.** When the factors between units are reciprocal, so are those of converters, for systems as well as
for units. -/
theorem c164_round_trip (conv : Str → Str → Res Rat) (w : PerSystem Str) (u v : Str) {f g : Rat}
    (hrec : ∀ x y a b, conv x y = .ok a → conv y x = .ok b → a * b = 1)
    (h1 : convertTo conv w u v = .ok f) (h2 : convertTo conv w v u = .ok g) : f * g = 1 := by
  unfold convertTo at h1 h2
  simp only at h1 h2
  by_cases h : substitute w u = substitute w v
  · rw [if_pos h] at h1
    rw [if_pos h.symm] at h2
    injection h1 with h1
    injection h2 with h2
    rw [← h1, ← h2, one_mul]
  · rw [if_neg h] at h1
    rw [if_neg (Ne.symm h)] at h2
    exact hrec _ _ _ _ h1 h2

/-- **C164, violated.** "Unit conversions are only defined within their respective quantities" does not hold: the energy has
a conversion from metres to centimetres, and from an unknown unit to itself. -/
theorem c164_quantity_counterexample :
    (∀ limit > 2, lookupUnits limit c!"energy" = .ok ⟨c!"J", c!"erg"⟩) ∧
    convertTo (actualConversion tableOrder) ⟨c!"J", c!"erg"⟩ c!"m" c!"cm" = .ok 100 ∧
    convertTo (actualConversion tableOrder) ⟨c!"J", c!"erg"⟩ c!"foo" c!"foo" = .ok 1 ∧
    (∃ e, actualConversion tableOrder c!"foo" c!"bar" = .error e) := by
  have h1 : actualConversion tableOrder = conversion fastBook (fastEnv numpyPi tableOrder) powInt :=
    funext fun a => funext fun b => actualConversion_eq _ a b
  rw [h1]
  refine ⟨?_, ?_, ?_, ⟨.named "UnitParsingError", ?_⟩⟩
  · intro limit hl
    obtain ⟨more, rfl⟩ : ∃ k, limit = 3 + k := ⟨limit - 3, by omega⟩
    exact getProperty_mono _ _ _ more _ _ (by decide +kernel)
  all_goals decide +kernel

/-- Joule to erg by name of the system. -/
example : convertTo (actualConversion tableOrder) ⟨c!"J", c!"erg"⟩ c!"mks" c!"cgs" = .ok 10000000 := by
  have h1 : actualConversion tableOrder = conversion fastBook (fastEnv numpyPi tableOrder) powInt :=
    funext fun a => funext fun b => actualConversion_eq _ a b
  rw [h1]
  decide +kernel

end Verif.Systems
