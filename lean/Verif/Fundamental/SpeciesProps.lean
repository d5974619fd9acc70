import Verif.Fundamental.Species
import Verif.Fundamental.Props

/-!
# Species as objects: property C248
-/

set_option linter.unusedSimpArgs false

namespace Verif.Fundamental

open Verif.Py
open Verif.Metric (Str)

namespace Spec

/-- Two species give the same answer to every question. -/
def Alike (s t : Species) : Prop := ∀ a, (s.ask a).1 = (t.ask a).1

end Spec

theorem ask_symbol_other (s : Species) (a : Ask) : ((s.ask .symbol).2.ask a).1 = (s.ask a).1 := by
  obtain ⟨t, m, q⟩ := s
  cases t with
  | some t => cases a <;> rfl
  | none =>
    cases hs : symbolFor m q with
    | error e =>
      have : (Species.ask ⟨none, m, q⟩ .symbol).2 = ⟨none, m, q⟩ := by
        simp only [Species.ask, Species.getSymbol, hs]
      rw [this]
    | ok t =>
      have h2 : (Species.ask ⟨none, m, q⟩ .symbol).2 = ⟨some t, m, q⟩ := by
        simp only [Species.ask, Species.getSymbol, hs]
      rw [h2]
      cases a with
      | symbol => simp only [Species.ask, Species.getSymbol, hs]
      | mass =>
        cases m with
        | some m => rfl
        | none => cases hs
      | charge =>
        cases q with
        | some q => rfl
        | none =>
          cases m with
          | none => cases hs
          | some m =>
            exfalso
            simp only [symbolFor] at hs
            cases hi : getMassIndices [m.value] with
            | error e => rw [hi] at hs; cases hs
            | ok l => rw [hi] at hs; cases hs

theorem ask_mass_other (s : Species) (a : Ask) : ((s.ask .mass).2.ask a).1 = (s.ask a).1 := by
  obtain ⟨t, m, q⟩ := s
  cases m with
  | some m => cases a <;> rfl
  | none =>
    cases t with
    | none => cases a <;> rfl
    | some t =>
      cases hm : massOf t with
      | error e =>
        have : (Species.ask ⟨some t, none, q⟩ .mass).2 = ⟨some t, none, q⟩ := by
          simp only [Species.ask, Species.getMass, hm]
        rw [this]
      | ok x =>
        have h2 : (Species.ask ⟨some t, none, q⟩ .mass).2 = ⟨some t, some (.scalar x), q⟩ := by
          simp only [Species.ask, Species.getMass, hm]
        rw [h2]
        cases a with
        | symbol => rfl
        | mass => simp only [Species.ask, Species.getMass, hm]
        | charge => cases q with
          | some q => rfl
          | none =>
            cases hc : chargeOf t <;> simp only [Species.ask, Species.getCharge, hc]

theorem ask_charge_other (s : Species) (a : Ask) : ((s.ask .charge).2.ask a).1 = (s.ask a).1 := by
  obtain ⟨t, m, q⟩ := s
  cases q with
  | some q => cases a <;> rfl
  | none =>
    cases t with
    | none => cases a <;> rfl
    | some t =>
      cases hm : chargeOf t with
      | error e =>
        have : (Species.ask ⟨some t, m, none⟩ .charge).2 = ⟨some t, m, none⟩ := by
          simp only [Species.ask, Species.getCharge, hm]
        rw [this]
      | ok x =>
        have h2 : (Species.ask ⟨some t, m, none⟩ .charge).2 = ⟨some t, m, some (.scalar x)⟩ := by
          simp only [Species.ask, Species.getCharge, hm]
        rw [h2]
        cases a with
        | symbol => rfl
        | charge => simp only [Species.ask, Species.getCharge, hm]
        | mass => cases m with
          | some m => rfl
          | none =>
            cases hc : massOf t <;> simp only [Species.ask, Species.getMass, hc]

theorem ask_alike (s : Species) (a : Ask) : Spec.Alike (s.ask a).2 s := by
  intro b
  cases a with
  | symbol => exact ask_symbol_other s b
  | mass => exact ask_mass_other s b
  | charge => exact ask_charge_other s b

theorem asks_alike (as : List Ask) : ∀ s t : Species, Spec.Alike s t → s.asks as = t.asks as := by
  induction as with
  | nil => intros; rfl
  | cons a as ih =>
    intro s t h
    unfold Species.asks
    rw [h a, ih (s.ask a).2 (t.ask a).2]
    intro b
    rw [ask_alike s a b, ask_alike t a b, h b]

/-- **C248 (partial), order.** For every species and every series of questions: each answer is the one that the species
would have given at first. -/
theorem c248_order_partial (s : Species) (as : List Ask) : s.asks as = as.map (fun a => (s.ask a).1) := by
  induction as generalizing s with
  | nil => rfl
  | cons a as ih =>
    unfold Species.asks
    rw [List.map_cons, asks_alike as _ s (ask_alike s a), ih]

/-- **C248 (partial), symbols.** A species that is created from the symbol of an element and signs has the mass of the element
in nucleons and the charge of the signs. -/
theorem c248_symbol_partial (e : Element) (he : e ∈ elementTable) (q : ℤ) :
    ∃ s, newSpecies (some (e.symbol ++ oneSignPerUnit q)) none none = .ok s ∧
      s.asks [.symbol, .mass, .charge]
        = [.text (.ok (e.symbol ++ oneSignPerUnit q)), .amount (.ok (.scalar e.mass)), .amount (.ok (.scalar q))] := by
  refine ⟨⟨some (e.symbol ++ oneSignPerUnit q), none, none⟩, rfl, ?_⟩
  obtain ⟨hq, hm⟩ := c64_partial.2 e he q
  rw [c248_order_partial]
  simp only [List.map_cons, List.map_nil, Species.ask, Species.getSymbol, Species.getMass, Species.getCharge, hq, hm]

/-- **C248 (partial), masses and charges.** A species that is created from a mass near that of an element, other than five
of them, and a charge has the symbol of the element, and keeps the numbers. -/
theorem c248_numbers_partial (e : Element) (he : e ∈ elementTable) (hs : e.symbol ∉ shadowed) (m : ℚ)
    (hm : pyRound m = pyRound e.mass) (q : ℤ) :
    ∃ s, newSpecies none (some m) (some q) = .ok s ∧
      s.asks [.symbol, .mass, .charge]
        = [.text (.ok (e.symbol ++ oneSignPerUnit q)), .amount (.ok (.bare m)), .amount (.ok (.bare q))] := by
  refine ⟨⟨none, some (.bare m), some (.bare q)⟩, rfl, ?_⟩
  have h := c64_partial.1 [(e, m, q)] (by
    intro s hs'
    simp only [List.mem_singleton] at hs'
    subst hs'
    exact ⟨he, hs, hm⟩)
  simp only [List.map_cons, List.map_nil] at h
  rw [c248_order_partial]
  simp only [List.map_cons, List.map_nil, Species.ask, Species.getSymbol, Species.getMass, Species.getCharge, symbolFor,
    Amount.value, h]

/-- **C248 fails.** Masses and charges that were given are plain numbers, not quantities in nucleons and elementary charges; a
symbol may contradict the mass and the charge; a mass without a charge gives neither a symbol nor a charge, and a
charge without a mass gives neither a symbol nor a mass. -/
theorem c248_counterexample :
    (∀ m q : ℚ, ∃ s, newSpecies none (some m) (some q) = .ok s ∧ (s.ask .mass).1 = .amount (.ok (.bare m)) ∧
      (s.ask .charge).1 = .amount (.ok (.bare q))) ∧
    (∃ s, newSpecies (some c!"H+") (some 4) (some 2) = .ok s ∧
      s.asks [.symbol, .mass, .charge] = [.text (.ok c!"H+"), .amount (.ok (.bare 4)), .amount (.ok (.bare 2))]) ∧
    (∀ m : ℚ, ∃ s, newSpecies none (some m) none = .ok s ∧ (∃ e, (s.ask .symbol).1 = .text (.error e)) ∧
      (s.ask .charge).1 = .amount (.error .attributeError)) ∧
    (∀ q : ℚ, ∃ s, newSpecies none none (some q) = .ok s ∧ (s.ask .symbol).1 = .text (.error .typeError) ∧
      (s.ask .mass).1 = .amount (.error .attributeError)) := by
  refine ⟨fun m q => ⟨_, rfl, rfl, rfl⟩, ⟨_, rfl, rfl⟩, ?_, fun q => ⟨_, rfl, rfl, rfl⟩⟩
  intro m
  refine ⟨⟨none, some (.bare m), none⟩, rfl, ?_, rfl⟩
  cases hi : getMassIndices [m] with
  | error e => exact ⟨e, by simp only [Species.ask, Species.getSymbol, symbolFor, Amount.value, hi]; rfl⟩
  | ok l => exact ⟨.typeError, by simp only [Species.ask, Species.getSymbol, symbolFor, Amount.value, hi]; rfl⟩

/-! ## Cases meeting the hypotheses -/

example : (⟨none, some (.bare 4), some (.bare 2)⟩ : Species).asks [.charge, .symbol, .mass]
    = [.amount (.ok (.bare 2)), .text (.ok c!"He++"), .amount (.ok (.bare 4))] := by decide +kernel
example : ∃ e ∈ elementTable, e.symbol ∉ shadowed ∧ pyRound 4 = pyRound e.mass := by decide +kernel

end Verif.Fundamental
