import Verif.Observing.RequestProps
import Verif.Aliased.Props

/-! C231: names that are withheld from observation -/

namespace Verif.Observing

open Verif.Py

set_option linter.unusedSimpArgs false

/-- The name belongs to a quantity that is withheld: some name of its group is in the list. -/
def Withheld (groups : List (List Str)) (withheld : List Str) (n : Str) : Prop :=
  ∃ g ∈ groups, n ∈ g ∧ ∃ w ∈ withheld, w ∈ g

theorem listed_observables (groups : List (List Str)) (withheld : List Str) (n : Str)
    (hd : groups.Pairwise (fun g h => ∀ x ∈ g, x ∉ h)) :
    Listed (observablesOf groups withheld) n ↔ Listed groups n ∧ ¬ Withheld groups withheld n := by
  unfold Listed observablesOf Withheld
  constructor
  · rintro ⟨g, hg, hn⟩
    obtain ⟨h1, h2⟩ := (Aliased.c13_without groups withheld g).1 hg
    refine ⟨⟨g, h1, hn⟩, ?_⟩
    rintro ⟨g', hg', hn', w, hw, hwg⟩
    have : g = g' := Aliased.group_unique hd h1 hg' hn hn'
    exact h2 w hw (this ▸ hwg)
  · rintro ⟨⟨g, hg, hn⟩, hw⟩
    exact ⟨g, (Aliased.c13_without groups withheld g).2
      ⟨hg, fun k hk hkg => hw ⟨g, hg, hn, k, hk, hkg⟩⟩, hn⟩

open Classical in
/-- C231. For groups that share no name and a plain name: it is observable iff it is in some group and not
withheld, under whichever of its names the quantity was withheld; a request for a withheld name that is
available gives the quantity itself, and one for any other listed name an observable. -/
theorem c231_withheld (groups available : List (List Str)) (withheld : List Str) (fuel : Nat) (s : Checker) (n : Str)
    (hd : groups.Pairwise (fun g h => ∀ x ∈ g, x ∉ h)) (hn : '/' ∉ n ∧ '*' ∉ n) :
    (observesName (observablesOf groups withheld) (fuel + 1) n = .ok true
      ↔ Listed groups n ∧ ¬ Withheld groups withheld n)
    ∧ (Withheld groups withheld n → n ∈ available.flatten →
      getItem (observablesOf groups withheld) available (fuel + 1) s n = (.ok (.quantity n), s))
    ∧ (Listed groups n → ¬ Withheld groups withheld n →
      getItem (observablesOf groups withheld) available (fuel + 1) s n = (.ok (.observable n), s)) := by
  have hp := observesName_plain (observablesOf groups withheld) fuel n hn
  have hl := listed_observables groups withheld n hd
  refine ⟨by rw [hp, ← hl]; simp, fun hw ha => ?_, fun h1 h2 => ?_⟩
  · have : ¬ Listed (observablesOf groups withheld) n := fun h => (hl.1 h).2 hw
    unfold getItem
    rw [hp]
    simp [this, ha]
  · have : Listed (observablesOf groups withheld) n := hl.2 ⟨h1, h2⟩
    unfold getItem
    rw [hp]
    simp [this]

example : Withheld someNames [c!"V"] c!"Vr" ∧ Listed someNames c!"mfp" :=
  ⟨⟨[c!"Vr", c!"V"], List.mem_cons_of_mem _ (List.mem_cons_self ..), List.mem_cons_self .., c!"V",
    List.mem_cons_self .., List.mem_cons_of_mem _ (List.mem_cons_self ..)⟩,
    ⟨_, List.mem_cons_self .., List.mem_cons_self ..⟩⟩

example : (getItem (observablesOf someNames [c!"V"]) someNames 9 none c!"Vr").1 = .ok (.quantity c!"Vr")
    ∧ (getItem (observablesOf someNames [c!"V"]) someNames 9 none c!"radius").1 = .ok (.observable c!"radius") := by
  decide +kernel

end Verif.Observing
