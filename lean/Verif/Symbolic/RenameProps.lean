import Verif.Symbolic.Props

/-!
# Property C287: reduction and comparison of expressions do not depend on what the names are
-/

set_option linter.unusedSimpArgs false

namespace Verif.Symbolic

open Verif.Py

/-- A term with another name. -/
def renameTerm (f : Name → Name) (t : Term) : Term := ⟨t.coef, f t.base, t.exp⟩

/-- A change of names: different names stay different, constants stay constants. -/
structure Renaming (f : Name → Name) : Prop where
  injective : Function.Injective f
  const : f one = one
  empty : f [] = []

theorem renameKeys_get? {f : Name → Name} (hf : Function.Injective f) (d : Dict Name (Rat × Rat)) (b : Name) :
    Dict.get? (d.map (fun p => (f p.1, p.2))) (f b) = d.get? b := by
  induction d with
  | nil => rfl
  | cons p d ih =>
    rw [List.map_cons, Dict.get?_cons, Dict.get?_cons, ih]
    by_cases h : p.1 = b
    · simp [h]
    · rw [if_neg h, if_neg (fun e => h (hf e))]

theorem renameKeys_set {f : Name → Name} (hf : Function.Injective f) (d : Dict Name (Rat × Rat)) (b : Name) (v : Rat × Rat) :
    Dict.set (d.map (fun p => (f p.1, p.2))) (f b) v = (d.set b v).map (fun p => (f p.1, p.2)) := by
  induction d with
  | nil => rfl
  | cons p d ih =>
    obtain ⟨k, w⟩ := p
    by_cases h : k = b
    · subst h; simp [Dict.set]
    · have h' : f k ≠ f b := fun e => h (hf e)
      simp only [List.map_cons, Dict.set, h, h', if_false]
      rw [ih]

theorem collect_rename {f : Name → Name} (hf : Function.Injective f) (ts : List Term) :
    collect (ts.map (renameTerm f)) = (collect ts).map (fun p => (f p.1, p.2)) := by
  have gen : ∀ (ts : List Term) (d : Dict Name (Rat × Rat)), (ts.map (renameTerm f)).foldl reduceStep (d.map (fun p => (f p.1, p.2)))
      = (ts.foldl reduceStep d).map (fun p => (f p.1, p.2)) := by
    intro ts
    induction ts with
    | nil => intro d; rfl
    | cons t ts ih =>
      intro d
      rw [List.map_cons, List.foldl_cons, List.foldl_cons, ← ih]
      congr 1
      unfold reduceStep
      show (match Dict.get? (d.map (fun p => (f p.1, p.2))) (f t.base) with | some (c, e) => _ | none => _) = _
      rw [renameKeys_get? hf]
      cases d.get? t.base with
      | none => exact renameKeys_set hf d t.base _
      | some p => exact renameKeys_set hf d t.base _
  exact gen ts []

theorem variablesOf_rename {f : Name → Name} (hf : Renaming f) (d : Dict Name (Rat × Rat)) :
    variablesOf (d.map (fun p => (f p.1, p.2))) = (variablesOf d).map (renameTerm f) := by
  unfold variablesOf
  rw [List.filter_map, List.map_map, List.map_map]
  have h1 : ∀ b, f b = one ↔ b = one := fun b => ⟨fun h => hf.injective (h.trans hf.const.symm), fun h => h ▸ hf.const⟩
  have h2 : ∀ b, f b = [] ↔ b = [] := fun b => ⟨fun h => hf.injective (h.trans hf.empty.symm), fun h => h ▸ hf.empty⟩
  have e : ((fun p : Name × (Rat × Rat) => decide (p.1 ≠ one ∧ p.2.2 ≠ 0)) ∘ fun p : Name × (Rat × Rat) => (f p.1, p.2))
      = fun p => decide (p.1 ≠ one ∧ p.2.2 ≠ 0) := by
    funext p
    simp [h1]
  rw [e]
  refine List.map_congr_left fun p _ => ?_
  simp only [Function.comp, mkOperand, renameTerm, h2]
  split
  · rw [hf.const]
  · rfl

/-- **C287.** For all changes of names: the reduction of renamed terms succeeds exactly if that of the terms does, and gives the renamed
terms of its result, which may be in another order. -/
theorem c287_reduce (f : Name → Name) (hf : Renaming f) (ts : List Term) :
    (∀ r, reduce ts = .ok r → ∃ r', reduce (ts.map (renameTerm f)) = .ok r' ∧ r'.Perm (r.map (renameTerm f))) ∧
    (∀ e, reduce ts = .error e → reduce (ts.map (renameTerm f)) = .error e) := by
  have hv : Dict.values (collect (ts.map (renameTerm f))) = Dict.values (collect ts) := by
    rw [collect_rename hf.injective]
    simp [Dict.values, List.map_map, Function.comp]
  have hp : (sortTerms (variablesOf (collect (ts.map (renameTerm f))))).Perm ((sortTerms (variablesOf (collect ts))).map (renameTerm f)) := by
    rw [collect_rename hf.injective, variablesOf_rename hf]
    exact (perm_sortTerms _).trans ((perm_sortTerms _).map _).symm
  have hnil : sortTerms (variablesOf (collect (ts.map (renameTerm f)))) = [] ↔ sortTerms (variablesOf (collect ts)) = [] := by
    rw [← List.length_eq_zero_iff, hp.length_eq, List.length_map, List.length_eq_zero_iff]
  have hc : ∀ c, renameTerm f (mkOperand c one 1) = mkOperand c one 1 := fun c => by
    have : (mkOperand c one 1).base = one := by simp [mkOperand, one]
    unfold renameTerm
    rw [this, hf.const]
    simp [mkOperand, one]
  unfold reduce
  simp only [hv]
  generalize sortTerms (variablesOf (collect (ts.map (renameTerm f)))) = vs' at *
  generalize sortTerms (variablesOf (collect ts)) = vs at *
  cases Dict.values (collect ts) |>.map (·.1) with
  | nil => exact ⟨fun r h => (by cases h), fun e h => h⟩
  | cons c0 cs =>
    simp only [hnil]
    constructor
    · intro r h
      split at h
      · next hvs =>
        rw [if_pos hvs]
        injection h with h
        subst h
        exact ⟨_, rfl, by rw [List.map_singleton, hc]⟩
      · next hvs =>
        rw [if_neg hvs]
        split at h
        · next h1 =>
          rw [if_pos h1]
          injection h with h
          subst h
          exact ⟨_, rfl, hp⟩
        · next h1 =>
          rw [if_neg h1]
          injection h with h
          subst h
          refine ⟨_, rfl, ?_⟩
          rw [List.map_append, List.map_singleton, hc]
          exact hp.append_left _
    · intro e h
      split at h
      · cases h
      · split at h <;> cases h

/-- **C287, comparison.** Renamed expressions are equal exactly if the expressions are. -/
theorem c287_equal (f : Name → Name) (hf : Renaming f) (a b : List Term) :
    exprEq (a.map (renameTerm f)) (b.map (renameTerm f)) = exprEq a b := by
  have hinj : Function.Injective (renameTerm f) := by
    rintro ⟨c, n, e⟩ ⟨c', n', e'⟩ h
    simp only [renameTerm, Operand.mk.injEq] at h
    obtain ⟨rfl, h, rfl⟩ := h
    rw [hf.injective h]
  rw [Bool.eq_iff_iff, exprEq_iff_perm, exprEq_iff_perm]
  exact ⟨fun h => (List.map_perm_map_iff hinj).1 h, fun h => h.map _⟩

/-- Exchanging two names. -/
example : Renaming (fun b => if b = [] then [] else if b = one then one else if b = ['a'] then ['b'] else if b = ['b'] then ['a'] else b) := by
  refine ⟨?_, by decide, by decide⟩
  intro x y h
  dsimp only at h
  have e1 : one ≠ ['a'] := by decide
  have e2 : one ≠ ['b'] := by decide
  split_ifs at h <;> simp_all [Ne.symm]

example : reduce [⟨2, ['a'], 1⟩, ⟨3, ['b'], 1⟩, ⟨1, ['a'], 1⟩] = .ok [⟨6, one, 1⟩, ⟨1, ['a'], 2⟩, ⟨1, ['b'], 1⟩] ∧
    reduce [⟨2, ['b'], 1⟩, ⟨3, ['a'], 1⟩, ⟨1, ['b'], 1⟩] = .ok [⟨6, one, 1⟩, ⟨1, ['b'], 2⟩, ⟨1, ['a'], 1⟩] ∧
    reduce [⟨1, ['a'], 1⟩, ⟨1, ['b'], 1⟩] = .ok [⟨1, ['a'], 1⟩, ⟨1, ['b'], 1⟩] ∧
    reduce [⟨1, ['b'], 1⟩, ⟨1, ['a'], 1⟩] = .ok [⟨1, ['a'], 1⟩, ⟨1, ['b'], 1⟩] := by decide +kernel

end Verif.Symbolic
