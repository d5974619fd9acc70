import Verif.Runtime.EvalProps
import Verif.Symbolic.NameProps

/-!
# Property C283: the value of a parameter depends only on the definitions that it refers to
-/

set_option linter.unusedSimpArgs false
set_option linter.unusedSectionVars false

namespace Verif.Runtime

open Verif.Py

section
variable {K : Type} [Field K] [DecidableEq K]

/-! ## Specification -/

/-- A text concerns the difference between two configuration files if a name that differs is part of it, or a name whose definition
concerns the difference. -/
inductive Concerns (P : Params K) (u : Dict Str Str) : Str → Prop
  | differs (s m : Str) : m <:+: s → u.get? m ≠ P.user.get? m → Concerns P u s
  | through (s m d : Str) (t : Typ) : m <:+: s → P.reference.get? m = some (d, t) →
      Concerns P u (orDefault (P.user.get? m) d) → Concerns P u s

/-! ## Parts of a text -/

theorem Concerns.mono {P : Params K} {u : Dict Str Str} {s t : Str} (h : Concerns P u s) (hst : s <:+: t) : Concerns P u t := by
  cases h with
  | differs _ m h1 h2 => exact .differs t m (h1.trans hst) h2
  | through _ m d ty h1 h2 h3 => exact .through t m d ty (h1.trans hst) h2 h3

theorem splitChar_infix (c : Char) (s p : Str) (hp : p ∈ splitChar c s) : p <:+: s := by
  have gen : ∀ s : Str, ∃ w ws, splitChar c s = w :: ws ∧ w <+: s ∧ ∀ q ∈ ws, q <:+: s := by
    intro s
    induction s with
    | nil => exact ⟨[], [], rfl, List.prefix_rfl, by simp⟩
    | cons x xs ih =>
      obtain ⟨w, ws, e, h1, h2⟩ := ih
      unfold splitChar
      split
      · refine ⟨[], _, rfl, List.nil_prefix, fun q hq => ?_⟩
        rw [e] at hq
        rcases List.mem_cons.1 hq with rfl | hq
        · exact h1.isInfix.trans (List.suffix_cons _ _).isInfix
        · exact (h2 q hq).trans (List.suffix_cons _ _).isInfix
      · rw [e]
        exact ⟨x :: w, ws, rfl, (List.prefix_cons_inj x).2 h1, fun q hq => (h2 q hq).trans (List.suffix_cons _ _).isInfix⟩
  obtain ⟨w, ws, e, h1, h2⟩ := gen s
  rw [e] at hp
  rcases List.mem_cons.1 hp with rfl | hp
  · exact h1.isInfix
  · exact h2 p hp

theorem strip_infix (s : Str) : strip s <:+: s := by
  unfold strip
  have h : ∀ t : Str, (t.reverse.dropWhile isSpace).reverse <+: t := fun t => by
    have := List.dropWhile_suffix (l := t.reverse) isSpace
    have := List.reverse_prefix.2 this
    simpa using this
  exact (h _).isInfix.trans (List.dropWhile_suffix _).isInfix

/-! ## Congruence of the evaluation -/

theorem evalAll_congr {ev ev' : Str → Res (Val K)} {ss : List Str} (h : ∀ s ∈ ss, ev s = ev' s) : evalAll ev ss = evalAll ev' ss := by
  induction ss with
  | nil => rfl
  | cons s ss ih =>
    unfold evalAll
    rw [h s (by simp), ih (fun x hx => h x (by simp [hx]))]

theorem sumTerms_congr {ev ev' : Str → Res (Val K)} (sign : K) {parts : List Str} (h : ∀ s ∈ parts, ev (strip s) = ev' (strip s)) :
    sumTerms ev sign parts = sumTerms ev' sign parts := by
  unfold sumTerms
  rw [evalAll_congr (ev' := ev') (by simpa using h)]

theorem productVal_congr (P : Params K) {ev ev' : Str → Res (Val K)} : ∀ {ts : List Symbolic.Term}, (∀ t ∈ ts, ev t.base = ev' t.base) →
    productVal P ev ts = productVal P ev' ts
  | [], _ => rfl
  | [t], h => by
    unfold productVal termVal
    rw [h t (by simp)]
  | t :: t' :: ts, h => by
    unfold productVal
    have e : termVal P ev t = termVal P ev' t := by unfold termVal; rw [h t (by simp)]
    rw [e, productVal_congr P (ts := t' :: ts) (fun x hx => h x (by simp at hx ⊢; tauto))]

theorem resolve_congr (P P' : Params K) (hp : P'.pow = P.pow) {ev ev' : Str → Res (Val K)} (s : Str) (h1 : ev c!"1" = ev' c!"1")
    (h : ∀ t, t <:+: s → ev t = ev' t) : resolve P ev s = resolve P' ev' s := by
  have hprod : resolveProduct P ev s = resolveProduct P' ev' s := by
    unfold resolveProduct
    split
    · cases hs : Symbolic.ofString s with
      | error e => rfl
      | ok ts =>
        simp only
        have e1 : productVal P ev ts = productVal P ev' ts := productVal_congr P fun t ht => by
          rcases (Symbolic.c282_names s).2 ts hs t ht with e | ⟨-, e⟩
          · rw [e]; exact h1
          · exact h _ e
        have e2 : ∀ ts, productVal P ev' ts = productVal P' ev' ts := by
          have et : ∀ t, termVal P ev' t = termVal P' ev' t := fun t => by unfold termVal; rw [hp]
          intro ts
          induction ts with
          | nil => rfl
          | cons t ts ih =>
            cases ts with
            | nil => exact et t
            | cons t' ts => unfold productVal; rw [et, ih]
        rw [e1, e2]
    · rfl
  unfold resolve
  have hsum : computeSum ev s = computeSum ev' s := by
    unfold computeSum
    split
    · rw [sumTerms_congr (ev' := ev') 1 fun p hp => h _ ((strip_infix p).trans (splitChar_infix _ _ p hp))]
    · split
      · rw [sumTerms_congr (ev' := ev') (-1) fun p hp => h _ ((strip_infix p).trans (splitChar_infix _ _ p hp))]
      · rfl
  cases hm : structMember s with
  | some n =>
    simp only
    refine h n ?_
    unfold structMember at hm
    split at hm
    · injection hm with hm
      subst hm
      exact (List.drop_suffix _ _).isInfix
    · cases hm
  | none => rw [hsum, hprod]

/-- **C283.** For all configurations and all pairs of configuration files: a parameter has the same value with both, or raises the same
exception, unless its name, the text of its definition, or the text of a definition that one of these refers to contains the name of a
parameter that the files define differently. -/
theorem c283_frame (P : Params K) (h1 : P.cast c!"1" = some 1) (u : Dict Str Str) (n : Str) (hn : ¬ Concerns P u n) (fuel : Nat) :
    ({ P with user := u } : Params K).lookup fuel n = P.lookup fuel n := by
  have hone : ∀ f, evaluate ({ P with user := u } : Params K) f c!"1" = evaluate P f c!"1" := by
    intro f
    cases f with
    | zero => rfl
    | succ f =>
      have h1' : ({ P with user := u } : Params K).cast c!"1" = some 1 := h1
      unfold evaluate evaluateWith
      rw [h1, h1']
      simp [truthy]
  have main : ∀ f s, ¬ Concerns P u s → evaluate ({ P with user := u } : Params K) f s = evaluate P f s := by
    intro f
    induction f with
    | zero => intro s _; rfl
    | succ f ih =>
      intro s hs
      have hc : ({ P with user := u } : Params K).cast s = P.cast s := rfl
      have hu : u.get? s = P.user.get? s := by
        by_contra hne
        exact hs (.differs s s List.infix_rfl hne)
      have ha : ({ P with user := u } : Params K).getArgument s = P.getArgument s := by
        unfold Params.getArgument
        simp only [hu]
        cases P.reference.get? s with
        | none => rfl
        | some p => rfl
      unfold evaluate evaluateWith
      rw [hc, ha]
      split
      · rfl
      · split
        · rfl
        · cases hg : P.getArgument s with
          | none =>
            simp only
            refine resolve_congr { P with user := u } P rfl s (hone f) fun t ht => ?_
            exact ih t (fun h => hs (h.mono ht))
          | some a =>
            cases a with
            | done v => rfl
            | again d =>
              simp only
              refine ih d fun h => hs ?_
              unfold Params.getArgument at hg
              split at hg
              · next d0 t hr =>
                refine .through s s d0 t List.infix_rfl hr ?_
                have : orDefault (P.user.get? s) d0 = d := by
                  injection hg with hg
                  unfold Params.convert at hg
                  split at hg <;> (try split at hg) <;> first | (cases hg; done) | (cases hg; rfl)
                rw [this]
                exact h
              · split at hg <;> cases hg
  unfold Params.lookup
  show (if P.reference.has n then _ else _) = _
  split
  · exact main fuel n hn
  · rfl

/-- **C283, one parameter.** If the name `k` is part neither of the name of a parameter nor of the definition of any parameter other
than `k`, whatever the configuration file says about `k` does not change the value of that parameter. -/
theorem c283_one (P : Params K) (h1 : P.cast c!"1" = some 1) (k : Str) (u : Dict Str Str) (hu : ∀ m, m ≠ k → u.get? m = P.user.get? m)
    (hk : ∀ m d t, m ≠ k → P.reference.get? m = some (d, t) → ¬ k <:+: orDefault (P.user.get? m) d) (n : Str) (hn : ¬ k <:+: n)
    (fuel : Nat) : ({ P with user := u } : Params K).lookup fuel n = P.lookup fuel n := by
  refine c283_frame P h1 u n (fun h => hn ?_) fuel
  clear hn
  induction h with
  | differs s m h1 h2 =>
    have : m = k := by
      by_contra hne
      exact h2 (hu m hne)
    exact this ▸ h1
  | through s m d t h1 h2 _ ih =>
    have : m = k := by
      by_contra hne
      exact hk m d t hne h2 ih
    exact this ▸ h1

end

/-- The time step does not matter for the first times, and does for the last. -/
example : (sampleParams [(c!"tDel", c!"3")]).lookup 5 c!"epCalcStartTime" = (sampleParams []).lookup 5 c!"epCalcStartTime" ∧
    (sampleParams [(c!"tDel", c!"3")]).lookup 5 c!"epCalcStartTime" = .ok (.num 0) ∧
    (sampleParams [(c!"tDel", c!"3")]).lookup 5 c!"simStopTime" = .ok (.num 3) := by decide +kernel

example : ¬ Concerns (sampleParams []) [(c!"tDel", c!"3")] c!"rigidityPower" := by
  intro h
  have key : ∀ s, Concerns (sampleParams []) [(c!"tDel", c!"3")] s → c!"tDel" <:+: s ∨ c!"simStopTime" <:+: s := by
    intro s h
    induction h with
    | differs s m h1 h2 =>
      left
      by_cases e : m = c!"tDel"
      · exact e ▸ h1
      · refine absurd ?_ h2
        rw [Dict.get?_cons, if_neg (Ne.symm e)]
        rfl
    | through s m d t h1 h2 _ ih =>
      have hm := Dict.mem_of_get? h2
      have table : ∀ p ∈ (sampleParams []).reference, c!"tDel" <:+: p.2.1 ∨ c!"simStopTime" <:+: p.2.1 → p.1 = c!"simStopTime" := by
        decide +kernel
      have := table _ hm ih
      simp only at this
      exact Or.inr (this ▸ h1)
  exact absurd (key _ h) (by decide +kernel)

end Verif.Runtime
