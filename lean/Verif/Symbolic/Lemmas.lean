import Verif.Symbolic.Model
import Mathlib.Algebra.BigOperators.Group.List.Basic
import Mathlib.Tactic.Ring
import Mathlib.Tactic.Linarith

/-!
# Helper lemmas for `reduce`
-/

set_option linter.unusedSimpArgs false
set_option linter.unusedSectionVars false

namespace Verif.Symbolic

open Verif.Py

/-! ## Totals -/

/-- Sum of the exponents of a base. -/
def totalExp (ts : List Term) (b : Name) : Rat :=
  ((ts.filter (fun t => t.base = b)).map (·.exp)).sum

/-- Product of all coefficients. -/
def totalCoef (ts : List Term) : Rat := (ts.map (·.coef)).prod

@[simp] theorem totalExp_nil (b : Name) : totalExp [] b = 0 := rfl
@[simp] theorem totalCoef_nil : totalCoef [] = 1 := rfl

theorem totalExp_cons (t : Term) (ts : List Term) (b : Name) :
    totalExp (t :: ts) b = (if t.base = b then t.exp else 0) + totalExp ts b := by
  unfold totalExp
  by_cases h : t.base = b <;> simp [h]

theorem totalCoef_cons (t : Term) (ts : List Term) :
    totalCoef (t :: ts) = t.coef * totalCoef ts := by simp [totalCoef]

theorem totalExp_append (a b : List Term) (x : Name) :
    totalExp (a ++ b) x = totalExp a x + totalExp b x := by simp [totalExp]

theorem totalCoef_append (a b : List Term) :
    totalCoef (a ++ b) = totalCoef a * totalCoef b := by simp [totalCoef]

theorem totalExp_perm {a b : List Term} (h : a.Perm b) (x : Name) : totalExp a x = totalExp b x :=
  ((h.filter _).map _).sum_eq

theorem totalCoef_perm {a b : List Term} (h : a.Perm b) : totalCoef a = totalCoef b :=
  (h.map _).prod_eq

theorem totalCoef_ne_zero {ts : List Term} (h : ∀ t ∈ ts, t.coef ≠ 0) : totalCoef ts ≠ 0 := by
  induction ts with
  | nil => simp
  | cons t ts ih =>
    rw [totalCoef_cons]
    exact mul_ne_zero (h t (by simp)) (ih (fun t ht => h t (List.mem_cons_of_mem _ ht)))

theorem totalExp_of_not_mem {ts : List Term} {b : Name} (h : ∀ t ∈ ts, t.base ≠ b) :
    totalExp ts b = 0 := by
  induction ts with
  | nil => rfl
  | cons t ts ih =>
    rw [totalExp_cons, if_neg (h t (by simp)), ih (fun t ht => h t (List.mem_cons_of_mem _ ht))]
    simp

/-! ## `collect` -/

/-- Product of the coefficients in the dictionary. -/
def dictCoef (d : Dict Name (Rat × Rat)) : Rat := (d.map (·.2.1)).prod

theorem dictCoef_set_some : ∀ (d : Dict Name (Rat × Rat)) (k : Name) (c e x e' : Rat),
    d.get? k = some (c, e) → dictCoef (d.set k (c * x, e')) = dictCoef d * x := by
  intro d
  induction d with
  | nil => intro k c e x e' h; simp at h
  | cons p d ih =>
    intro k c e x e' h
    obtain ⟨k', v⟩ := p
    rw [Dict.get?_cons] at h
    unfold Dict.set
    split
    · next hk =>
      rw [if_pos hk] at h; injection h with h; subst h
      simp [dictCoef]; ring
    · next hk =>
      rw [if_neg hk] at h
      have := ih k c e x e' h
      simp only [dictCoef, List.map_cons, List.prod_cons] at this ⊢
      rw [this]; ring

theorem dictCoef_set_none (d : Dict Name (Rat × Rat)) (k : Name) (v : Rat × Rat)
    (h : d.get? k = none) : dictCoef (d.set k v) = dictCoef d * v.1 := by
  rw [Dict.set_of_not_mem ((Dict.get?_eq_none_iff d k).1 h)]
  simp [dictCoef]

/-- Exponent recorded for a base. -/
def dictExp (d : Dict Name (Rat × Rat)) (b : Name) : Rat :=
  match d.get? b with
  | some v => v.2
  | none => 0

theorem collect_spec (ts : List Term) : ∀ (d : Dict Name (Rat × Rat)), d.keys.Nodup →
    let d' := ts.foldl reduceStep d
    d'.keys.Nodup ∧ dictCoef d' = dictCoef d * totalCoef ts
    ∧ (∀ b, dictExp d' b = dictExp d b + totalExp ts b)
    ∧ (∀ b, b ∈ d'.keys ↔ b ∈ d.keys ∨ ∃ t ∈ ts, t.base = b) := by
  induction ts with
  | nil => intro d hd; simp [hd]
  | cons t ts ih =>
    intro d hd
    simp only [List.foldl_cons]
    have hstep : (reduceStep d t).keys.Nodup ∧ dictCoef (reduceStep d t) = dictCoef d * t.coef
        ∧ (∀ b, dictExp (reduceStep d t) b = dictExp d b + if t.base = b then t.exp else 0)
        ∧ (∀ b, b ∈ (reduceStep d t).keys ↔ b ∈ d.keys ∨ t.base = b) := by
      unfold reduceStep
      split
      · next c e h =>
        refine ⟨Dict.nodup_keys_set hd _ _, dictCoef_set_some d _ c e _ _ h, ?_, ?_⟩
        · intro b
          unfold dictExp
          rw [Dict.get?_set]
          by_cases hb : t.base = b
          · subst hb; simp [h]
          · simp [hb]
        · intro b; rw [Dict.mem_keys_set]; tauto
      · next h =>
        refine ⟨Dict.nodup_keys_set hd _ _, dictCoef_set_none d _ _ h, ?_, ?_⟩
        · intro b
          unfold dictExp
          rw [Dict.get?_set]
          by_cases hb : t.base = b
          · subst hb; simp [h]
          · simp [hb]
        · intro b; rw [Dict.mem_keys_set]; tauto
    obtain ⟨h1, h2, h3, h4⟩ := hstep
    obtain ⟨i1, i2, i3, i4⟩ := ih (reduceStep d t) h1
    refine ⟨i1, ?_, ?_, ?_⟩
    · rw [i2, h2, totalCoef_cons]; ring
    · intro b; rw [i3, h3, totalExp_cons]; ring
    · intro b; rw [i4, h4]; simp only [List.mem_cons, exists_eq_or_imp]; tauto

/-! ## Sorting -/

/-- Order of the terms in a reduced expression: descending exponent, then ascending base. -/
def Before (a b : Term) : Prop := b.exp < a.exp ∨ (a.exp = b.exp ∧ a.base < b.base)

theorem insertionSort_stable {α : Type _} (r1 r2 : α → α → Prop) [DecidableRel r2]
    (htot : ∀ a b, r2 a b ∨ r2 b a) (htr : ∀ a b c, r2 a b → r2 b c → r2 a c) (l : List α)
    (h : l.Pairwise r1) :
    (l.insertionSort r2).Pairwise (fun a b => r2 a b ∧ (r2 b a → r1 a b)) := by
  induction l with
  | nil => simp
  | cons a l ih =>
    rw [List.pairwise_cons] at h
    rw [List.insertionSort_cons]
    have hmem : ∀ b ∈ l.insertionSort r2, r1 a b := fun b hb =>
      h.1 b ((List.mem_insertionSort r2).1 hb)
    have hs := ih h.2
    clear ih h
    generalize l.insertionSort r2 = m at hmem hs
    induction m with
    | nil => simp
    | cons b m ihm =>
      rw [List.pairwise_cons] at hs
      rw [List.orderedInsert]
      split
      · next hab =>
        rw [List.pairwise_cons]
        refine ⟨?_, List.pairwise_cons.2 hs⟩
        intro c hc
        refine ⟨?_, fun _ => hmem c hc⟩
        rcases List.mem_cons.1 hc with rfl | hc
        · exact hab
        · exact htr _ _ _ hab (hs.1 c hc).1
      · next hab =>
        rw [List.pairwise_cons]
        refine ⟨?_, ihm (fun c hc => hmem c (List.mem_cons_of_mem _ hc)) hs.2⟩
        intro c hc
        rw [List.mem_orderedInsert] at hc
        rcases hc with rfl | hc
        · exact ⟨(htot c b).resolve_left hab, fun h => absurd h hab⟩
        · exact hs.1 c hc

theorem perm_sortTerms (ts : List Term) : (sortTerms ts).Perm ts :=
  (List.perm_insertionSort _ _).trans (List.perm_insertionSort _ _)

theorem sorted_sortTerms (ts : List Term) (h : (ts.map (·.base)).Nodup) :
    (sortTerms ts).Pairwise Before := by
  unfold sortTerms
  have h1 : (ts.insertionSort (fun a b => a.base ≤ b.base)).Pairwise
      (fun a b => a.base < b.base) := by
    have hs : (ts.insertionSort (fun a b : Term => a.base ≤ b.base)).Pairwise
        (fun a b => a.base ≤ b.base ∧ (b.base ≤ a.base → a.base ≠ b.base)) := by
      apply insertionSort_stable (fun a b : Term => a.base ≠ b.base)
      · intro a b; exact le_total _ _
      · intro a b c; exact le_trans
      · rw [List.nodup_iff_pairwise_ne, List.pairwise_map] at h; exact h
    apply hs.imp
    intro a b hab
    rcases lt_or_eq_of_le hab.1 with h | h
    · exact h
    · exact absurd h (hab.2 (le_of_eq h.symm))
  have h2 := insertionSort_stable (fun a b : Term => a.base < b.base)
    (fun a b : Term => b.exp ≤ a.exp) (fun a b => le_total _ _)
    (fun a b c h1 h2 => le_trans h2 h1) _ h1
  apply h2.imp
  intro a b hab
  unfold Before
  rcases lt_or_eq_of_le hab.1 with h | h
  · exact Or.inl h
  · exact Or.inr ⟨h.symm, hab.2 (le_of_eq h.symm)⟩

theorem Before.irrefl (a : Term) : ¬ Before a a := by
  unfold Before; rintro (h | ⟨_, h⟩) <;> exact lt_irrefl _ h

theorem Before.asymm {a b : Term} (h : Before a b) : ¬ Before b a := by
  unfold Before at *
  rcases h with h | ⟨h1, h2⟩
  · rintro (h' | ⟨h', _⟩)
    · exact lt_asymm h h'
    · rw [h'] at h; exact lt_irrefl _ h
  · rintro (h' | ⟨_, h'⟩)
    · rw [h1] at h'; exact lt_irrefl _ h'
    · exact lt_asymm h2 h'

theorem eq_of_sorted {α : Type _} {r : α → α → Prop} (has : ∀ a b, r a b → ¬ r b a) :
    ∀ {l m : List α}, l.Pairwise r → m.Pairwise r → (∀ x, x ∈ l ↔ x ∈ m) → l = m := by
  have hir : ∀ a, ¬ r a a := fun a h => has a a h h
  intro l
  induction l with
  | nil =>
    intro m _ _ h
    cases m with
    | nil => rfl
    | cons b m => exact absurd ((h b).2 (by simp)) (by simp)
  | cons a l ih =>
    intro m hl hm h
    cases m with
    | nil => exact absurd ((h a).1 (by simp)) (by simp)
    | cons b m =>
      rw [List.pairwise_cons] at hl hm
      have hab : a = b := by
        by_contra hne
        have ha : a ∈ m := by
          have := (h a).1 (by simp)
          rcases List.mem_cons.1 this with h' | h'
          · exact absurd h' hne
          · exact h'
        have hb : b ∈ l := by
          have := (h b).2 (by simp)
          rcases List.mem_cons.1 this with h' | h'
          · exact absurd h'.symm hne
          · exact h'
        exact has _ _ (hl.1 b hb) (hm.1 a ha)
      subst hab
      congr 1
      apply ih hl.2 hm.2
      intro x
      constructor
      · intro hx
        rcases List.mem_cons.1 ((h x).1 (List.mem_cons_of_mem _ hx)) with rfl | h'
        · exact absurd (hl.1 _ hx) (hir _)
        · exact h'
      · intro hx
        rcases List.mem_cons.1 ((h x).2 (List.mem_cons_of_mem _ hx)) with rfl | h'
        · exact absurd (hm.1 _ hx) (hir _)
        · exact h'

/-! ## Canonical lists of variable terms -/

/-- The variable part of a reduced expression. -/
def CanonVars (vars : List Term) : Prop :=
  (∀ t ∈ vars, t.coef = 1 ∧ t.base ≠ one ∧ t.base ≠ [] ∧ t.exp ≠ 0)
  ∧ (vars.map (·.base)).Nodup ∧ vars.Pairwise Before

theorem totalExp_of_mem {vars : List Term} (hn : (vars.map (·.base)).Nodup) {t : Term}
    (ht : t ∈ vars) : totalExp vars t.base = t.exp := by
  induction vars with
  | nil => simp at ht
  | cons a vars ih =>
    simp only [List.map_cons, List.nodup_cons] at hn
    rw [totalExp_cons]
    rcases List.mem_cons.1 ht with rfl | h
    · rw [if_pos rfl, totalExp_of_not_mem]
      · simp
      · intro b hb heq
        exact hn.1 (List.mem_map.2 ⟨b, hb, heq⟩)
    · have : a.base ≠ t.base := fun heq => hn.1 (List.mem_map.2 ⟨t, h, heq.symm⟩)
      rw [if_neg this, ih hn.2 h]; simp

theorem mem_canonVars {vars : List Term} (h : CanonVars vars) (t : Term) :
    t ∈ vars ↔ t.coef = 1 ∧ t.exp ≠ 0 ∧ totalExp vars t.base = t.exp := by
  constructor
  · intro ht
    exact ⟨(h.1 t ht).1, (h.1 t ht).2.2.2, totalExp_of_mem h.2.1 ht⟩
  · rintro ⟨h1, h2, h3⟩
    have : ∃ u ∈ vars, u.base = t.base := by
      by_contra hno
      push Not at hno
      rw [totalExp_of_not_mem hno] at h3
      exact h2 h3.symm
    obtain ⟨u, hu, hub⟩ := this
    have hue := totalExp_of_mem h.2.1 hu
    rw [hub, h3] at hue
    have : t = u := by
      obtain ⟨c, b, e⟩ := t
      obtain ⟨c', b', e'⟩ := u
      have := (h.1 _ hu).1
      simp at *
      subst h1; subst this; subst hub; subst hue; simp
    rw [this]; exact hu

theorem canonVars_ext {v w : List Term} (hv : CanonVars v) (hw : CanonVars w)
    (h : ∀ b, totalExp v b = totalExp w b) : v = w := by
  apply eq_of_sorted (fun a b => Before.asymm) hv.2.2 hw.2.2
  intro t
  rw [mem_canonVars hv, mem_canonVars hw, h]

/-- The reduced expression with given coefficient and variables (what `reduce` returns). -/
def assemble (c : Rat) (vars : List Term) : List Term :=
  if vars = [] then [⟨c, one, 1⟩] else if c = 1 then vars else ⟨c, one, 1⟩ :: vars

/-- Nothing but terms that the constructor can produce. -/
def WF (t : Term) : Prop := t.coef ≠ 0 ∧ t.exp ≠ 0 ∧ t.base ≠ []

theorem wf_mkOperand (c : Rat) (b : Name) (e : Rat) : WF (mkOperand c b e) := by
  refine ⟨?_, ?_, ?_⟩ <;> simp only [mkOperand, orOne]
  · split <;> simp_all
  · split <;> simp_all
  · split
    · simp [one]
    · assumption

theorem orOne_of_ne {x : Rat} (h : x ≠ 0) : orOne x = x := by simp [orOne, h]

theorem totalExp_assemble {c : Rat} {vars : List Term} {b : Name} (hb : b ≠ one) :
    totalExp (assemble c vars) b = totalExp vars b := by
  unfold assemble
  split
  · next h => subst h; rw [totalExp_cons, if_neg (Ne.symm hb)]; simp
  · split
    · rfl
    · rw [totalExp_cons, if_neg (Ne.symm hb)]; simp

theorem totalCoef_vars {vars : List Term} (h : CanonVars vars) : totalCoef vars = 1 := by
  have : ∀ t ∈ vars, t.coef = 1 := fun t ht => (h.1 t ht).1
  clear h
  induction vars with
  | nil => rfl
  | cons t vars ih =>
    rw [totalCoef_cons, this t (by simp), ih (fun t ht => this t (List.mem_cons_of_mem _ ht))]
    simp

theorem totalCoef_assemble {c : Rat} {vars : List Term} (h : CanonVars vars) :
    totalCoef (assemble c vars) = c := by
  unfold assemble
  split
  · simp [totalCoef]
  · split
    · next hc => rw [totalCoef_vars h, hc]
    · rw [totalCoef_cons, totalCoef_vars h]; simp

theorem foldl_mul (cs : List Rat) (c0 : Rat) : cs.foldl (· * ·) c0 = c0 * cs.prod := by
  induction cs generalizing c0 with
  | nil => simp
  | cons c cs ih => simp [ih]; ring

/-- What `reduce` computes, in terms of totals. -/
theorem reduce_eq (ts : List Term) (hne : ts ≠ []) (hwf : ∀ t ∈ ts, WF t) :
    ∃ vars, reduce ts = .ok (assemble (totalCoef ts) vars) ∧ CanonVars vars
      ∧ ∀ b, b ≠ one → totalExp vars b = totalExp ts b := by
  obtain ⟨h1, h2, h3, h4⟩ := collect_spec ts [] (by simp)
  change (collect ts).keys.Nodup at h1
  change dictCoef (collect ts) = _ at h2
  change ∀ b, dictExp (collect ts) b = _ at h3
  change ∀ b, b ∈ (collect ts).keys ↔ _ at h4
  have hc0 : totalCoef ts ≠ 0 := totalCoef_ne_zero (fun t ht => (hwf t ht).1)
  have hkey : ∀ p ∈ collect ts, p.1 ≠ [] := by
    intro p hp
    have := (h4 p.1).1 (List.mem_map.2 ⟨p, hp, rfl⟩)
    simp at this
    obtain ⟨t, ht, hb⟩ := this
    rw [← hb]; exact (hwf t ht).2.2
  have hvar : ∀ t, t ∈ variablesOf (collect ts) ↔
      t.coef = 1 ∧ t.base ≠ one ∧ t.exp ≠ 0 ∧ dictExp (collect ts) t.base = t.exp := by
    intro t
    unfold variablesOf
    simp only [List.mem_map, List.mem_filter, decide_eq_true_eq]
    constructor
    · rintro ⟨p, ⟨hp, hp1, hp2⟩, rfl⟩
      have hb : (mkOperand 1 p.1 p.2.2).base = p.1 := by simp [mkOperand, hkey p hp]
      have he : (mkOperand 1 p.1 p.2.2).exp = p.2.2 := by simp [mkOperand, orOne, hp2]
      rw [hb, he]
      refine ⟨by simp [mkOperand, orOne], hp1, hp2, ?_⟩
      unfold dictExp
      rw [Dict.get?_of_mem h1 (k := p.1) (v := p.2) hp]
    · rintro ⟨hc, hb, he, hd⟩
      unfold dictExp at hd
      split at hd
      · next v hv =>
        have hmem := Dict.mem_of_get? hv
        refine ⟨(t.base, v), ⟨hmem, hb, by rw [hd]; exact he⟩, ?_⟩
        obtain ⟨c, b, e⟩ := t
        have := hkey _ hmem
        simp at *
        subst hc; subst hd
        simp [mkOperand, orOne, he, this]
      · exact absurd hd.symm he
  have hnodup : ((variablesOf (collect ts)).map (·.base)).Nodup := by
    have hmap : (variablesOf (collect ts)).map (·.base)
        = ((collect ts).filter (fun p => p.1 ≠ one ∧ p.2.2 ≠ 0)).map (·.1) := by
      unfold variablesOf
      rw [List.map_map]
      apply List.map_congr_left
      intro p hp
      simp [mkOperand, hkey p (List.mem_filter.1 hp).1]
    rw [hmap]
    exact h1.sublist (List.Sublist.map _ List.filter_sublist)
  have hcanon : CanonVars (sortTerms (variablesOf (collect ts))) := by
    refine ⟨?_, ?_, sorted_sortTerms _ hnodup⟩
    · intro t ht
      have ht' := (perm_sortTerms _).mem_iff.1 ht
      have := (hvar t).1 ht'
      refine ⟨this.1, this.2.1, ?_, this.2.2.1⟩
      intro hb
      unfold variablesOf at ht'
      obtain ⟨p, hp, rfl⟩ := List.mem_map.1 ht'
      exact (wf_mkOperand _ _ _).2.2 hb
    · exact ((perm_sortTerms _).map _).nodup_iff.2 hnodup
  refine ⟨sortTerms (variablesOf (collect ts)), ?_, hcanon, ?_⟩
  · unfold reduce
    simp only
    have hval : dictCoef (collect ts) = totalCoef ts := by rw [h2]; simp [dictCoef]
    have hmap : (collect ts).values.map (·.1) = (collect ts).map (·.2.1) := by
      simp [Dict.values]
    rw [hmap]
    split
    · next h0 =>
      exfalso
      have hnil : collect ts = [] := by simpa using h0
      obtain ⟨t, ht⟩ := List.exists_mem_of_ne_nil _ hne
      have := (h4 t.base).2 (Or.inr ⟨t, ht, rfl⟩)
      rw [hnil] at this; simp at this
    · next c0 cs hcs =>
      have hc : cs.foldl (· * ·) c0 = totalCoef ts := by
        rw [foldl_mul, ← hval]
        unfold dictCoef
        rw [hcs]; simp
      rw [hc]
      have hmk : mkOperand (totalCoef ts) one 1 = ⟨totalCoef ts, one, 1⟩ := by
        simp [mkOperand, orOne, hc0, one]
      rw [hmk]
      unfold assemble
      split
      · rfl
      · split
        · rfl
        · rfl
  · intro b hb
    have h3' : dictExp (collect ts) b = totalExp ts b := by rw [h3]; simp [dictExp]
    rw [← h3']
    by_cases hz : dictExp (collect ts) b = 0
    · rw [hz]
      apply totalExp_of_not_mem
      rintro t ht rfl
      have := (hvar t).1 ((perm_sortTerms _).mem_iff.1 ht)
      exact this.2.2.1 (this.2.2.2 ▸ hz)
    · have hmem : (⟨1, b, dictExp (collect ts) b⟩ : Term) ∈ variablesOf (collect ts) :=
        (hvar _).2 ⟨rfl, hb, hz, rfl⟩
      exact totalExp_of_mem hcanon.2.1 ((perm_sortTerms _).mem_iff.2 hmem)

/-- Reduced results agree iff the totals agree. -/
theorem reduce_congr {a b : List Term} (ha : a ≠ []) (hb : b ≠ []) (hwa : ∀ t ∈ a, WF t)
    (hwb : ∀ t ∈ b, WF t) (hc : totalCoef a = totalCoef b)
    (he : ∀ x, x ≠ one → totalExp a x = totalExp b x) : reduce a = reduce b := by
  obtain ⟨v, hv, hvc, hve⟩ := reduce_eq a ha hwa
  obtain ⟨w, hw, hwc, hwe⟩ := reduce_eq b hb hwb
  have : v = w := by
    apply canonVars_ext hvc hwc
    intro x
    by_cases hx : x = one
    · subst hx
      rw [totalExp_of_not_mem (fun t ht => (hvc.1 t ht).2.1),
        totalExp_of_not_mem (fun t ht => (hwc.1 t ht).2.1)]
    · rw [hve x hx, hwe x hx, he x hx]
  rw [hv, hw, this, hc]

theorem assemble_ne_nil (c : Rat) (vars : List Term) : assemble c vars ≠ [] := by
  unfold assemble
  split
  · simp
  · split
    · assumption
    · simp

theorem wf_assemble {c : Rat} {vars : List Term} (hc : c ≠ 0) (hv : CanonVars vars) :
    ∀ t ∈ assemble c vars, WF t := by
  have h1 : WF ⟨c, one, 1⟩ := ⟨hc, by simp, by simp [one]⟩
  have h2 : ∀ t ∈ vars, WF t := fun t ht => by
    obtain ⟨a, b, c', d⟩ := hv.1 t ht
    exact ⟨by rw [a]; simp, d, c'⟩
  unfold assemble
  split
  · intro t ht; simp at ht; subst ht; exact h1
  · split
    · exact h2
    · intro t ht
      rcases List.mem_cons.1 ht with rfl | ht
      · exact h1
      · exact h2 t ht

theorem assemble_inj {c c' : Rat} {v w : List Term} (hv : CanonVars v) (hw : CanonVars w)
    (h : assemble c v = assemble c' w) : c = c' ∧ v = w := by
  have h1 : c = c' := by rw [← totalCoef_assemble hv (c := c), h, totalCoef_assemble hw]
  refine ⟨h1, canonVars_ext hv hw ?_⟩
  intro b
  by_cases hb : b = one
  · subst hb
    rw [totalExp_of_not_mem (fun t ht => (hv.1 t ht).2.1),
      totalExp_of_not_mem (fun t ht => (hw.1 t ht).2.1)]
  · rw [← totalExp_assemble hb (c := c), h, totalExp_assemble hb]

end Verif.Symbolic
