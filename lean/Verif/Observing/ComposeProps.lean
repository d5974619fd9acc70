import Mathlib.Tactic.Tauto
import Mathlib.Tactic.Ring
import Mathlib.Algebra.BigOperators.Group.Finset.Basic
import Mathlib.Algebra.Module.BigOperators
import Mathlib.Algebra.Module.Torsion.Field
import Verif.Symbolic.Semantics
import Verif.Symbolic.Props
import Verif.Observing.Model

/-!
# Compositions of names: what can be observed, and with which unit and value (C60, C101, C104)
-/

set_option linter.unusedSimpArgs false
set_option linter.unusedSectionVars false

namespace Verif.Observing

open Verif.Py

/-! ## Specification -/

/-- Nothing but names, products, quotients, parentheses and powers. -/
def NoNumbers : Symbolic.Tree → Prop
  | .num _ => False
  | .var _ _ => True
  | .group t _ => NoNumbers t
  | .bin _ a b => NoNumbers a ∧ NoNumbers b

/-- The exponent with which a name enters a composition altogether. -/
def netExp : Symbolic.Tree → Str → ℚ
  | .num _, _ => 0
  | .var m x, n => if m = n then x else 0
  | .group t x, n => x * netExp t n
  | .bin o a b, n => netExp a n + o.sign (netExp b n)

/-- What a composition amounts to, given what each name amounts to; products are written as sums and
powers as multiples. -/
def composed {A : Type} [AddCommGroup A] [Module ℚ A] (f : Str → A) : Symbolic.Tree → A
  | .num _ => 0
  | .var n x => x • f n
  | .group t x => x • composed f t
  | .bin .slash a b => composed f a - composed f b
  | .bin _ a b => composed f a + composed f b

/-! ## The terms of a composition -/

theorem netExp_bin (o : Symbolic.Sep) (a b : Symbolic.Tree) (n : Str) (q : ℚ) :
    q * netExp (.bin o a b) n = q * netExp a n + o.sign q * netExp b n := by
  cases o <;> simp [netExp, Symbolic.Sep.sign] <;> ring

theorem totalExp_termsOf (n : Str) (hn : n ≠ Symbolic.one) : ∀ (t : Symbolic.Tree) (q : ℚ),
    Symbolic.totalExp (Symbolic.termsOf t q) n = q * netExp t n := by
  intro t
  induction t with
  | num c =>
    intro q
    simp [Symbolic.termsOf, Symbolic.totalExp_cons, netExp, Ne.symm hn]
  | var m x =>
    intro q
    simp only [Symbolic.termsOf, Symbolic.totalExp_cons, netExp, Symbolic.totalExp_nil]
    split <;> ring
  | group t x ih =>
    intro q
    simp only [Symbolic.termsOf, Symbolic.totalExp_append, ih, netExp, Symbolic.totalExp_cons,
      Symbolic.totalExp_nil, if_neg (Ne.symm hn)]
    ring
  | bin o a b iha ihb =>
    intro q
    rw [netExp_bin]
    simp only [Symbolic.termsOf, Symbolic.totalExp_append, iha, ihb]

theorem totalCoef_termsOf : ∀ (t : Symbolic.Tree) (q : ℚ), NoNumbers t →
    Symbolic.totalCoef (Symbolic.termsOf t q) = 1 := by
  intro t
  induction t with
  | num c => intro q h; exact h.elim
  | var m x => intro q _; simp [Symbolic.termsOf, Symbolic.totalCoef]
  | group t x ih =>
    intro q h
    simp only [Symbolic.termsOf, Symbolic.totalCoef_append, ih _ h]
    simp [Symbolic.totalCoef]
  | bin o a b iha ihb =>
    intro q h
    simp only [Symbolic.termsOf, Symbolic.totalCoef_append, iha _ h.1, ihb _ h.2, mul_one]

/-- The terms of a written composition: the names with a nonzero exponent altogether, each once and
with that exponent, by decreasing exponent; or the number 1 if there are none. -/
theorem ofString_terms {t : Symbolic.Tree} (hok : t.Ok) (he : t.Exact 1) (hnn : NoNumbers t) :
    ∃ vars, Symbolic.ofString t.render = .ok (Symbolic.assemble 1 vars)
      ∧ Symbolic.CanonVars vars
      ∧ (∀ u ∈ vars, u.exp = netExp t u.base)
      ∧ (∀ n, n ≠ Symbolic.one → netExp t n ≠ 0 → ∃ u ∈ vars, u.base = n)
      ∧ ∀ b, b ≠ Symbolic.one → Symbolic.totalExp vars b
          = Symbolic.totalExp (Symbolic.termsOf t 1) b := by
  have hw : ∀ u ∈ Symbolic.termsOf t 1 ++ [⟨1, Symbolic.one, 1⟩], Symbolic.WF u := by
    intro u hu
    rcases List.mem_append.1 hu with h | h
    · exact Symbolic.wf_termsOf t 1 hok one_ne_zero u h
    · simp at h; subst h; exact ⟨by simp, by simp, by simp [Symbolic.one]⟩
  obtain ⟨vars, hr, hc, hx⟩ := Symbolic.reduce_eq _ (by simp) hw
  have hx' : ∀ b, b ≠ Symbolic.one → Symbolic.totalExp vars b
      = Symbolic.totalExp (Symbolic.termsOf t 1) b := by
    intro b hb
    rw [hx b hb, Symbolic.totalExp_append]
    simp [Symbolic.totalExp_cons, Ne.symm hb]
  refine ⟨vars, ?_, hc, ?_, ?_, hx'⟩
  · unfold Symbolic.ofString
    rw [if_neg (Symbolic.Tree.render_ne_nil hok), Symbolic.parse_render t hok he]
    show Symbolic.reduce _ = _
    rw [hr, Symbolic.totalCoef_append, totalCoef_termsOf t 1 hnn]
    simp [Symbolic.totalCoef]
  · intro u hu
    have hb := (hc.1 u hu).2.1
    have := hx' _ hb
    rw [Symbolic.totalExp_of_mem hc.2.1 hu, totalExp_termsOf _ hb, one_mul] at this
    exact this
  · intro n hn h0
    have : Symbolic.totalExp vars n ≠ 0 := by
      rw [hx' n hn, totalExp_termsOf n hn, one_mul]; exact h0
    exact Symbolic.totalExp_ne_zero_mem this

/-! ## Names -/

theorem validName_ne_one {n : Str} (h : Symbolic.ValidName n) : n ≠ Symbolic.one := by
  obtain ⟨l, d, rfl, hl, hlet, hd, -⟩ := h
  intro e
  cases l with
  | nil => exact hl rfl
  | cons c l =>
    have := hlet c (List.mem_cons_self ..)
    simp only [List.cons_append, Symbolic.one] at e
    injection e with e1 e2
    rw [e1] at this
    revert this
    decide

theorem validName_chars {n : Str} (h : Symbolic.ValidName n) : '/' ∉ n ∧ '*' ∉ n := by
  obtain ⟨l, d, rfl, hl, hlet, hd, -⟩ := h
  constructor <;> intro hc <;> rcases List.mem_append.1 hc with hc | hc
  · exact absurd (hlet _ hc) (by decide)
  · exact absurd (hd _ hc) (by decide)
  · exact absurd (hlet _ hc) (by decide)
  · exact absurd (hd _ hc) (by decide)

theorem validName_of_netExp : ∀ (t : Symbolic.Tree) (n : Str), t.Ok → netExp t n ≠ 0 →
    Symbolic.ValidName n := by
  intro t n
  induction t with
  | num c => intro _ h; simp [netExp] at h
  | var m x =>
    intro hok h
    simp only [netExp] at h
    split at h
    · next e => exact e ▸ hok.1
    · exact absurd rfl h
  | group t x ih =>
    intro hok h
    exact ih hok.1 (fun e => h (by simp [netExp, e]))
  | bin o a b iha ihb =>
    intro hok h
    by_cases ha : netExp a n = 0
    · refine ihb hok.2.1 (fun e => h ?_)
      cases o <;> simp [netExp, ha, e, Symbolic.Sep.sign]
    · exact iha hok.1 ha

/-! ## C60 -/

/-- A name that the observer lists. -/
def Listed (observables : List (List Str)) (n : Str) : Prop := ∃ g ∈ observables, n ∈ g

theorem find_isSome_iff (gs : List (List Str)) (n : Str) :
    (Aliased.find gs n).isSome ↔ Listed gs n := by
  simp [Aliased.find, Listed, List.find?_isSome]

theorem allOf_ok (f : Str → Res Bool) (p : Str → Prop) [DecidablePred p] :
    ∀ ns : List Str, (∀ n ∈ ns, f n = .ok (decide (p n))) →
      allOf f ns = .ok (decide (∀ n ∈ ns, p n)) := by
  intro ns
  induction ns with
  | nil => intro _; simp [allOf]
  | cons n ns ih =>
    intro h
    have h1 := h n (List.mem_cons_self ..)
    have h2 := ih (fun m hm => h m (List.mem_cons_of_mem _ hm))
    unfold allOf
    rw [h1]
    by_cases hp : p n
    · simp only [hp, decide_true, h2]; simp [hp]
    · simp [hp]

open Classical in
theorem observesName_plain (gs : List (List Str)) (fuel : Nat) (n : Str)
    (h : '/' ∉ n ∧ '*' ∉ n) : observesName gs (fuel + 1) n = .ok (decide (Listed gs n)) := by
  unfold observesName
  by_cases hl : Listed gs n
  · rw [if_pos ((find_isSome_iff gs n).2 hl)]; simp [hl]
  · rw [if_neg (fun e => hl ((find_isSome_iff gs n).1 e)), if_neg (by tauto)]; simp [hl]

open Classical in
/-- C60, partial. For a composition of names (letters, then digits), written with `*` or `/` at least
once and without numbers: if it is not itself listed, it is observable iff every name that enters
with a nonzero exponent altogether is, and there is such a name.  A plain name is observable iff it
is listed.  Of a collection only the first name counts.

Missing: names that cancel are not looked at, and a composition in which all cancel is not
observable; names with blanks, products written with blanks only, and numbers; all but the first name
of a collection.  In these cases the claim is false (`c60_counterexample`). -/
theorem c60_partial (gs : List (List Str)) (fuel : Nat) (hone : ¬ Listed gs Symbolic.one) :
    (∀ t : Symbolic.Tree, t.Ok → t.Exact 1 → NoNumbers t → ('/' ∈ t.render ∨ '*' ∈ t.render) →
      observesName gs (fuel + 2) t.render
        = .ok (decide (Listed gs t.render
            ∨ (∃ n, netExp t n ≠ 0) ∧ ∀ n, netExp t n ≠ 0 →
                observesName gs (fuel + 1) n = .ok true)))
    ∧ (∀ n, Symbolic.ValidName n → observesName gs (fuel + 1) n = .ok (decide (Listed gs n)))
    ∧ ∀ ns, observesAny gs fuel ns = (ns.head?.map (observesName gs fuel)).getD (.ok false) := by
  refine ⟨?_, fun n hn => observesName_plain gs fuel n (validName_chars hn), ?_⟩
  · intro t hok he hnn hsep
    obtain ⟨vars, hs, hc, hexp, hall, -⟩ := ofString_terms hok he hnn
    by_cases hl : Listed gs t.render
    · rw [observesName, if_pos ((find_isSome_iff gs _).2 hl)]; simp [hl]
    rw [observesName, if_neg (fun e => hl ((find_isSome_iff gs _).1 e)), if_pos hsep, hs]
    show allOf (observesName gs (fuel + 1)) _ = _
    have hbase : ∀ u ∈ vars, Symbolic.ValidName u.base := fun u hu =>
      validName_of_netExp t _ hok (by rw [← hexp u hu]; exact (hc.1 u hu).2.2.2)
    by_cases hv : vars = []
    · have h0 : ¬ ∃ n, netExp t n ≠ 0 := by
        rintro ⟨n, hn⟩
        obtain ⟨u, hu, -⟩ := hall n (validName_ne_one (validName_of_netExp t n hok hn)) hn
        simp [hv] at hu
      rw [show Symbolic.assemble 1 vars = [⟨1, Symbolic.one, 1⟩] by simp [Symbolic.assemble, hv],
        allOf_ok _ (Listed gs)]
      · simp [hl, h0, hone]
      · intro n hn
        simp at hn
        subst hn
        exact observesName_plain gs fuel _ (by simp [Symbolic.one])
    · rw [show Symbolic.assemble 1 vars = vars by simp [Symbolic.assemble, hv],
        allOf_ok _ (Listed gs)]
      · congr 1
        rw [decide_eq_decide]
        constructor
        · intro h
          right
          constructor
          · obtain ⟨u, hu⟩ := List.exists_mem_of_ne_nil _ hv
            exact ⟨u.base, by rw [← hexp u hu]; exact (hc.1 u hu).2.2.2⟩
          · intro n hn
            have hvn := validName_of_netExp t n hok hn
            obtain ⟨u, hu, rfl⟩ := hall n (validName_ne_one hvn) hn
            rw [observesName_plain gs fuel _ (validName_chars hvn)]
            simp [h _ (List.mem_map_of_mem hu)]
        · rintro (h | ⟨-, h⟩)
          · exact absurd h hl
          · intro n hn
            obtain ⟨u, hu, rfl⟩ := List.mem_map.1 hn
            have := h u.base (by rw [← hexp u hu]; exact (hc.1 u hu).2.2.2)
            rw [observesName_plain gs fuel _ (validName_chars (hbase u hu))] at this
            injection this with this
            exact of_decide_eq_true this
      · intro n hn
        obtain ⟨u, hu, rfl⟩ := List.mem_map.1 hn
        exact observesName_plain gs fuel _ (validName_chars (hbase u hu))
  · intro ns
    cases ns <;> rfl

/-- Some of the names that the EPREM observers list. -/
def someNames : List (List Str) :=
  [[c!"mfp", c!"mean free path", c!"mean_free_path"], [c!"Vr", c!"V"], [c!"r", c!"radius"]]

/-- C60: where the claim fails. In order: the names of a quotient are both observable but the
quotient is not (they cancel); a quotient with an unobservable name is observable (it cancels);
an observable name with blanks cannot be used in a composition; names separated by a blank; a
multiple; a collection whose second name is observable. -/
theorem c60_counterexample :
    (observesName someNames 9 c!"mfp" = .ok true ∧ observesName someNames 9 c!"mfp / mfp" = .ok false)
    ∧ (observesName someNames 9 c!"x" = .ok false
      ∧ observesName someNames 9 c!"Vr * x / x" = .ok true)
    ∧ (observesName someNames 9 c!"mean free path" = .ok true
      ∧ observesName someNames 9 c!"mfp / Vr" = .ok true
      ∧ observesName someNames 9 c!"mean free path / Vr" = .ok false)
    ∧ observesName someNames 9 c!"mfp Vr" = .ok false
    ∧ observesName someNames 9 c!"2 * Vr" = .ok false
    ∧ (observesAny someNames 9 [c!"x", c!"Vr"] = .ok false
      ∧ observesAny someNames 9 [c!"Vr", c!"x"] = .ok true) := by
  decide +kernel

/-- The premises of `c60_partial` hold of `mfp / Vr`. -/
def mfpOverVr : Symbolic.Tree := .bin .slash (.var c!"mfp" 1) (.var c!"Vr" 1)

/-- `Vr^2 / mfp`. -/
def vrSquaredOverMfp : Symbolic.Tree := .bin .slash (.var c!"Vr" 2) (.var c!"mfp" 1)

theorem valid_mfp : Symbolic.ValidName c!"mfp" :=
  ⟨c!"mfp", [], by simp, by simp, by decide, by simp, by decide⟩

theorem valid_Vr : Symbolic.ValidName c!"Vr" :=
  ⟨c!"Vr", [], by simp, by simp, by decide, by simp, by decide⟩

theorem mfpOverVr_ok : mfpOverVr.Ok ∧ mfpOverVr.Exact 1 ∧ NoNumbers mfpOverVr :=
  ⟨⟨⟨valid_mfp, by constructor <;> decide +kernel⟩, ⟨valid_Vr, by constructor <;> decide +kernel⟩, trivial⟩,
    ⟨trivial, trivial⟩, ⟨trivial, trivial⟩⟩

theorem vrSquaredOverMfp_ok :
    vrSquaredOverMfp.Ok ∧ vrSquaredOverMfp.Exact 1 ∧ NoNumbers vrSquaredOverMfp :=
  ⟨⟨⟨valid_Vr, by constructor <;> decide +kernel⟩, ⟨valid_mfp, by constructor <;> decide +kernel⟩, trivial⟩,
    ⟨trivial, trivial⟩, ⟨trivial, trivial⟩⟩

example : '/' ∈ mfpOverVr.render ∧ netExp mfpOverVr c!"mfp" = 1 ∧ netExp mfpOverVr c!"Vr" = -1
    ∧ (Aliased.find someNames Symbolic.one).isSome = false := by decide +kernel

/-! ## C101, C104 -/

section
variable {A : Type} [AddCommGroup A] [Module ℚ A]

/-- The sum over terms. -/
def termSum (f : Str → A) (ts : List Symbolic.Term) : A := (ts.map (fun u => u.exp • f u.base)).sum

theorem termSum_eq (f : Str → A) (ts : List Symbolic.Term) (s : Finset Str)
    (h : ∀ u ∈ ts, u.base ∈ s) :
    termSum f ts = ∑ b ∈ s, Symbolic.totalExp ts b • f b := by
  induction ts with
  | nil => simp [termSum]
  | cons u us ih =>
    have h1 := ih (fun w hw => h w (List.mem_cons_of_mem _ hw))
    have h2 := h u (List.mem_cons_self ..)
    simp only [Symbolic.totalExp_cons, add_smul, Finset.sum_add_distrib, ← h1, ite_smul, zero_smul,
      Finset.sum_ite_eq, h2, if_true]
    simp [termSum]

theorem termSum_congr (f : Str → A) (hf : f Symbolic.one = 0) (ts us : List Symbolic.Term)
    (h : ∀ b, b ≠ Symbolic.one → Symbolic.totalExp ts b = Symbolic.totalExp us b) :
    termSum f ts = termSum f us := by
  rw [termSum_eq f ts ((ts ++ us).map (·.base)).toFinset (by
      intro u hu; simp only [List.mem_toFinset, List.mem_map, List.mem_append]
      exact ⟨u, Or.inl hu, rfl⟩),
    termSum_eq f us ((ts ++ us).map (·.base)).toFinset (by
      intro u hu; simp only [List.mem_toFinset, List.mem_map, List.mem_append]
      exact ⟨u, Or.inr hu, rfl⟩)]
  refine Finset.sum_congr rfl (fun b _ => ?_)
  by_cases hb : b = Symbolic.one
  · rw [hb, hf, smul_zero, smul_zero]
  · rw [h b hb]

theorem termSum_append (f : Str → A) (ts us : List Symbolic.Term) :
    termSum f (ts ++ us) = termSum f ts + termSum f us := by simp [termSum]

theorem composed_bin (f : Str → A) (o : Symbolic.Sep) (a b : Symbolic.Tree) (q : ℚ) :
    q • composed f (.bin o a b) = q • composed f a + o.sign q • composed f b := by
  cases o <;> simp [composed, Symbolic.Sep.sign, smul_add, smul_sub, sub_eq_add_neg]

theorem termSum_termsOf (f : Str → A) (hf : f Symbolic.one = 0) : ∀ (t : Symbolic.Tree) (q : ℚ),
    termSum f (Symbolic.termsOf t q) = q • composed f t := by
  intro t
  induction t with
  | num c => intro q; simp [termSum, Symbolic.termsOf, hf, composed]
  | var n x => intro q; simp [termSum, Symbolic.termsOf, composed, smul_smul, mul_comm]
  | group t x ih =>
    intro q
    rw [Symbolic.termsOf, termSum_append, ih]
    simp [termSum, hf, composed, smul_smul, mul_comm]
  | bin o a b iha ihb =>
    intro q
    rw [Symbolic.termsOf, termSum_append, iha, ihb, composed_bin]

theorem foldMeta_ok (attr : Str → Option A) (f : Str → A) :
    ∀ (ts : List Symbolic.Term) (a : A), (∀ u ∈ ts, attr u.base = some (f u.base)) →
      foldMeta attr ts a = some (a + termSum f ts) := by
  intro ts
  induction ts with
  | nil => intro a _; simp [foldMeta, termSum]
  | cons u us ih =>
    intro a h
    rw [foldMeta, h u (List.mem_cons_self ..)]
    show foldMeta attr us (a + u.exp • f u.base) = _
    rw [ih _ (fun w hw => h w (List.mem_cons_of_mem _ hw))]
    simp [termSum, add_assoc]

/-- The terms of a composition, with their sum. -/
theorem terms_sum (f : Str → A) {t : Symbolic.Tree} (hok : t.Ok) (he : t.Exact 1)
    (hnn : NoNumbers t) (hne : ∃ n, netExp t n ≠ 0) :
    ∃ u us, Symbolic.ofString t.render = .ok (u :: us)
      ∧ (∀ w ∈ u :: us, Symbolic.ValidName w.base ∧ w.exp = netExp t w.base ∧ w.exp ≠ 0)
      ∧ (∀ n, netExp t n ≤ u.exp ∨ netExp t n = 0)
      ∧ u.exp • f u.base + termSum f us = composed f t := by
  obtain ⟨vars, hs, hc, hexp, hall, htot⟩ := ofString_terms hok he hnn
  have hv : vars ≠ [] := by
    obtain ⟨n, hn⟩ := hne
    obtain ⟨u, hu, -⟩ := hall n (validName_ne_one (validName_of_netExp t n hok hn)) hn
    intro e; simp [e] at hu
  rw [show Symbolic.assemble 1 vars = vars by simp [Symbolic.assemble, hv]] at hs
  cases vars with
  | nil => exact absurd rfl hv
  | cons u us =>
    refine ⟨u, us, hs, ?_, ?_, ?_⟩
    · intro w hw
      have h0 := (hc.1 w hw).2.2.2
      exact ⟨validName_of_netExp t _ hok (by rw [← hexp w hw]; exact h0), hexp w hw, h0⟩
    · intro n
      by_cases hn : netExp t n = 0
      · exact Or.inr hn
      left
      obtain ⟨w, hw, rfl⟩ := hall n (validName_ne_one (validName_of_netExp t n hok hn)) hn
      rw [← hexp w hw]
      rcases List.mem_cons.1 hw with rfl | hw
      · exact le_refl _
      · rcases (List.pairwise_cons.1 hc.2.2).1 w hw with h | h
        · exact le_of_lt h
        · exact le_of_eq h.1.symm
    · let g : Str → A := fun n => if n = Symbolic.one then 0 else f n
      have hg : g Symbolic.one = 0 := by simp [g]
      have h1 : termSum g (u :: us) = termSum f (u :: us) := by
        unfold termSum
        congr 1
        refine List.map_congr_left (fun w hw => ?_)
        simp [g, (hc.1 w hw).2.1]
      have h2 : composed g t = composed f t := by
        clear hs hc hexp hall htot hne he h1
        induction t with
        | num c => rfl
        | var n x => simp [composed, g, validName_ne_one hok.1]
        | group t x ih => simp [composed, ih hok.1 hnn]
        | bin o a b iha ihb =>
          cases o <;> simp [composed, iha hok.1 hnn.1, ihb hok.2.1 hnn.2]
      have h3 := termSum_congr g hg _ _ htot
      rw [termSum_termsOf g hg, one_smul, h1, h2] at h3
      rw [← h3]
      simp [termSum]

/-- C104. Observing a composition of names that can each be observed, without numbers and not all of
them cancelling, gives the composition of the observed quantities. -/
theorem c104_composition_partial (quantity : Str → Option A) (f : Str → A) (t : Symbolic.Tree)
    (hok : t.Ok) (he : t.Exact 1) (hnn : NoNumbers t) (hne : ∃ n, netExp t n ≠ 0)
    (hq : ∀ n, netExp t n ≠ 0 → quantity n = some (f n)) :
    build quantity t.render = .ok (some (composed f t)) := by
  obtain ⟨u, us, hs, hall, -, hsum⟩ := terms_sum f hok he hnn hne
  have hq' : ∀ w ∈ u :: us, quantity w.base = some (f w.base) := fun w hw =>
    hq _ (by rw [← (hall w hw).2.1]; exact (hall w hw).2.2)
  unfold build
  rw [hs]
  show (match quantity u.base with
    | none => _
    | some a => _) = _
  rw [hq' u (List.mem_cons_self ..)]
  show (match foldMeta quantity us (u.exp • f u.base) with
    | some b => _
    | none => _) = _
  rw [foldMeta_ok quantity f us _ (fun w hw => hq' w (List.mem_cons_of_mem _ hw)), hsum]

/-- C101, partial. The unit of a composition of names (no numbers, not all cancelling, all with known
units) that does not itself have one is the composition of their units if the largest exponent with
which a name enters is 1; in general it is so exactly if that exponent is 1 or the first name with
that exponent is dimensionless.

Missing: all other compositions, for which the unit is wrong (`c101_counterexample`). -/
theorem c101_partial (attr : Str → Option A) (f : Str → A) (t : Symbolic.Tree)
    (hok : t.Ok) (he : t.Exact 1) (hnn : NoNumbers t)
    (hq : ∀ n, netExp t n ≠ 0 → attr n = some (f n)) (hself : attr t.render = none) :
    ((∃ n, netExp t n = 1) → (∀ n, netExp t n ≤ 1) →
      getMetadata attr t.render = .ok (some (composed f t)))
    ∧ ((∃ n, netExp t n ≠ 0) → ∃ n, netExp t n ≠ 0 ∧ (∀ m, netExp t m ≤ netExp t n ∨ netExp t m = 0)
        ∧ getMetadata attr t.render = .ok (some (composed f t - (netExp t n - 1) • f n))
        ∧ (getMetadata attr t.render = .ok (some (composed f t))
            ↔ netExp t n = 1 ∨ f n = 0)) := by
  have main : (∃ n, netExp t n ≠ 0) → ∃ n, netExp t n ≠ 0
      ∧ (∀ m, netExp t m ≤ netExp t n ∨ netExp t m = 0)
      ∧ getMetadata attr t.render = .ok (some (composed f t - (netExp t n - 1) • f n)) := by
    intro hne
    obtain ⟨u, us, hs, hall, hmax, hsum⟩ := terms_sum f hok he hnn hne
    have hu := hall u (List.mem_cons_self ..)
    have hq' : ∀ w ∈ u :: us, attr w.base = some (f w.base) := fun w hw =>
      hq _ (by rw [← (hall w hw).2.1]; exact (hall w hw).2.2)
    refine ⟨u.base, by rw [← hu.2.1]; exact hu.2.2, by rw [← hu.2.1]; exact hmax, ?_⟩
    unfold getMetadata
    rw [hself]
    show (match Symbolic.ofString t.render with
      | .error e => _
      | .ok [] => _
      | .ok (t :: ts) => _) = _
    rw [hs]
    show (match attr u.base with
      | none => _
      | some a => _) = _
    rw [hq' u (List.mem_cons_self ..)]
    show (match foldMeta attr us (f u.base) with
      | some b => _
      | none => _) = _
    rw [foldMeta_ok attr f us _ (fun w hw => hq' w (List.mem_cons_of_mem _ hw)), ← hsum, ← hu.2.1]
    refine congrArg (fun a => Except.ok (some a)) ?_
    rw [sub_smul, one_smul]
    abel
  constructor
  · rintro ⟨n, hn⟩ hle
    obtain ⟨m, hm, hmax, hr⟩ := main ⟨n, by rw [hn]; exact one_ne_zero⟩
    have : netExp t m = 1 := by
      refine le_antisymm (hle m) ?_
      rcases hmax n with h | h
      · rw [← hn]; exact h
      · rw [hn] at h; exact absurd h one_ne_zero
    rw [hr, this]
    simp
  · intro hne
    obtain ⟨m, hm, hmax, hr⟩ := main hne
    refine ⟨m, hm, hmax, hr, ?_⟩
    rw [hr]
    constructor
    · intro h
      injection h with h
      injection h with h
      have h' : (netExp t m - 1) • f m = 0 := by
        simpa using h
      rcases smul_eq_zero.1 h' with h'' | h''
      · exact Or.inl (sub_eq_zero.1 h'')
      · exact Or.inr h''
    · rintro (h | h) <;> simp [h]

end

/-- Exponents of length and time: `Vr` is a velocity and `mfp` a length. -/
def someUnits (n : Str) : Option (ℚ × ℚ) :=
  if n = c!"Vr" then some (1, -1) else if n = c!"mfp" then some (1, 0) else none

/-- C101: the unit of `Vr^2 / mfp` comes out as that of `Vr / mfp`. -/
theorem c101_counterexample :
    getMetadata someUnits c!"Vr^2 / mfp" = .ok (some (0, -1))
    ∧ getMetadata someUnits c!"Vr * Vr / mfp" = .ok (some (0, -1))
    ∧ build someUnits c!"Vr^2 / mfp" = .ok (some (1, -2)) := by
  decide +kernel

example : getMetadata someUnits mfpOverVr.render = .ok (some (0, 1))
    ∧ netExp mfpOverVr c!"mfp" = 1
    ∧ composed (fun n => (someUnits n).getD 0) mfpOverVr = (0, 1)
    ∧ composed (fun n => (someUnits n).getD 0) vrSquaredOverMfp = (1, -2)
    ∧ someUnits mfpOverVr.render = none := by
  decide +kernel

/-- C104: multiples of an observable quantity cannot be observed, although the expression has a
value. -/
theorem c104_counterexample :
    build someUnits c!"2 * Vr" = .error .typeError ∧ build someUnits c!"Vr / Vr" = .ok none
      ∧ build someUnits c!"Vr" = .ok (some (1, -1)) := by
  decide +kernel

end Verif.Observing
