import Verif.Metric.Convert
import Mathlib.Algebra.Field.Basic
import Mathlib.Algebra.GroupWithZero.Basic
import Mathlib.Logic.Relation
import Mathlib.Tactic.Ring
import Mathlib.Tactic.FieldSimp
import Mathlib.Data.List.Dedup

/-!
# Specification of, and lemmas on, the conversion search
-/

set_option linter.unusedSimpArgs false
set_option linter.unusedSectionVars false

namespace Verif.Metric

open Verif.Py

section
variable {U B K : Type _} [DecidableEq U] [DecidableEq B] [DecidableEq K] [Field K]

/-! ## Specification -/

/-- One step of a conversion: a declared conversion, the inverse of one, two ways to write the same
named unit, or a change of metric prefix. -/
inductive Step (base : List ((U × U) × K)) (named : U → Option (Named U B K)) : U → U → K → Prop where
  | declared {u v w} : ((u, v), w) ∈ base → Step base named u v w
  | inverse {u v w} : ((u, v), w) ∈ base → w ≠ 0 → Step base named v u w⁻¹
  | other {u n x} : named u = some n → x = n.symbol ∨ x = n.name → Step base named u x 1
  | unother {u n x} : named u = some n → x = n.symbol ∨ x = n.name → Step base named x u 1
  | rescale {u v m n} : named u = some m → named v = some n → m.base = n.base →
      Step base named u v (m.scale / n.scale)

/-- A chain of steps, with the product of its factors. -/
inductive Chain (base : List ((U × U) × K)) (named : U → Option (Named U B K)) : U → U → K → Prop where
  | nil {u} : Chain base named u u 1
  | cons {u v t w f} : Step base named u v w → Chain base named v t f → Chain base named u t (w * f)

/-- Two units are joined by a declared conversion, in either direction. -/
def Declared (base : List ((U × U) × K)) (u v : U) : Prop :=
  ∃ w, ((u, v), w) ∈ base ∨ ((v, u), w) ∈ base

/-! ## Chains -/

variable {base : List ((U × U) × K)} {named : U → Option (Named U B K)}

theorem Chain.single {u v w} (h : Step base named u v w) : Chain base named u v w := by
  have := Chain.cons h Chain.nil
  rwa [mul_one] at this

theorem Chain.trans {u v t : U} {f g : K} (h : Chain base named u v f) (h' : Chain base named v t g) :
    Chain base named u t (f * g) := by
  induction h with
  | nil => rwa [one_mul]
  | cons s _ ih => rw [mul_assoc]; exact Chain.cons s (ih h')

theorem Step.inv {u v : U} {w : K} (h : Step base named u v w) (hw : w ≠ 0) :
    Step base named v u w⁻¹ := by
  cases h with
  | declared h => exact Step.inverse h hw
  | inverse h _ => rw [inv_inv]; exact Step.declared h
  | other h hx => rw [inv_one]; exact Step.unother h hx
  | unother h hx => rw [inv_one]; exact Step.other h hx
  | rescale h h' hb => rw [inv_div]; exact Step.rescale h' h hb.symm

theorem Chain.inv {u v : U} {f : K} (h : Chain base named u v f) (hf : f ≠ 0) :
    Chain base named v u f⁻¹ := by
  induction h with
  | nil => rw [inv_one]; exact Chain.nil
  | @cons u v t w f s _ ih =>
    have hw : w ≠ 0 := fun h => hf (by rw [h, zero_mul])
    have hf' : f ≠ 0 := fun h => hf (by rw [h, mul_zero])
    rw [mul_inv, mul_comm]
    exact (ih hf').trans (Chain.single (s.inv hw))

/-! ## The graph -/

theorem mem_dict_set {κ ν : Type _} [DecidableEq κ] {d : Dict κ ν} {k : κ} {v : ν} {p : κ × ν}
    (h : p ∈ d.set k v) : p = (k, v) ∨ p ∈ d := by
  induction d with
  | nil => simp [Dict.set] at h; exact Or.inl h
  | cons q d ih =>
    obtain ⟨a, b⟩ := q
    simp only [Dict.set] at h
    split at h
    · next hk =>
      rcases List.mem_cons.1 h with h | h
      · left; rw [h, hk]
      · exact Or.inr (List.mem_cons_of_mem _ h)
    · rcases List.mem_cons.1 h with h | h
      · exact Or.inr (by rw [h]; simp)
      · rcases ih h with h | h
        · exact Or.inl h
        · exact Or.inr (List.mem_cons_of_mem _ h)

/-- The weight of the reverse direction. -/
def recip (w : K) : K := if w = 0 then w else 1 / w

theorem mem_addConn {c : Dict (U × U) K} {s t : U} {w : K} {p : (U × U) × K}
    (h : p ∈ addConn c s t w) : p ∈ c ∨ p = ((s, t), w) ∨ p = ((t, s), recip w) := by
  have key : ∀ (c : Dict (U × U) K) (e : U × U) (v : K),
      p ∈ (if c.has e then c else c.set e v) → p ∈ c ∨ p = (e, v) := by
    intro c e v h
    split at h
    · exact Or.inl h
    · exact (mem_dict_set h).symm
  unfold addConn at h
  rcases key _ _ _ h with h | h
  · rcases key _ _ _ h with h | h
    · exact Or.inl h
    · exact Or.inr (Or.inl h)
  · exact Or.inr (Or.inr h)

theorem mem_foldl_addConn (base : List ((U × U) × K)) (c : Dict (U × U) K) {p : (U × U) × K}
    (h : p ∈ base.foldl (fun c p => addConn c p.1.1 p.1.2 p.2) c) :
    p ∈ c ∨ p ∈ base ∨ ∃ s t w, ((s, t), w) ∈ base ∧ p = ((t, s), recip w) := by
  induction base generalizing c with
  | nil => exact Or.inl h
  | cons q base ih =>
    rw [List.foldl_cons] at h
    rcases ih _ h with h | h | ⟨s, t, w, h, hp⟩
    · rcases mem_addConn h with h | h | h
      · exact Or.inl h
      · exact Or.inr (Or.inl (by rw [h]; simp))
      · exact Or.inr (Or.inr ⟨q.1.1, q.1.2, q.2, by simp, h⟩)
    · exact Or.inr (Or.inl (List.mem_cons_of_mem _ h))
    · exact Or.inr (Or.inr ⟨s, t, w, List.mem_cons_of_mem _ h, hp⟩)

theorem mem_mkConns {p : (U × U) × K} (h : p ∈ mkConns base) :
    p ∈ base ∨ ∃ s t w, ((s, t), w) ∈ base ∧ p = ((t, s), recip w) := by
  rcases mem_foldl_addConn base [] h with h | h
  · cases h
  · exact h

theorem has_addConn (c : Dict (U × U) K) (s t : U) (w : K) :
    (s, t) ∈ (addConn c s t w).keys ∧ (t, s) ∈ (addConn c s t w).keys ∧
    ∀ e ∈ c.keys, e ∈ (addConn c s t w).keys := by
  have key : ∀ (c : Dict (U × U) K) (e : U × U) (v : K),
      e ∈ Dict.keys (if c.has e then c else c.set e v) ∧
      ∀ e' ∈ c.keys, e' ∈ Dict.keys (if c.has e then c else c.set e v) := by
    intro c e v
    split
    · next h => exact ⟨(Dict.has_iff_mem_keys _ _).1 h, fun _ h => h⟩
    · exact ⟨(Dict.mem_keys_set _ _ _ _).2 (by simp), fun e' h => (Dict.mem_keys_set _ _ _ _).2 (by simp [h])⟩
  unfold addConn
  have h1 := key c (s, t) w
  have h2 := key (if c.has (s, t) then c else c.set (s, t) w) (t, s) (if w = 0 then w else 1 / w)
  exact ⟨h2.2 _ h1.1, h2.1, fun e he => h2.2 _ (h1.2 _ he)⟩

theorem keys_mkConns {u v : U} {w : K} (h : ((u, v), w) ∈ base) :
    (u, v) ∈ (mkConns base).keys ∧ (v, u) ∈ (mkConns base).keys := by
  unfold mkConns
  have mono : ∀ (base : List ((U × U) × K)) (c : Dict (U × U) K) e, e ∈ c.keys →
      e ∈ Dict.keys (base.foldl (fun c p => addConn c p.1.1 p.1.2 p.2) c) := by
    intro base
    induction base with
    | nil => exact fun c e h => h
    | cons q base ih => exact fun c e h => ih _ _ ((has_addConn c _ _ _).2.2 e h)
  generalize hc : ([] : Dict (U × U) K) = c
  clear hc
  induction base generalizing c with
  | nil => cases h
  | cons q base ih =>
    rw [List.foldl_cons]
    rcases List.mem_cons.1 h with h | h
    · subst h
      exact ⟨mono _ _ _ (has_addConn c _ _ _).1, mono _ _ _ (has_addConn c _ _ _).2.1⟩
    · exact ih h _

/-! ## Soundness -/

theorem truthy_some {o : Option K} {f : K} (h : truthy o = some f) : o = some f ∧ f ≠ 0 := by
  unfold truthy at h
  rw [Option.filter_eq_some_iff] at h
  simpa using h

theorem truthy_none {o : Option K} (h : truthy o = none) {f : K} (hf : o = some f) : f = 0 := by
  unfold truthy at h
  subst hf
  simpa [Option.filter] using h

variable (e : Env U B K)

theorem chain_conns (hc : e.conns = mkConns base) {u v : U} {w : K} (h : ((u, v), w) ∈ e.conns)
    (hw : w ≠ 0) : Step base e.named u v w := by
  rw [hc] at h
  rcases mem_mkConns h with h | ⟨s, t, x, h', hp⟩
  · exact Step.declared h
  · injection hp with h1 h2
    injection h1 with h3 h4
    subst h3 h4 h2
    unfold recip at hw ⊢
    split
    · next h0 => simp [h0] at hw
    · next h0 => rw [one_div]; exact Step.inverse h' h0

theorem chain_alias {u x : U} (h : x ∈ getAliasesOf e u) :
    Chain base e.named u x 1 ∧ Chain base e.named x u 1 := by
  unfold getAliasesOf at h
  split at h
  · next n hn =>
    simp only [List.mem_cons, List.not_mem_nil, or_false] at h
    rcases h with h | h
    · subst h; exact ⟨Chain.nil, Chain.nil⟩
    · exact ⟨Chain.single (Step.other hn h), Chain.single (Step.unother hn h)⟩
  · simp only [List.mem_singleton] at h
    subst h; exact ⟨Chain.nil, Chain.nil⟩

theorem chain_search (hc : e.conns = mkConns base) {u0 u1 : U} {w : K}
    (h : search e u0 u1 = some w) (hw : w ≠ 0) : Chain base e.named u0 u1 w := by
  unfold search at h
  split at h
  · next w' hw' =>
    injection h with h; subst h
    exact Chain.single (chain_conns e hc (Dict.mem_of_get? hw') hw)
  · obtain ⟨ux, hx, h⟩ := List.exists_of_findSome?_eq_some h
    obtain ⟨uy, hy, h⟩ := List.exists_of_findSome?_eq_some h
    have := ((chain_alias (base := base) e hx).1.trans
      (Chain.single (chain_conns e hc (Dict.mem_of_get? h) hw))).trans
      (chain_alias (base := base) e hy).2
    rwa [one_mul, mul_one] at this

theorem chain_ratio {u0 u1 : U} {w : K} (h : ratio? e u0 u1 = some w) :
    Chain base e.named u0 u1 w := by
  unfold ratio? at h
  split at h
  · next n0 n1 h0 h1 =>
    split at h
    · next hb =>
      injection h with h; subst h
      exact Chain.single (Step.rescale h0 h1 hb.symm)
    · cases h
  · cases h

theorem chain_simple (hc : e.conns = mkConns base) {u0 u1 : U} {w : K}
    (h : simple e u0 u1 = some w) : Chain base e.named u0 u1 w := by
  unfold simple at h
  split at h
  · next h0 => subst h0; injection h with h; subst h; exact Chain.nil
  · split at h
    · next w' hw' =>
      injection h with h; subst h
      obtain ⟨h1, h2⟩ := truthy_some hw'
      exact chain_search e hc h1 h2
    · exact chain_ratio e h

theorem chain_rescale (hc : e.conns = mkConns base) {u0 u1 : U} {w : K}
    (h : rescale e u0 u1 = some w) : Chain base e.named u0 u1 w := by
  unfold rescale at h
  split at h
  · cases h
  · obtain ⟨ux, _, h⟩ := List.exists_of_findSome?_eq_some h
    unfold rescaleVia at h
    split at h
    · next r hr =>
      rw [Option.map_eq_some_iff] at h
      obtain ⟨f, hf, rfl⟩ := h
      obtain ⟨h1, h2⟩ := truthy_some hf
      exact (chain_ratio e hr).trans (chain_search e hc h1 h2)
    · cases h

theorem chain_rescaled (hc : e.conns = mkConns base) {u0 u1 : U} {w : K}
    (h : rescaled e u0 u1 = some w) : Chain base e.named u0 u1 w := by
  unfold rescaled at h
  split at h
  · next f hf =>
    injection h with h; subst h
    split at hf
    · exact chain_rescale e hc (truthy_some hf).1
    · cases hf
  · split at h
    · next f hf =>
      injection h with h; subst h
      split at hf
      · obtain ⟨h1, h2⟩ := truthy_some hf
        rw [one_div]
        exact (chain_rescale e hc h1).inv h2
      · cases hf
    · cases h

theorem chain_direct (hc : e.conns = mkConns base) {u0 u1 : U} {w : K}
    (h : direct e u0 u1 = some w) : Chain base e.named u0 u1 w ∧ w ≠ 0 := by
  unfold direct at h
  split at h
  · next f hf =>
    injection h with h; subst h
    exact ⟨chain_simple e hc (truthy_some hf).1, (truthy_some hf).2⟩
  · exact ⟨chain_rescaled e hc (truthy_some h).1, (truthy_some h).2⟩

theorem mem_adjacencies {u v : U} {w : K} : (v, w) ∈ adjacencies e u ↔ ((u, v), w) ∈ e.conns := by
  unfold adjacencies
  simp only [List.mem_map, List.mem_filter, decide_eq_true_eq, Prod.mk.injEq]
  constructor
  · rintro ⟨⟨⟨a, b⟩, c⟩, ⟨h, rfl⟩, rfl, rfl⟩; exact h
  · intro h; exact ⟨_, ⟨h, rfl⟩, rfl, rfl⟩

theorem convert_sound (hc : e.conns = mkConns base) (fuel : Nat) :
    ∀ checked u0 u1 f c, convert e fuel checked u0 u1 = some (some f, c) →
      Chain base e.named u0 u1 f ∧ f ≠ 0 := by
  induction fuel with
  | zero => intro checked u0 u1 f c h; simp [convert] at h
  | succ fuel ih =>
    intro checked u0 u1 f c h
    rw [convert] at h
    split at h
    · next g hg =>
      simp only [Option.some.injEq, Prod.mk.injEq] at h
      obtain ⟨rfl, _⟩ := h
      exact chain_direct e hc hg
    · have hadj : ∀ p ∈ adjacencies e u0, ((u0, p.1), p.2) ∈ e.conns := fun p hp =>
        (mem_adjacencies e).1 hp
      generalize checked ++ [u0] = ch at h
      generalize adjacencies e u0 = adj at h hadj
      induction adj generalizing ch with
      | nil => simp [explore] at h
      | cons p adj ih2 =>
        obtain ⟨unit, weight⟩ := p
        rw [explore] at h
        split at h
        · exact ih2 _ h (fun p hp => hadj p (List.mem_cons_of_mem _ hp))
        · split at h
          · cases h
          · next value c' hv =>
            simp only [Option.some.injEq, Prod.mk.injEq] at h
            obtain ⟨h1, h2⟩ := truthy_some h.1
            injection h1 with h1
            subst h1
            have hw : weight ≠ 0 := fun h0 => h2 (by rw [h0, zero_mul])
            exact ⟨Chain.cons (chain_conns e hc (hadj (unit, weight) (by simp)) hw) (ih _ _ _ _ _ hv).1, h2⟩
          · exact ih2 _ h (fun p hp => hadj p (List.mem_cons_of_mem _ hp))

/-! ## Termination -/

/-- The number of declared conversions whose end is not checked. -/
def pending (checked : List U) : Nat := e.conns.countP (fun p => p.1.2 ∉ checked)

theorem pending_mono {c c' : List U} (h : ∀ u ∈ c, u ∈ c') : pending e c' ≤ pending e c := by
  unfold pending
  apply List.countP_mono_left
  intro p _ hp
  simp only [decide_eq_true_eq] at hp ⊢
  exact fun hm => hp (h _ hm)

theorem pending_lt {c : List U} {u v : U} {w : K} (h : ((u, v), w) ∈ e.conns) (hv : v ∉ c) :
    pending e (c ++ [v]) + 1 ≤ pending e c := by
  unfold pending
  obtain ⟨l, r, hlr⟩ := List.append_of_mem h
  rw [hlr, List.countP_append, List.countP_append, List.countP_cons, List.countP_cons]
  have hm : ∀ l : Dict (U × U) K, l.countP (fun p => p.1.2 ∉ c ++ [v]) ≤ l.countP (fun p => p.1.2 ∉ c) := by
    intro l
    apply List.countP_mono_left
    intro p _ hp
    simp only [decide_eq_true_eq, List.mem_append] at hp ⊢
    exact fun hm => hp (Or.inl hm)
  have h1 := hm l
  have h2 := hm r
  simp only [List.mem_append, List.mem_singleton, or_true, not_true_eq_false, decide_false,
    Bool.false_eq_true, if_false, hv, not_false_eq_true, decide_true, if_true]
  simp only [List.mem_append, List.mem_singleton] at h1 h2
  omega

theorem pending_lt_enough (c : List U) : pending e c + 1 ≤ enough e := by
  unfold pending enough
  have := List.countP_le_length (p := fun p : (U × U) × K => decide (p.1.2 ∉ c)) (l := e.conns)
  omega

theorem convert_total (u1 : U) (fuel : Nat) :
    ∀ checked u0, pending e (checked ++ [u0]) + 1 ≤ fuel →
      ∃ o c, convert e fuel checked u0 u1 = some (o, c) ∧ ∀ u ∈ checked ++ [u0], u ∈ c := by
  induction fuel with
  | zero => intro checked u0 h; omega
  | succ fuel ih =>
    intro checked u0 h
    rw [convert]
    split
    · exact ⟨_, _, rfl, fun u h => h⟩
    · have hadj : ∀ p ∈ adjacencies e u0, ((u0, p.1), p.2) ∈ e.conns := fun p hp =>
        (mem_adjacencies e).1 hp
      have hf : pending e (checked ++ [u0]) ≤ fuel := by omega
      generalize checked ++ [u0] = ch at hf
      generalize adjacencies e u0 = adj at hadj
      induction adj generalizing ch with
      | nil => exact ⟨_, _, by rw [explore], fun u h => h⟩
      | cons p adj ih2 =>
        obtain ⟨unit, weight⟩ := p
        have hadj' : ∀ p ∈ adj, ((u0, p.1), p.2) ∈ e.conns := fun p hp =>
          hadj p (List.mem_cons_of_mem _ hp)
        rw [explore]
        split
        · exact ih2 _ hf hadj'
        · next hu =>
          have hlt := pending_lt e (c := ch) (v := unit) (hadj (unit, weight) (by simp)) hu
          obtain ⟨o, c, hc, hsub⟩ := ih ch unit (by omega)
          rw [hc]
          have hsub' : ∀ u ∈ ch, u ∈ c := fun u hu => hsub u (by simp [hu])
          cases o with
          | some v => exact ⟨_, _, rfl, hsub'⟩
          | none =>
            obtain ⟨o', c', h1, h2⟩ := ih2 c (le_trans (pending_mono e hsub') hf) hadj'
            exact ⟨o', c', h1, fun u hu => h2 u (hsub' u hu)⟩

/-- More fuel does not change the result. -/
theorem convert_fuel (u1 : U) (fuel : Nat) :
    ∀ checked u0 r, convert e fuel checked u0 u1 = some r →
      ∀ more, convert e (fuel + more) checked u0 u1 = some r := by
  induction fuel with
  | zero => intro checked u0 r h; simp [convert] at h
  | succ fuel ih =>
    intro checked u0 r h more
    rw [Nat.add_right_comm, convert]
    rw [convert] at h
    split at h
    · exact h
    · generalize checked ++ [u0] = ch at h
      generalize adjacencies e u0 = adj at h
      induction adj generalizing ch with
      | nil => rw [explore] at h ⊢; exact h
      | cons p adj ih2 =>
        obtain ⟨unit, weight⟩ := p
        rw [explore] at h ⊢
        split at h
        · next hu => rw [if_pos hu]; exact ih2 _ h
        · next hu =>
          rw [if_neg hu]
          split at h
          · cases h
          · next value c' hv => rw [ih _ _ _ hv]; exact h
          · next c' hv => rw [ih _ _ _ hv]; exact ih2 _ h

/-! ## Completeness -/

theorem recip_ne_zero {w : K} (h : w ≠ 0) : recip w ≠ 0 := by
  unfold recip
  rw [if_neg h, one_div]
  exact inv_ne_zero h

theorem conns_ne_zero (hc : e.conns = mkConns base) (hb : ∀ p ∈ base, p.2 ≠ 0) :
    ∀ p ∈ e.conns, p.2 ≠ 0 := by
  intro p hp
  rw [hc] at hp
  rcases mem_mkConns hp with h | ⟨s, t, w, h, rfl⟩
  · exact hb p h
  · exact recip_ne_zero (hb _ h)

/-- After a failed search every unit that it checked has been tried, and so have its neighbours. -/
def Exhausted (u1 : U) (old c : List U) : Prop :=
  ∀ v ∈ c, v ∉ old → direct e v u1 = none ∧ ∀ t w, ((v, t), w) ∈ e.conns → t ∈ c

theorem convert_none (hc : e.conns = mkConns base) (hb : ∀ p ∈ base, p.2 ≠ 0) (u1 : U) (fuel : Nat) :
    ∀ checked u0 c, convert e fuel checked u0 u1 = some (none, c) →
      (∀ u ∈ checked ++ [u0], u ∈ c) ∧ Exhausted e u1 checked c := by
  induction fuel with
  | zero => intro checked u0 c h; simp [convert] at h
  | succ fuel ih =>
    intro checked u0 c h
    rw [convert] at h
    split at h
    · simp at h
    · next hd =>
      have key : ∀ (adj : List (U × K)) (ch c : List U), (∀ p ∈ adj, ((u0, p.1), p.2) ∈ e.conns) →
          explore (fun c u => convert e fuel c u u1) adj ch = some (none, c) →
          (∀ u ∈ ch, u ∈ c) ∧ (∀ p ∈ adj, p.1 ∈ c) ∧ Exhausted e u1 ch c := by
        intro adj
        induction adj with
        | nil =>
          intro ch c _ h
          simp only [explore, Option.some.injEq, Prod.mk.injEq, true_and] at h
          subst h
          exact ⟨fun u h => h, (by simp), fun v hv hn => absurd hv hn⟩
        | cons p adj ih2 =>
          intro ch c hadj h
          obtain ⟨unit, weight⟩ := p
          have hadj' : ∀ p ∈ adj, ((u0, p.1), p.2) ∈ e.conns := fun p hp =>
            hadj p (List.mem_cons_of_mem _ hp)
          rw [explore] at h
          split at h
          · next hu =>
            obtain ⟨h1, h2, h3⟩ := ih2 _ _ hadj' h
            refine ⟨h1, ?_, h3⟩
            intro p hp
            rcases List.mem_cons.1 hp with rfl | hp
            · exact h1 _ hu
            · exact h2 _ hp
          · next hu =>
            split at h
            · cases h
            · next value c' hv =>
              exfalso
              simp only [Option.some.injEq, Prod.mk.injEq] at h
              have h0 := truthy_none h.1 rfl
              have hw := conns_ne_zero e hc hb _ (hadj (unit, weight) (by simp))
              have hv' := (convert_sound e hc _ _ _ _ _ _ hv).2
              rcases mul_eq_zero.1 h0 with h0 | h0
              · exact hw h0
              · exact hv' h0
            · next c' hv =>
              obtain ⟨h1, h2, h3⟩ := ih2 _ _ hadj' h
              obtain ⟨h4, h5⟩ := ih _ _ _ hv
              refine ⟨fun u hu => h1 u (h4 u (by simp [hu])), ?_, ?_⟩
              · intro p hp
                rcases List.mem_cons.1 hp with rfl | hp
                · exact h1 _ (h4 _ (by simp))
                · exact h2 _ hp
              · intro v hv hn
                by_cases hm : v ∈ c'
                · obtain ⟨h6, h7⟩ := h5 v hm hn
                  exact ⟨h6, fun t w ht => h1 _ (h7 t w ht)⟩
                · exact h3 v hv hm
      obtain ⟨h1, h2, h3⟩ := key _ _ _ (fun p hp => (mem_adjacencies e).1 hp) h
      refine ⟨h1, ?_⟩
      intro v hv hn
      by_cases h0 : v = u0
      · subst h0
        exact ⟨hd, fun t w ht => h2 (t, w) ((mem_adjacencies e).2 ht)⟩
      · exact h3 v hv (by simp [hn, h0])

theorem direct_self (u : U) : direct e u u = some 1 := by
  unfold direct simple truthy
  simp [Option.filter]

theorem declared_conns (hc : e.conns = mkConns base) {u v : U} (h : Declared base u v) :
    ∃ w, ((u, v), w) ∈ e.conns := by
  have : (u, v) ∈ e.conns.keys := by
    rw [hc]
    obtain ⟨w, h | h⟩ := h
    · exact (keys_mkConns h).1
    · exact (keys_mkConns h).2
  obtain ⟨⟨a, w⟩, h1, h2⟩ := List.mem_map.1 this
  simp only at h2
  subst h2
  exact ⟨w, h1⟩

end

end Verif.Metric
