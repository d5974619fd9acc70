import Mathlib.Tactic.Tauto
import Mathlib.Data.List.Induction
import Verif.Observing.Model

/-!
# Contexts: constraints, available names, and look-ups (C57, C58, C59, C100)
-/

set_option linter.unusedSimpArgs false
set_option linter.unusedSectionVars false

namespace Verif.Observing

open Verif.Py

/-! ## Specification -/

section
variable {Q V W I : Type}

/-- What the user last said about a name; the most recent event comes first.  A call of `constrain`
without `append` discards everything said before. -/
def lastSaid : List (Event V) → Str → Option V
  | [], _ => none
  | .constrain new append :: earlier, k =>
    match Dict.get? new.reverse k with
    | some v => some v
    | none => if append then lastSaid earlier k else none
  | _ :: earlier, k => lastSaid earlier k

/-- The constraint in force: what the user last said, otherwise the default. -/
def inForce (S : Setup Q V W I) (history : List (Event V)) (k : Str) : Option V :=
  (lastSaid history.reverse k).or (S.default.get? k)

/-- The outcome of an optional computation, as a look-up with default gives it. -/
def outcome {α : Type} : Option (Res α) → Res (Option α)
  | none => .ok none
  | some (.ok a) => .ok (some a)
  | some (.error e) => .error e

/-- The value that a name should have. -/
def valueOf (S : Setup Q V W I) (history : List (Event V)) (k : Str) : Res (Option W) :=
  outcome (((inForce S history k).or (S.constants.get? k)).map S.scalar)

/-- The index that an axis should have. -/
def indexOf (S : Setup Q V W I) (history : List (Event V)) (k : Str) : Res (Option I) :=
  outcome ((S.axes.get? k).map (fun index => index (inForce S history k)))

/-- A query of the names available in the context. -/
def Event.asksNames : Event V → Bool
  | .available => true
  | .keys => true
  | _ => false

/-- A change of the constraints. -/
def Event.isConstrain : Event V → Bool
  | .constrain _ _ => true
  | _ => false

/-- The group of aliases of a name. -/
def Together (S : Setup Q V W I) (k : Str) (g : List Str) : Prop :=
  g = (Aliased.find S.aliases k).getD [k]

/-- A name that should be available: an alias of something that a mapping contains, or an alias of a
constraint in force. -/
def ShouldBeAvailable (S : Setup Q V W I) (history : List (Event V)) (n : Str) : Prop :=
  ∃ k g, Together S k g ∧ n ∈ g
    ∧ ((∃ m ∈ S.mappings, k ∈ m.keys) ∨ (inForce S history k).isSome)

/-! ## The invariant -/

/-- The caches agree with the defaults and the user's constraints. -/
structure Ctx.Inv (S : Setup Q V W I) (c : Ctx V W I) : Prop where
  user : c.user.keys.Nodup
  cons : ∀ d, c.constraints = some d → d = S.default.update c.user
  vals : ∀ k w, c.values.get? k = some w → computeValue S (S.default.update c.user) k = some (.ok w)
  inds : ∀ k i, c.indices.get? k = some i → computeIndex S (S.default.update c.user) k = some (.ok i)
  obs : ∀ gs, c.observable = some gs → gs = collectAliases S (S.mappings.map Dict.keys).flatten

theorem Ctx.inv_new (S : Setup Q V W I) : (Ctx.new : Ctx V W I).Inv S := by
  constructor <;> simp [Ctx.new]

theorem Ctx.inv_constrain {S : Setup Q V W I} {c : Ctx V W I} (h : c.Inv S) (new append) :
    (c.constrain new append).Inv S := by
  constructor
  · unfold Ctx.constrain
    cases append
    · exact Dict.nodup_keys_ofPairs _
    · exact Dict.nodup_keys_update h.user _
  · simp [Ctx.constrain]
  · simp [Ctx.constrain]
  · simp [Ctx.constrain]
  · exact h.obs

theorem Ctx.getConstraints_fst {S : Setup Q V W I} {c : Ctx V W I} (h : c.Inv S) :
    (c.getConstraints S).1 = S.default.update c.user := by
  unfold Ctx.getConstraints
  cases hc : c.constraints with
  | none => rfl
  | some d => exact h.cons d hc

theorem Ctx.getConstraints_snd {S : Setup Q V W I} {c : Ctx V W I} (h : c.Inv S) :
    ((c.getConstraints S).2).Inv S ∧ ((c.getConstraints S).2).user = c.user
      ∧ ((c.getConstraints S).2).available = c.available
      ∧ ((c.getConstraints S).2).keys = c.keys := by
  unfold Ctx.getConstraints
  cases hc : c.constraints with
  | none => exact ⟨⟨h.user, by simp, h.vals, h.inds, h.obs⟩, rfl, rfl, rfl⟩
  | some d => exact ⟨h, rfl, rfl, rfl⟩

theorem Ctx.getObservable_fst {S : Setup Q V W I} {c : Ctx V W I} (h : c.Inv S) :
    (c.getObservable S).1 = collectAliases S (S.mappings.map Dict.keys).flatten := by
  unfold Ctx.getObservable
  cases hc : c.observable with
  | none => rfl
  | some d => exact h.obs d hc

theorem Ctx.getObservable_snd {S : Setup Q V W I} {c : Ctx V W I} (h : c.Inv S) :
    ((c.getObservable S).2).Inv S ∧ ((c.getObservable S).2).user = c.user
      ∧ ((c.getObservable S).2).available = c.available
      ∧ ((c.getObservable S).2).keys = c.keys := by
  unfold Ctx.getObservable
  cases hc : c.observable with
  | none => exact ⟨⟨h.user, h.cons, h.vals, h.inds, by simp⟩, rfl, rfl, rfl⟩
  | some d => exact ⟨h, rfl, rfl, rfl⟩

theorem Ctx.getAvailable_spec {S : Setup Q V W I} {c : Ctx V W I} (h : c.Inv S) :
    ((c.getAvailable S).2).Inv S ∧ ((c.getAvailable S).2).user = c.user
      ∧ ((c.getAvailable S).2).keys = c.keys
      ∧ ((c.getAvailable S).2).available = some (c.getAvailable S).1
      ∧ (c.getAvailable S).1 = c.available.getD
          (collectAliases S (S.mappings.map Dict.keys).flatten
            ++ collectAliases S (S.default.update c.user).keys) := by
  unfold Ctx.getAvailable
  cases hc : c.available with
  | some gs => exact ⟨h, rfl, rfl, hc, rfl⟩
  | none =>
    obtain ⟨a1, a2, a3, a4⟩ := Ctx.getConstraints_snd h
    obtain ⟨b1, b2, b3, b4⟩ := Ctx.getObservable_snd a1
    refine ⟨⟨b1.user, b1.cons, b1.vals, b1.inds, b1.obs⟩, b2.trans a2, b4.trans a4, rfl, ?_⟩
    show ((c.getConstraints S).2.getObservable S).1 ++ collectAliases S (c.getConstraints S).1.keys = _
    rw [Ctx.getObservable_fst a1, Ctx.getConstraints_fst h]
    rfl

theorem Ctx.getKeys_spec {S : Setup Q V W I} {c : Ctx V W I} (h : c.Inv S) :
    ((c.getKeys S).2).Inv S ∧ ((c.getKeys S).2).user = c.user
      ∧ ((c.getKeys S).2).keys = some (c.getKeys S).1
      ∧ (c.getKeys S).1 = c.keys.getD ((c.getAvailable S).1.flatten.dedup)
      ∧ ((c.getKeys S).2).available
        = if c.keys.isSome then c.available else some (c.getAvailable S).1 := by
  unfold Ctx.getKeys
  cases hc : c.keys with
  | some gs => exact ⟨h, rfl, hc, rfl, rfl⟩
  | none =>
    obtain ⟨a1, a2, a3, a4, a5⟩ := Ctx.getAvailable_spec h
    exact ⟨⟨a1.user, a1.cons, a1.vals, a1.inds, a1.obs⟩, a2, rfl, rfl, a4⟩

theorem Ctx.getQuantity_snd {S : Setup Q V W I} {c : Ctx V W I} (h : c.Inv S) (n) :
    ((c.getQuantity S n).2).Inv S ∧ ((c.getQuantity S n).2).user = c.user
      ∧ ((c.getQuantity S n).2).available = c.available
      ∧ ((c.getQuantity S n).2).keys = c.keys := by
  unfold Ctx.getQuantity
  cases firstEntry S.mappings n with
  | some q => exact ⟨h, rfl, rfl, rfl⟩
  | none => exact Ctx.getConstraints_snd h

theorem Ctx.getValue_spec {S : Setup Q V W I} {c : Ctx V W I} (h : c.Inv S) (k) :
    (c.getValue S k).1 = outcome (computeValue S (S.default.update c.user) k)
      ∧ ((c.getValue S k).2).Inv S ∧ ((c.getValue S k).2).user = c.user
      ∧ ((c.getValue S k).2).available = c.available
      ∧ ((c.getValue S k).2).keys = c.keys := by
  unfold Ctx.getValue
  cases hc : c.values.get? k with
  | some w => rw [h.vals k w hc]; exact ⟨rfl, h, rfl, rfl, rfl⟩
  | none =>
    obtain ⟨a1, a2, a3, a4⟩ := Ctx.getConstraints_snd h
    simp only [Ctx.getConstraints_fst h]
    cases hv : computeValue S (S.default.update c.user) k with
    | none => exact ⟨rfl, a1, a2, a3, a4⟩
    | some r =>
      cases r with
      | error e => exact ⟨rfl, a1, a2, a3, a4⟩
      | ok w =>
        refine ⟨rfl, ⟨a1.user, a1.cons, ?_, a1.inds, a1.obs⟩, a2, a3, a4⟩
        intro k' w' hk
        simp only [Dict.get?_set] at hk
        rw [a2]
        split at hk
        · next e => injection hk with hk; subst e; subst hk; exact hv
        · rw [← a2]; exact a1.vals k' w' hk

theorem Ctx.getIndex_spec {S : Setup Q V W I} {c : Ctx V W I} (h : c.Inv S) (k) :
    (c.getIndex S k).1 = outcome (computeIndex S (S.default.update c.user) k)
      ∧ ((c.getIndex S k).2).Inv S ∧ ((c.getIndex S k).2).user = c.user
      ∧ ((c.getIndex S k).2).available = c.available
      ∧ ((c.getIndex S k).2).keys = c.keys := by
  unfold Ctx.getIndex
  cases hc : c.indices.get? k with
  | some w => rw [h.inds k w hc]; exact ⟨rfl, h, rfl, rfl, rfl⟩
  | none =>
    obtain ⟨a1, a2, a3, a4⟩ := Ctx.getConstraints_snd h
    simp only [Ctx.getConstraints_fst h]
    cases hv : computeIndex S (S.default.update c.user) k with
    | none => exact ⟨rfl, a1, a2, a3, a4⟩
    | some r =>
      cases r with
      | error e => exact ⟨rfl, a1, a2, a3, a4⟩
      | ok w =>
        refine ⟨rfl, ⟨a1.user, a1.cons, a1.vals, ?_, a1.obs⟩, a2, a3, a4⟩
        intro k' w' hk
        simp only [Dict.get?_set] at hk
        rw [a2]
        split at hk
        · next e => injection hk with hk; subst e; subst hk; exact hv
        · rw [← a2]; exact a1.inds k' w' hk

theorem Ctx.step_inv {S : Setup Q V W I} {c : Ctx V W I} (h : c.Inv S) (e : Event V) :
    (c.step S e).Inv S := by
  cases e with
  | constrain new append => exact Ctx.inv_constrain h _ _
  | constraints => exact (Ctx.getConstraints_snd h).1
  | available => exact (Ctx.getAvailable_spec h).1
  | keys => exact (Ctx.getKeys_spec h).1
  | quantity n => exact (Ctx.getQuantity_snd h n).1
  | value k => exact (Ctx.getValue_spec h k).2.1
  | index k => exact (Ctx.getIndex_spec h k).2.1

theorem Ctx.step_user {S : Setup Q V W I} {c : Ctx V W I} (h : c.Inv S) (e : Event V)
    (hist : List (Event V)) (hu : ∀ k, c.user.get? k = lastSaid hist k) :
    ∀ k, (c.step S e).user.get? k = lastSaid (e :: hist) k := by
  intro k
  cases e with
  | constrain new append =>
    show (if append then c.user.update new else Dict.ofPairs new).get? k = _
    cases append
    · simp only [Bool.false_eq_true, if_false, Dict.ofPairs, Dict.get?_update, Dict.get?_nil,
        lastSaid]
      cases Dict.get? new.reverse k <;> rfl
    · simp only [if_true, Dict.get?_update, hu, lastSaid]
      cases Dict.get? new.reverse k <;> rfl
  | constraints => exact (congrArg (fun d => Dict.get? d k) (Ctx.getConstraints_snd h).2.1).trans (hu k)
  | available => exact (congrArg (fun d => Dict.get? d k) (Ctx.getAvailable_spec h).2.1).trans (hu k)
  | keys => exact (congrArg (fun d => Dict.get? d k) (Ctx.getKeys_spec h).2.1).trans (hu k)
  | quantity n => exact (congrArg (fun d => Dict.get? d k) (Ctx.getQuantity_snd h n).2.1).trans (hu k)
  | value j => exact (congrArg (fun d => Dict.get? d k) (Ctx.getValue_spec h j).2.2.1).trans (hu k)
  | index j => exact (congrArg (fun d => Dict.get? d k) (Ctx.getIndex_spec h j).2.2.1).trans (hu k)

theorem Ctx.run_append (S : Setup Q V W I) (c : Ctx V W I) (es fs : List (Event V)) :
    c.run S (es ++ fs) = (c.run S es).run S fs := by
  simp [Ctx.run, List.foldl_append]

theorem Ctx.run_spec (S : Setup Q V W I) (es : List (Event V)) :
    ((Ctx.new : Ctx V W I).run S es).Inv S
      ∧ ∀ k, ((Ctx.new : Ctx V W I).run S es).user.get? k = lastSaid es.reverse k := by
  induction es using List.reverseRecOn with
  | nil => exact ⟨Ctx.inv_new S, fun k => rfl⟩
  | append_singleton es e ih =>
    rw [Ctx.run_append, List.reverse_append]
    exact ⟨Ctx.step_inv ih.1 e, Ctx.step_user ih.1 e _ ih.2⟩

theorem Dict.get?_reverse {κ ν : Type} [DecidableEq κ] {d : Dict κ ν} (hd : d.keys.Nodup) (k : κ) :
    Dict.get? (κ := κ) (ν := ν) d.reverse k = d.get? k := by
  have hr : (Dict.keys (κ := κ) (ν := ν) d.reverse).Nodup := by
    have : Dict.keys (κ := κ) (ν := ν) d.reverse = d.keys.reverse := by
      simp [Dict.keys]
    rw [this]; exact List.nodup_reverse.2 hd
  cases h : d.get? k with
  | some v =>
    rw [Dict.get?_eq_some_iff hr]
    exact List.mem_reverse.2 ((Dict.get?_eq_some_iff hd k v).1 h)
  | none =>
    rw [Dict.get?_eq_none_iff] at h ⊢
    simpa [Dict.keys] using h

theorem Ctx.run_inForce (S : Setup Q V W I) (es : List (Event V)) (k : Str) :
    (S.default.update ((Ctx.new : Ctx V W I).run S es).user).get? k = inForce S es k := by
  obtain ⟨h1, h2⟩ := Ctx.run_spec (S := S) es
  rw [Dict.get?_update, Dict.get?_reverse h1.user, h2]
  rfl

theorem Ctx.run_value (S : Setup Q V W I) (es : List (Event V)) (k : Str) :
    (((Ctx.new : Ctx V W I).run S es).getValue S k).1 = valueOf S es k := by
  rw [(Ctx.getValue_spec (Ctx.run_spec S es).1 k).1]
  unfold valueOf computeValue
  rw [Ctx.run_inForce]
  cases inForce S es k <;> rfl

theorem Ctx.run_index (S : Setup Q V W I) (es : List (Event V)) (k : Str) :
    (((Ctx.new : Ctx V W I).run S es).getIndex S k).1 = indexOf S es k := by
  rw [(Ctx.getIndex_spec (Ctx.run_spec S es).1 k).1]
  unfold indexOf computeIndex
  rw [Ctx.run_inForce]

end

/-! ## C57 -/

section
variable {Q V W I : Type}

/-- C57. After any history of changes and queries, the constraints are what the user last said, with
the defaults for what was not mentioned; and the values and indices are those that follow from these
constraints (never an earlier one's).  In particular two observations with the same constraints
agree, whatever was done with the context before each of them. -/
theorem c57_own_constraints (S : Setup Q V W I) (history : List (Event V)) :
    (∀ k, ((((Ctx.new : Ctx V W I).run S history).getConstraints S).1).get? k = inForce S history k)
    ∧ (∀ k, (((Ctx.new : Ctx V W I).run S history).getValue S k).1 = valueOf S history k)
    ∧ (∀ k, (((Ctx.new : Ctx V W I).run S history).getIndex S k).1 = indexOf S history k)
    ∧ ∀ (other : List (Event V)) (new : List (Str × V)) (queries : List (Event V)),
        (∀ e ∈ queries, e.isConstrain = false) →
        (((Ctx.new : Ctx V W I).run S (history ++ .constrain new false :: queries)).getConstraints S).1
            = (((Ctx.new : Ctx V W I).run S (other ++ [.constrain new false])).getConstraints S).1
        ∧ (∀ k, (((Ctx.new : Ctx V W I).run S (history ++ .constrain new false :: queries)).getValue S k).1
            = (((Ctx.new : Ctx V W I).run S (other ++ [.constrain new false])).getValue S k).1)
        ∧ (∀ k, (((Ctx.new : Ctx V W I).run S (history ++ .constrain new false :: queries)).getIndex S k).1
            = (((Ctx.new : Ctx V W I).run S (other ++ [.constrain new false])).getIndex S k).1) := by
  refine ⟨fun k => ?_, Ctx.run_value S history, Ctx.run_index S history, ?_⟩
  · rw [Ctx.getConstraints_fst (Ctx.run_spec S history).1, Ctx.run_inForce]
  intro other new queries hq
  have huser : ((Ctx.new : Ctx V W I).run S (history ++ .constrain new false :: queries)).user
      = ((Ctx.new : Ctx V W I).run S (other ++ [.constrain new false])).user := by
    have h1 : ∀ (qs : List (Event V)), (∀ e ∈ qs, e.isConstrain = false) →
        ∀ c : Ctx V W I, c.Inv S → (c.run S qs).user = c.user := by
      intro qs
      induction qs with
      | nil => intro _ c _; rfl
      | cons e qs ih =>
        intro he c hc
        show ((c.step S e).run S qs).user = _
        rw [ih (fun e' h' => he e' (List.mem_cons_of_mem _ h')) _ (Ctx.step_inv hc e)]
        have := he e (List.mem_cons_self ..)
        cases e with
        | constrain _ _ => simp [Event.isConstrain] at this
        | constraints => exact (Ctx.getConstraints_snd hc).2.1
        | available => exact (Ctx.getAvailable_spec hc).2.1
        | keys => exact (Ctx.getKeys_spec hc).2.1
        | quantity n => exact (Ctx.getQuantity_snd hc n).2.1
        | value k => exact (Ctx.getValue_spec hc k).2.2.1
        | index k => exact (Ctx.getIndex_spec hc k).2.2.1
    have e1 : history ++ Event.constrain new false :: queries
        = (history ++ [.constrain new false]) ++ queries := by simp
    rw [e1, Ctx.run_append _ _ (history ++ _), h1 queries hq _ (Ctx.run_spec S _).1, Ctx.run_append,
      Ctx.run_append]
    rfl
  refine ⟨?_, fun k => ?_, fun k => ?_⟩
  · rw [Ctx.getConstraints_fst (Ctx.run_spec S _).1, Ctx.getConstraints_fst (Ctx.run_spec S _).1, huser]
  · rw [(Ctx.getValue_spec (Ctx.run_spec S _).1 k).1, (Ctx.getValue_spec (Ctx.run_spec S _).1 k).1,
      huser]
  · rw [(Ctx.getIndex_spec (Ctx.run_spec S _).1 k).1, (Ctx.getIndex_spec (Ctx.run_spec S _).1 k).1,
      huser]

/-! ## C58 -/

theorem mem_collectAliases (S : Setup Q V W I) (ks : List Str) (g : List Str) :
    g ∈ collectAliases S ks ↔ ∃ k ∈ ks, Together S k g := by
  simp only [collectAliases, List.mem_dedup, List.mem_map, Together]
  constructor
  · rintro ⟨k, h1, h2⟩; exact ⟨k, h1, h2.symm⟩
  · rintro ⟨k, h1, h2⟩; exact ⟨k, h1, h2.symm⟩

/-- Until the first query, nothing about names is stored. -/
theorem Ctx.run_unasked (S : Setup Q V W I) (es : List (Event V))
    (h : ∀ e ∈ es, e.asksNames = false) :
    ((Ctx.new : Ctx V W I).run S es).available = none
      ∧ ((Ctx.new : Ctx V W I).run S es).keys = none := by
  induction es using List.reverseRecOn with
  | nil => exact ⟨rfl, rfl⟩
  | append_singleton es e ih =>
    obtain ⟨i1, i2⟩ := ih (fun e' h' => h e' (by simp [h']))
    have hi := (Ctx.run_spec S es).1
    rw [Ctx.run_append]
    have he := h e (by simp)
    show (((Ctx.new : Ctx V W I).run S es).step S e).available = none
      ∧ (((Ctx.new : Ctx V W I).run S es).step S e).keys = none
    rw [← i1] at *
    cases e with
    | constrain _ _ => exact ⟨rfl, i2⟩
    | constraints =>
      obtain ⟨_, _, a, b⟩ := Ctx.getConstraints_snd hi; exact ⟨a, b.trans i2⟩
    | available => simp [Event.asksNames] at he
    | keys => simp [Event.asksNames] at he
    | quantity n => obtain ⟨_, _, a, b⟩ := Ctx.getQuantity_snd hi n; exact ⟨a, b.trans i2⟩
    | value k => obtain ⟨_, _, _, a, b⟩ := Ctx.getValue_spec hi k; exact ⟨a, b.trans i2⟩
    | index k => obtain ⟨_, _, _, a, b⟩ := Ctx.getIndex_spec hi k; exact ⟨a, b.trans i2⟩

/-- What is stored about the names stays what it was when it was first asked for. -/
structure Ctx.Names (S : Setup Q V W I) (c : Ctx V W I) (gs : List (List Str)) : Prop where
  inv : c.Inv S
  avail : (c.getAvailable S).1 = gs
  keys : (c.getKeys S).1 = gs.flatten.dedup

theorem Ctx.names_step {S : Setup Q V W I} {c : Ctx V W I} {gs} (h : c.Names S gs) (e : Event V)
    (he : e.isConstrain = false ∨ c.available.isSome) : (c.step S e).Names S gs := by
  obtain ⟨hi, ha, hk⟩ := h
  have hi' := Ctx.step_inv hi e
  have ka := (Ctx.getAvailable_spec hi).2.2.2.2
  have kk := (Ctx.getKeys_spec hi).2.2.2.1
  have key : ∀ c' : Ctx V W I, c'.Inv S → c'.available = c.available → c'.keys = c.keys →
      (c'.user = c.user ∨ c.available.isSome) → c'.Names S gs := by
    intro c' h' e1 e2 e3
    have ka' := (Ctx.getAvailable_spec h').2.2.2.2
    have e4 : (c'.getAvailable S).1 = (c.getAvailable S).1 := by
      rw [ka', ka, e1]
      rcases e3 with e3 | e3
      · rw [e3]
      · obtain ⟨g, hg⟩ := Option.isSome_iff_exists.1 e3
        rw [hg]; rfl
    refine ⟨h', e4.trans ha, ?_⟩
    rw [(Ctx.getKeys_spec h').2.2.2.1, e2, e4, ← kk]
    exact hk
  cases e with
  | constrain new append =>
    rcases he with he | he
    · simp [Event.isConstrain] at he
    · exact key _ hi' rfl rfl (Or.inr he)
  | constraints =>
    obtain ⟨_, u, a, b⟩ := Ctx.getConstraints_snd hi; exact key _ hi' a b (Or.inl u)
  | quantity n => obtain ⟨_, u, a, b⟩ := Ctx.getQuantity_snd hi n; exact key _ hi' a b (Or.inl u)
  | value k => obtain ⟨_, _, u, a, b⟩ := Ctx.getValue_spec hi k; exact key _ hi' a b (Or.inl u)
  | index k => obtain ⟨_, _, u, a, b⟩ := Ctx.getIndex_spec hi k; exact key _ hi' a b (Or.inl u)
  | available =>
    obtain ⟨_, u, b, a, _⟩ := Ctx.getAvailable_spec hi
    have e4 : ((c.step S .available).getAvailable S).1 = gs := by
      rw [(Ctx.getAvailable_spec hi').2.2.2.2, show (c.step S .available).available = _ from a]
      exact ha
    refine ⟨hi', e4, ?_⟩
    rw [(Ctx.getKeys_spec hi').2.2.2.1, e4, show (c.step S .available).keys = _ from b]
    cases hc : c.keys with
    | none => rfl
    | some ks => rw [hc] at kk; rw [← hk, kk]; rfl
  | keys =>
    obtain ⟨_, u, b, _, a⟩ := Ctx.getKeys_spec hi
    have e4 : ((c.step S .keys).getAvailable S).1 = gs := by
      rw [(Ctx.getAvailable_spec hi').2.2.2.2, show (c.step S .keys).available = _ from a,
        show (c.step S .keys).user = _ from u, ← ha, ka]
      cases c.keys with
      | none => simp [ka]
      | some ks => rfl
    refine ⟨hi', e4, ?_⟩
    rw [(Ctx.getKeys_spec hi').2.2.2.1, e4, show (c.step S .keys).keys = _ from b]
    exact hk

theorem Ctx.names_run {S : Setup Q V W I} (es : List (Event V)) {gs} :
    ∀ c : Ctx V W I, c.Names S gs → (∀ e ∈ es, e.isConstrain = false) ∨ c.available.isSome →
      (c.run S es).Names S gs := by
  induction es with
  | nil => intro c h _; exact h
  | cons e es ih =>
    intro c h he
    refine ih _ (Ctx.names_step h e ?_) ?_
    · rcases he with he | he
      · exact Or.inl (he e (List.mem_cons_self ..))
      · exact Or.inr he
    · rcases he with he | he
      · exact Or.inl (fun e' h' => he e' (List.mem_cons_of_mem _ h'))
      · right
        obtain ⟨g, hg⟩ := Option.isSome_iff_exists.1 he
        cases e with
        | constrain _ _ => exact he
        | constraints =>
          exact (congrArg Option.isSome (Ctx.getConstraints_snd h.inv).2.2.1).trans he
        | quantity n => exact (congrArg Option.isSome (Ctx.getQuantity_snd h.inv n).2.2.1).trans he
        | value k => exact (congrArg Option.isSome (Ctx.getValue_spec h.inv k).2.2.2.1).trans he
        | index k => exact (congrArg Option.isSome (Ctx.getIndex_spec h.inv k).2.2.2.1).trans he
        | available =>
          exact congrArg Option.isSome (Ctx.getAvailable_spec h.inv).2.2.2.1
        | keys =>
          refine (congrArg Option.isSome (Ctx.getKeys_spec h.inv).2.2.2.2).trans ?_
          split
          · exact he
          · rfl

/-- The names that a context gives when nobody has asked before. -/
theorem Ctx.names_first (S : Setup Q V W I) (es : List (Event V))
    (h : ∀ e ∈ es, e.asksNames = false) :
    ∃ gs, ((Ctx.new : Ctx V W I).run S es).Names S gs
      ∧ ∀ n, n ∈ gs.flatten ↔ ShouldBeAvailable S es n := by
  obtain ⟨h1, h2⟩ := Ctx.run_unasked (W := W) (I := I) S es h
  have hi := (Ctx.run_spec S es).1
  refine ⟨_, ⟨hi, (Ctx.getAvailable_spec hi).2.2.2.2, ?_⟩, ?_⟩
  · rw [(Ctx.getKeys_spec hi).2.2.2.1, h2, (Ctx.getAvailable_spec hi).2.2.2.2]
    rfl
  · intro n
    rw [h1]
    simp only [Option.getD_none, List.mem_flatten, List.mem_append, mem_collectAliases,
      ShouldBeAvailable, ← Ctx.run_inForce, Dict.get?_isSome_iff, List.mem_map]
    constructor
    · rintro ⟨g, ⟨k, ⟨_, ⟨m, hm, rfl⟩, hk⟩, ht⟩ | ⟨k, hk, ht⟩, hn⟩
      · exact ⟨k, g, ht, hn, Or.inl ⟨m, hm, hk⟩⟩
      · exact ⟨k, g, ht, hn, Or.inr hk⟩
    · rintro ⟨k, g, ht, hn, ⟨m, hm, hk⟩ | hk⟩
      · exact ⟨g, Or.inl ⟨k, ⟨_, ⟨m, hm, rfl⟩, hk⟩, ht⟩, hn⟩
      · exact ⟨g, Or.inr ⟨k, hk, ht⟩, hn⟩

/-- C58, partial. The available names are the aliases of everything in the mappings and of the
constraints in force, provided that the constraints were not changed after names were first asked
for.  Otherwise they are exactly those of the moment of the first query, however long ago.

Missing: that a change of the constraints is noticed, which is false
(`c58_counterexample`). -/
theorem c58_partial (S : Setup Q V W I) (before after : List (Event V))
    (hb : ∀ e ∈ before, e.asksNames = false) :
    ((∀ e ∈ after, e.isConstrain = false) →
      ∀ n, (n ∈ (((Ctx.new : Ctx V W I).run S (before ++ after)).getKeys S).1
          ↔ ShouldBeAvailable S (before ++ after) n)
        ∧ (n ∈ (((Ctx.new : Ctx V W I).run S (before ++ after)).getAvailable S).1.flatten
          ↔ ShouldBeAvailable S (before ++ after) n))
    ∧ ∀ query : Event V, query.asksNames = true →
      ∀ n, (n ∈ (((Ctx.new : Ctx V W I).run S (before ++ query :: after)).getKeys S).1
          ↔ ShouldBeAvailable S before n)
        ∧ (n ∈ (((Ctx.new : Ctx V W I).run S (before ++ query :: after)).getAvailable S).1.flatten
          ↔ ShouldBeAvailable S before n) := by
  obtain ⟨gs, hg, hgs⟩ := Ctx.names_first (W := W) (I := I) S before hb
  constructor
  · intro ha n
    have hn := Ctx.names_run after _ hg (Or.inl ha)
    rw [← Ctx.run_append] at hn
    have hsame : ShouldBeAvailable S (before ++ after) n ↔ ShouldBeAvailable S before n := by
      have : ∀ (as : List (Event V)) (k : Str), (∀ e ∈ as, e.isConstrain = false) →
          lastSaid (as ++ before.reverse) k = lastSaid before.reverse k := by
        intro as k
        induction as with
        | nil => intro _; rfl
        | cons e as ih =>
          intro h
          have he := h e (List.mem_cons_self ..)
          rw [← ih (fun e' h' => h e' (List.mem_cons_of_mem _ h'))]
          cases e <;> first | rfl | simp [Event.isConstrain] at he
      have e : ∀ k, inForce S (before ++ after) k = inForce S before k := by
        intro k
        unfold inForce
        rw [List.reverse_append, this _ k (fun e h => ha e (List.mem_reverse.1 h))]
      simp only [ShouldBeAvailable, e]
    rw [hn.keys, hn.avail, List.mem_dedup, hsame, hgs]
    exact ⟨Iff.rfl, Iff.rfl⟩
  · intro query hq n
    have hn : ((Ctx.new : Ctx V W I).run S (before ++ query :: after)).Names S gs := by
      rw [show before ++ query :: after = (before ++ [query]) ++ after by simp, Ctx.run_append,
        Ctx.run_append]
      refine Ctx.names_run after _ (Ctx.names_step hg query ?_) (Or.inr ?_)
      · left; cases query <;> first | rfl | simp [Event.asksNames] at hq
      · obtain ⟨h1, h2⟩ := Ctx.run_unasked (W := W) (I := I) S before hb
        cases query with
        | available => exact congrArg Option.isSome (Ctx.getAvailable_spec hg.inv).2.2.2.1
        | keys =>
          refine (congrArg Option.isSome (Ctx.getKeys_spec hg.inv).2.2.2.2).trans ?_
          rw [h2]; rfl
        | constrain _ _ => simp [Event.asksNames] at hq
        | constraints => simp [Event.asksNames] at hq
        | quantity n => simp [Event.asksNames] at hq
        | value k => simp [Event.asksNames] at hq
        | index k => simp [Event.asksNames] at hq
    rw [hn.keys, hn.avail, List.mem_dedup, hgs]
    exact ⟨Iff.rfl, Iff.rfl⟩

/-! ## C59 -/

/-- C59. After any history: the entry of the first mapping that contains the name; otherwise the
constraint in force; otherwise nothing. -/
theorem c59_precedence (S : Setup Q V W I) (history : List (Event V)) (n : Str) :
    (∀ before m after q, S.mappings = before ++ m :: after → (∀ m' ∈ before, m'.get? n = none) →
      m.get? n = some q →
        (((Ctx.new : Ctx V W I).run S history).getQuantity S n).1 = some (.inl q)
        ∧ firstEntry S.mappings n = some q)
    ∧ ((∀ m ∈ S.mappings, m.get? n = none) →
        (((Ctx.new : Ctx V W I).run S history).getQuantity S n).1
          = (inForce S history n).map .inr
        ∧ firstEntry S.mappings n = none) := by
  constructor
  · intro before m after q hm hb hq
    have : firstEntry S.mappings n = some q := by
      rw [hm]
      clear hm
      induction before with
      | nil => simp [firstEntry, hq]
      | cons b bs ih =>
        simp only [List.cons_append, firstEntry, hb b (List.mem_cons_self ..)]
        exact ih (fun m' h' => hb m' (List.mem_cons_of_mem _ h'))
    exact ⟨by simp [Ctx.getQuantity, this], this⟩
  · intro hm
    have : firstEntry S.mappings n = none := by
      revert hm
      generalize S.mappings = ms
      induction ms with
      | nil => intro _; rfl
      | cons b bs ih =>
        intro h
        simp only [firstEntry, h b (List.mem_cons_self ..)]
        exact ih (fun m' h' => h m' (List.mem_cons_of_mem _ h'))
    refine ⟨?_, this⟩
    simp only [Ctx.getQuantity, this, Ctx.getConstraints_fst (Ctx.run_spec S history).1,
      Ctx.run_inForce]

/-! ## C100 -/

/-- C100, partial. A constraint takes effect on the values and indices looked up by exactly the name
under which it was given; every look-up by another name, alias or not, gives what it would give
without the constraint.

Missing: the effect under the other aliases, which it does not have (`c100_counterexample`). -/
theorem c100_partial (S : Setup Q V W I) (history : List (Event V)) (a : Str) (v : V) :
    (((Ctx.new : Ctx V W I).run S (history ++ [.constrain [(a, v)] false])).getValue S a).1
        = outcome (some (S.scalar v))
    ∧ (((Ctx.new : Ctx V W I).run S (history ++ [.constrain [(a, v)] false])).getIndex S a).1
        = outcome ((S.axes.get? a).map (fun index => index (some v)))
    ∧ ∀ b, b ≠ a →
      (((Ctx.new : Ctx V W I).run S (history ++ [.constrain [(a, v)] false])).getValue S b).1
        = ((Ctx.new : Ctx V W I).getValue S b).1
      ∧ (((Ctx.new : Ctx V W I).run S (history ++ [.constrain [(a, v)] false])).getIndex S b).1
        = ((Ctx.new : Ctx V W I).getIndex S b).1 := by
  have hf : ∀ k, inForce S (history ++ [Event.constrain [(a, v)] false]) k
      = if a = k then some v else S.default.get? k := by
    intro k
    unfold inForce
    rw [List.reverse_append]
    simp only [List.reverse_cons, List.reverse_nil, List.nil_append, List.cons_append, lastSaid,
      Dict.get?_cons, Dict.get?_nil]
    by_cases h : a = k <;> simp [h]
  refine ⟨?_, ?_, fun b hb => ⟨?_, ?_⟩⟩
  · rw [Ctx.run_value, valueOf, hf]; simp
  · rw [Ctx.run_index, indexOf, hf]; simp
  · rw [Ctx.run_value, valueOf, hf, if_neg (Ne.symm hb)]
    exact (Ctx.run_value S [] b).symm
  · rw [Ctx.run_index, indexOf, hf, if_neg (Ne.symm hb)]
    exact (Ctx.run_index S [] b).symm

end

/-! ## Examples and counterexamples -/

/-- A context with one variable and one axis: its index is given by the constraint, or is 0; a value
is its constraint; `lam0` is 1 by default. -/
def smallSetup : Setup Nat Int Int Int where
  mappings := [[(c!"Vr", 7)], [(c!"Vr", 8), (c!"flux", 9)]]
  default := [(c!"lam0", 1)]
  aliases := [[c!"Vr", c!"vr"], [c!"energy", c!"E"], [c!"lam0", c!"lamo"]]
  constants := [(c!"lam0", 1), (c!"lamo", 1)]
  scalar v := if v < 0 then .error .valueError else .ok v
  axes := [(c!"energy", fun v => .ok (v.getD 0)), (c!"E", fun v => .ok (v.getD 0))]

/-- A history with an observation under other constraints. -/
def smallHistory : List (Event Int) :=
  [.constrain [(c!"lam0", 5), (c!"energy", 3)] false, .value c!"lam0", .index c!"energy",
    .constrain [(c!"energy", 4)] true, .index c!"energy"]

example : inForce smallSetup smallHistory c!"lam0" = some 5
    ∧ inForce smallSetup smallHistory c!"energy" = some 4
    ∧ inForce smallSetup (smallHistory ++ [.constrain [] false]) c!"lam0" = some 1 := by
  decide +kernel

example : (((Ctx.new : Ctx Int Int Int).run smallSetup smallHistory).getIndex smallSetup c!"energy").1
      = .ok (some 4)
    ∧ (((Ctx.new : Ctx Int Int Int).run smallSetup
        (smallHistory ++ [.constrain [] false])).getIndex smallSetup c!"energy").1 = .ok (some 0)
    ∧ (((Ctx.new : Ctx Int Int Int).run smallSetup smallHistory).getValue smallSetup c!"lam0").1
      = .ok (some 5) := by
  decide +kernel

/-- C58: the names are asked for, then `energy` is constrained; it is in force but not available. -/
theorem c58_counterexample :
    ¬ ∀ (S : Setup Nat Int Int Int) (history : List (Event Int)) (n : Str),
      n ∈ (((Ctx.new : Ctx Int Int Int).run S history).getKeys S).1 ↔ ShouldBeAvailable S history n := by
  intro h
  have h1 := (h smallSetup [.keys, .constrain [(c!"energy", 3)] false] c!"E").2
    ⟨c!"energy", [c!"energy", c!"E"], by unfold Together; decide +kernel, by decide +kernel,
      Or.inr (by decide +kernel)⟩
  revert h1
  decide +kernel

example : c!"E" ∈ (((Ctx.new : Ctx Int Int Int).run smallSetup
    [.constrain [(c!"energy", 3)] false]).getKeys smallSetup).1 := by decide +kernel

example : ((Ctx.new : Ctx Int Int Int).getQuantity smallSetup c!"Vr").1 = some (.inl 7)
    ∧ ((Ctx.new : Ctx Int Int Int).getQuantity smallSetup c!"flux").1 = some (.inl 9)
    ∧ ((Ctx.new : Ctx Int Int Int).getQuantity smallSetup c!"lam0").1 = some (.inr 1)
    ∧ ((Ctx.new : Ctx Int Int Int).getQuantity smallSetup c!"other").1 = none := by
  refine ⟨rfl, rfl, rfl, rfl⟩

/-- C100: `E` and `energy` are aliases, and so are `lamo` and `lam0`; constraints given under the
former do not show under the latter. -/
theorem c100_counterexample :
    (¬ ∀ (S : Setup Nat Int Int Int) (a b : Str) (v : Int), (∃ g ∈ S.aliases, a ∈ g ∧ b ∈ g) →
      (((Ctx.new : Ctx Int Int Int).run S [.constrain [(a, v)] false]).getIndex S b).1
        = (((Ctx.new : Ctx Int Int Int).run S [.constrain [(b, v)] false]).getIndex S b).1)
    ∧ ¬ ∀ (S : Setup Nat Int Int Int) (a b : Str) (v : Int), (∃ g ∈ S.aliases, a ∈ g ∧ b ∈ g) →
      (((Ctx.new : Ctx Int Int Int).run S [.constrain [(a, v)] false]).getValue S b).1
        = (((Ctx.new : Ctx Int Int Int).run S [.constrain [(b, v)] false]).getValue S b).1 := by
  constructor
  · intro h
    have h1 := h smallSetup c!"E" c!"energy" 3 (by decide +kernel)
    revert h1
    decide +kernel
  · intro h
    have h1 := h smallSetup c!"lamo" c!"lam0" 3 (by decide +kernel)
    revert h1
    decide +kernel

end Verif.Observing
