import Verif.Results.Model
import Verif.Iterables.Lemmas
import Mathlib.Data.List.Perm.Subperm
import Mathlib.Data.List.Perm.Lattice

/-!
# C183-C188: parameters, observations and observable quantities
-/

set_option linter.unusedSimpArgs false

namespace Verif.Results

open Verif.Py Verif.Iterables
open Verif.Metric (Str)

/-! ## C183: equality of parameters -/

theorem paramEq_seq_iff (a b : List Str) (hb : b.Nodup) : paramEq a (.seq b) = true ↔ b.Perm a := by
  unfold paramEq
  simp only [Bool.and_eq_true, decide_eq_true_eq, List.all_eq_true]
  constructor
  · rintro ⟨hl, hm⟩
    exact (List.subperm_of_subset hb hm).perm_of_length_le (by omega)
  · intro h
    exact ⟨h.length_eq, fun z hz => h.mem_iff.1 hz⟩

theorem paramEq_params_iff (a b : List Str) (hb : b.Nodup) : paramEq a (.params b) = true ↔ a.Perm b := by
  have h := paramEq_seq_iff a b hb
  unfold paramEq at h ⊢
  simp only [Bool.or_eq_true, decide_eq_true_eq] at h ⊢
  rw [h]
  constructor
  · rintro (h | h)
    · rw [h]
    · exact h.symm
  · intro h; exact Or.inr h.symm

/-- Every `Parameters` object has each name once. -/
theorem newParameters_nodup (names : List Str) : (newParameters names).Nodup := nodup_unique names

/-- **C183.** Two sets of parameters are equal just if they have the same names, whatever their order; the same holds for a list
without repetitions.  Hence equality is reflexive, symmetric and transitive. -/
theorem c183_equal_partial (l m : List Str) (s : List Str) (hs : s.Nodup) :
    (paramEq (newParameters l) (.params (newParameters m)) = true ↔ ∀ x, x ∈ l ↔ x ∈ m) ∧
    (paramEq (newParameters l) (.seq s) = true ↔ ∀ x, x ∈ l ↔ x ∈ s) := by
  constructor
  · rw [paramEq_params_iff _ _ (newParameters_nodup m), List.perm_ext_iff_of_nodup (newParameters_nodup l)
      (newParameters_nodup m)]
    simp only [newParameters, mem_unique]
  · rw [paramEq_seq_iff _ _ hs, List.perm_ext_iff_of_nodup hs (newParameters_nodup l)]
    simp only [newParameters, mem_unique]
    exact ⟨fun h x => (h x).symm, fun h x => (h x).symm⟩

/-- **C183.** A single parameter is equal to its own name. -/
theorem c183_string (x : Str) : paramEq (newParameters [x]) (.str x) = true := by
  simp [paramEq, newParameters, unique, uniqueLoop]

/-- **C183, violated.** Two parameters are equal to a list of one of them, and to the string of their letters; no `Parameters`
object can be hashed, although the class provides a hash to be used as a mapping key. -/
theorem c183_counterexample :
    paramEq (newParameters [c!"a", c!"b"]) (.seq [c!"a", c!"a"]) = true ∧
    paramEq (newParameters [c!"a", c!"b"]) (.str c!"ab") = true ∧
    ∀ names, paramHash (newParameters names) = .error .typeError := by
  refine ⟨by decide, by decide, fun _ => rfl⟩

example : paramEq (newParameters [c!"a", c!"b", c!"a"]) (.params (newParameters [c!"b", c!"a"])) = true := by decide

/-! ## C184: merging -/

/-- Specification: an order in which a set can be iterated: each member once. -/
def SetOrder (order : List Str → List Str) : Prop := ∀ l, (order l).Nodup ∧ ∀ x, x ∈ order l ↔ x ∈ l

theorem mem_merge {order : List Str → List Str} (ho : SetOrder order) (a : List Str) (others : List (Option (List Str)))
    (x : Str) : x ∈ merge order a others ↔ x ∈ a ∨ ∃ b, some b ∈ others ∧ x ∈ b := by
  unfold merge newParameters
  rw [mem_unique, (ho _).2, List.mem_append, List.mem_flatten]
  constructor
  · rintro (h | ⟨l, hl, hx⟩)
    · exact Or.inl h
    · obtain ⟨o, ho', rfl⟩ := List.mem_map.1 hl
      cases o with
      | none => cases hx
      | some b => exact Or.inr ⟨b, ho', hx⟩
  · rintro (h | ⟨b, hb, hx⟩)
    · exact Or.inl h
    · exact Or.inr ⟨b, List.mem_map.2 ⟨some b, hb, rfl⟩, hx⟩

/-- **C184.** The parameters of a product or quotient are exactly those of its factors, each once; numbers contribute nothing.
In whatever order the sets are iterated, the result is commutative, associative and idempotent, as far as `==` can tell. -/
theorem c184_merge (o₁ o₂ o₃ o₄ : List Str → List Str) (h₁ : SetOrder o₁) (h₂ : SetOrder o₂) (h₃ : SetOrder o₃)
    (h₄ : SetOrder o₄) (a b c : List Str) (ha : a.Nodup) :
    (merge o₁ a [some b]).Nodup ∧ (∀ x, x ∈ merge o₁ a [some b] ↔ x ∈ a ∨ x ∈ b) ∧
    paramEq (merge o₁ a [some b]) (.params (merge o₂ b [some a])) = true ∧
    paramEq (merge o₁ (merge o₂ a [some b]) [some c]) (.params (merge o₃ a [some (merge o₄ b [some c])])) = true ∧
    paramEq (merge o₁ a [some a]) (.params a) = true ∧
    paramEq (merge o₁ a [none]) (.params a) = true := by
  have hnd : ∀ (o : List Str → List Str) l ms, (merge o l ms).Nodup := fun o l ms => newParameters_nodup _
  have hone : ∀ {o : List Str → List Str} (_ : SetOrder o) (l m : List Str) x,
      x ∈ merge o l [some m] ↔ x ∈ l ∨ x ∈ m := by
    intro o ho l m x
    rw [mem_merge ho]
    simp
  have hext : ∀ (l m : List Str), l.Nodup → m.Nodup → (∀ x, x ∈ l ↔ x ∈ m) → paramEq l (.params m) = true := by
    intro l m hl hm h
    rw [paramEq_params_iff _ _ hm]
    exact (List.perm_ext_iff_of_nodup hl hm).2 h
  refine ⟨hnd _ _ _, hone h₁ a b, ?_, ?_, ?_, ?_⟩
  · refine hext _ _ (hnd _ _ _) (hnd _ _ _) fun x => ?_
    rw [hone h₁, hone h₂]; exact or_comm
  · refine hext _ _ (hnd _ _ _) (hnd _ _ _) fun x => ?_
    rw [hone h₁, hone h₂, hone h₃, hone h₄]; exact or_assoc
  · refine hext _ _ (hnd _ _ _) ha fun x => ?_
    rw [hone h₁]; exact or_self_iff
  · refine hext _ _ (hnd _ _ _) ha fun x => ?_
    rw [mem_merge h₁]; simp

/-- **C184.** Sums and differences are accepted just if the parameters are the same, and keep those of the first operand. -/
theorem c184_sum (a b : List Str) (ha : a.Nodup) (hb : b.Nodup) :
    ((∀ x, x ∈ a ↔ x ∈ b) → paramAdd a (some b) = .ok a) ∧
    ((¬ ∀ x, x ∈ a ↔ x ∈ b) → paramAdd a (some b) = .error .typeError) := by
  have h := paramEq_params_iff b a ha
  rw [List.perm_ext_iff_of_nodup hb ha] at h
  unfold paramAdd
  simp only
  constructor
  · intro hx; rw [if_pos (h.2 fun x => (hx x).symm)]
  · intro hx; rw [if_neg (fun hc => hx fun x => (h.1 hc x).symm)]

theorem setOrder_unique : SetOrder unique := fun l => ⟨nodup_unique l, mem_unique l⟩

example : merge unique [c!"a"] [some [c!"b"], none, some [c!"a"]] = [c!"a", c!"b"] := by decide

/-! ## C185: what an observation shows -/

section
variable {D I X A : Type}

theorem axes_get? (empty : I → Bool) (array : I → X) (o : Obs D I A) (hk : o.indices.keys.Nodup) (x : Str) :
    (o.axes empty array).get? x = match o.indices.get? x with
      | some i => if empty i then none else some (array i)
      | none => none := by
  have hkeys : (o.axes empty array).keys.Nodup := by
    unfold Obs.axes Dict.keys
    rw [List.map_map]
    exact List.Sublist.nodup (List.Sublist.map _ List.filter_sublist) hk
  cases h : o.indices.get? x with
  | none =>
    rw [Dict.get?_eq_none_iff] at h
    simp only
    rw [Dict.get?_eq_none_iff]
    intro hc
    apply h
    unfold Obs.axes Dict.keys at hc
    rw [List.map_map] at hc
    exact (List.Sublist.map _ List.filter_sublist).subset hc
  | some i =>
    have hm := Dict.mem_of_get? h
    simp only
    cases he : empty i with
    | false =>
      rw [if_neg (by simp), Dict.get?_eq_some_iff hkeys]
      unfold Obs.axes
      exact List.mem_map.2 ⟨(x, i), List.mem_filter.2 ⟨hm, by simp [he]⟩, rfl⟩
    | true =>
      rw [if_pos rfl, Dict.get?_eq_none_iff]
      intro hc
      unfold Obs.axes Dict.keys at hc
      rw [List.map_map] at hc
      obtain ⟨⟨k, j⟩, hj, rfl⟩ := List.mem_map.1 hc
      obtain ⟨hj, hj'⟩ := List.mem_filter.1 hj
      have := Dict.get?_of_mem hk hj
      have h : o.indices.get? k = some i := h
      rw [this] at h
      injection h with h
      subst h
      simp [he] at hj'

/-- Specification: `x` names an axis with at least one value. -/
def Obs.HasAxis (empty : I → Bool) (o : Obs D I A) (x : Str) (i : I) : Prop :=
  (x, i) ∈ o.indices ∧ empty i = false

/-- Specification: `x` names no axis with values. -/
def Obs.NoAxis (empty : I → Bool) (o : Obs D I A) (x : Str) : Prop := ∀ i, ¬ o.HasAxis empty x i

theorem axes_of_noAxis {empty : I → Bool} (array : I → X) {o : Obs D I A} (hk : o.indices.keys.Nodup) {x : Str}
    (h : o.NoAxis empty x) : (o.axes empty array).get? x = none := by
  rw [axes_get? empty array o hk]
  cases hg : o.indices.get? x with
  | none => rfl
  | some i =>
    cases he : empty i with
    | true => simp [he]
    | false => exact absurd ⟨Dict.mem_of_get? hg, he⟩ (h i)

/-- **C185.** The name of an axis gives the values of this axis; any other name of an assumption gives the assumption; anything
else is a unit, and gives the observation of the converted data with the same axes and assumptions. -/
theorem c185_lookup (empty : I → Bool) (array : I → X) (convert : D → Str → Res D) (o : Obs D I A)
    (hk : o.indices.keys.Nodup) (as : Dict Str A) (ha : o.assumptions = some as) (has : as.keys.Nodup) (x : Str) :
    (∀ i, o.HasAxis empty x i → o.get empty array convert x = .ok (.axis (array i))) ∧
    (o.NoAxis empty x → ∀ a, (x, a) ∈ as → o.get empty array convert x = .ok (.assumption a)) ∧
    (o.NoAxis empty x → x ∉ as.keys → o.get empty array convert x =
      match convert o.data x with
      | .ok d => .ok (.observation ⟨d, o.indices, o.assumptions⟩)
      | .error e => .error e) := by
  refine ⟨?_, ?_, ?_⟩
  · rintro i ⟨hi, he⟩
    unfold Obs.get
    rw [axes_get? empty array o hk, Dict.get?_of_mem hk hi]
    simp [he]
  · intro hn a hm
    unfold Obs.get
    rw [axes_of_noAxis array hk hn, ha]
    simp only
    rw [Dict.get?_of_mem has hm]
  · intro hn hm
    unfold Obs.get
    rw [axes_of_noAxis array hk hn, ha]
    simp only
    rw [(Dict.get?_eq_none_iff as x).2 hm]
    cases convert o.data x <;> rfl

/-- **C185.** After a change of unit every axis and every assumption is found as before. -/
theorem c185_unit (empty : I → Bool) (array : I → X) (convert : D → Str → Res D) (o o' : Obs D I A) (x y : Str)
    (h : o.get empty array convert x = .ok (.observation o')) (r : Found D I X A) (hr : ∀ o'', r ≠ .observation o'') :
    o.get empty array convert y = .ok r ↔ o'.get empty array convert y = .ok r := by
  have hi : o'.indices = o.indices ∧ o'.assumptions = o.assumptions := by
    unfold Obs.get at h
    split at h
    · cases h
    · split at h
      · cases h
      · split at h
        · cases h
        · cases hc : convert o.data x with
          | error e => rw [hc] at h; cases h
          | ok d =>
            rw [hc] at h
            have h : Except.ok (Found.observation ⟨d, o.indices, o.assumptions⟩) =
              (Except.ok (.observation o') : Res (Found D I X A)) := h
            injection h with h
            injection h with h
            subst h; exact ⟨rfl, rfl⟩
  unfold Obs.get
  have hax : o'.axes empty array = o.axes empty array := by unfold Obs.axes; rw [hi.1]
  rw [hax, hi.2]
  cases (o.axes empty array).get? y with
  | some a => exact Iff.rfl
  | none =>
    cases o.assumptions with
    | none => exact Iff.rfl
    | some as =>
      simp only
      cases as.get? y with
      | some a => exact Iff.rfl
      | none =>
        simp only
        constructor
        · intro hc
          cases hd : convert o.data y with
          | error e => rw [hd] at hc; cases hc
          | ok d =>
            rw [hd] at hc
            have hc : Except.ok (Found.observation ⟨d, o.indices, some as⟩) = (Except.ok r : Res (Found D I X A)) := hc
            injection hc with hc
            exact absurd hc.symm (hr _)
        · intro hc
          cases hd : convert o'.data y with
          | error e => rw [hd] at hc; cases hc
          | ok d =>
            rw [hd] at hc
            have hc : Except.ok (Found.observation ⟨d, o'.indices, some as⟩) = (Except.ok r : Res (Found D I X A)) := hc
            injection hc with hc
            exact absurd hc.symm (hr _)

/-- **C185, violated.** Without the optional argument `assumptions`, neither units nor parameters can be requested; and
`observed.Quantity` gives the same data for every unit. -/
theorem c185_counterexample (empty : I → Bool) (array : I → X) (convert : D → Str → Res D) (d : D) (x : Str) :
    (⟨d, [], none⟩ : Obs D I A).get empty array convert x = .error .typeError ∧
    (⟨d, [], none⟩ : Obs D I A).parameters = .error .typeError ∧
    (⟨d, [], some []⟩ : Obs D I A).getObserved x = .ok (.observation ⟨d, [], some []⟩) := ⟨rfl, rfl, rfl⟩

example : (⟨(7 : Nat), [(c!"time", [1, 2]), (c!"energy", [])], some [(c!"lambda0", (3 : Nat))]⟩ :
    Obs Nat (List Nat) Nat).get List.isEmpty id (fun d _ => .ok (10 * d)) c!"energy" =
    .ok (.observation ⟨70, [(c!"time", [1, 2]), (c!"energy", [])], some [(c!"lambda0", 3)]⟩) := by rfl

/-! ## C186: equality of observations -/

/-- **C186, violated.** Two observations are equal only if they are the same object, even if all their attributes are equal. -/
theorem c186_counterexample (o : Obs D I A) (m n : Nat) (h : m ≠ n) : Obs.equal (m, o) (n, o) = false := by
  simp [Obs.equal, h]

/-- **C186, violated.** For `observed.Quantity`, comparison of objects with equal data raises `AttributeError`, also for an object
and itself. -/
theorem c186_observed_counterexample (dataEq : D → D → Bool) (hr : ∀ d, dataEq d d = true) (o : Obs D I A) :
    Obs.equalObserved dataEq o o = .error .attributeError := by
  simp [Obs.equalObserved, hr]

/-- **C186.** What remains is that unequal data are reported as unequal, and that an observation is equal to itself. -/
theorem c186_partial (dataEq : D → D → Bool) (a b : Obs D I A) (n : Nat) :
    Obs.equal (n, a) (n, a) = true ∧
    (dataEq a.data b.data = false → Obs.equalObserved dataEq a b = .ok false) := by
  constructor
  · simp [Obs.equal]
  · intro h; simp [Obs.equalObserved, h]

example : Obs.equalObserved (fun m n => decide (m = n)) (⟨(1 : Nat), ([] : Dict Str Nat), some ([] : Dict Str Nat)⟩)
    ⟨2, [], some []⟩ = .ok false := by decide

end

/-! ## C187: equality of observable quantities -/

section
variable {U : Type}

/-- The unit that an observable quantity shows. -/
def Observable.shown (unitOf : Str → Res U) (a : Observable U) : Res U :=
  match a.unit with
  | some u => .ok u
  | none => unitOf a.name

/-- **C187.** Observable quantities whose units, dimensions and parameters can be determined are equal just if all three are. -/
theorem c187_partial (ueq : U → U → Bool) (deq : List Str → List Str → Bool) (unitOf : Str → Res U)
    (dimsOf : Str → Res (List Str)) (paramsOf : Str → Res (List Str)) (a b : Observable U) (ua ub : U)
    (da db pa pb : List Str) (h₁ : a.shown unitOf = .ok ua) (h₂ : b.shown unitOf = .ok ub) (h₃ : dimsOf a.name = .ok da)
    (h₄ : dimsOf b.name = .ok db) (h₅ : paramsOf a.name = .ok pa) (h₆ : paramsOf b.name = .ok pb) (hp : pb.Nodup) :
    ∃ r, Observable.equal ueq deq unitOf dimsOf paramsOf a b = .ok r ∧
      (r = true ↔ ueq ua ub = true ∧ deq da db = true ∧ pa.Perm pb) := by
  have hw : Observable.equal ueq deq unitOf dimsOf paramsOf a b = Observable.equal ueq deq unitOf dimsOf paramsOf
      ⟨a.name, some ua⟩ ⟨b.name, some ub⟩ := by
    obtain ⟨na, xa⟩ := a
    obtain ⟨nb, xb⟩ := b
    unfold Observable.shown at h₁ h₂
    unfold Observable.equal
    cases xa <;> cases xb <;> simp only at h₁ h₂ <;> simp_all only [Except.ok.injEq]
  rw [hw]
  unfold Observable.equal
  simp only [h₃, h₄, h₅, h₆, bind, Except.bind, pure, Except.pure]
  cases hu : ueq ua ub with
  | false => exact ⟨false, by simp, by simp⟩
  | true =>
    cases hd : deq da db with
    | false => exact ⟨false, by simp, by simp⟩
    | true =>
      refine ⟨paramEq pa (.params pb), by simp, ?_⟩
      rw [paramEq_params_iff _ _ hp]; simp

/-- The radial and the azimuthal component of the magnetic field. -/
def fieldContext (n : Str) : Option (Known Str) :=
  if n = c!"Br" ∨ n = c!"Bphi" then some ⟨c!"T", [c!"time", c!"shell"], none⟩ else none

/-- The terms of the names used below. -/
def fieldTerms (n : Str) : Res (List Str) := if n = c!"Br * Bphi" then .ok [c!"Br", c!"Bphi"] else .ok [n]

/-- **C187, violated.** Different quantities are equal, such as two components of the magnetic field, since neither the name nor
the context is compared. -/
theorem c187_counterexample :
    Observable.equal (fun u v => decide (u = v)) (fun c d => decide (c = d)) (fun n => .ok (((fieldContext n).map (·.unit)).getD []))
      (fun n => .ok (((fieldContext n).map (·.dimensions)).getD [])) (getParameters fieldContext fieldTerms)
      ⟨c!"Br", none⟩ ⟨c!"Bphi", none⟩ = .ok true := by decide +kernel

/-- **C187, violated.** The parameters of a product of quantities cannot be determined, whatever the context: comparing it with
itself raises `TypeError`. -/
theorem c187_product_counterexample (known : Str → Option (Known U)) (terms : Str → Res (List Str)) (name : Str)
    (hn : known name = none) (b₁ b₂ : Str) (bs : List Str) (ht : terms name = .ok (b₁ :: b₂ :: bs)) (ueq : U → U → Bool)
    (hu : ∀ u, ueq u u = true) (deq : List Str → List Str → Bool) (hd : ∀ d, deq d d = true) (unitOf : Str → Res U)
    (dimsOf : Str → Res (List Str)) (u : U) (d : List Str) (h₁ : unitOf name = .ok u) (h₂ : dimsOf name = .ok d) :
    getParameters known terms name = .error .typeError ∧
    Observable.equal ueq deq unitOf dimsOf (getParameters known terms) ⟨name, none⟩ ⟨name, none⟩ = .error .typeError := by
  have hp : getParameters known terms name = .error .typeError := by
    unfold getParameters
    simp only [hn, Option.bind_none, ht, bind, Except.bind]
  refine ⟨hp, ?_⟩
  unfold Observable.equal
  simp only [h₁, h₂, hp, hu, hd, bind, Except.bind, pure, Except.pure, not_true_eq_false, if_false]

example : fieldTerms c!"Br * Bphi" = .ok [c!"Br", c!"Bphi"] ∧ fieldContext c!"Br * Bphi" = none := by decide +kernel

end

/-! ## C188: an observation lists its assumptions -/

/-- Specification: the value of `key` depends on the constant `c`. -/
inductive Depends (N : Names) : Str → Str → Prop
  | direct {key c : Str} {args : List Str} (hv : key ∉ N.arrays) (hf : N.functions.get? key = some args) (hc : c ∈ args)
      (ho : N.observable c = false) (hk : c ∈ N.constants) : Depends N key c
  | through {key p c : Str} {args : List Str} (hv : key ∉ N.arrays) (hf : N.functions.get? key = some args) (hp : p ∈ args)
      (hd : Depends N p c) : Depends N key c

theorem mem_reported (N : Names) (key c : Str) :
    c ∈ N.reported key ↔ key ∉ N.arrays ∧ ∃ args, N.functions.get? key = some args ∧ c ∈ args ∧ c ∈ N.constants := by
  unfold Names.reported
  split
  · next h => exact ⟨fun hc => (by cases hc), fun hc => absurd h hc.1⟩
  · next h =>
    cases hg : N.functions.get? key with
    | none => exact ⟨fun hc => (by cases hc), fun hc => by obtain ⟨_, _, hc, _⟩ := hc; cases hc⟩
    | some args =>
      simp only [newParameters, mem_unique, List.mem_filter, decide_eq_true_eq, Option.some.injEq]
      exact ⟨fun hc => ⟨h, args, rfl, hc⟩, fun ⟨_, _, he, hc⟩ => he ▸ hc⟩

/-- **C188.** The parameters that an observation lists are assumptions on which its value depends; they are all of them if no
argument of the function depends on a constant itself.  Constants are not also names of variables or functions. -/
theorem c188_partial (N : Names) (hN : ∀ c ∈ N.constants, N.observable c = false) (key c : Str) :
    (c ∈ N.reported key → Depends N key c) ∧
    ((∀ args, N.functions.get? key = some args → ∀ p ∈ args, ∀ c', ¬ Depends N p c') →
      (c ∈ N.reported key ↔ Depends N key c)) := by
  have h1 : c ∈ N.reported key → Depends N key c := by
    intro h
    obtain ⟨hv, args, hf, hc, hk⟩ := (mem_reported N key c).1 h
    exact .direct hv hf hc (hN c hk) hk
  refine ⟨h1, fun hargs => ⟨h1, ?_⟩⟩
  intro h
  cases h with
  | direct hv hf hc ho hk => exact (mem_reported N key c).2 ⟨hv, _, hf, hc, hk⟩
  | through hv hf hp hd => exact absurd hd (hargs _ hf _ hp c)

/-- **C188.** A product lists the parameters of all its factors. -/
theorem c188_product (order : List Str → List Str) (ho : SetOrder order) (N : Names) (bases : List Str) (c : Str) :
    c ∈ N.build order bases ↔ ∃ b ∈ bases, c ∈ N.reported b := by
  cases bases with
  | nil => simp [Names.build]
  | cons base rest =>
    unfold Names.build
    have key : ∀ (l : List Str) (acc : List Str),
        c ∈ l.foldl (fun acc b => merge order acc [some (N.reported b)]) acc ↔ c ∈ acc ∨ ∃ b ∈ l, c ∈ N.reported b := by
      intro l
      induction l with
      | nil => intro acc; simp
      | cons b l ih =>
        intro acc
        rw [List.foldl_cons, ih, mem_merge ho]
        have h1 : (∃ d, some d ∈ [some (N.reported b)] ∧ c ∈ d) ↔ c ∈ N.reported b := by simp
        rw [h1]
        simp only [List.mem_cons, exists_eq_or_imp]
        exact or_assoc
    rw [key]
    simp

/-- The names known for a stream with all registered functions, and the constants that they use. -/
def streamNames : Names where
  arrays := (Shapes.underAllNames Shapes.baseVariables).map (·.1)
  functions := (Shapes.underAllNames Shapes.registry).map (fun e => (e.1, e.2.parameters))
  constants := [c!"lambda0", c!"mfp_radial_power", c!"rigidity_power", c!"kper_kpar", c!"minimum_energy"]

/-- **C188, violated.** The acceleration rate is computed from the mean free path, which depends on `lambda0`; but an observation of
the acceleration rate lists the ratio of diffusion coefficients only. -/
theorem c188_counterexample :
    Depends streamNames c!"acceleration_rate" c!"lambda0" ∧
    streamNames.reported c!"acceleration_rate" = [c!"kper_kpar"] ∧ c!"lambda0" ∈ streamNames.constants := by
  refine ⟨?_, by decide +kernel, by decide⟩
  refine .through (p := c!"mfp") (by decide +kernel) (by decide +kernel) (args := [c!"vr", c!"vtheta", c!"vphi", c!"vparticle", c!"angle", c!"mfp", c!"kper_kpar"]) (by decide) ?_
  exact .direct (by decide +kernel) (args := [c!"r", c!"energy", c!"mass", c!"charge", c!"mfp_radial_power", c!"rigidity_power", c!"lambda0"]) (by decide +kernel) (by decide) (by decide +kernel) (by decide)

example : streamNames.reported c!"mean_free_path" = [c!"mfp_radial_power", c!"rigidity_power", c!"lambda0"] := by
  decide +kernel

end Verif.Results
