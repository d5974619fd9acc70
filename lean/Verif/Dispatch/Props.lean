import Mathlib.Tactic.SplitIfs
import Mathlib.Tactic.Tauto
import Verif.Dispatch.Model
import Verif.Arrays.AxisProps

/-!
# Numpy functions of arrays: C255, C256 and C257
-/

set_option linter.unusedSimpArgs false

namespace Verif.Dispatch

open Verif.Py Verif.Arrays
open Verif.Metadata (Str)

variable {C F I : Type} [DecidableEq C] [DecidableEq F]
set_option linter.unusedSectionVars false

/-! ## Specification -/

/-- The last registration of a function for a class among those that satisfy `p`. -/
def lastFor (p : C → Bool) (f : F) (h : List (Registration C F I)) : Option I :=
  h.reverse.findSome? (fun r => if p r.1 ∧ r.2.1 = f then some r.2.2 else none)

/-- The implementation that a user expects for a class: that of the first class in the method resolution order for which the
function has been implemented. -/
def expected (H : Classes C) (h : List (Registration C F I)) (c : C) (f : F) : Option I :=
  (H.mro c).findSome? (fun d => lastFor (· = d) f h)

/-! ## C255: implementing a function for a class -/

theorem lastFor_cons (p : C → Bool) (f : F) (r : Registration C F I) (h : List (Registration C F I)) :
    lastFor p f (r :: h) = (lastFor p f h).or (if p r.1 ∧ r.2.1 = f then some r.2.2 else none) := by
  simp only [lastFor, List.reverse_cons, List.findSome?_append]
  congr 1
  simp only [List.findSome?_cons, List.findSome?_nil]
  split <;> simp_all

theorem get_implementAll (H : Classes C) : ∀ (h : List (Registration C F I)) (t t' : Tables C F I),
    implementAll H t h = .ok t' → ∀ o f, t'.get? (o, f) =
      (lastFor (fun d => H.owner d = some o) f h).or (t.get? (o, f))
  | [], t, t', e, o, f => by
    simp only [implementAll, Except.ok.injEq] at e
    subst e
    simp [lastFor]
  | (c, g, i) :: rest, t, t', e, o, f => by
    simp only [implementAll, implement] at e
    cases ho : H.owner c with
    | none => simp [ho, bind, Except.bind] at e
    | some p =>
      simp only [ho, bind, Except.bind] at e
      rw [get_implementAll H rest _ _ e o f, lastFor_cons, Option.or_assoc]
      congr 1
      rw [Dict.get?_set]
      by_cases hp : p = o ∧ g = f
      · obtain ⟨rfl, rfl⟩ := hp
        simp [ho]
      · have : ¬ ((p, g) = (o, f)) := by simpa using hp
        have h2 : ¬ ((o, f) = (p, g)) := fun x => this x.symm
        have h3 : ¬ (H.owner c = some o ∧ g = f) := by
          rw [ho]; simpa using hp
        simp [this, h2, h3, ho, hp]

/-- **C255 (what happens).** After any registrations, the implementation used for a class is the last one that was registered
for any class which shares the dictionary. -/
theorem c255_exact (H : Classes C) (h : List (Registration C F I)) (t : Tables C F I)
    (e : implementAll H [] h = .ok t) (c o : C) (ho : H.owner c = some o) (f : F) :
    handled H t c f = lastFor (fun d => H.owner d = H.owner c) f h := by
  simp only [handled, ho, Option.bind_some]
  rw [get_implementAll H h [] t e o f]
  simp [Dict.get?]

/-- **C255 (partial).** If functions are only implemented for classes with a dictionary of their own, and no class inherits from
two of these, then each class uses the implementation that a user expects. Missing: implementing a function for a class without
a dictionary of its own, which is what goats does. -/
theorem c255_partial (H : Classes C) (h : List (Registration C F I)) (t : Tables C F I)
    (e : implementAll H [] h = .ok t) (own : ∀ r ∈ h, H.owns r.1 = true) (self : ∀ c, (H.mro c).head? = some c)
    (single : ∀ c, ∀ d ∈ H.mro c, ∀ d' ∈ H.mro c, H.owns d = true → H.owns d' = true → d = d')
    (c o : C) (ho : H.owner c = some o) (f : F) : handled H t c f = expected H h c f := by
  have hmem : o ∈ H.mro c := List.mem_of_find?_eq_some ho
  have hown : H.owns o = true := by
    have := List.find?_some ho
    simpa using this
  have howner : ∀ d, H.owns d = true → H.owner d = some d := by
    intro d hd
    unfold Classes.owner
    have := self d
    cases hm : H.mro d with
    | nil => simp [hm] at this
    | cons x xs =>
      simp only [hm, List.head?_cons, Option.some.injEq] at this
      subst this
      simp [hd]
  have key : lastFor (fun d => H.owner d = H.owner c) f h = lastFor (fun d => d = o) f h := by
    unfold lastFor
    have hcongr : ∀ (l : List (Registration C F I)), (∀ r ∈ l, H.owns r.1 = true) →
        l.findSome? (fun r => if (decide (H.owner r.1 = H.owner c)) = true ∧ r.2.1 = f then some r.2.2 else none) =
        l.findSome? (fun r => if (decide (r.1 = o)) = true ∧ r.2.1 = f then some r.2.2 else none) := by
      intro l
      induction l with
      | nil => intro _; rfl
      | cons r l ih =>
        intro hl
        have h1 := howner r.1 (hl r (by simp))
        have ih' := ih (fun r hr => hl r (List.mem_cons_of_mem _ hr))
        simp only [ho, decide_eq_true_eq] at ih'
        simp only [List.findSome?_cons, h1, ho, Option.some.injEq, decide_eq_true_eq]
        rw [ih']
    exact hcongr _ (fun r hr => own r (by simpa using hr))
  rw [c255_exact H h t e c o ho f, key]
  unfold expected
  have hnone : ∀ d, H.owns d = false → lastFor (fun x => decide (x = d)) f h = none := by
    intro d hd
    unfold lastFor
    rw [List.findSome?_eq_none_iff]
    intro r hr
    have := own r (by simpa using hr)
    have hne : r.1 ≠ d := by rintro rfl; simp [hd] at this
    simp [hne]
  have hmro : ∀ l : List C, (∀ d ∈ l, H.owns d = true → d = o) → o ∈ l →
      l.findSome? (fun d => lastFor (fun x => decide (x = d)) f h) = lastFor (fun x => decide (x = o)) f h := by
    intro l
    induction l with
    | nil => intro _ hm; simp at hm
    | cons d l ih =>
      intro hl hm
      rw [List.findSome?_cons]
      by_cases hdo : d = o
      · subst hdo
        cases hlf : lastFor (fun x => decide (x = d)) f h with
        | some i => rfl
        | none =>
          simp only []
          rw [List.findSome?_eq_none_iff]
          intro d' hd'
          by_cases ho' : H.owns d' = true
          · rw [hl d' (List.mem_cons_of_mem _ hd') ho', hlf]
          · exact hnone d' (by simpa using ho')
      · have : H.owns d = false := by
          by_contra hc
          exact hdo (hl d (by simp) (by simpa using hc))
        rw [hnone d this]
        exact ih (fun d' hd' => hl d' (List.mem_cons_of_mem _ hd')) (by
          rcases List.mem_cons.1 hm with h' | h'
          · exact absurd h'.symm hdo
          · exact h')
  exact (hmro _ (fun d hd hod => single c d hd o hmem hod hown) hmem).symm

/-- **C255 (other modules).** Implementing a function for a class changes neither other functions nor classes with another
dictionary. -/
theorem c255_other (H : Classes C) (t t' : Tables C F I) (d : C) (f : F) (i : I) (e : implement H t d f i = .ok t')
    (c : C) (g : F) (h : H.owner c ≠ H.owner d ∨ g ≠ f) : handled H t' c g = handled H t c g := by
  unfold implement at e
  cases hd : H.owner d with
  | none => simp [hd] at e
  | some p =>
    simp only [hd, Except.ok.injEq] at e
    subst e
    unfold handled
    cases hc : H.owner c with
    | none => rfl
    | some o =>
      simp only [Option.bind_some, Dict.get?_set]
      have : ¬ (p = o ∧ f = g) := by
        rintro ⟨rfl, rfl⟩
        rcases h with h | h
        · exact h (by rw [hc, hd])
        · exact h rfl
      have h2 : ¬ (o = p ∧ g = f) := fun x => this ⟨x.1.symm, x.2.symm⟩
      simp [this, h2]

/-- The dictionaries of goats, computed. -/
theorem tables_eq : tables = .ok [((.varArray, .squeeze), c!"_squeeze"), ((.varArray, .mean), c!"_mean")] := by
  decide +kernel

/-- **C255 is false.** `_squeeze` and `_mean`, registered for `variable.Quantity`, are used for `variable.Array` as well, which has
no names of axes: there `numpy.squeeze`, and `numpy.mean` over an axis, raise `AttributeError`. -/
theorem c255_counterexample : ∃ t, tables = .ok t ∧ expected classes registrations .varArray .squeeze = none ∧
    handled classes t .varArray .squeeze = some c!"_squeeze" ∧
    (∀ dims shape, squeeze t ⟨.varArray, dims, shape⟩ = .error .attributeError) ∧
    (∀ dims shape k s, numpyMean shape ⟨none, some k, false⟩ = .ok s →
      mean t ⟨.varArray, dims, shape⟩ ⟨none, some k, false⟩ = .error .attributeError) := by
  refine ⟨_, tables_eq, by decide +kernel, by decide +kernel, ?_, ?_⟩
  · intro dims shape
    have : route [((.varArray, .squeeze), c!"_squeeze"), ((.varArray, .mean), c!"_mean")] [Cls.varArray] .squeeze =
        .ok (.by c!"_squeeze") := by decide +kernel
    simp [squeeze, this, bind, Except.bind, squeezeImpl, Obj.names]
  · intro dims shape k s hs
    have : route [((.varArray, .squeeze), c!"_squeeze"), ((.varArray, .mean), c!"_mean")] [Cls.varArray] .mean =
        .ok (.by c!"_mean") := by decide +kernel
    simp only [numpyMean] at hs
    simp [mean, this, bind, Except.bind, meanImpl, Obj.names, hs]

/-- A hierarchy that meets the hypotheses of `c255_partial`, with the base classes of goats. -/
example : ∃ t, implementAll classes [] [(Cls.varArray, Func.mean, c!"m"), (Cls.physArray, Func.mean, c!"p")] = .ok t ∧
    handled classes t .obsQuantity .mean = some c!"m" ∧ handled classes t .physArray .mean = some c!"p" ∧
    (∀ c, ∀ d ∈ classes.mro c, ∀ d' ∈ classes.mro c, classes.owns d = true → classes.owns d' = true → d = d') := by
  refine ⟨_, rfl, by decide +kernel, by decide +kernel, ?_⟩
  intro c
  cases c <;> decide +kernel

/-! ## C256: arguments of `numpy.mean` and `numpy.squeeze` -/

/-- The dictionaries of goats. -/
def actual : Tables Cls Func Str := [((.varArray, .squeeze), c!"_squeeze"), ((.varArray, .mean), c!"_mean")]

theorem tables_actual : tables = .ok actual := tables_eq

theorem mean_quantity (o : Obj) (args : Args) (hc : o.cls = .varQuantity ∨ o.cls = .obsQuantity) :
    mean actual o args = meanImpl (some o.dims) o.shape args := by
  have h1 : route actual [Cls.varQuantity] .mean = .ok (.by c!"_mean") := by decide +kernel
  have h2 : route actual [Cls.obsQuantity] .mean = .ok (.by c!"_mean") := by decide +kernel
  have hn : o.names = some o.dims := by simp [Obj.names, hc]
  rcases hc with hc | hc
  · simp [mean, hc, h1, hn, bind, Except.bind]
  · simp [mean, hc, h2, hn, bind, Except.bind]

theorem squeeze_quantity (o : Obj) (hc : o.cls = .varQuantity ∨ o.cls = .obsQuantity) :
    squeeze actual o = squeezeImpl (some o.dims) o.shape := by
  have h1 : route actual [Cls.varQuantity] .squeeze = .ok (.by c!"_squeeze") := by decide +kernel
  have h2 : route actual [Cls.obsQuantity] .squeeze = .ok (.by c!"_squeeze") := by decide +kernel
  have hn : o.names = some o.dims := by simp [Obj.names, hc]
  rcases hc with hc | hc
  · simp [squeeze, hc, h1, hn, bind, Except.bind]
  · simp [squeeze, hc, h2, hn, bind, Except.bind]

/-- **C256 (partial).** For quantities with distinct names, `numpy.mean` without an axis, or with a non-negative axis given by
keyword and without `keepdims`, has a result exactly if it has one for the numbers alone, and the shape is the same; so has
`numpy.squeeze`. Missing: an axis given by position, negative axes, `keepdims`, and arrays without names. -/
theorem c256_partial (o : Obj) (hc : o.cls = .varQuantity ∨ o.cls = .obsQuantity) (hn : o.dims.Nodup)
    (hl : o.dims.length = o.shape.length) :
    (∀ keep, (mean actual o ⟨none, none, keep⟩).map Given.shape = numpyMean o.shape ⟨none, none, keep⟩) ∧
    (∀ k : Nat, (mean actual o ⟨none, some k, false⟩).map Given.shape = numpyMean o.shape ⟨none, some k, false⟩) ∧
    (squeeze actual o).map Given.shape = squeezeShape o.shape none := by
  refine ⟨?_, ?_, ?_⟩
  · intro keep
    rw [mean_quantity o _ hc]
    simp [meanImpl, reduceShape, numpyMean, bind, Except.bind, pure, Except.pure, Except.map, Given.shape]
  · intro k
    rw [mean_quantity o _ hc]
    by_cases hk : k < o.dims.length
    · have h := (c45_partial o.dims o.shape hn hl).1 k hk
      unfold Arrays.mean at h
      simp only [meanImpl, reduceShape, numpyMean]
      cases hm : meanShape o.shape (k : Int) with
      | error x => simp [hm, bind, Except.bind] at h
      | ok s =>
        simp only [hm, bind, Except.bind] at h
        simp only [bind, Except.bind, pure, Except.pure, Bool.false_eq_true, if_false, h, Except.map, Given.shape]
        have : s = o.shape.eraseIdx k := by
          unfold meanShape at hm
          rw [if_neg (show ¬ (k : Int) < 0 by omega), if_pos (by omega)] at hm
          simpa using hm.symm
        rw [this]
    · have : meanShape o.shape (k : Int) = .error (.named "AxisError") := by
        unfold meanShape
        rw [if_neg (show ¬ (k : Int) < 0 by omega), if_neg (by omega)]
      simp [meanImpl, reduceShape, numpyMean, this, bind, Except.bind, Except.map]
  · rw [squeeze_quantity o hc]
    obtain ⟨ds, ss, h, hlen, hz⟩ := (c45_partial o.dims o.shape hn hl).2
    have hs : squeezeShape o.shape none = .ok ss := by
      unfold Arrays.squeeze at h
      simp only [squeezeShape, bind, Except.bind, named] at h ⊢
      split_ifs at h with h1 h2 h2
      · simp only [Except.ok.injEq, Prod.mk.injEq] at h
        rw [h.2]
      · simp only [Except.ok.injEq, Prod.mk.injEq] at h
        rw [h.2]
    simp [squeezeImpl, h, hs, bind, Except.bind, pure, Except.pure, Except.map, Given.shape]

/-- **C256 (the names).** The result has the names of the other axes. -/
theorem c256_names (o : Obj) (hc : o.cls = .varQuantity ∨ o.cls = .obsQuantity) (hn : o.dims.Nodup)
    (hl : o.dims.length = o.shape.length) (k : Nat) (hk : k < o.dims.length) :
    mean actual o ⟨none, some k, false⟩ = .ok (.quantity (o.dims.eraseIdx k) (o.shape.eraseIdx k)) := by
  rw [mean_quantity o _ hc]
  have h := (c45_partial o.dims o.shape hn hl).1 k hk
  unfold Arrays.mean at h
  simp only [meanImpl, reduceShape]
  cases hm : meanShape o.shape (k : Int) with
  | error x => simp [hm, bind, Except.bind] at h
  | ok s =>
    simp only [hm, bind, Except.bind] at h
    simp only [bind, Except.bind, pure, Except.pure, Bool.false_eq_true, if_false, h]

/-- **C256 is false.** For every quantity of two axes or more and every axis for which numpy computes the mean of the numbers: the
axis given by position raises `TypeError`; with `keepdims`, and as a negative number, it raises `ValueError`. -/
theorem c256_counterexample (o : Obj) (hc : o.cls = .varQuantity ∨ o.cls = .obsQuantity) (hn : o.dims.Nodup)
    (hl : o.dims.length = o.shape.length) (h2 : 2 ≤ o.dims.length) (k : Nat) (hk : k < o.dims.length) :
    (∃ s, numpyMean o.shape ⟨some k, none, false⟩ = .ok s) ∧
    mean actual o ⟨some k, none, false⟩ = .error .typeError ∧
    (∃ s, numpyMean o.shape ⟨none, some k, true⟩ = .ok s) ∧
    mean actual o ⟨none, some k, true⟩ = .error .valueError ∧
    (∃ s, numpyMean o.shape ⟨none, some ((k : Int) - o.dims.length), false⟩ = .ok s) ∧
    mean actual o ⟨none, some ((k : Int) - o.dims.length), false⟩ = .error .valueError := by
  have hms : meanShape o.shape (k : Int) = .ok (o.shape.eraseIdx k) := by
    unfold meanShape
    rw [if_neg (show ¬ (k : Int) < 0 by omega), if_pos (by omega)]
    simp
  have hmn : meanShape o.shape ((k : Int) - o.dims.length) = .ok (o.shape.eraseIdx k) := by
    unfold meanShape
    rw [if_pos (show (k : Int) - o.dims.length < 0 by omega), if_pos (by omega)]
    congr 2
    omega
  have hf : o.dims.filter (fun a => ((o.dims.idxOf a : Nat) : Int) ≠ (k : Int)) = o.dims.eraseIdx k := by
    have h := (c45_partial o.dims o.shape hn hl).1 k hk
    unfold Arrays.mean at h
    simp only [hms, bind, Except.bind, named] at h
    have hlen : (o.dims.eraseIdx k).length = o.dims.length - 1 := by rw [List.length_eraseIdx]; simp [hk]
    split_ifs at h with h1 h3 h3
    · simp only [Except.ok.injEq, Prod.mk.injEq] at h
      rw [← hn.erase_getElem k hk, hn.erase_eq_filter]
      refine List.filter_congr (fun a ha => ?_)
      have : o.dims.idxOf a = k ↔ a = o.dims[k] := by
        constructor
        · intro h
          subst h
          simp
        · rintro rfl
          exact hn.idxOf_getElem k hk
      have h' : ((o.dims.idxOf a : Nat) : Int) = (k : Int) ↔ a = o.dims[k] := by rw [Nat.cast_inj, this]
      rw [Bool.eq_iff_iff]
      simp only [decide_eq_true_eq, ne_eq, h', bne_iff_ne]
    · simp only [Except.ok.injEq, Prod.mk.injEq] at h
      exact h.1
  have hfn : o.dims.filter (fun a => ((o.dims.idxOf a : Nat) : Int) ≠ (k : Int) - o.dims.length) = o.dims := by
    rw [List.filter_eq_self]
    intro a _
    simp only [decide_eq_true_eq, ne_eq]
    omega
  refine ⟨⟨_, by simp [numpyMean, reduceShape, hms, bind, Except.bind, pure, Except.pure]; rfl⟩, ?_,
    ⟨_, by simp [numpyMean, reduceShape, hms, bind, Except.bind, pure, Except.pure]; rfl⟩, ?_,
    ⟨_, by simp [numpyMean, reduceShape, hmn, bind, Except.bind, pure, Except.pure]; rfl⟩, ?_⟩
  · rw [mean_quantity o _ hc]
    rfl
  · rw [mean_quantity o _ hc]
    simp only [meanImpl, reduceShape, hms, bind, Except.bind, pure, Except.pure, if_true]
    rw [hf]
    have hlen : (o.dims.eraseIdx k).length = o.dims.length - 1 := by rw [List.length_eraseIdx]; simp [hk]
    have hne : o.dims.eraseIdx k ≠ [] := by
      intro h
      rw [h] at hlen
      simp at hlen
      omega
    unfold named
    simp only [hne, if_false]
    rw [if_neg (by rw [hlen, List.length_set]; omega)]
  · rw [mean_quantity o _ hc]
    simp only [meanImpl, reduceShape, hmn, bind, Except.bind, pure, Except.pure, Bool.false_eq_true, if_false]
    rw [hfn]
    have hne : o.dims ≠ [] := by
      intro h
      rw [h] at h2
      simp at h2
    unfold named
    simp only [hne, if_false]
    rw [if_neg (by rw [List.length_eraseIdx]; simp [← hl, hk]; omega)]

example : mean actual ⟨.obsQuantity, [c!"time", c!"shell"], [5, 3]⟩ ⟨none, some 0, false⟩ =
      .ok (.quantity [c!"shell"] [3]) ∧
    mean actual ⟨.obsQuantity, [c!"time", c!"shell"], [5, 3]⟩ ⟨none, none, false⟩ = .ok (.numbers []) ∧
    mean actual ⟨.varQuantity, [c!"time"], [5]⟩ ⟨none, some 0, true⟩ = .ok (.quantity [c!"x0"] [1]) ∧
    squeeze actual ⟨.varQuantity, [c!"time", c!"shell"], [1, 3]⟩ = .ok (.quantity [c!"shell"] [3]) := by
  decide +kernel

/-! ## C257: functions of several arrays -/

/-- The classes of the module `variable` and those derived from them. -/
def IsVar (c : Cls) : Prop := c = .varArray ∨ c = .varQuantity ∨ c = .obsQuantity

instance (c : Cls) : Decidable (IsVar c) := by unfold IsVar; infer_instance

theorem accepts_iff (c d : Cls) : accepts c d = true ↔
    d = .ndarray ∨ (IsVar c ∧ IsVar d) ∨ (c = .physArray ∧ d = .physArray) := by
  cases c <;> cases d <;> decide +kernel

theorem handled_var (t : Tables Cls Func Str) (c : Cls) (f : Func) (h : IsVar c) :
    handled classes t c f = t.get? (.varArray, f) := by
  rcases h with rfl | rfl | rfl <;> rfl

theorem handled_phys (t : Tables Cls Func Str) (f : Func) :
    handled classes t .physArray f = t.get? (.physArray, f) := rfl

/-- **C257 (partial).** A numpy function of arrays of numpy and arrays of one of the modules `variable` and `physical` is computed
— by numpy, or by the function that is registered in that module, whatever the order of the arguments. Missing: arrays of both
modules. -/
theorem c257_partial (t : Tables Cls Func Str) (types : List Cls) (f : Func) :
    ((∀ c ∈ types, c = .ndarray ∨ IsVar c) → (∃ c ∈ types, c ≠ .ndarray) → route t types f =
      .ok (match t.get? (.varArray, f) with | some i => .by i | none => .plain)) ∧
    ((∀ c ∈ types, c = .ndarray ∨ c = .physArray) → (∃ c ∈ types, c ≠ .ndarray) → route t types f =
      .ok (match t.get? (.physArray, f) with | some i => .by i | none => .plain)) := by
  have common : ∀ (P : Cls → Prop), (∀ c d, P c → (d = .ndarray ∨ P d) → accepts c d = true) →
      (∀ c ∈ types, c = .ndarray ∨ P c) → (∃ c ∈ types, c ≠ .ndarray) →
      ∃ c, P c ∧ route t types f = (match handled classes t c f with | some i => .ok (.by i) | none => .ok .plain) := by
    intro P hP hall ⟨c, hc, hne⟩
    have hnot : types.all (fun x => decide (x = Cls.ndarray)) = false := by
      rw [List.all_eq_false]
      exact ⟨c, hc, by simpa using hne⟩
    cases hr : responder types with
    | none =>
      exfalso
      unfold responder at hr
      rw [List.find?_eq_none] at hr
      refine hr c (by simp [hc, hne]) ?_
      rw [List.all_eq_true]
      intro d hd
      exact hP c d ((hall c hc).resolve_left hne) (hall d hd)
    | some e =>
      have hm := List.mem_of_find?_eq_some hr
      simp only [List.mem_filter, decide_eq_true_eq] at hm
      refine ⟨e, (hall e hm.1).resolve_left hm.2, ?_⟩
      unfold route
      rw [hnot]
      simp only [Bool.false_eq_true, if_false, hr]
      cases handled classes t e f <;> rfl
  constructor
  · intro hall hex
    obtain ⟨c, hc, h⟩ := common IsVar (fun c d hc hd => (accepts_iff c d).2 (by tauto)) hall hex
    rw [h, handled_var t c f hc]
    cases t.get? (.varArray, f) <;> rfl
  · intro hall hex
    obtain ⟨c, hc, h⟩ := common (· = .physArray) (fun c d hc hd => (accepts_iff c d).2 (by tauto)) hall hex
    subst hc
    rw [h, handled_phys]
    cases t.get? (.physArray, f) <;> rfl

/-- **C257 is false.** Every numpy function raises `TypeError` if there are arrays of both modules among its arguments, such as
`numpy.trapz(observation.data, observation['time'])`: observed values are quantities of `variable`, the axes of an observation
are arrays of `physical`. -/
theorem c257_counterexample (t : Tables Cls Func Str) (types : List Cls) (f : Func) (c : Cls) (hc : c ∈ types) (hv : IsVar c)
    (hp : Cls.physArray ∈ types) : route t types f = .error .typeError := by
  have hnot : types.all (fun x => decide (x = Cls.ndarray)) = false := by
    rw [List.all_eq_false]
    exact ⟨_, hp, by simp⟩
  have hr : responder types = none := by
    unfold responder
    rw [List.find?_eq_none]
    intro d hd hall
    rw [List.all_eq_true] at hall
    have h1 := (accepts_iff d c).1 (hall c hc)
    have h2 := (accepts_iff d .physArray).1 (hall _ hp)
    simp only [List.mem_filter, decide_eq_true_eq] at hd
    rcases hv with rfl | rfl | rfl <;> simp [IsVar] at h1 h2 <;> simp_all
  unfold route
  rw [hnot]
  simp [hr]

example : route actual [.obsQuantity, .physArray] (.other c!"trapz") = .error .typeError ∧
    route actual [.obsQuantity, .ndarray] (.other c!"trapz") = .ok .plain ∧
    route actual [.ndarray, .varQuantity] .mean = .ok (.by c!"_mean") := by decide +kernel

end Verif.Dispatch
