import Verif.Metadata.Model
import Verif.Iterables.Props
import Verif.Symbolic.Props

/-!
# Properties C32, C33, C87-C91 of `metadata.py`
-/

set_option linter.unusedSimpArgs false
set_option linter.unusedSectionVars false

namespace Verif.Metadata

open Verif.Py Verif.Iterables

/-! ## C32: merging axis names -/

theorem mapM_asString (names : List Str) :
    (names.map (Obj.str (α := Unit))).mapM asString = some names := by
  induction names with
  | nil => rfl
  | cons n ns ih => simp [List.mapM_cons, asString, ih]

theorem mkDimensions_names (names : List Str) : mkDimensions (names.map .str) = .ok names := by
  unfold mkDimensions unwrapInto unwrap
  have h : wholeParse (unwrapLoop (.list [Obj.tuple (names.map (Obj.str (α := Unit)))]))
      = names.map .str := by
    rw [unwrapLoop]
    match names with
    | [] => simp [unwrapLoop, wholeParse]
    | [n] => simp [unwrapLoop, wholeParse]
    | a :: b :: r => simp [unwrapLoop, wholeParse]
  rw [h, mapM_asString]

/-- The axis names of an operand. -/
def namesOf : DimOperand → List Str
  | .dims ns => ns
  | _ => []

theorem foldl_names (others : List DimOperand) (a : List Str) :
    others.foldl extendNames a = a ++ (others.map namesOf).flatten := by
  induction others generalizing a with
  | nil => simp
  | cons b rest ih => cases b <;> simp [ih, namesOf, extendNames]

theorem mergeAll_eq (a : List Str) (others : List DimOperand) :
    mergeAll a others = .ok (unique (a ++ (others.map namesOf).flatten)) := by
  unfold mergeAll
  rw [foldl_names, mkDimensions_names]

theorem unique_append_unique_left {α : Type _} [DecidableEq α] (xs ys : List α) :
    unique (unique xs ++ ys) = unique (xs ++ ys) := by
  have h1 : unique xs = uniqueLoop [] xs := rfl
  have h2 : uniqueLoop [] (unique xs) = unique xs := unique_of_nodup (nodup_unique xs)
  unfold unique at *
  rw [uniqueLoop_append, uniqueLoop_append, h2]

theorem uniqueLoop_unique {α : Type _} [DecidableEq α] (acc ys : List α) :
    uniqueLoop acc (unique ys) = uniqueLoop acc ys := by
  induction ys using List.reverseRecOn with
  | nil => rfl
  | append_singleton ys y ih =>
    rw [unique_snoc, uniqueLoop_append, ← ih]
    by_cases h : y ∈ ys
    · rw [if_pos h]
      simp only [uniqueLoop]
      rw [if_pos]
      rw [mem_uniqueLoop]
      exact Or.inr ((mem_unique ys y).2 h)
    · rw [if_neg h, uniqueLoop_append]

theorem unique_append_unique_right {α : Type _} [DecidableEq α] (xs ys : List α) :
    unique (xs ++ unique ys) = unique (xs ++ ys) := by
  unfold unique
  rw [uniqueLoop_append, uniqueLoop_append]
  exact uniqueLoop_unique _ _

/-- **C32.** Merging succeeds; each name occurs once; the names are those of the operands, in order of
first appearance; merging is associative, idempotent, and has the empty list as identity. Operands
that are not `Dimensions` do not contribute. -/
theorem c32_merge (a b c : List Str) (others : List DimOperand) :
    (∃ r, mergeAll a others = .ok r ∧
      (∀ x, r.count x = if x ∈ a ++ (others.map namesOf).flatten then 1 else 0) ∧
      (∀ x y, x ∈ a ++ (others.map namesOf).flatten → y ∈ a ++ (others.map namesOf).flatten →
        (r.idxOf x < r.idxOf y ↔ (a ++ (others.map namesOf).flatten).idxOf x
          < (a ++ (others.map namesOf).flatten).idxOf y))) ∧
    (do mergeAll (← mergeAll a [.dims b]) [.dims c]) = (do mergeAll a [.dims (← mergeAll b [.dims c])]) ∧
    mergeAll a [.dims b, .dims c] = (do mergeAll (← mergeAll a [.dims b]) [.dims c]) ∧
    (a.Nodup → mergeAll a [.dims a] = .ok a ∧ mergeAll a [.dims []] = .ok a ∧
      mergeAll [] [.dims a] = .ok a ∧ mergeAll a [.number] = .ok a) := by
  have hbeq : (List.instBEq : BEq (List Char)) = instBEqOfDecidableEq := lawful_beq_subsingleton _ _
  refine ⟨⟨_, mergeAll_eq a others, ?_, ?_⟩, ?_, ?_, ?_⟩
  · intro x
    split
    · next h => exact List.count_eq_one_of_mem (nodup_unique _) ((mem_unique _ x).2 h)
    · next h => exact List.count_eq_zero.2 (fun h' => h ((mem_unique _ x).1 h'))
  · rw [hbeq]; exact (c01_unique _).2.1
  · simp only [mergeAll_eq, namesOf, List.map_cons, List.map_nil, List.flatten_cons,
      List.flatten_nil, List.append_nil, bind, Except.bind]
    rw [unique_append_unique_left, unique_append_unique_right, List.append_assoc]
  · simp only [mergeAll_eq, namesOf, List.map_cons, List.map_nil, List.flatten_cons,
      List.flatten_nil, List.append_nil, bind, Except.bind]
    rw [unique_append_unique_left, List.append_assoc]
  · intro h
    have hu := unique_of_nodup h
    refine ⟨?_, ?_, ?_, ?_⟩ <;>
      simp only [mergeAll_eq, namesOf, List.map_cons, List.map_nil, List.flatten_cons,
        List.flatten_nil, List.append_nil, List.nil_append, hu]
    congr 1
    have : unique (a ++ a) = uniqueLoop a a := by
      unfold unique
      rw [uniqueLoop_append, show uniqueLoop [] a = unique a from rfl, hu]
    rw [this]
    have key : ∀ (xs acc : List Str), (∀ x ∈ xs, x ∈ acc) → uniqueLoop acc xs = acc := by
      intro xs
      induction xs with
      | nil => intro acc _; rfl
      | cons x xs ih =>
        intro acc hx
        simp only [uniqueLoop]
        rw [if_pos (hx x (by simp))]
        exact ih acc (fun y hy => hx y (by simp [hy]))
    exact key a a (fun x hx => hx)

example : mergeAll [c!"t", c!"r"] [.dims [c!"r", c!"e"], .number, .dims [c!"t", c!"m"]]
    = .ok [c!"t", c!"r", c!"e", c!"m"] := by decide

theorem mapM_asString_none {args : List DimArg} {o : DimArg} (ho : o ∈ args) (hs : ∀ s, o ≠ .str s) :
    args.mapM asString = none := by
  induction args with
  | nil => cases ho
  | cons x xs ih =>
    rcases List.mem_cons.1 ho with rfl | h
    · cases o with
      | str s => exact absurd rfl (hs s)
      | _ => simp [List.mapM_cons, asString]
    · rw [List.mapM_cons, ih h]
      cases asString x <;> rfl

/-- **C32 (the operands).** Axes are made of names: two or more arguments among which there is anything but a string are
rejected with `TypeError`; strings are the names, in their order. -/
theorem c32_names (args : List DimArg) (h2 : 2 ≤ args.length) :
    (∀ names : List Str, args = names.map .str → mkDimensions args = .ok names) ∧
    ((∃ o ∈ args, ∀ s, o ≠ .str s) → mkDimensions args = .error .typeError) := by
  constructor
  · rintro names rfl
    exact mkDimensions_names names
  · rintro ⟨o, ho, hs⟩
    have hw : unwrapInto (.tuple args) = args := by
      unfold unwrapInto unwrap
      rw [unwrapLoop]
      match args, h2 with
      | a :: b :: r, _ => simp [unwrapLoop, wholeParse]
    unfold mkDimensions
    rw [hw, mapM_asString_none ho hs]

example : mkDimensions [.str c!"time", .atom ()] = .error .typeError
    ∧ mkDimensions [.str c!"time", .str c!"shell"] = .ok [c!"time", c!"shell"] := by
  constructor
  · exact (c32_names _ (by simp)).2 ⟨.atom (), by simp, by simp⟩
  · exact (c32_names _ (by simp)).1 _ rfl

/-! ## C87: equality of axis names -/

/-- **C87, violated.** Equality ignores order, so that equal objects have different hashes for every
hash function that distinguishes the two orders; it is not symmetric; and two axes equal the string
of their initials. -/
theorem c87_counterexample :
    (dimEq [c!"x", c!"y"] (.dims [c!"y", c!"x"]) = true ∧
      ∀ hash : List Str → Nat, Function.Injective hash →
        dimHash hash [c!"x", c!"y"] ≠ dimHash hash [c!"y", c!"x"]) ∧
    (dimEq [c!"x", c!"y"] (.dims [c!"x", c!"x"]) = true ∧
      dimEq [c!"x", c!"x"] (.dims [c!"x", c!"y"]) = false) ∧
    dimEq [c!"x", c!"y"] (.str c!"xy") = true := by
  refine ⟨⟨by decide, fun hash h heq => ?_⟩, by decide, by decide⟩
  exact absurd (h heq) (by decide)

/-- **C87.** For axes without duplicates: equality means that the names are the same up to order;
hence it is reflexive, symmetric and transitive. -/
theorem c87_partial (a b c : List Str) (ha : a.Nodup) (hb : b.Nodup) (hc : c.Nodup) :
    (dimEq a (.dims b) = true ↔ a.Perm b) ∧ dimEq a (.dims a) = true ∧
    (dimEq a (.dims b) = true → dimEq b (.dims a) = true) ∧
    (dimEq a (.dims b) = true → dimEq b (.dims c) = true → dimEq a (.dims c) = true) := by
  have key : ∀ x y : List Str, x.Nodup → y.Nodup → (dimEq x (.dims y) = true ↔ x.Perm y) := by
    intro x y hx hy
    unfold dimEq
    simp only [Bool.or_eq_true, decide_eq_true_eq, Bool.and_eq_true, List.all_eq_true]
    constructor
    · rintro (h | ⟨hl, hm⟩)
      · rw [h]
      · have hsub : y.Subperm x := List.subperm_of_subset hy hm
        exact (hsub.perm_of_length_le (by omega)).symm
    · intro h
      exact Or.inr ⟨h.length_eq.symm, fun z hz => h.mem_iff.2 hz⟩
  refine ⟨key a b ha hb, (key a a ha ha).2 (List.Perm.refl _), fun h => ?_, fun h1 h2 => ?_⟩
  · exact (key b a hb ha).2 ((key a b ha hb).1 h).symm
  · exact (key a c ha hc).2 (((key a b ha hb).1 h1).trans ((key b c hb hc).1 h2))

example : (([c!"time", c!"shell"] : List Str)).Nodup := by decide

/-! ## C88: sums require the same axes -/

/-- **C88, violated.** Axes in a different order are accepted, and the result has the order of the first
operand. -/
theorem c88_counterexample :
    dimAdd [c!"time", c!"shell"] (.dims [c!"shell", c!"time"]) = .ok [c!"time", c!"shell"] ∧
    dimAdd [c!"shell", c!"time"] (.dims [c!"time", c!"shell"]) = .ok [c!"shell", c!"time"] := by
  decide

/-- **C88.** A sum is accepted exactly if the axes are the same up to order, and then has the axes
of the first operand; otherwise `TypeError` is raised. Adding a number does not change the axes. -/
theorem c88_partial (a b : List Str) (ha : a.Nodup) (hb : b.Nodup) :
    (a.Perm b → dimAdd a (.dims b) = .ok a) ∧ (¬ a.Perm b → dimAdd a (.dims b) = .error .typeError)
      ∧ dimAdd a .number = .ok a := by
  have h := (c87_partial b a a hb ha ha).1
  refine ⟨?_, ?_, rfl⟩
  · intro hp
    have := h.2 hp.symm
    simp [dimAdd, this]
  · intro hp
    have : dimEq b (.dims a) = false := by
      rw [← Bool.not_eq_true]
      exact fun h' => hp (h.1 h').symm
    simp [dimAdd, this]

example : dimAdd [c!"time"] (.dims [c!"shell"]) = .error .typeError := by decide

/-! ## C33: supported and suppressed operand types -/

section
variable {τ : Type _} [DecidableEq τ]

/-- Types match a specification: equally many, and each is a subtype. -/
def Matches (sub : τ → τ → Bool) (types spec : List τ) : Prop :=
  List.Forall₂ (fun i j => sub i j = true) types spec

/-- The specifications of a declaration of support. -/
def Types.specs : Types τ → List (List τ)
  | .single ts => [ts]
  | .grouped gs => gs

/-- The history declares support for the types. -/
def Supported (sub : τ → τ → Bool) (h : List (Decl τ)) (types : List τ) : Prop :=
  ∃ ts s, Decl.support ts s ∈ h ∧ ∃ g ∈ ts.specs,
    Matches sub types g ∨ (s = true ∧ Matches sub types g.reverse)

/-- The history declares suppression of the types. -/
def Suppressed (sub : τ → τ → Bool) (h : List (Decl τ)) (types : List τ) : Prop :=
  ∃ ts s, Decl.suppress ts s ∈ h ∧ (Matches sub types ts ∨ (s = true ∧ Matches sub types ts.reverse))

/-- All specifications in the history have `n` types, and none is missing. -/
def Arity (n : Nat) (h : List (Decl τ)) : Prop :=
  (∀ ts s, Decl.support ts s ∈ h → ts.specs ≠ [] ∧ ∀ g ∈ ts.specs, g.length = n) ∧
  ∀ ts s, Decl.suppress ts s ∈ h → ts.length = n

theorem zipMatch_iff (sub : τ → τ → Bool) {types t : List τ} (h : t.length = types.length) :
    zipMatch sub types t = true ↔ Matches sub types t := by
  unfold zipMatch Matches
  induction types generalizing t with
  | nil => cases t <;> simp_all
  | cons x xs ih =>
    cases t with
    | nil => simp at h
    | cons y ys =>
      have := ih (t := ys) (by simpa using h)
      simp_all [List.forall₂_cons]

/-- What a declaration adds to the two sets. -/
def Decl.supportedSpecs : Decl τ → List (List τ)
  | .support ts s => ts.specs.flatMap (fun g => [g] ++ if s then [g.reverse] else [])
  | .suppress _ _ => []

def Decl.suppressedSpecs : Decl τ → List (List τ)
  | .support _ _ => []
  | .suppress ts s => [ts] ++ if s then [ts.reverse] else []

theorem supportLoop_spec (n : Nat) (s : Bool) (gs : List (List τ)) (op : Operation τ)
    (hg : ∀ g ∈ gs, g.length = n) (hn : op.nargs = none ∨ op.nargs = some n) :
    (op.supportLoop s gs).1 = { op with
      supported := op.supported ++ gs.flatMap (fun g => [g] ++ if s then [g.reverse] else [])
      nargs := if gs = [] then op.nargs else some n } := by
  induction gs generalizing op with
  | nil => simp [Operation.supportLoop]
  | cons g gs ih =>
    have hgn : g.length = n := hg g (by simp)
    have hget : op.nargs.getD g.length = n := by rcases hn with h | h <;> simp [h, hgn]
    have h1 : op.supportOne g s = .ok { op with
        supported := op.supported ++ [g] ++ (if s then [g.reverse] else [])
        nargs := some n } := by
      unfold Operation.supportOne
      simp only [hget]
      rw [if_neg (by simp [hgn])]
    rw [Operation.supportLoop, h1]
    simp only
    rw [ih _ (fun g' h' => hg g' (by simp [h'])) (Or.inr rfl)]
    by_cases hgs : gs = [] <;> simp [hgs, List.append_assoc]

theorem support_specs {n : Nat} (op : Operation τ) (ts : Types τ) (s : Bool) (hne : ts.specs ≠ [])
    (hg : ∀ g ∈ ts.specs, g.length = n) (hn : op.nargs = none ∨ op.nargs = some n)
    (h0 : ts ≠ .single []) :
    (op.support ts s).1 = { op with
      supported := op.supported ++ ts.specs.flatMap (fun g => [g] ++ if s then [g.reverse] else [])
      nargs := some n } := by
  have key := supportLoop_spec n s ts.specs op hg hn
  rw [if_neg hne] at key
  cases ts with
  | single ts =>
    cases ts with
    | nil => exact absurd rfl h0
    | cons t ts => exact key
  | grouped gs =>
    cases gs with
    | nil => exact absurd rfl hne
    | cons g gs => exact key

open Classical in
/-- The state after a history: the sets hold what was declared. -/
theorem run_state {n : Nat} (hn : n ≠ 0) (h : List (Decl τ)) (ha : Arity n h) (op : Operation τ)
    (hop : op.nargs = none ∨ op.nargs = some n) :
    let r := h.foldl Operation.declare op
    r.own = op.own ∧ r.supported = op.supported ++ h.flatMap Decl.supportedSpecs ∧
    r.suppressed = op.suppressed ++ h.flatMap Decl.suppressedSpecs ∧
    r.nargs = if (∃ ts s, Decl.support ts s ∈ h) then some n else op.nargs := by
  induction h generalizing op with
  | nil => simp
  | cons d h ih =>
    have ha' : Arity n h := ⟨fun ts s hm => ha.1 ts s (by simp [hm]), fun ts s hm => ha.2 ts s (by simp [hm])⟩
    simp only [List.foldl_cons]
    cases d with
    | support ts s =>
      have h1 := ha.1 ts s (by simp)
      have h0 : ts ≠ .single [] := by
        rintro rfl
        have := h1.2 [] (by simp [Types.specs])
        exact hn (by simpa using this.symm)
      have hs := support_specs op ts s h1.1 h1.2 hop h0
      have := ih ha' (op.declare (.support ts s)) (by rw [Operation.declare, hs]; exact Or.inr rfl)
      simp only [Operation.declare, hs] at this
      simp only [Operation.declare, hs]
      refine ⟨this.1, ?_, ?_, ?_⟩
      · rw [this.2.1]; simp [Decl.supportedSpecs, List.append_assoc]
      · rw [this.2.2.1]; simp [Decl.suppressedSpecs, List.flatMap_cons]
      · rw [this.2.2.2]
        have hex : ∃ ts' s', Decl.support ts' s' ∈ Decl.support ts s :: h := ⟨ts, s, by simp⟩
        rw [if_pos hex]
        split <;> rfl
    | suppress ts s =>
      have := ih ha' (op.declare (.suppress ts s)) hop
      simp only [Operation.declare, Operation.suppress] at this
      simp only [Operation.declare, Operation.suppress]
      refine ⟨this.1, ?_, ?_, ?_⟩
      · rw [this.2.1]; simp [Decl.supportedSpecs]
      · rw [this.2.2.1]; simp [Decl.suppressedSpecs, List.append_assoc]
      · rw [this.2.2.2]; simp

open Classical in
/-- **C33.** After every history of declarations whose specifications all have `n` types (`n` at
least one): an operation supports `n` operand types exactly if no suppression matches them and either a
declared support matches, or the type of the operation itself is among them. The order of the
declarations does not matter. Another number of operands is not supported once support is declared, and
a further declaration of support for another number of types is rejected and changes nothing; so is one
without any types. -/
theorem c33_partial (sub : τ → τ → Bool) (hsub : ∀ t, sub t t = true) (own : τ) (n : Nat) (hn : n ≠ 0)
    (h : List (Decl τ)) (ha : Arity n h) (types : List τ) :
    (types.length = n →
      ((h.foldl Operation.declare { own := own }).supports sub types = true ↔
        ¬ Suppressed sub h types ∧ (Supported sub h types ∨ own ∈ types))) ∧
    (types.length ≠ n → (∃ ts s, Decl.support ts s ∈ h) →
      (h.foldl Operation.declare { own := own }).supports sub types = false) ∧
    (types.length ≠ n → types ≠ [] → (∃ ts s, Decl.support ts s ∈ h) → ∀ symmetric,
      (h.foldl Operation.declare { own := own }).support (.single types) symmetric
        = (h.foldl Operation.declare { own := own }, some (.named "NTypesError"))) ∧
    (∀ ts symmetric, (ts = .single [] ∨ ts = .grouped []) →
      (h.foldl Operation.declare { own := own }).support ts symmetric
        = (h.foldl Operation.declare { own := own }, some .valueError)) := by
  obtain ⟨h1, h2, h3, h4⟩ := run_state hn h ha { own := own } (Or.inl rfl)
  simp only [List.nil_append] at h1 h2 h3 h4
  have hself : ∀ ts : List τ, zipMatch sub ts ts = true := by
    intro ts; rw [zipMatch_iff sub rfl]; unfold Matches
    exact List.forall₂_same.2 (fun x _ => hsub x)
  refine ⟨?_, ?_, fun hl h0 hd symmetric => ?_, fun ts s hts => by rcases hts with rfl | rfl <;> rfl⟩
  · intro hl
    have hsup : ((h.flatMap Decl.suppressedSpecs).any (zipMatch sub types) = true) ↔
        Suppressed sub h types := by
      simp only [List.any_eq_true, List.mem_flatMap]
      constructor
      · rintro ⟨t, ⟨d, hd, ht⟩, hm⟩
        cases d with
        | support => simp [Decl.suppressedSpecs] at ht
        | suppress ts s =>
          have hlen := ha.2 ts s hd
          refine ⟨ts, s, hd, ?_⟩
          simp only [Decl.suppressedSpecs, List.mem_append, List.mem_singleton] at ht
          rcases ht with rfl | ht
          · exact Or.inl ((zipMatch_iff sub (by omega)).1 hm)
          · cases s with
            | false => simp at ht
            | true =>
              simp at ht; subst ht
              exact Or.inr ⟨rfl, (zipMatch_iff sub (by simp; omega)).1 hm⟩
      · rintro ⟨ts, s, hd, hm⟩
        have hlen := ha.2 ts s hd
        rcases hm with hm | ⟨rfl, hm⟩
        · exact ⟨ts, ⟨_, hd, by simp [Decl.suppressedSpecs]⟩, (zipMatch_iff sub (by omega)).2 hm⟩
        · exact ⟨ts.reverse, ⟨_, hd, by simp [Decl.suppressedSpecs]⟩,
            (zipMatch_iff sub (by simp; omega)).2 hm⟩
    have hspt : ((h.flatMap Decl.supportedSpecs).any (zipMatch sub types) = true) ↔
        Supported sub h types := by
      simp only [List.any_eq_true, List.mem_flatMap]
      constructor
      · rintro ⟨t, ⟨d, hd, ht⟩, hm⟩
        cases d with
        | suppress => simp [Decl.supportedSpecs] at ht
        | support ts s =>
          simp only [Decl.supportedSpecs, List.mem_flatMap, List.mem_append, List.mem_singleton] at ht
          obtain ⟨g, hg, ht⟩ := ht
          have hlen := (ha.1 ts s hd).2 g hg
          refine ⟨ts, s, hd, g, hg, ?_⟩
          rcases ht with rfl | ht
          · exact Or.inl ((zipMatch_iff sub (by omega)).1 hm)
          · cases s with
            | false => simp at ht
            | true =>
              simp at ht; subst ht
              exact Or.inr ⟨rfl, (zipMatch_iff sub (by simp; omega)).1 hm⟩
      · rintro ⟨ts, s, hd, g, hg, hm⟩
        have hlen := (ha.1 ts s hd).2 g hg
        rcases hm with hm | ⟨rfl, hm⟩
        · exact ⟨g, ⟨_, hd, by simp only [Decl.supportedSpecs, List.mem_flatMap]; exact ⟨g, hg, by simp⟩⟩,
            (zipMatch_iff sub (by omega)).2 hm⟩
        · exact ⟨g.reverse, ⟨_, hd, by simp only [Decl.supportedSpecs, List.mem_flatMap]; exact ⟨g, hg, by simp⟩⟩,
            (zipMatch_iff sub (by simp; omega)).2 hm⟩
    unfold Operation.supports
    rw [h1, h2, h3, h4]
    have hc : ¬ ((if (∃ ts s, Decl.support ts s ∈ h) then some n else none : Option Nat).getD 0 ≠ 0 ∧
        types.length ≠ (if (∃ ts s, Decl.support ts s ∈ h) then some n else none : Option Nat).getD 0) := by
      split <;> simp [hl]
    rw [if_neg hc]
    by_cases hs : Suppressed sub h types
    · rw [if_pos (hsup.2 hs)]
      simp [hs]
    · have hs' := mt hsup.1 hs
      have hm : types ∉ h.flatMap Decl.suppressedSpecs := fun hm =>
        hs' (List.any_eq_true.2 ⟨types, hm, hself types⟩)
      rw [if_neg hm, if_neg hs']
      by_cases hp : Supported sub h types
      · rw [if_pos (hspt.2 hp)]
        simp [hs, hp]
      · have hp' := mt hspt.1 hp
        have hm : types ∉ h.flatMap Decl.supportedSpecs := fun hm =>
          hp' (List.any_eq_true.2 ⟨types, hm, hself types⟩)
        rw [if_neg hm, if_neg hp']
        simp [hs, hp]
  · intro hl hd
    unfold Operation.supports
    rw [h4, if_pos hd, if_pos (by simp [hn, hl])]
  · rw [if_pos hd] at h4
    cases types with
    | nil => exact absurd rfl h0
    | cons t ts =>
      simp only [Operation.support, Operation.supportLoop, Operation.supportOne, h4, Option.getD_some]
      rw [if_pos hl]

end

/-- **C33, violated.** Suppressing one type also suppresses every combination that starts with it, and
suppressing nothing suppresses everything. -/
theorem c33_counterexample :
    (((Operation.mk 0 [] [] none).declare (.suppress [1] false)).supports (· = ·) [1, 0] = false) ∧
    (((Operation.mk 0 [] [] none).declare (.suppress [] false)).supports (· = ·) [0, 0] = false) ∧
    (Operation.mk 0 [] [] none).supports (· = ·) [1, 0] = true := by decide

example : Arity 2 [Decl.support (.grouped [[1, 2], [3, 3]]) true, .suppress [2, 1] false,
    .support (.single [0, 4]) false] := by
  unfold Arity
  constructor
  · intro ts s h
    simp at h
    rcases h with ⟨rfl, rfl⟩ | ⟨rfl, rfl⟩ <;> simp [Types.specs]
  · intro ts s h
    simp at h
    simp [h.1]

example : (([Decl.support (.grouped [[1, 2], [3, 3]]) true, .suppress [2, 1] false].foldl
    Operation.declare { own := 0 }).supports (fun i j => i = j) [2, 1] = false) ∧
  (([Decl.support (.grouped [[1, 2], [3, 3]]) true, .suppress [2, 1] false].foldl
    Operation.declare { own := 0 }).supports (fun i j => i = j) [1, 2] = true) := by decide

example : (([Decl.support (.single [1, 2]) false].foldl Operation.declare { own := 0 }).support
    (.single [3]) false).2 = some (.named "NTypesError") := by decide

/-! ## C89: copies of operations -/

/-- **C89, violated.** A copy of an operation with a declaration does not equal the operation, and
supports other types. -/
theorem c89_counterexample :
    let op := (Operation.mk 0 [] [] none).declare (.suppress [0, 0] false)
    op.copy.eq op = false ∧ op.supports (· = ·) [0, 0] = false ∧
      op.copy.supports (· = ·) [0, 0] = true := by decide

/-- **C89.** A copy equals the operation exactly if nothing was declared for it. -/
theorem c89_partial {τ : Type _} [DecidableEq τ] (op : Operation τ) :
    op.copy.eq op = true ↔ op.supported = [] ∧ op.suppressed = [] := by
  unfold Operation.eq Operation.copy
  cases h1 : op.supported <;> cases h2 : op.suppressed <;> simp

example : (Operation.mk 0 [] [] none).copy.eq (Operation.mk 0 [] [] none) = true := by decide

/-- **C89 (what equality is worth).** Operations that compare equal, and for which the number of operands is the same, support the
same operand types. -/
theorem c89_equal {τ : Type _} [DecidableEq τ] (a b : Operation τ) (h : a.eq b = true) (hn : a.nargs = b.nargs)
    (sub : τ → τ → Bool) (types : List τ) : a.supports sub types = b.supports sub types := by
  unfold Operation.eq at h
  simp only [Bool.and_eq_true, decide_eq_true_eq, List.all_eq_true] at h
  obtain ⟨⟨h0, h1, h2⟩, h3, h4⟩ := h
  have m1 : types ∈ a.supported ↔ types ∈ b.supported := ⟨h1 _, h2 _⟩
  have m2 : types ∈ a.suppressed ↔ types ∈ b.suppressed := ⟨h3 _, h4 _⟩
  have any_congr : ∀ {x y : List (List τ)}, (∀ t ∈ x, t ∈ y) → (∀ t ∈ y, t ∈ x) →
      x.any (zipMatch sub types) = y.any (zipMatch sub types) := by
    intro x y hxy hyx
    rw [Bool.eq_iff_iff, List.any_eq_true, List.any_eq_true]
    exact ⟨fun ⟨t, ht, hm⟩ => ⟨t, hxy t ht, hm⟩, fun ⟨t, ht, hm⟩ => ⟨t, hyx t ht, hm⟩⟩
  unfold Operation.supports
  rw [hn, h0, any_congr h1 h2, any_congr h3 h4]
  simp only [m1, m2]

/-- The number of operands matters: it is what is left of a declaration that has been rejected. -/
example : (Operation.mk 0 [[1, 2], [1, 2]] [] (some 2)).eq (Operation.mk 0 [[1, 2]] [] (some 2)) = true
    ∧ (Operation.mk 0 [[1, 2]] [] (some 2)).eq (Operation.mk 3 [[1, 2]] [] (some 2)) = false := by decide

/-! ## C90: agreement of operands -/

section
variable {κ ν : Type _} [DecidableEq κ] [DecidableEq ν]

/-- Wherever the attributes are present, they have the same value. -/
def Agreeing (operands : List (Dict κ ν)) (names : List κ) : Prop :=
  ∀ n ∈ names, ∀ a ∈ operands, ∀ b ∈ operands, ∀ x y, a.get? n = some x → b.get? n = some y → x = y

theorem sameValues_ok {vs : List (Option ν)} (h : vs ≠ []) :
    ∃ b, sameValues vs = .ok b ∧ (b = true ↔ ∀ x ∈ vs, ∀ y ∈ vs, x = y) := by
  cases vs with
  | nil => exact absurd rfl h
  | cons v vs =>
    refine ⟨_, rfl, ?_⟩
    simp only [List.all_eq_true, decide_eq_true_eq]
    constructor
    · intro h x hx y hy; rw [h x hx, h y hy]
    · intro h x hx; exact h x hx v (by simp)

theorem agreeLoop_ok {f : κ → Res (List (Option ν))} {g : κ → List (Option ν)}
    (ns : List κ) (hf : ∀ n ∈ ns, f n = .ok (g n)) (hg : ∀ n ∈ ns, g n ≠ []) :
    ∃ b, agreeLoop f ns = .ok b ∧ (b = true ↔ ∀ n ∈ ns, ∀ x ∈ g n, ∀ y ∈ g n, x = y) := by
  induction ns with
  | nil => exact ⟨true, rfl, by simp⟩
  | cons n ns ih =>
    obtain ⟨b, hb, hbi⟩ := ih (fun m hm => hf m (by simp [hm])) (fun m hm => hg m (by simp [hm]))
    obtain ⟨c, hc, hci⟩ := sameValues_ok (hg n (by simp))
    cases c with
    | true =>
      refine ⟨b, ?_, ?_⟩
      · rw [agreeLoop, hf n (by simp)]
        simp only [bind, Except.bind, hc, if_true, hb]
      · rw [hbi]
        have := hci.1 rfl
        simp only [List.forall_mem_cons]
        exact ⟨fun h => ⟨this, h⟩, fun h => h.2⟩
    | false =>
      refine ⟨false, ?_, ?_⟩
      · rw [agreeLoop, hf n (by simp)]
        simp only [bind, Except.bind, hc]
        rfl
      · simp only [Bool.false_eq_true, List.forall_mem_cons, false_iff]
        intro h
        exact absurd (hci.2 h.1) (by simp)

/-- **C90, exactly.** In the mode that is not strict, exactly the operands with all the attributes are compared; if there are
none, `IndexError` is raised. -/
theorem c90_exact_partial (operands : List (Dict κ ν)) (names : List κ) (hlen : operands.length ≠ 1) (hn : names ≠ [])
    (full : List (Dict κ ν)) (hfull : full = operands.filter (fun o => names.all (fun n => (o.get? n).isSome))) :
    (full = [] → agree operands names false = .error .indexError) ∧
    (full ≠ [] → ∃ b, agree operands names false = .ok b ∧ (b = true ↔ Agreeing full names)) := by
  have hfind : findOperands operands names = full := by
    rw [hfull]
    unfold findOperands
    congr 1
    funext o
    simp only [Dict.has_eq_isSome]
  have hmem : ∀ o ∈ full, ∀ n ∈ names, (o.get? n).isSome := by
    intro o ho n hn'
    rw [hfull, List.mem_filter, List.all_eq_true] at ho
    exact ho.2 n hn'
  unfold agree
  rw [if_neg hlen]
  simp only [Bool.false_eq_true, if_false, hfind]
  constructor
  · intro he
    obtain ⟨n, ns, rfl⟩ := List.exists_cons_of_ne_nil hn
    rw [he]
    rfl
  · intro hne
    obtain ⟨b, h1, h2⟩ := agreeLoop_ok (f := fun n => .ok (full.map (fun o => o.get? n)))
      names (fun n _ => rfl) (fun n _ => by simpa using hne)
    refine ⟨b, h1, h2.trans ?_⟩
    unfold Agreeing
    constructor
    · intro h n hn a ha b hb x y hx hy
      have := h n hn _ (List.mem_map_of_mem ha) _ (List.mem_map_of_mem hb)
      rw [hx, hy] at this
      exact Option.some.inj this
    · intro h n hn x hx y hy
      obtain ⟨a, ha, rfl⟩ := List.mem_map.1 hx
      obtain ⟨b, hb, rfl⟩ := List.mem_map.1 hy
      obtain ⟨u, hu⟩ := Option.isSome_iff_exists.1 (hmem a ha n hn)
      obtain ⟨w, hw⟩ := Option.isSome_iff_exists.1 (hmem b hb n hn)
      rw [hu, hw, h n hn a ha b hb u w hu hw]

/-- **C90.** When all of several operands have all the attributes, then in both modes the result tells
whether the attributes have the same values; and so it does, in the mode that is not strict, for a
single attribute that at least one operand has. -/
theorem c90_partial (operands : List (Dict κ ν)) (names : List κ) (strict : Bool)
    (hlen : 2 ≤ operands.length) :
    ((∀ o ∈ operands, ∀ n ∈ names, (o.get? n).isSome) →
      ∃ b, agree operands names strict = .ok b ∧ (b = true ↔ Agreeing operands names)) ∧
    (∀ n, (∃ o ∈ operands, (o.get? n).isSome) →
      ∃ b, agree operands [n] false = .ok b ∧ (b = true ↔ Agreeing operands [n])) := by
  have hl : operands.length ≠ 1 := by omega
  have hne : operands ≠ [] := by rintro rfl; simp at hlen
  constructor
  · intro hall
    have hfind : findOperands operands names = operands := by
      unfold findOperands
      rw [List.filter_eq_self]
      intro o ho
      simp only [List.all_eq_true, Dict.has_eq_isSome]
      exact fun n hn => hall o ho n hn
    have hstrict : ∀ n ∈ names, strictValues operands n = .ok (operands.map (fun o => o.get? n)) := by
      intro n hn
      unfold strictValues
      rw [if_pos]
      simp only [List.all_eq_true, Dict.has_eq_isSome]
      exact fun o ho => hall o ho n hn
    have hiff : (∀ n ∈ names, ∀ x ∈ operands.map (fun o => o.get? n),
        ∀ y ∈ operands.map (fun o => o.get? n), x = y) ↔ Agreeing operands names := by
      unfold Agreeing
      constructor
      · intro h n hn a ha b hb x y hx hy
        have := h n hn _ (List.mem_map_of_mem ha) _ (List.mem_map_of_mem hb)
        rw [hx, hy] at this
        exact Option.some.inj this
      · intro h n hn x hx y hy
        obtain ⟨a, ha, rfl⟩ := List.mem_map.1 hx
        obtain ⟨b, hb, rfl⟩ := List.mem_map.1 hy
        obtain ⟨u, hu⟩ := Option.isSome_iff_exists.1 (hall a ha n hn)
        obtain ⟨w, hw⟩ := Option.isSome_iff_exists.1 (hall b hb n hn)
        rw [hu, hw, h n hn a ha b hb u w hu hw]
    unfold agree
    rw [if_neg hl]
    cases strict with
    | true =>
      simp only [if_true]
      obtain ⟨b, h1, h2⟩ := agreeLoop_ok names hstrict (fun n _ => by simpa using hne)
      exact ⟨b, h1, h2.trans hiff⟩
    | false =>
      simp only [Bool.false_eq_true, if_false, hfind]
      obtain ⟨b, h1, h2⟩ := agreeLoop_ok (f := fun n => .ok (operands.map (fun o => o.get? n)))
        names (fun n _ => rfl) (fun n _ => by simpa using hne)
      exact ⟨b, h1, h2.trans hiff⟩
  · rintro n ⟨o, ho, hon⟩
    unfold agree
    rw [if_neg hl]
    simp only [Bool.false_eq_true, if_false]
    have hmem : ∀ x, x ∈ findOperands operands [n] ↔ x ∈ operands ∧ (x.get? n).isSome := by
      intro x; unfold findOperands
      simp [List.mem_filter, Dict.has_eq_isSome]
    obtain ⟨b, h1, h2⟩ := agreeLoop_ok
      (f := fun n' => .ok ((findOperands operands [n]).map (fun o => o.get? n')))
      [n] (fun n _ => rfl) (fun m hm => by
        simp only [ne_eq, List.map_eq_nil_iff]
        intro h
        have := (hmem o).2 ⟨ho, hon⟩
        rw [h] at this
        simp at this)
    refine ⟨b, h1, h2.trans ?_⟩
    unfold Agreeing
    constructor
    · intro h m hm a ha b hb x y hx hy
      simp only [List.mem_singleton] at hm
      subst hm
      have := h m (by simp) _ (List.mem_map_of_mem ((hmem a).2 ⟨ha, by simp [hx]⟩))
        _ (List.mem_map_of_mem ((hmem b).2 ⟨hb, by simp [hy]⟩))
      rw [hx, hy] at this
      exact Option.some.inj this
    · intro h m hm x hx y hy
      simp only [List.mem_singleton] at hm
      subst hm
      obtain ⟨a, ha, rfl⟩ := List.mem_map.1 hx
      obtain ⟨b, hb, rfl⟩ := List.mem_map.1 hy
      obtain ⟨ha1, ha2⟩ := (hmem a).1 ha
      obtain ⟨hb1, hb2⟩ := (hmem b).1 hb
      obtain ⟨u, hu⟩ := Option.isSome_iff_exists.1 ha2
      obtain ⟨w, hw⟩ := Option.isSome_iff_exists.1 hb2
      rw [hu, hw, h m (by simp) a ha1 b hb1 u w hu hw]

end

section
variable {κ ν : Type _} [DecidableEq κ] [DecidableEq ν]

/-- **C90, strict mode.** If some operand lacks the attribute, strict mode has no result: `AttributeError` is raised,
unless the operands disagree in an attribute named before. It never says that such operands agree. -/
theorem c90_strict (operands : List (Dict κ ν)) (names : List κ) (hlen : operands.length ≠ 1)
    (h : ∃ n ∈ names, ∃ o ∈ operands, o.get? n = none) :
    agree operands names true = .error .attributeError ∨ agree operands names true = .ok false := by
  unfold agree
  rw [if_neg hlen, if_pos rfl]
  induction names with
  | nil => obtain ⟨n, hn, _⟩ := h; cases hn
  | cons m ns ih =>
    by_cases hm : operands.all (fun o => o.has m) = true
    · have hne : operands ≠ [] := by
        rintro rfl
        obtain ⟨_, _, o, ho, _⟩ := h
        cases ho
      obtain ⟨b, hb, _⟩ := sameValues_ok (vs := operands.map (fun o => o.get? m)) (by simpa using hne)
      have hs : strictValues operands m = .ok (operands.map (fun o => o.get? m)) := if_pos hm
      simp only [agreeLoop, hs, bind, Except.bind, hb]
      cases b with
      | false => exact .inr rfl
      | true =>
        refine ih ?_
        obtain ⟨n, hn, o, ho, hon⟩ := h
        rcases List.mem_cons.1 hn with rfl | hn
        · have := List.all_eq_true.1 hm o ho
          rw [Dict.has_eq_isSome, hon] at this
          cases this
        · exact ⟨n, hn, o, ho, hon⟩
    · have hs : strictValues operands m = .error .attributeError := if_neg hm
      simp [agreeLoop, hs, bind, Except.bind]

end

example : agree ([[(0, 5), (1, 7)], [(0, 5)]] : List (Dict Nat Nat)) [0, 1] true = .error .attributeError := by decide

/-- **C90, violated.** When no operand has the attribute, `IndexError` is raised; and operands that lack
one of the attributes are not compared with respect to the others. -/
theorem c90_counterexample :
    agree ([[(0, 5)], [(0, 6)]] : List (Dict Nat Nat)) [1] false = .error .indexError ∧
    agree ([[(0, 5), (1, 7)], [(0, 6)]] : List (Dict Nat Nat)) [0, 1] false = .ok true ∧
    ¬ Agreeing ([[(0, 5), (1, 7)], [(0, 6)]] : List (Dict Nat Nat)) [0, 1] := by
  refine ⟨by decide, by decide, fun h => ?_⟩
  exact absurd (h 0 (by simp) [(0, 5), (1, 7)] (by simp) [(0, 6)] (by simp) 5 6 rfl rfl) (by decide)

/-! ## C91: the name of a computed quantity tells how it was computed -/

open Verif.Symbolic in
/-- A written name denotes a function of the values of the simple names in it. -/
def Denotes (s : Str) (f : Assignment → ℝ) : Prop :=
  ∃ r, ofString s = .ok r ∧ ∀ v, value v r = f v

open Verif.Symbolic in
/-- **C91, violated.** The quotient of `a` and the product of `b` and `c` has the name of another
quantity: `(a / b) * c`. The same happens with powers of products. -/
theorem c91_counterexample :
    (do nameOp c!" / " false [c!"a"] (.name (← nameOp c!" * " false [c!"b"] (.name [c!"c"]))))
      = .ok [c!"a / b * c"] ∧
    (do nameOp c!" * " false (← nameOp c!" / " false [c!"a"] (.name [c!"b"])) (.name [c!"c"]))
      = .ok [c!"a / b * c"] ∧
    (do nameOp c!"^" false (← nameOp c!" * " false [c!"a"] (.name [c!"b"])) (.int 2))
      = .ok [c!"a * b^2"] ∧
    ofString c!"a / b * c" = .ok [⟨1, c!"a", 1⟩, ⟨1, c!"c", 1⟩, ⟨1, c!"b", -1⟩] := by
  decide +kernel

open Verif.Symbolic in
/-- **C91.** When the aliases of the first operand are well-formed expressions and those of the second
operand are simple names, powers or bracketed expressions, then every alias of the product (quotient)
denotes the product (quotient) of the quantities that some alias of each operand denotes. -/
theorem c91_partial (o : Sep) (ho : o = .star ∨ o = .slash) (a b : List Tree) (ha : a ≠ [])
    (hb : b ≠ []) (hao : ∀ t ∈ a, t.Ok ∧ t.Exact 1 ∧ t.Positive)
    (hbo : ∀ t ∈ b, t.Ok ∧ t.Exact 1 ∧ t.Exact (-1) ∧ t.Positive ∧ t.IsAtom) :
    ∃ r, nameOp o.str false (a.map Tree.render) (.name (b.map Tree.render)) = .ok r ∧ r ≠ [] ∧
      ∀ s ∈ r, ∃ x ∈ a, ∃ y ∈ b,
        Denotes s (fun v => if o = .slash then x.denote v / y.denote v else x.denote v * y.denote v) := by
  have hta : nameTrue (a.map Tree.render) = true := by
    simp only [nameTrue, decide_eq_true_eq]
    intro h
    cases a with
    | nil => simp at h
    | cons t _ =>
      simp only [List.map_cons, List.cons.injEq] at h
      exact Tree.render_ne_nil (hao t (by simp)).1 h.1
  have htb : nameTrue (b.map Tree.render) = true := by
    simp only [nameTrue, decide_eq_true_eq]
    intro h
    cases b with
    | nil => simp at h
    | cons t _ =>
      simp only [List.map_cons, List.cons.injEq] at h
      exact Tree.render_ne_nil (hbo t (by simp)).1 h.1
  have key : ∀ x ∈ a, ∀ y ∈ b, Denotes (x.render ++ o.str ++ y.render)
      (fun v => if o = .slash then x.denote v / y.denote v else x.denote v * y.denote v) := by
    intro x hx y hy
    obtain ⟨h1, h2, h3⟩ := hao x hx
    obtain ⟨g1, g2, g2', g3, g4⟩ := hbo y hy
    have hok : (Tree.bin o x y).Ok := ⟨h1, g1, g4⟩
    have he : (Tree.bin o x y).Exact 1 := by
      refine ⟨h2, ?_⟩
      rcases ho with rfl | rfl
      · exact g2
      · exact g2'
    obtain ⟨ts, r, _, hr, _, hv⟩ := c71_parse_meaning_partial (.bin o x y) hok he ⟨h3, g3⟩
    refine ⟨r, ?_, fun v => ?_⟩
    · rw [List.append_assoc]; exact hr
    · rw [(hv v).2]
      rcases ho with rfl | rfl <;> simp [Tree.denote]
  unfold nameOp
  simp only [hta, htb, not_true, or_self, if_false]
  split
  · next heq =>
    refine ⟨_, rfl, by simpa using ha, ?_⟩
    intro s hs
    simp only [List.mem_map] at hs
    obtain ⟨_, ⟨x, hx, rfl⟩, rfl⟩ := hs
    unfold nameEq at heq
    simp only [Bool.and_eq_true, List.all_eq_true, decide_eq_true_eq] at heq
    obtain ⟨y, hy, hxy⟩ := List.mem_map.1 (heq.2 _ (List.mem_map_of_mem hx))
    refine ⟨x, hx, y, hy, ?_⟩
    have := key x hx y hy
    rw [hxy] at this
    exact this
  · refine ⟨_, rfl, ?_, ?_⟩
    · cases a with
      | nil => exact absurd rfl ha
      | cons t ts => cases b with
        | nil => exact absurd rfl hb
        | cons u us => simp
    · intro s hs
      simp only [List.mem_flatMap, List.mem_map] at hs
      obtain ⟨_, ⟨x, hx, rfl⟩, _, ⟨y, hy, rfl⟩, rfl⟩ := hs
      exact ⟨x, hx, y, hy, key x hx y hy⟩

example : nameOp c!" / " false [c!"a * b", c!"c"] (.name [c!"d", c!"e^2"])
    = .ok [c!"a * b / d", c!"a * b / e^2", c!"c / d", c!"c / e^2"] := by decide

end Verif.Metadata
