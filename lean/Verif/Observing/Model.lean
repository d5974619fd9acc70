import Mathlib.Data.List.Dedup
import Mathlib.Algebra.Module.Rat
import Verif.Py.Seq
import Verif.Py.Chars
import Verif.Aliased.Model
import Verif.Symbolic.Parser
import Verif.Spelling.Model

/-!
# Model of `src/goats/core/observing.py` (contexts), `src/goats/core/observer.py`, and of the
look-ups of `Context` and the updates of `Observer` in `src/goats/eprem/__init__.py`

Names are lists of characters.  What the mappings contain (`Q`), what constraints are given as (`V`),
and what they are converted to (`W` for values, `I` for indices) are arbitrary types.  Python sets
are duplicate-free lists.
-/

set_option linter.unusedSectionVars false

namespace Verif.Observing

open Verif.Py

/-- Strings. -/
abbrev Str := List Char

/-- What a context is created with and never changes: the mappings and default constraints
(observing.py 257-274), the reference groups of aliases (reference.py 149), and, for the EPREM
context (eprem/__init__.py 349-373), the constants (`constants`, an aliased mapping, by name), the
conversion of a constraint or constant to a scalar (`_compute_value`, 611-616), and for
each axis the function from a constraint (or none) to its index (`compute_index`, 577-586). -/
structure Setup (Q V W I : Type) where
  mappings : List (Dict Str Q)
  default : Dict Str V
  aliases : List (List Str)
  constants : Dict Str V
  scalar : V → Res W
  axes : Dict Str (Option V → Res I)

/-- The attributes of a context that change (observing.py 284-298).  `_cache['values']` and
`_cache['indices']` are separate fields. -/
structure Ctx (V W I : Type) where
  user : Dict Str V
  values : Dict Str W
  indices : Dict Str I
  keys : Option (List Str)
  constraints : Option (Dict Str V)
  available : Option (List (List Str))
  observable : Option (List (List Str))

section
variable {Q V W I : Type}

/-- A new context (observing.py 271-298). -/
def Ctx.new : Ctx V W I := ⟨[], [], [], none, none, none, none⟩

/-- `constrain` (observing.py 305-331); `new` is given as pairs, later ones overriding. -/
def Ctx.constrain (c : Ctx V W I) (new : List (Str × V)) (append : Bool) : Ctx V W I :=
  { c with
    user := if append then c.user.update new else Dict.ofPairs new
    constraints := none
    values := []
    indices := [] }

/-- `constraints` (observing.py 360-366). -/
def Ctx.getConstraints (S : Setup Q V W I) (c : Ctx V W I) : Dict Str V × Ctx V W I :=
  match c.constraints with
  | some d => (d, c)
  | none =>
    let d := S.default.update c.user
    (d, { c with constraints := some d })

/-- `_collect_aliases` (observing.py 375-383): the alias group of each key, without duplicates. -/
def collectAliases (S : Setup Q V W I) (keys : List Str) : List (List Str) :=
  (keys.map (fun k => (Aliased.find S.aliases k).getD [k])).dedup

/-- `observable` (observing.py 368-373). -/
def Ctx.getObservable (S : Setup Q V W I) (c : Ctx V W I) : List (List Str) × Ctx V W I :=
  match c.observable with
  | some gs => (gs, c)
  | none =>
    let gs := collectAliases S (S.mappings.map Dict.keys).flatten
    (gs, { c with observable := some gs })

/-- `available` (observing.py 352-358). -/
def Ctx.getAvailable (S : Setup Q V W I) (c : Ctx V W I) : List (List Str) × Ctx V W I :=
  match c.available with
  | some gs => (gs, c)
  | none =>
    let d := c.getConstraints S
    let o := d.2.getObservable S
    let gs := o.1 ++ collectAliases S d.1.keys
    (gs, { o.2 with available := some gs })

/-- `keys` (observing.py 345-350). -/
def Ctx.getKeys (S : Setup Q V W I) (c : Ctx V W I) : List Str × Ctx V W I :=
  match c.keys with
  | some ks => (ks, c)
  | none =>
    let a := c.getAvailable S
    let ks := a.1.flatten.dedup
    (ks, { a.2 with keys := some ks })

/-- The loop over the mappings in `get_quantity` and `get_attribute`
(observing.py 397-402, 417-421). -/
def firstEntry : List (Dict Str Q) → Str → Option Q
  | [], _ => none
  | m :: ms, n =>
    match m.get? n with
    | some q => some q
    | none => firstEntry ms n

/-- `get_quantity` (observing.py 397-402); a quantity of the dataset, or a constraint. -/
def Ctx.getQuantity (S : Setup Q V W I) (c : Ctx V W I) (n : Str) :
    Option (Q ⊕ V) × Ctx V W I :=
  match firstEntry S.mappings n with
  | some q => (some (.inl q), c)
  | none =>
    let d := c.getConstraints S
    ((d.1.get? n).map .inr, d.2)

/-- `compute_value` (eprem/__init__.py 591-599); nothing stands for `ContextKeyError`. -/
def computeValue (S : Setup Q V W I) (d : Dict Str V) (k : Str) : Option (Res W) :=
  match d.get? k with
  | some v => some (S.scalar v)
  | none => (S.constants.get? k).map S.scalar

/-- `get_value` (eprem/__init__.py 579-589); nothing stands for the default. -/
def Ctx.getValue (S : Setup Q V W I) (c : Ctx V W I) (k : Str) : Res (Option W) × Ctx V W I :=
  match c.values.get? k with
  | some w => (.ok (some w), c)
  | none =>
    let d := c.getConstraints S
    match computeValue S d.1 k with
    | none => (.ok none, d.2)
    | some (.error e) => (.error e, d.2)
    | some (.ok w) => (.ok (some w), { d.2 with values := d.2.values.set k w })

/-- `compute_index` (eprem/__init__.py 568-577); nothing stands for `ContextKeyError`. -/
def computeIndex (S : Setup Q V W I) (d : Dict Str V) (k : Str) : Option (Res I) :=
  (S.axes.get? k).map (fun index => index (d.get? k))

/-- `get_index` (eprem/__init__.py 556-566). -/
def Ctx.getIndex (S : Setup Q V W I) (c : Ctx V W I) (k : Str) : Res (Option I) × Ctx V W I :=
  match c.indices.get? k with
  | some i => (.ok (some i), c)
  | none =>
    let d := c.getConstraints S
    match computeIndex S d.1 k with
    | none => (.ok none, d.2)
    | some (.error e) => (.error e, d.2)
    | some (.ok i) => (.ok (some i), { d.2 with indices := d.2.indices.set k i })

/-- What can happen to a context. -/
inductive Event (V : Type) where
  | constrain (new : List (Str × V)) (append : Bool)
  | constraints
  | available
  | keys
  | quantity (n : Str)
  | value (k : Str)
  | index (k : Str)

/-- One step of a history. -/
def Ctx.step (S : Setup Q V W I) (c : Ctx V W I) : Event V → Ctx V W I
  | .constrain new append => c.constrain new append
  | .constraints => (c.getConstraints S).2
  | .available => (c.getAvailable S).2
  | .keys => (c.getKeys S).2
  | .quantity n => (c.getQuantity S n).2
  | .value k => (c.getValue S k).2
  | .index k => (c.getIndex S k).2

/-- The context after a history. -/
def Ctx.run (S : Setup Q V W I) (c : Ctx V W I) (es : List (Event V)) : Ctx V W I :=
  es.foldl (fun c e => c.step S e) c

end

/-! ## Metadata of composed quantities -/

section
variable {A : Type} [AddCommGroup A] [Module ℚ A]

/-- The loop of `get_metadata` (observing.py 404-415).  Attributes are written additively: `*=` is
addition and `**` multiplication by a rational.  (Units with real powers are such a space: the
exponents of the base units.) -/
def foldMeta (attr : Str → Option A) : List Symbolic.Term → A → Option A
  | [], built => some built
  | t :: ts, built =>
    match attr t.base with
    | some a => foldMeta attr ts (built + t.exp • a)
    | none => none

/-- `get_metadata` (observing.py 404-415) for an additive attribute such as a unit: the attribute of
the target itself if it has one, otherwise built from the terms of the target as an expression.
The exponent of the first term is not used.  `NAMES.get`, which replaces an alias by its reference
name, is left out: attributes are found under every alias.  Nothing stands for a missing attribute
(`get_attribute` then gives `None`, and multiplying raises `TypeError`). -/
def getMetadata (attr : Str → Option A) (target : Str) : Res (Option A) :=
  match attr target with
  | some a => .ok (some a)
  | none =>
    match Symbolic.ofString target with
    | .error e => .error e
    | .ok [] => .error .indexError
    | .ok (t :: ts) =>
      match attr t.base with
      | none => if ts = [] then .ok none else .error .typeError
      | some a =>
        match foldMeta attr ts a with
        | some b => .ok (some b)
        | none => .error .typeError

/-- `_build` (eprem/__init__.py 395-411), with `quantity` for `get_observable`: the quantities named
by the terms, raised to their exponents and multiplied, again written additively (arrays of positive
numbers with multiplication and rational powers are such a space).  `None ** x` and `q *= None` raise
`TypeError`.  The coefficients of the terms are not used. -/
def build (quantity : Str → Option A) (key : Str) : Res (Option A) :=
  match Symbolic.ofString key with
  | .error e => .error e
  | .ok [] => .error .indexError
  | .ok (t :: ts) =>
    match quantity t.base with
    | none => if ts = [] ∧ t.exp = 1 then .ok none else .error .typeError
    | some a =>
      match foldMeta quantity ts (t.exp • a) with
      | some b => .ok (some b)
      | none => .error .typeError

end

/-! ## Observers -/

/-- `all(…)` over a generator: stops at the first false item (observer.py 89). -/
def allOf (f : Str → Res Bool) : List Str → Res Bool
  | [] => .ok true
  | s :: ss =>
    match f s with
    | .error e => .error e
    | .ok false => .ok false
    | .ok true => allOf f ss

/-- `_observes` (observer.py 83-90, with `symbolic.composition`, symbolic.py 1641-1658), with a bound
on the depth of recursion. -/
def observesName (observables : List (List Str)) : Nat → Str → Res Bool
  | 0, _ => .error .recursionError
  | fuel + 1, key =>
    if (Aliased.find observables key).isSome then .ok true
    else if '/' ∈ key ∨ '*' ∈ key then
      match Symbolic.ofString key with
      | .error e => .error e
      | .ok ts => allOf (observesName observables fuel) (ts.map (·.base))
    else .ok false

/-- `observes` on a collection of names (observer.py 81): `next` takes the first item of the
generator. -/
def observesAny (observables : List (List Str)) (fuel : Nat) : List Str → Res Bool
  | [] => .ok false
  | n :: _ => observesName observables fuel n

/-- `Interface.observables` (observer.py 60-61). -/
def observablesOf (groups : List (List Str)) (unobservable : List Str) : List (List Str) :=
  Aliased.without groups unobservable

/-- What a spell checker may hold as its words: names, or groups of names (tuples). -/
inductive Entry where
  | word (w : Str)
  | group (g : List Str)
  deriving DecidableEq

/-- `_check` for words of either kind (spelling.py 49-58): a name is compared with the entries
themselves, so that it never equals a group. -/
def entrySuggestions (words : List Entry) (name : Str) : List Entry :=
  if Entry.word name ∈ words then []
  else
    let first := words.filter (fun e => decide (e ∈ (Spelling.edits name).map Entry.word))
    if first = [] then
      words.filter (fun e => decide (e ∈ ((Spelling.edits name).flatMap Spelling.edits).map Entry.word))
    else first

/-- The state of an observer with a fixed context: the words of its spell checker, if created
(observer.py 39-41). -/
abbrev Checker := Option (List Entry)

/-- `_check_spelling` (observer.py 92-99).  The checker is created with the groups of aliases as
words.  From the second call on, `self._spellcheck.words |= keys` is a set combined with a tuple,
which raises `TypeError`. -/
def checkSpelling (available : List (List Str)) (s : Checker) (key : Str) :
    Res Unit × Checker :=
  match s with
  | none =>
    let words := available.map Entry.group
    if entrySuggestions words key = [] then (.ok (), some words)
    else (.error (.named "SpellingError"), some words)
  | some ws => (.error .typeError, some ws)

/-- What `Interface.__getitem__` gives: an observable of that name or a quantity of the context. -/
inductive Item where
  | observable (n : Str)
  | quantity (n : Str)
  deriving DecidableEq

/-- `Interface.__getitem__` (observer.py 65-72). -/
def getItem (observables available : List (List Str)) (fuel : Nat) (s : Checker) (key : Str) :
    Res Item × Checker :=
  match observesName observables fuel key with
  | .error e => (.error e, s)
  | .ok true => (.ok (.observable key), s)
  | .ok false =>
    if key ∈ available.flatten then (.ok (.quantity key), s)
    else
      match checkSpelling available s key with
      | (.error e, s') => (.error e, s')
      | (.ok (), s') => (.error .keyError, s')

/-- The state after a sequence of requests. -/
def afterRequests (observables available : List (List Str)) (fuel : Nat) (s : Checker)
    (keys : List Str) : Checker :=
  keys.foldl (fun s k => (getItem observables available fuel s k).2) s

end Verif.Observing
