import Mathlib.Data.List.Dedup
import Verif.Py.Seq
import Verif.Py.Chars
import Verif.Runtime.Model
import Verif.Symbolic.Parser

/-!
# Model of parts of `src/goats/eprem/__init__.py` and of `Method`, `Quantity` in
`src/goats/core/computed.py`

Standard unit strings, resolution of dimensions, dimensions of computed quantities, and the
arguments handed to the functions that compute them.
-/

set_option linter.unusedSectionVars false

namespace Verif.Eprem

open Verif.Py Verif.Runtime

/-! ## Unit strings -/

/-- `_UNIT_MAP` (eprem/__init__.py 64-70). -/
def unitMap : Dict Str Str :=
  [(c!"julian date", c!"day"), (c!"shell", c!"1"), (c!"cos(mu)", c!"1"), (c!"e-", c!"e"),
   (c!"# / cm^2 s sr MeV", c!"# / cm^2 s sr MeV/nuc")]

/-- `s.split('/', maxsplit=1)`, when there is a `/`. -/
def splitSlash : Str → Option (Str × Str)
  | [] => none
  | c :: s => if c = '/' then some ([], s) else (splitSlash s).map (fun p => (c :: p.1, p.2))

/-- `standardize` (eprem/__init__.py 78-89) on a string. -/
def standardize (unit : Str) : Str :=
  let u := (unitMap.get? unit).getD unit
  match splitSlash u with
  | some (num, den) => strip num ++ c!" / " ++ ('(' :: strip den ++ [')'])
  | none => u

/-! ## Dimensions -/

/-- `Axes.resolve` (eprem/__init__.py 131-145) for the axis names `axes` of the dataset; `names`
lists the given collection in its order of iteration. -/
def resolve (axes names : List Str) (mode : Str) : Res (List Str) :=
  let ordered := axes.filter (· ∈ names)
  if mode = c!"strict" then .ok ordered
  else
    let extra := names.filter (· ∉ ordered)
    if extra = [] then .ok ordered
    else if mode = c!"append" then .ok (ordered ++ extra)
    else .error .valueError

/-- A registered function: the names of its arguments and its metadata
(`computed.Method`, computed.py 408-476; `removed` and `added` as lists, eprem/__init__.py 336-339). -/
structure Method where
  parameters : List Str
  removed : List Str
  added : List Str
  deriving DecidableEq

/-- The tables that `Functions` looks names up in (eprem/__init__.py 265-303): dimensions of the
dataset's variables, registered functions, axis names. Aliases are resolved beforehand. -/
structure Tables where
  axes : List Str
  vars : Dict Str (List Str)
  methods : Dict Str Method

/-- The attributes `_accumulated`, `_removed`, `_added` (eprem/__init__.py 317-319). -/
structure Acc where
  accumulated : List Str
  removed : List Str
  added : List Str
  deriving DecidableEq

/-- `set(accumulated) - set(removed) | set(added)` (eprem/__init__.py 333), in some order. -/
def Acc.unique (a : Acc) : List Str :=
  ((a.accumulated.filter (· ∉ a.removed)) ++ a.added).dedup

/-- The loop over the parameters (eprem/__init__.py 326-332); `g` is the recursive call. -/
def gatherAll (T : Tables) (g : Method → Acc → Res (List Str × Acc)) : List Str → Acc → Res Acc
  | [], a => .ok a
  | p :: ps, a =>
    match T.vars.get? p with
    | some dims => gatherAll T g ps { a with accumulated := a.accumulated ++ dims }
    | none =>
      match T.methods.get? p with
      | some m =>
        match g m { a with removed := a.removed ++ m.removed, added := a.added ++ m.added } with
        | .error e => .error e
        | .ok (dims, a2) =>
          gatherAll T g ps { a2 with accumulated := a2.accumulated ++ dims }
      | none => gatherAll T g ps a

/-- `_gather_dimensions` (eprem/__init__.py 324-334): the result and the shared attributes
afterwards.  `fuel` bounds the depth of recursion. -/
def gather (T : Tables) : Nat → Method → Acc → Res (List Str × Acc)
  | 0, _, _ => .error .recursionError
  | fuel + 1, m, a =>
    match gatherAll T (gather T fuel) m.parameters a with
    | .error e => .error e
    | .ok a' =>
      match resolve T.axes a'.unique c!"append" with
      | .error e => .error e
      | .ok dims => .ok (dims, a')

/-- `Functions` with its cache of dimensions (eprem/__init__.py 276, 312-315). -/
abbrev Cache := Dict Str (List Str)

/-- `get_dimensions` (eprem/__init__.py 310-322).  An unknown name has no method, whose attribute
access raises. -/
def getDimensions (T : Tables) (fuel : Nat) (cache : Cache) (key : Str) :
    Res (List Str) × Cache :=
  match cache.get? key with
  | some dims => (.ok dims, cache)
  | none =>
    match T.methods.get? key with
    | none => (.error .attributeError, cache)
    | some m =>
      match gather T fuel m ⟨[], m.removed, m.added⟩ with
      | .error e => (.error e, cache)
      | .ok (dims, _) => (.ok dims, cache.set key dims)

/-! ## Arguments of computed quantities -/

/-- What a dependency can be (computed.py 446-453): a variable quantity, a scalar, a collection of
scalars, or something else. -/
inductive Dep (A F : Type) where
  | array (a : A)
  | scalar (x : F)
  | scalars (xs : List F)
  | other
  deriving DecidableEq

/-- The lists `arrays` and `floats` after the loop of `Method.parse` (computed.py 442-453). -/
def parseLoop {A F : Type} (deps : Dict Str (Dep A F)) : List Str → List A → List F →
    Res (List A × List F)
  | [], arrays, floats => .ok (arrays, floats)
  | n :: ns, arrays, floats =>
    match deps.get? n with
    | none => .error .keyError
    | some (.array a) => parseLoop deps ns (arrays ++ [a]) floats
    | some (.scalar x) => parseLoop deps ns arrays (floats ++ [x])
    | some (.scalars xs) => parseLoop deps ns arrays (floats ++ xs)
    | some .other => parseLoop deps ns arrays floats

/-- `Method.parse` (computed.py 440-454): the positional arguments of the function. -/
def parseArgs {A F : Type} (deps : Dict Str (Dep A F)) (parameters : List Str) :
    Res (List (A ⊕ F)) :=
  (parseLoop deps parameters [] []).map (fun p => p.1.map Sum.inl ++ p.2.map Sum.inr)

/-- A `computed.Quantity` (computed.py 479-493): the result of its function in the unit it was
created with, and the unit attribute. -/
structure Computed (V U : Type) where
  compute : V
  unit : U

/-- `computed.Quantity.__getitem__` (computed.py 510-519). -/
def Computed.withUnit {V U : Type} [DecidableEq U] (q : Computed V U) (u : U) : Computed V U :=
  if u ≠ q.unit then { q with unit := u } else q

/-- `computed.Quantity.__call__` (computed.py 521-527): data and unit of the result. -/
def Computed.call {V U : Type} (q : Computed V U) : V × U := (q.compute, q.unit)

end Verif.Eprem
