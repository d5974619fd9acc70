import Verif.Shapes.Registry

/-!
# How quantities are computed from others (`Context.get_observable` in `src/goats/eprem/__init__.py`)
-/

namespace Verif.Shapes

open Verif.Py
open Verif.Metric (Str)

/-- What `get_observable` looks up: the variables of the dataset and the registered functions, each under all names
(`observing.Context._mappings`; eprem/__init__.py 365-366), and `get_value` (579-589; nothing stands for `None`). A function
is given by the names of its parameters and by what it returns for positional arguments. -/
structure Session (A F : Type) where
  vars : Dict Str A
  methods : Dict Str (List Str × (List (A ⊕ F) → Res A))
  value : Str → Res (Option F)

section
variable {A F : Type}

/-- `get_dependency` (eprem/__init__.py 418-422), given `get_observable`. Quantities are assumed to have an entry, so that they
count as true. `None`, and what is neither a quantity nor a scalar, is `other`. -/
def dependency (value : Str → Res (Option F)) (observable : Str → Res (Option A)) (p : Str) : Res (Eprem.Dep A F) :=
  match observable p with
  | .error e => .error e
  | .ok (some a) => .ok (.array a)
  | .ok none =>
    match value p with
    | .error e => .error e
    | .ok (some x) => .ok (.scalar x)
    | .ok none => .ok .other

/-- `{p: self.get_dependency(p) for p in q.parameters}` (eprem/__init__.py 415). -/
def dependencies (value : Str → Res (Option F)) (observable : Str → Res (Option A)) : List Str → Res (Dict Str (Eprem.Dep A F))
  | [] => .ok []
  | p :: ps =>
    match dependency value observable p with
    | .error e => .error e
    | .ok d =>
      match dependencies value observable ps with
      | .error e => .error e
      | .ok ds => .ok ((p, d) :: ds)

/-- `get_observable`, with `compute` (eprem/__init__.py 413-416, 424-435) and `computed.Quantity.__call__` (computed.py 436-438,
521-527). Metadata of the results are left out (`Verif.Eprem`). A name that is neither a variable nor a function gives `None`.
`fuel` bounds the depth of recursion. -/
def getObservable (S : Session A F) : Nat → Str → Res (Option A)
  | 0, _ => .error .recursionError
  | fuel + 1, key =>
    match S.vars.get? key with
    | some a => .ok (some a)
    | none =>
      match S.methods.get? key with
      | none => .ok none
      | some m =>
        match dependencies S.value (getObservable S fuel) m.1 with
        | .error e => .error e
        | .ok deps =>
          match Eprem.parseArgs deps m.1 with
          | .error e => .error e
          | .ok args => (m.2 args).map some

/-- `Functions` (eprem/__init__.py 265-303) over the registered functions, whose results are given. -/
def shippedMethods (f : Str → List (A ⊕ F) → Res A) : Dict Str (List Str × (List (A ⊕ F) → Res A)) :=
  underAllNames (registry.map (fun e => (e.1, (e.2.parameters, f e.1))))

/-- The variables of an EPREM dataset, under all names. -/
def datasetVars (more : Dict Str (List Str)) (data : Str → A) : Dict Str A :=
  underAllNames ((baseVariables ++ more).map (fun e => (e.1, data e.1)))

end

end Verif.Shapes
