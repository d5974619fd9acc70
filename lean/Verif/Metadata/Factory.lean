import Verif.Py.Basic

/-!
# Model of `metadata.OperatorFactory`: registered attributes
-/

namespace Verif.Metadata

open Verif.Py

variable {κ ν : Type _} [DecidableEq κ]

/-- `iterables.unique(*items)` (iterables.py 16-22). -/
def uniqueNames (names : List κ) : List κ :=
  names.foldl (fun c i => if i ∈ c then c else c ++ [i]) []

/-- The attributes of `OperatorFactory` (metadata.py 379-394): the parameters, and those of each operation once they
are created. -/
structure Factory (κ : Type _) where
  params : List κ
  ops : Option (List (List κ))
deriving DecidableEq

/-- `OperatorFactory(type, *parameters)` (metadata.py 379-394). -/
def newFactory (parameters : List κ) : Factory κ := ⟨uniqueNames parameters, none⟩

/-- `operations` (metadata.py 441-464) for `n` groups of names: each operation begins with the parameters of this moment. -/
def Factory.operations (n : Nat) (f : Factory κ) : List (List κ) :=
  match f.ops with
  | none => List.replicate n f.params
  | some ops => ops

/-- `operation.update(*parameters)` (metadata.py 219-226), `times` times in a row. -/
def updateParams (names : List κ) : Nat → List κ → List κ
  | 0, ps => ps
  | t + 1, ps => updateParams names t (ps ++ names)

/-- `register(*names)` (metadata.py 401-406). `counts` has for each operation the number of its names: the values of
the aliased mapping are listed once for each name. Without names, the first update raises `ValueError`. -/
def Factory.register (counts : List Nat) (names : List κ) (f : Factory κ) : Factory κ × Option Err :=
  let f' : Factory κ := { f with params := f.params ++ uniqueNames names }
  let ops := f'.operations counts.length
  if names = [] ∧ counts ≠ [] then ({ f' with ops := some ops }, some .valueError)
  else ({ f' with ops := some (ops.zipWith (fun ps t => updateParams names t ps) counts) }, none)

/-- `factory[name]` (metadata.py 427-431), which creates the operations if needed. -/
def Factory.use (counts : List Nat) (f : Factory κ) : Factory κ :=
  { f with ops := some (f.operations counts.length) }

/-- What an operator returns (metadata.py 351): the value of each parameter. -/
def computeAll (compute : κ → ν) (params : List κ) : Dict κ ν := Dict.ofPairs (params.map (fun p => (p, compute p)))

/-- What the operator of operation `i` returns (metadata.py 318-351). -/
def Factory.evaluate (counts : List Nat) (compute : κ → ν) (i : Nat) (f : Factory κ) : Option (Dict κ ν) :=
  ((f.operations counts.length)[i]?).map (computeAll compute)

/-- What an operator of `implement(method)` returns (metadata.py 408-410): it has the parameters that the factory had
when it was created. -/
def Factory.implement (compute : κ → ν) (f : Factory κ) : Dict κ ν := computeAll compute f.params

/-- An event in the life of a factory. -/
inductive Event (κ : Type _)
  | register (names : List κ)
  | use

/-- The factory after an event; an exception leaves the state it had reached. -/
def Factory.step (counts : List Nat) (f : Factory κ) : Event κ → Factory κ
  | .register names => (f.register counts names).1
  | .use => f.use counts

/-- The factory after a series of events. -/
def Factory.run (counts : List Nat) (f : Factory κ) (es : List (Event κ)) : Factory κ := es.foldl (Factory.step counts) f

end Verif.Metadata
