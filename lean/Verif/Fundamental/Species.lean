import Verif.Fundamental.Model

/-!
# Model of `src/goats/core/plasma.py`: species as objects
-/

namespace Verif.Fundamental

open Verif.Py
open Verif.Metric (Str)

/-- A mass or a charge: the number the user gave, or a `physical.Scalar` in nucleons or elementary charges. -/
inductive Amount
  | bare (q : ℚ)
  | scalar (q : ℚ)
deriving DecidableEq

/-- The number of an amount. -/
def Amount.value : Amount → ℚ
  | .bare q => q
  | .scalar q => q

/-- The attributes of `Species` (plasma.py 15-17). -/
structure Species where
  symbol : Option Str
  mass : Option Amount
  charge : Option Amount
deriving DecidableEq

/-- `Species(symbol, mass, charge)` (plasma.py 9-19); numbers are the only masses and charges modelled. -/
def newSpecies (symbol : Option Str) (mass charge : Option ℚ) : Res Species :=
  if symbol = none ∧ mass = none ∧ charge = none then .error .valueError
  else .ok ⟨symbol, mass.map .bare, charge.map .bare⟩

/-- `fundamental.elements([mass], [charge])[0]` (plasma.py 25-26, fundamental.py 281-297); without a mass, `round(None)` raises
`TypeError`, and without a charge, `None > 0` does, after the search for the mass. -/
def symbolFor (mass charge : Option Amount) : Res Str :=
  match mass, charge with
  | none, _ => .error .typeError
  | some m, none => do
    let _ ← getMassIndices [m.value]
    .error .typeError
  | some m, some q =>
    match elements [m.value] [q.value] with
    | .error e => .error e
    | .ok [] => .error .indexError
    | .ok (s :: _) => .ok s

/-- `species.symbol` (plasma.py 21-27): the result and the species afterwards. -/
def Species.getSymbol (s : Species) : Res Str × Species :=
  match s.symbol with
  | some t => (.ok t, s)
  | none =>
    match symbolFor s.mass s.charge with
    | .error e => (.error e, s)
    | .ok t => (.ok t, { s with symbol := some t })

/-- `species.mass` and `species.m` (plasma.py 29-44); `None.rstrip` raises `AttributeError`. -/
def Species.getMass (s : Species) : Res Amount × Species :=
  match s.mass with
  | some m => (.ok m, s)
  | none =>
    match s.symbol with
    | none => (.error .attributeError, s)
    | some t =>
      match massOf t with
      | .error e => (.error e, s)
      | .ok q => (.ok (.scalar q), { s with mass := some (.scalar q) })

/-- `species.charge` and `species.q` (plasma.py 46-61). -/
def Species.getCharge (s : Species) : Res Amount × Species :=
  match s.charge with
  | some m => (.ok m, s)
  | none =>
    match s.symbol with
    | none => (.error .attributeError, s)
    | some t =>
      match chargeOf t with
      | .error e => (.error e, s)
      | .ok q => (.ok (.scalar q), { s with charge := some (.scalar q) })

/-- What can be asked of a species. -/
inductive Ask
  | symbol
  | mass
  | charge
deriving DecidableEq

/-- An answer. -/
inductive Answer
  | text (r : Res Str)
  | amount (r : Res Amount)
deriving DecidableEq

/-- One access of an attribute. -/
def Species.ask (s : Species) : Ask → Answer × Species
  | .symbol => let r := s.getSymbol; (.text r.1, r.2)
  | .mass => let r := s.getMass; (.amount r.1, r.2)
  | .charge => let r := s.getCharge; (.amount r.1, r.2)

/-- A series of accesses: all answers. -/
def Species.asks (s : Species) : List Ask → List Answer
  | [] => []
  | a :: as => (s.ask a).1 :: (s.ask a).2.asks as

end Verif.Fundamental
