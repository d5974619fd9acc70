import Verif.Py.Chars
import Verif.Iterables.Model
import Verif.Symbolic.Parser

/-!
# Model of `src/goats/core/metadata.py`
-/

namespace Verif.Metadata

open Verif.Py Verif.Iterables

abbrev Str := List Char

/-! ## `Dimensions` -/

/-- An argument of `Dimensions(...)`: nested lists and tuples of strings and other objects. -/
abbrev DimArg := Obj Unit

/-- Whether an object is a string (metadata.py 788). -/
def asString : Obj Unit → Option Str
  | .str s => some s
  | _ => none

/-- `Dimensions(*args)` (metadata.py 782-793): the axis names. -/
def mkDimensions (args : List DimArg) : Res (List Str) :=
  match (unwrapInto (.tuple args)).mapM asString with
  | some names => .ok names
  | none => .error .typeError

/-- An operand next to a `Dimensions` object. -/
inductive DimOperand where
  | dims (names : List Str)
  | number
  | other

/-- One step of the loop of `merge` (metadata.py 806-812). -/
def extendNames (acc : List Str) : DimOperand → List Str
  | .dims ns => acc ++ ns
  | _ => acc

/-- `Dimensions.merge` (metadata.py 806-812), also `*` and `/` (816-821). -/
def mergeAll (a : List Str) (others : List DimOperand) : Res (List Str) :=
  mkDimensions ((unique (others.foldl extendNames a)).map .str)

/-- What `Dimensions.__eq__` compares with. -/
inductive DimOther where
  | dims (names : List Str)
  | str (s : Str)
  | seq (names : List Str)

/-- `Dimensions.__eq__` (metadata.py 827-841). A string is iterable too: its members are its
characters. -/
def dimEq (self : List Str) : DimOther → Bool
  | .dims names => names = self || (names.length = self.length && names.all (· ∈ self))
  | .str s => (self.length = 1 && some s = self[0]?)
      || (s.length = self.length && s.all (fun c => [c] ∈ self))
  | .seq names => names.length = self.length && names.all (· ∈ self)

/-- `Dimensions.__add__` and `__sub__` (metadata.py 466-477, 802-805): the first operand, or
`NotImplemented` (hence `TypeError`). -/
def dimAdd (a : List Str) : DimOperand → Res (List Str)
  | .dims b => if dimEq b (.dims a) then .ok a else .error .typeError
  | _ => .ok a

/-- `Dimensions.__hash__` (metadata.py 843-845), with the hash function for tuples as a parameter. -/
def dimHash (hash : List Str → Nat) (a : List Str) : Nat := hash a

/-! ## `Operation` -/

section
variable {τ : Type _} [DecidableEq τ]

/-- The state of an `Operation` (metadata.py 181-199). The `set`s are lists; only membership
matters. -/
structure Operation (τ : Type _) where
  own : τ
  supported : List (List τ) := []
  suppressed : List (List τ) := []
  nargs : Option Nat := none

/-- `suppress(*types, symmetric=...)` (metadata.py 234-255). -/
def Operation.suppress (op : Operation τ) (types : List τ) (symmetric : Bool) : Operation τ :=
  { op with suppressed := op.suppressed ++ [types] ++ (if symmetric then [types.reverse] else []) }

/-- One step of the loop of `support` (metadata.py 282-294). -/
def Operation.supportOne (op : Operation τ) (this : List τ) (symmetric : Bool) : Res (Operation τ) :=
  let nargs := op.nargs.getD this.length
  let op := { op with nargs := some nargs }
  if this.length ≠ nargs then .error (.named "NTypesError")
  else .ok { op with
    supported := op.supported ++ [this] ++ (if symmetric then [this.reverse] else []) }

/-- The loop of `support` (metadata.py 282-294): the state it leaves, and the exception, if any. -/
def Operation.supportLoop (symmetric : Bool) :
    List (List τ) → Operation τ → Operation τ × Option Err
  | [], op => (op, none)
  | this :: rest, op =>
    match op.supportOne this symmetric with
    | .error e => (op, some e)
    | .ok op => supportLoop symmetric rest op

/-- The types given to `support`: ungrouped, or grouped in tuples (metadata.py 281). -/
inductive Types (τ : Type _) where
  | single (types : List τ)
  | grouped (groups : List (List τ))

/-- `support(*types, symmetric=...)` (metadata.py 257-295). -/
def Operation.support (op : Operation τ) (types : Types τ) (symmetric : Bool) :
    Operation τ × Option Err :=
  match types with
  | .single [] => (op, some .valueError)
  | .grouped [] => (op, some .valueError)
  | .single ts => op.supportLoop symmetric [ts]
  | .grouped gs => op.supportLoop symmetric gs

/-- `all(issubclass(i, j) for i, j in zip(types, t))`. -/
def zipMatch (sub : τ → τ → Bool) (types t : List τ) : Bool :=
  (types.zip t).all (fun p => sub p.1 p.2)

/-- `supports(*types)` (metadata.py 298-312). -/
def Operation.supports (sub : τ → τ → Bool) (op : Operation τ) (types : List τ) : Bool :=
  if op.nargs.getD 0 ≠ 0 ∧ types.length ≠ op.nargs.getD 0 then false
  else if types ∈ op.suppressed then false
  else if op.suppressed.any (zipMatch sub types) then false
  else if types ∈ op.supported then true
  else if op.supported.any (zipMatch sub types) then true
  else op.own ∈ types

/-- `copy()` (metadata.py 211-217): only the type, the parameters and the name are passed on. -/
def Operation.copy (op : Operation τ) : Operation τ := { own := op.own }

/-- `Operation.__eq__` (metadata.py 358-365). -/
def Operation.eq (a b : Operation τ) : Bool :=
  a.own = b.own && (a.supported.all (· ∈ b.supported) && b.supported.all (· ∈ a.supported))
    && (a.suppressed.all (· ∈ b.suppressed) && b.suppressed.all (· ∈ a.suppressed))

/-- A declaration. -/
inductive Decl (τ : Type _) where
  | support (types : Types τ) (symmetric : Bool)
  | suppress (types : List τ) (symmetric : Bool)

/-- The effect of one declaration on the state (exceptions are raised to the caller, who carries
on). -/
def Operation.declare (op : Operation τ) : Decl τ → Operation τ
  | .support ts s => (op.support ts s).1
  | .suppress ts s => op.suppress ts s

end

/-! ## `Operands` -/

section
variable {κ ν : Type _} [DecidableEq κ] [DecidableEq ν]

/-- `Operands.find` (metadata.py 91-96); an operand is the dictionary of its attributes. -/
def findOperands (operands : List (Dict κ ν)) (names : List κ) : List (Dict κ ν) :=
  operands.filter (fun o => names.all (fun n => o.has n))

/-- `v0 = values[0]` and the comparison with all values (metadata.py 84-86). -/
def sameValues : List (Option ν) → Res Bool
  | [] => .error .indexError
  | v :: vs => .ok ((v :: vs).all (· = v))

/-- The loop over names of `agree` (metadata.py 78-87): stops at the first disagreement. -/
def agreeLoop (values : κ → Res (List (Option ν))) : List κ → Res Bool
  | [] => .ok true
  | n :: ns => do
    if ← sameValues (← values n) then agreeLoop values ns else return false

/-- The values of a named attribute, all operands having it (metadata.py 111-120, mode `'strict'`). -/
def strictValues (operands : List (Dict κ ν)) (n : κ) : Res (List (Option ν)) :=
  if operands.all (fun o => o.has n) then .ok (operands.map (fun o => o.get? n))
  else .error .attributeError

/-- `Operands.agree` (metadata.py 64-89). -/
def agree (operands : List (Dict κ ν)) (names : List κ) (strict : Bool) : Res Bool :=
  if operands.length = 1 then .ok true
  else if strict then agreeLoop (strictValues operands) names
  else agreeLoop (fun n => .ok ((findOperands operands names).map (fun o => o.get? n))) names

end

/-! ## `Name` -/

/-- An operand next to a `Name`. -/
inductive NameArg where
  | name (aliases : List Str)
  | int (z : Int)

/-- `Name.__bool__` (metadata.py 744-753). -/
def nameTrue (a : List Str) : Bool := a ≠ [[]]

/-- `Name.__eq__` for two names (metadata.py 767-773): equality of sets. -/
def nameEq (a b : List Str) : Bool := a.all (· ∈ b) && b.all (· ∈ a)

/-- The operators of `Name` (metadata.py 660-695) that are not reflected; `symbol` as in lines
697-706. The other operand is a name or an integer. (`str(that)` of a `Name` is never `'1'`.) -/
def nameOp (symbol : Str) (strict : Bool) (self : List Str) : NameArg → Res (List Str)
  | .name that =>
    if ¬ nameTrue self ∨ ¬ nameTrue that then .ok [[]]
    else if nameEq that self then
      if strict then .ok self else .ok (self.map (fun i => i ++ symbol ++ i))
    else .ok (self.flatMap (fun i => that.map (fun j => i ++ symbol ++ j)))
  | .int z =>
    if ¬ nameTrue self ∨ z = 0 then .ok [[]]
    else if strict then .error .typeError
    else if z = 1 then .ok self
    else .ok (self.map (fun i => i ++ symbol ++ Symbolic.ratStr z))

end Verif.Metadata
