import Verif.Aliased.Model
import Verif.Py.Chars
import Mathlib.Data.List.Dedup

/-!
# Model of the operators of `aliased.Group`

A group is given by its names, in the order of iteration, without repetition. `Group` redefines some of the operators it
inherits from `collections.abc.Set` (`_collections_abc.py` of Python), not all of them.
-/

namespace Verif.Aliased.Operators

open Verif.Py

/-- A name. -/
abbrev Name := List Char

/-- The objects that may be combined with a group. `list` stands for lists and tuples. -/
inductive Obj where
  | none
  | name (s : Name)
  | list (xs : List Obj)
  | set (names : List Name)
  | group (names : List Name)

/-- What an operator gives: a `Group` or a plain `set`. -/
inductive Result where
  | group (names : List Name)
  | set (names : List Name)
deriving DecidableEq

/-- `set(names)`: every name once. -/
def asSet (names : List Name) : List Name := names.dedup

/-- The names that are members of a list. A list in a set is a `TypeError`; groups, tuples and other objects in a list of several
members are not modelled and count as errors too. -/
def onlyNames : List Obj → Res (List Name)
  | [] => .ok []
  | .name s :: rest => do return s :: (← onlyNames rest)
  | _ :: _ => .error .typeError

/-- `whole.parse(arg)` (iterables.py 1337-1361) and `set(…)`. -/
def parse : Obj → Res (List Name)
  | .none => .ok []
  | .name s => .ok [s]
  | .list xs => (onlyNames xs).map asSet
  | .set names => .ok (asSet names)
  | .group names => .ok (asSet names)

/-- `iterables.unwrap(obj, wrap=set)` (iterables.py 39-128): lists and tuples of one member are taken away. -/
def unwrapSet : Obj → Res (List Name)
  | .list [x] => unwrapSet x
  | o => parse o

/-- `Group(obj)` (aliased.py 31-40): the tuple of arguments has one member and is taken away as well. -/
def groupOf (o : Obj) : Res (List Name) := unwrapSet (.list [o])

/-! ## The inherited methods, for a group and another one -/

/-- `Set.__le__`. -/
def setLe (g h : List Name) : Bool := decide (g.length ≤ h.length) && g.all (· ∈ h)

/-- `Set.__eq__`. -/
def setEq (g h : List Name) : Bool := decide (g.length = h.length) && setLe g h

/-- `Set.__lt__`. -/
def setLt (g h : List Name) : Bool := decide (g.length < h.length) && setLe g h

/-- `Set.__or__` with `Group._from_iterable` (aliased.py 36-40), which gives a set. -/
def setOr (g h : List Name) : List Name := asSet (g ++ h)

/-- `Set.__and__`. -/
def setAnd (g h : List Name) : List Name := asSet (h.filter (· ∈ g))

/-- `Set.__sub__`. -/
def setSub (g h : List Name) : List Name := asSet (g.filter (· ∉ h))

/-- `Set.__xor__`: `(self - other) | (other - self)`. -/
def setXor (g h : List Name) : List Name := setOr (setSub g h) (setSub h g)

/-- `Set.isdisjoint`. -/
def setDisjoint (g h : List Name) : Bool := h.all (· ∉ g)

/-! ## The redefined methods -/

/-- The methods made by `_implement` (aliased.py 62-70): the other object becomes a group, a result that is a set becomes one
as well. -/
def implement (op : List Name → List Name → List Name) (g : List Name) (other : Obj) : Res Result := do
  return .group (← groupOf (.set (op g (← groupOf other))))

/-- `group | other` (aliased.py 75). -/
def or (g : List Name) (other : Obj) : Res Result := implement setOr g other

/-- `group & other` (aliased.py 73). -/
def and (g : List Name) (other : Obj) : Res Result := implement setAnd g other

/-- `group - other` (aliased.py 76). -/
def sub (g : List Name) (other : Obj) : Res Result := implement setSub g other

/-- `other - group` (aliased.py 77). -/
def rsub (g : List Name) (other : Obj) : Res Result := implement (fun g h => setSub h g) g other

/-- `group ^ other` (aliased.py 78). -/
def xor (g : List Name) (other : Obj) : Res Result := implement setXor g other

/-- `group == other` (aliased.py 72). A truth value is not made a group. -/
def eq (g : List Name) (other : Obj) : Res Bool := do return setEq g (← groupOf other)

/-- `group.isdisjoint(other)` (aliased.py 74). -/
def isdisjoint (g : List Name) (other : Obj) : Res Bool := do return setDisjoint g (← groupOf other)

/-- `group <= other` (`Set.__le__`, aliased.py 14): not redefined, sets and groups only. -/
def le (g : List Name) : Obj → Res Bool
  | .set h => .ok (setLe g h)
  | .group h => .ok (setLe g h)
  | _ => .error .typeError

/-- `group < other` (`Set.__lt__`, aliased.py 14). -/
def lt (g : List Name) : Obj → Res Bool
  | .set h => .ok (setLt g h)
  | .group h => .ok (setLt g h)
  | _ => .error .typeError

/-! ## The reflected methods

`Set.__ror__`, `Set.__rand__` and `Set.__rxor__` are other names of `Set.__or__`, `Set.__and__` and `Set.__xor__`; to redefine the
latter does not redefine the former. -/

/-- Iterating over an object; a string gives its characters. -/
def items : Obj → Res (List Name)
  | .none => .error .typeError
  | .name s => .ok (s.map (fun c => [c]))
  | .list xs => onlyNames xs
  | .set names => .ok names
  | .group names => .ok names

/-- `other | group` for an object that is not a group (`Set.__ror__`, aliased.py 14): the result is that of `_from_iterable`. -/
def ror (g : List Name) (other : Obj) : Res Result :=
  match other with
  | .group h => or h (.group g)
  | o => do return .set (setOr g (← items o))

/-- `other & group` for an object that is not a group (`Set.__rand__`, aliased.py 14). -/
def rand (g : List Name) (other : Obj) : Res Result :=
  match other with
  | .group h => and h (.group g)
  | o => do return .set (setAnd g (← items o))

/-- `other ^ group` (`Set.__rxor__`, aliased.py 14): an object that is no set is made one by `_from_iterable`, and the two
differences, both made by redefined methods, are groups. Objects that cannot be iterated over are refused. -/
def rxor (g : List Name) (other : Obj) : Res Result :=
  match other with
  | .group h => xor h (.group g)
  | .none => .error .typeError
  | .set h => do
    match ← sub g (.set h), ← rsub g (.set h) with
    | .group a, .group b => or a (.group b)
    | _, _ => .error .typeError
  | o => do
    let h ← unwrapSet o
    match ← sub g (.set h), ← rsub g (.set h) with
    | .group a, .group b => or a (.group b)
    | _, _ => .error .typeError

/-! ## Hashes -/

/-- One more entry in a table of eight places (`set_add_entry` in `Objects/setobject.c` of CPython 3.9-3.12, for a table of eight
places, where no places are probed linearly, and for hashes below 32, where `perturb` vanishes at once): the places `i`,
`5 * i + 1`, … are tried. -/
def insertSlot (x : Nat) : Nat → Nat → List (Option Nat) → List (Option Nat)
  | 0, _, table => table
  | fuel + 1, i, table =>
    match table[i]? with
    | some (some y) => if y = x then table else insertSlot x fuel ((5 * i + 1) % 8) table
    | _ => table.set i (some x)

/-- The order in which a set of at most four small natural numbers is iterated over (CPython). -/
def setOrder (xs : List Nat) : List Nat :=
  (xs.foldl (fun t x => insertSlot x 64 (x % 8) t) (List.replicate 8 none)).filterMap id

/-- `hash(tuple)` for small natural numbers (`tuplehash` in `Objects/tupleobject.c` of CPython 3.8 and later, 64 bits). -/
def tupleHash (xs : List Nat) : Nat :=
  let acc := xs.foldl (fun acc lane =>
    let a := (acc + lane * 14029467366897019727) % 2 ^ 64
    let r := (a * 2 ^ 31 + a / 2 ^ 33) % 2 ^ 64
    (r * 11400714785074694791) % 2 ^ 64) 2870177450012600261
  (acc + (xs.length ^^^ (2870177450012600261 ^^^ 3527539))) % 2 ^ 64

/-- `hash(group)` (aliased.py 51-53) for a group of at most four small natural numbers. -/
def groupHash (xs : List Nat) : Nat := tupleHash (setOrder xs)

end Verif.Aliased.Operators
