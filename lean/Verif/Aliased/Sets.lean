import Verif.Aliased.Model

/-!
# Model of `aliased.Groups` as a set

`Groups` inherits comparisons, `remove`, `pop`, `clear` and the operators of sets from `collections.abc.MutableSet`
(`_collections_abc.py` of Python). `text` is `str(group)`, any function.
-/

namespace Verif.Aliased

open Verif.Py

variable {α : Type _} [DecidableEq α]

/-- `Groups.find(x)` for a group (aliased.py 183-195). -/
def findGroup (text : Group α → α) (gs : List (Group α)) (x : Group α) : Option (Group α) :=
  gs.find? (fun k => decide (text x ∈ k) || x.same k)

/-- `x in groups` for a group (aliased.py 128-130). -/
def holdsGroup (text : Group α → α) (gs : List (Group α)) (x : Group α) : Bool := (findGroup text gs x).isSome

/-- `groups <= others` (aliased.py 100, `Set.__le__`). -/
def setLe (text : Group α → α) (gs hs : List (Group α)) : Bool :=
  decide (gs.length ≤ hs.length) && gs.all (holdsGroup text hs)

/-- `groups == others` (aliased.py 100, `Set.__eq__`). -/
def setEq (text : Group α → α) (gs hs : List (Group α)) : Bool := decide (gs.length = hs.length) && setLe text gs hs

/-- `groups.isdisjoint(others)` (aliased.py 100, `Set.isdisjoint`). -/
def setDisjoint (text : Group α → α) (gs hs : List (Group α)) : Bool := hs.all (fun v => !holdsGroup text gs v)

/-- `groups.discard(x)` for a group (aliased.py 176-179): an empty group is false. -/
def discardGroup (text : Group α → α) (gs : List (Group α)) (x : Group α) : Res (List (Group α)) :=
  match findGroup text gs x with
  | some (y :: g) => removeGroup gs (y :: g)
  | _ => .ok gs

/-- `groups.remove(x)` for a name (aliased.py 100, `MutableSet.remove`). -/
def remove (gs : List (Group α)) (x : α) : Res (List (Group α)) :=
  if (find gs x).isSome then discard gs x else .error .keyError

/-- `groups.pop()` (aliased.py 100, `MutableSet.pop`): the first group and the others. -/
def pop (text : Group α → α) : List (Group α) → Res (Group α × List (Group α))
  | [] => .error .keyError
  | g :: gs => (discardGroup text (g :: gs) g).map (fun rest => (g, rest))

/-- `groups.clear()` (aliased.py 100, `MutableSet.clear`): the groups after at most `rounds` calls of `pop`, and whether the loop has
ended. -/
def clear (text : Group α → α) : Nat → List (Group α) → Res (List (Group α) × Bool)
  | 0, gs => .ok (gs, false)
  | n + 1, gs =>
    match pop text gs with
    | .error .keyError => .ok (gs, true)
    | .error e => .error e
    | .ok (_, rest) => clear text n rest

/-- `Groups._from_iterable(it)` (`Set._from_iterable`, aliased.py 103-113): `Groups(it)` has one group, the set of all
members of `it`. -/
def fromIterable (it : List (Group α)) : List (Group (Group α)) := [it.dedup]

/-- `groups | others` (aliased.py 100, `Set.__or__`). -/
def setOr (gs hs : List (Group α)) : List (Group (Group α)) := fromIterable (gs ++ hs)

/-- `groups & others` (aliased.py 100, `Set.__and__`). -/
def setAnd (text : Group α → α) (gs hs : List (Group α)) : List (Group (Group α)) :=
  fromIterable (hs.filter (holdsGroup text gs))

/-- `groups - others` (aliased.py 100, `Set.__sub__`). -/
def setSub (text : Group α → α) (gs hs : List (Group α)) : List (Group (Group α)) :=
  fromIterable (gs.filter (fun v => !holdsGroup text hs v))

end Verif.Aliased
