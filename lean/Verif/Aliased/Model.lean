import Verif.Py.Seq

/-!
# Model of `src/goats/core/aliased.py`

A `Group` (14-94) wraps a Python `set`.  It is modelled by the list of its members in iteration
order: `dict` keys compare by `hash(tuple(...))` first (50-52), so two groups are the same `dict`
key only if they enumerate their members in the same order, which is list equality; the `==` of
two groups is equality of members (`Group.same`).
-/

namespace Verif.Aliased

open Verif.Py

variable {α ν : Type _} [DecidableEq α]

/-- A group of aliases (aliased.py 14-34). -/
abbrev Group (α : Type _) := List α

/-- `Group.__eq__` (aliased.py 72): same members. -/
def Group.same (g h : Group α) : Bool := g.all (· ∈ h) && h.all (· ∈ g)

/-- `Group.__or__` (aliased.py 75).  The iteration order of the new set is unspecified in Python;
no statement depends on it. -/
def Group.union (g h : Group α) : Group α := g ++ h.dedup.filter (· ∉ g)

/-! ## `Groups` -/

/-- `Groups.flat` (aliased.py 115-118). -/
def flat (gs : List (Group α)) : List α := gs.flatten

/-- `Groups.find(x)` for a single name (aliased.py 183-195): the first group that contains it. -/
def find (gs : List (Group α)) (x : α) : Option (Group α) := gs.find? (fun g => x ∈ g)

/-- `Groups._search` (aliased.py 161-165). An empty group is false, so it is skipped. -/
def search (gs : List (Group α)) (g : Group α) : Option (Group α) :=
  g.findSome? (fun m => match find gs m with
    | some [] => none
    | r => r)

/-- `list.remove(found)` (aliased.py 155, 180): removes the first group equal to `found`. -/
def removeGroup : List (Group α) → Group α → Res (List (Group α))
  | [], _ => .error .valueError
  | g :: gs, f => if g.same f then .ok gs else do
      let r ← removeGroup gs f
      return g :: r

/-- The loop of `Groups._merge` (aliased.py 148-159).  `self` keeps its groups during the loop;
only `these` changes. -/
def mergeLoop (self : List (Group α)) : List (Group α) → List (Group α) → Res (List (Group α))
  | these, [] => .ok these
  | these, g :: others =>
    match search self g with
    | some f => do
      let r ← removeGroup these f
      mergeLoop self (r ++ [f.union g]) others
    | none => mergeLoop self (these ++ [g]) others

/-- `Groups.update(*others)` and `Groups.merge(*others)` (aliased.py 141-146): the new groups. -/
def merge (self : List (Group α)) (others : List (Group α)) : Res (List (Group α)) :=
  mergeLoop self self others

/-- `Groups.add(x)` for a list, tuple or set of names (aliased.py 167-174). -/
def add (gs : List (Group α)) (x : List α) : Res (List (Group α)) :=
  if x.any (· ∈ flat gs) then .error .valueError else .ok (gs ++ [x.dedup])

/-- `Groups.add(x)` for a bare string (aliased.py 167-174): the loop runs over the *characters*
of the string, each a string of length one, whereas `Group(x)` has the string as only member. -/
def addStr (gs : List (Group (List Char))) (x : List Char) : Res (List (Group (List Char))) :=
  if x.any (fun c => [c] ∈ flat gs) then .error .valueError else .ok (gs ++ [[x]])

/-- `Groups.discard(x)` (aliased.py 176-179). -/
def discard (gs : List (Group α)) (x : α) : Res (List (Group α)) :=
  match find gs x with
  | some (y :: g) => removeGroup gs (y :: g)
  | _ => .ok gs

/-- `Groups.without(*keys)` for names (aliased.py 197-210).  `group not in keys` compares
`group == key`, that is with the group whose only member is `key`. -/
def without (gs : List (Group α)) (keys : List α) : List (Group α) :=
  gs.filter (fun g => keys.all (fun k => k ∉ g) && !keys.any (fun k => g.same [k]))

/-! ## `Mapping` -/

/-- The internal `dict` of an aliased mapping: `as_dict` (aliased.py 577-586). -/
abbrev AMap (α ν : Type _) := Dict (Group α) ν

/-- `{alias: k for k in self.as_dict for alias in k}` (aliased.py 567, 852-856): later groups
win. -/
def flatDict (m : AMap α ν) : Dict α (Group α) :=
  Dict.ofPairs (m.keys.flatMap (fun g => g.map (fun a => (a, g))))

/-- `_flat_keys` (aliased.py 588-591). -/
def flatKeys (m : AMap α ν) : List α := m.keys.flatten

/-- `_resolve(key)` for a name (aliased.py 620-624). -/
def resolve (m : AMap α ν) (key : α) : Option (Group α) := (flatDict m).get? key

/-- `__getitem__` (aliased.py 611-618). An empty group is false. -/
def getItem (m : AMap α ν) (key : α) : Res ν :=
  match resolve m key with
  | some (a :: g) =>
    match m.get? (a :: g) with
    | some v => .ok v
    | none => .error .keyError
  | _ => .error .keyError

/-- `__len__` (aliased.py 608-609). -/
def length (m : AMap α ν) : Nat := (flatKeys m).length

/-- `_build_from_aliases` (aliased.py 283-294).  A key is a single name (`inl`) or a tuple of
names (`inr`); a tuple is never a member of a group of names. -/
def buildStep (out : AMap α ν) (p : (α ⊕ List α) × ν) : AMap α ν :=
  match p.1 with
  | .inl x =>
    match out.keys.find? (fun g => x ∈ g) with
    | some g => out.set g p.2
    | none => out.set [x] p.2
  | .inr xs => out.set xs.dedup p.2

/-- `_build_from_aliases`: the loop over all entries, from an empty dictionary. -/
def buildFromAliases (entries : List ((α ⊕ List α) × ν)) : AMap α ν :=
  entries.foldl buildStep []

/-- `_build_from_key` (aliased.py 297-349) with `keysfrom` (220-256): an entry is a name, the
aliases found in its interior mapping, and the remaining interior mapping. -/
def buildFromKey (entries : List ((α × List α) × ν)) : AMap α ν :=
  Dict.ofPairs (entries.map (fun p => (Group.union [p.1.1] p.1.2, p.2)))

/-- `keysfrom` with an instance of `Groups` (aliased.py 248-252). -/
def buildFromGroups (groups : List (Group α)) (entries : List (α × ν)) : AMap α ν :=
  Dict.ofPairs (entries.map (fun p => (Group.union [p.1] ((find groups p.1).getD []), p.2)))

/-! ## `MutableMapping` -/

/-- `__setitem__` for a name (aliased.py 839-843). -/
def setItem (m : AMap α ν) (key : α) (v : ν) : AMap α ν :=
  match resolve m key with
  | some (a :: g) => m.set (a :: g) v
  | _ => m.set [key] v

/-- `__setitem__` for a tuple of names (aliased.py 839-843): a tuple is not a key of the flat
dictionary, so a new group is always created. -/
def setTuple (m : AMap α ν) (keys : List α) (v : ν) : AMap α ν := m.set keys.dedup v

/-- `__delitem__` (aliased.py 845-851). -/
def delItem (m : AMap α ν) (key : α) : Res (AMap α ν) :=
  match resolve m key with
  | some (a :: g) => .ok (m.del (a :: g))
  | _ => .error .keyError

/-- The loop of `alias(key, *aliases)` (aliased.py 875-887).  The pair holds the mapping after the
iterations made so far and the exception that ended the loop, if any: an exception does not undo
earlier iterations. -/
def aliasLoop (key : α) : AMap α ν → List α → AMap α ν × Option Err
  | m, [] => (m, none)
  | m, a :: as =>
    if a = key then aliasLoop key m as
    else if a ∈ flatKeys m then (m, some .keyError)
    else match resolve m key with
      | none => (m, some .typeError)
      | some g =>
        match getItem m key with
        | .error e => (m, some e)
        | .ok v => aliasLoop key ((m.set (g.union [a]) v).del g) as

/-- `alias(key, *aliases)` (aliased.py 859-887).  Without aliases it only reads, and fails with
`TypeError` for an unknown key (`None - [key]`). -/
def addAliases (m : AMap α ν) (key : α) (aliases : List α) : AMap α ν × Option Err :=
  match aliases with
  | [] => match resolve m key with
    | none => (m, some .typeError)
    | some _ => (m, none)
  | as => aliasLoop key m as

/-! ## `NameMap` -/

/-- `{name: name for name in names}` turned into an aliased mapping (aliased.py 958-959). -/
def identityMap (names : List α) : AMap α α :=
  buildFromAliases ((Dict.ofPairs (names.map (fun n => (n, n)))).map (fun p => (.inl p.1, p.2)))

/-- `_remove` (aliased.py 989-992). -/
def removeName (name : α) (aliases : List α) : List α := aliases.filter (· ≠ name)

/-- `_get_aliases` for a mapping of names to aliases (aliased.py 961-981). -/
def aliasesOfMapping (defs : Dict α (List α)) : Dict α (List α) :=
  defs.map (fun p => (p.1, removeName p.1 p.2))

/-- `_get_aliases` for an iterable of groups (aliased.py 982-987). -/
def aliasesOfGroups (names : List α) (defs : List (List α)) : Dict α (List α) :=
  Dict.ofPairs (defs.flatMap (fun v => (names.filter (· ∈ v)).map (fun k => (k, v))))

/-- The loop of `NameMap._build_mapping` (aliased.py 943-959). -/
def aliasAll : AMap α α → List (α × List α) → Res (AMap α α)
  | m, [] => .ok m
  | m, (k, as) :: us =>
    match addAliases m k as with
    | (m', none) => aliasAll m' us
    | (_, some e) => .error e

/-- `NameMap(defs, refs)` with a mapping of definitions (aliased.py 912-963). -/
def nameMap (defs : Dict α (List α)) (refs : Option (List α)) : Res (AMap α α) :=
  aliasAll (identityMap (refs.getD defs.keys)) (aliasesOfMapping defs)

/-- `NameMap(defs, refs)` with an iterable of groups (aliased.py 912-963). -/
def nameMapGroups (defs : List (List α)) (refs : List α) : Res (AMap α α) :=
  aliasAll (identityMap refs) (aliasesOfGroups refs defs)

end Verif.Aliased
