import Verif.Aliased.Model

/-!
# Views, copies, merging, equality and inversion of aliased mappings (aliased.py 372-425, 593-790, 994-1040)
-/

namespace Verif.Aliased

open Verif.Py

variable {α ν : Type} [DecidableEq α]

/-- `__contains__` (aliased.py 598-603). -/
def contains (m : AMap α ν) (key : α) : Bool := (resolve m key).isSome

/-- `mapping[group]` for a group (aliased.py 611-644): the first group with the same members.  An empty group is false. -/
def getGroup (m : AMap α ν) (g : Group α) : Res ν :=
  match m.find? (fun e => e.1.same g) with
  | some (_ :: _, v) => .ok v
  | _ => .error .keyError

/-- `keys(aliased=True)`, `values(aliased=True)` and `items(aliased=True)` (aliased.py 372-425, 776-786). -/
def itemsAliased (m : AMap α ν) : Res (List (Group α × ν)) :=
  m.keys.mapM (fun g => do return (g, ← getGroup m g))

/-- `items()` (aliased.py 372-425, 784-786): one pair for each name. -/
def items (m : AMap α ν) : Res (List (α × ν)) := (flatKeys m).mapM (fun k => do return (k, ← getItem m k))

/-- `flat` (aliased.py 594-596), and `dict(self.items())`. -/
def flatMap (m : AMap α ν) : Res (Dict α ν) := do return Dict.ofPairs (← items m)

/-- `Mapping(d)` for a dictionary whose keys are groups (aliased.py 555-586, 259-294), if no value is a mapping with the
key `'aliases'`. -/
def ofGroups (d : Dict (Group α) ν) : AMap α ν := buildFromAliases (d.map (fun p => (.inr p.1, p.2)))

/-- `copy` (aliased.py 788-790). -/
def copy (m : AMap α ν) : AMap α ν := ofGroups m

/-- `__or__` (aliased.py 759-762). -/
def merged (m other : AMap α ν) : Res (AMap α ν) := do
  return ofGroups (Dict.ofPairs ((← itemsAliased m) ++ (← itemsAliased other)))

/-- `fromkeys` for groups of names (aliased.py 677-734, 726-729): each name or group is mapped to the value. -/
def fromKeys (keys : List (α ⊕ List α)) (value : ν) : AMap α ν := buildFromAliases (keys.map (fun k => (k, value)))

/-- `__eq__` with another aliased mapping (aliased.py 751-756): `self.items() == other.items()`, that is the same length,
and each pair of the first is found in the second (`collections.abc.Set.__eq__`, `ItemsView.__contains__`). -/
def mapEq [DecidableEq ν] (m other : AMap α ν) : Res Bool :=
  if length m ≠ length other then .ok false
  else do
    let pairs ← items m
    return pairs.all (fun p => getItem other p.1 = .ok p.2)

/-- `__eq__` with an ordinary dictionary (aliased.py 757). -/
def dictEq [DecidableEq ν] (m : AMap α ν) (d : Dict α ν) : Res Bool := do
  let f ← flatMap m
  return f.length = d.length ∧ f.all (fun p => d.get? p.1 = some p.2)

/-- `alias(key)` (aliased.py 736-749): the other names; `None - [key]` is a `TypeError`. -/
def otherNames (m : AMap α ν) (key : α) : Res (Group α) :=
  match resolve m key with
  | none => .error .typeError
  | some g => .ok (g.filter (· ≠ key))

/-- The result of `squeeze`: interior mappings, or their values. -/
inductive Squeezed (α κ ν : Type) where
  | same (m : AMap α (Dict κ ν))
  | values (m : AMap α ν)

/-- `squeeze` (aliased.py 646-675). -/
def squeeze {κ : Type} [DecidableEq κ] (m : AMap α (Dict κ ν)) (strict : Bool) : Res (Squeezed α κ ν) :=
  if m.values.all (fun d => d.length = 1) then do
    if strict then
      match m.values with
      | [] => throw .indexError
      | d :: ds => if ds.any (fun e => e.keys.head? ≠ d.keys.head?) then throw .typeError
    return .values (m.filterMap (fun p => p.2.values.head?.map (fun v => (p.1, v))))
  else return .same m

/-- `NameMap.invert` (aliased.py 994-1001): canonical names to lists of aliases. -/
def invert (m : AMap α α) : Res (AMap α (List α)) := do
  let d := Dict.ofPairs ((← itemsAliased m).map (fun p => (p.2, p.1)))
  return buildFromAliases (d.map (fun p => (.inl p.1, p.2)))

/-- A name map (aliased.py 912-923).  `init` is what it was created from and `collection` the names that it had then:
`__iter__` and `__len__` use these (iterables.py 561-570). -/
structure NameMap (α : Type) where
  init : Dict α (List α) × Option (List α)
  collection : List α
  mapping : AMap α α ⊕ AMap α (List α)

/-- `NameMap(defs, refs)` (aliased.py 912-923). -/
def NameMap.new (defs : Dict α (List α)) (refs : Option (List α)) : Res (NameMap α) := do
  let m ← nameMap defs refs
  return ⟨(defs, refs), flatKeys m, .inl m⟩

/-- `invert()` (aliased.py 994-1001).  The inverted map has lists as its values, which are not hashable, so that to
invert it is a `TypeError`, unless it is empty. -/
def NameMap.invert (n : NameMap α) : Res (NameMap α) :=
  match n.mapping with
  | .inl m => do return { n with mapping := .inr (← Aliased.invert m) }
  | .inr [] => .ok n
  | .inr _ => .error .typeError

/-- `__getitem__` (aliased.py 1003-1007): a name, or a list of names if the map is inverted. -/
def NameMap.get (n : NameMap α) (key : α) : Res (α ⊕ List α) :=
  match n.mapping with
  | .inl m => if contains m key then do return .inl (← getItem m key) else .error .keyError
  | .inr m => if contains m key then do return .inr (← getItem m key) else .error .keyError

/-- Iteration (iterables.py 568-570). -/
def NameMap.iter (n : NameMap α) : List α := n.collection

/-- `copy()` (aliased.py 1038-1040). -/
def NameMap.copy (n : NameMap α) : Res (NameMap α) := NameMap.new n.init.1 n.init.2

end Verif.Aliased
