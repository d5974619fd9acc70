import Mathlib.Data.Rat.Defs
import Mathlib.Algebra.Field.Rat
import Verif.Py.Seq

/-!
# Model of `src/goats/core/iterables.py`

Each definition cites the lines that it mirrors.
-/

namespace Verif.Iterables

open Verif.Py

/-! ## `unique` -/

/-- Loop body of `unique` (iterables.py 18-21), with the collection built so far. -/
def uniqueLoop {α : Type _} [DecidableEq α] : List α → List α → List α
  | acc, [] => acc
  | acc, x :: xs => if x ∈ acc then uniqueLoop acc xs else uniqueLoop (acc ++ [x]) xs

/-- `unique(*items)` (iterables.py 16-22). -/
def unique {α : Type _} [DecidableEq α] (items : List α) : List α := uniqueLoop [] items

/-! ## `unwrap` -/

/-- The objects that `unwrap` tells apart: `None`, strings, other non-iterable objects, and
arbitrarily nested lists and tuples.  Other iterables (sets, arrays, ...) are not modelled. -/
inductive Obj (α : Type) where
  | none
  | str (s : List Char)
  | atom (a : α)
  | list (xs : List (Obj α))
  | tuple (xs : List (Obj α))

/-- The `while` loop of `unwrap` (iterables.py 121-125).  The code starts from `[obj]`, whose
first iteration yields `obj`. -/
def unwrapLoop {α : Type} : Obj α → Obj α
  | .list [x] => unwrapLoop x
  | .tuple [x] => unwrapLoop x
  | o => o

/-- `unwrap(obj)` (iterables.py 39, 121-128 with `wrap=None`). -/
def unwrap {α : Type} (o : Obj α) : Obj α := unwrapLoop (.list [o])

/-- `whole.parse` (iterables.py 1337-1360). -/
def wholeParse {α : Type} : Obj α → List (Obj α)
  | .none => []
  | .str s => [.str s]
  | .atom a => [.atom a]
  | .list xs => xs
  | .tuple xs => xs

/-- `unwrap(obj, wrap=f)` (iterables.py 126-127): the members that the new collection holds. -/
def unwrapInto {α : Type} (o : Obj α) : List (Obj α) := wholeParse (unwrap o)

/-! ## `transpose_list` -/

/-- `element[i]` for one element of the table (iterables.py 183). -/
def itemAt {α : Type _} (i : Nat) (r : List α) : Res α :=
  match r[i]? with
  | some x => .ok x
  | none => .error .indexError

/-- `[element[i] for element in list_in]` (iterables.py 183). -/
def columnAt {α : Type _} (rows : List (List α)) (i : Nat) : Res (List α) :=
  rows.mapM (itemAt i)

/-- `transpose_list` (iterables.py 158-185). -/
def transposeList {α : Type _} (rows : List (List α)) : Res (List (List α)) :=
  match rows with
  | [] => .error .indexError
  | first :: _ => (List.range first.length).mapM (columnAt rows)

/-! ## `slice_to_range` -/

/-- `x or d` for an optional integer: `None` and `0` are both false. -/
def orElseInt (x : Option Int) (d : Int) : Int :=
  match x with
  | none => d
  | some v => if v = 0 then d else v

/-- `slice_to_range(s, stop=stop)` (iterables.py 188-195), as the list of members of the range.
Only positive steps are represented (see `rangeUp`). -/
def sliceToRange (s : Slice) (stop : Int) : List Int :=
  rangeUp (orElseInt s.start 0) (orElseInt s.stop stop) (orElseInt s.step 1)

/-! ## `show_at_most` -/

/-- The tokens that `show_at_most` joins (iterables.py 230-233); `none` stands for the literal
`'...'`. The separator and `str(v)` are not modelled. -/
def showAtMost {α : Type _} (n : Int) (seq : List α) : Res (List (Option α)) :=
  if (seq.length : Int) ≤ n then .ok (seq.map some)
  else do
    let last ← getItem seq (-1)
    return (prefixTo seq (n - 1)).map some ++ [none, some last]

/-! ## `Bijection` -/

section Bijection
variable {κ ν : Type _} [DecidableEq κ] [DecidableEq ν]

/-- `Bijection.__new__` (iterables.py 673-687). -/
def mkBijection (m : Dict κ ν) : Res (Dict κ ν) :=
  let nKeys := m.keys.length
  let nValues := m.values.dedup.length
  if nKeys > nValues then .error (.named "InjectiveTypeError")
  else if nKeys ≠ nValues then .error (.named "NonInvertibleError")
  else .ok m

/-- `Bijection.invert` (iterables.py 697-699). -/
def invert (m : Dict κ ν) : Res (Dict ν κ) :=
  mkBijection (Dict.ofPairs (m.map (fun p => (p.2, p.1))))

end Bijection

/-! ## `ObjectRegistry` -/

/-- State of an `ObjectRegistry` (iterables.py 702-716).  Keys are strings, as lists of
characters; metadata are not modelled, so a value is the registered object. -/
structure Registry (α : Type _) where
  items : Dict (List Char) α
  count : Nat

/-- `f"{proposed}_{count}"` (iterables.py 848). -/
def suffixed (proposed : List Char) (count : Nat) : List Char :=
  proposed ++ '_' :: Nat.toDigits 10 count

/-- `_get_default_key` (iterables.py 846-856) for an object that has a `__qualname__` or
`__name__`. Returns the key and the updated counter. -/
def Registry.defaultKey {α : Type _} (r : Registry α) (objName : List Char) : List Char × Nat :=
  if r.items.has objName then (suffixed objName r.count, r.count + 1)
  else (objName, r.count)

/-- `_get_mapping_key` (iterables.py 834-844). An empty user name is false. -/
def Registry.mappingKey {α : Type _} (r : Registry α) (objName : List Char)
    (user : Option (List Char)) (overwrite : Bool) : List Char × Nat :=
  match user with
  | none => r.defaultKey objName
  | some u =>
    if u ≠ [] && (!r.items.has u || overwrite) then (u, r.count)
    else r.defaultKey objName

/-- `register` (iterables.py 731-822): the key used and the new state. -/
def Registry.register {α : Type _} (r : Registry α) (obj : α) (objName : List Char)
    (user : Option (List Char)) (overwrite : Bool) : List Char × Registry α :=
  let (key, count) := r.mappingKey objName user overwrite
  (key, { items := r.items.set key obj, count := count })

/-! ## `Table` -/

section Table
variable {κ ν : Type _} [DecidableEq κ] [DecidableEq ν]

/-- `key in self.keys` (iterables.py 1004-1010): the keys common to all entries; computing them
for an empty table raises `IndexError`. -/
def tableHasKey (entries : List (Dict κ ν)) (key : κ) : Res Bool :=
  match entries with
  | [] => .error .indexError
  | _ => .ok (entries.all (fun e => e.has key))

/-- `[entry for entry in subset if entry[key] == value]` (iterables.py 1099-1102). -/
def narrow (subset : List (Dict κ ν)) (key : κ) (value : ν) : List (Dict κ ν) :=
  subset.filter (fun e => e.get? key = some value)

/-- `self[key].count(value)` (iterables.py 1104). -/
def countValue (entries : List (Dict κ ν)) (key : κ) (value : ν) : Nat :=
  (narrow entries key value).length

/-- The loop of `Table.__call__` (iterables.py 1093-1113).  `n` is the number of pairs checked
before this one, `total` is `len(request)`. -/
def tableLoop (entries : List (Dict κ ν)) (strict : Bool) (total : Nat) :
    Nat → List (Dict κ ν) → List (κ × ν) → Res (Dict κ ν)
  | _, subset, [] =>
    match strict, subset with
    | true, [e] => .ok e
    | _, _ => .error (.named "TableLookupError")
  | n, subset, (key, value) :: rest => do
    let common ← tableHasKey entries key
    if !common then .error (.named "TableKeyError")
    else
      let subset' := narrow subset key value
      if strict then tableLoop entries strict total (n + 1) subset' rest
      else if countValue entries key value > n + 1 && total = n + 1 then
        .error (.named "AmbiguousRequestError")
      else match subset' with
        | [e] => .ok e
        | _ => tableLoop entries strict total (n + 1) subset' rest

/-- `Table.__call__(strict, **request)` (iterables.py 1050-1115). -/
def tableCall (entries : List (Dict κ ν)) (strict : Bool) (request : List (κ × ν)) :
    Res (Dict κ ν) :=
  tableLoop entries strict request.length 0 entries request

/-- `Table.find(value, unique=unique)` (iterables.py 1035-1048). -/
def tableFind (entries : List (Dict κ ν)) (value : ν) (uniq : Bool) :
    Res (List (Dict κ ν)) :=
  let found := entries.filter (fun e => value ∈ e.values)
  match found with
  | [] => .error (.named "MissingValueError")
  | [e] => .ok [e]
  | _ => if uniq then .error (.named "AmbiguousValueError") else .ok found

end Table

/-! ## `Connections` -/

section Connections
variable {κ : Type _} [DecidableEq κ]

/-- `1 / weight if weight else weight` (iterables.py 1189); floats as rationals. -/
def inverseWeight : Option Rat → Option Rat
  | none => none
  | some w => if w = 0 then some w else some (1 / w)

/-- `if edge not in self.connections: self.connections[edge] = value` (iterables.py 1191-1193). -/
def addEdge (c : Dict (κ × κ) (Option Rat)) (edge : κ × κ) (w : Option Rat) :
    Dict (κ × κ) (Option Rat) :=
  if c.has edge then c else c.set edge w

/-- `add_connection(start, end, weight)` (iterables.py 1181-1193). -/
def addConnection (c : Dict (κ × κ) (Option Rat)) (start stop : κ) (w : Option Rat) :
    Dict (κ × κ) (Option Rat) :=
  addEdge (addEdge c (start, stop) w) (stop, start) (inverseWeight w)

/-- `get_weight` (iterables.py 1173-1179). -/
def getWeight (c : Dict (κ × κ) (Option Rat)) (start stop : κ) : Res (Option Rat) :=
  match c.get? (start, stop) with
  | some w => .ok w
  | none => .error .keyError

/-- `nodes` (iterables.py 1149-1152), as a list with repetitions. -/
def nodes (c : Dict (κ × κ) (Option Rat)) : List κ := c.keys.flatMap (fun e => [e.1, e.2])

/-- `get_adjacencies` (iterables.py 1154-1171). -/
def getAdjacencies (c : Dict (κ × κ) (Option Rat)) (node : κ) : Dict κ (Option Rat) :=
  if node ∈ nodes c then
    Dict.ofPairs ((c.filter (fun p => p.1.1 = node)).map (fun p => (p.1.2, p.2)))
  else []

/-- `Connections(base)` (iterables.py 1121-1135). -/
def mkConnections (base : List ((κ × κ) × Option Rat)) : Dict (κ × κ) (Option Rat) :=
  base.foldl (fun c p => addConnection c p.1.1 p.1.2 p.2) []

end Connections

/-! ## `distribute` -/

/-- An argument of `distribute`: a non-string iterable, or anything else. -/
inductive Dist (α : Type _) where
  | scalar (a : α)
  | whole (xs : List α)

/-- `distribute(a, b)` (iterables.py 1380-1397). -/
def distribute {α β : Type _} : Dist α → Dist β → Res (List (α × β))
  | .scalar _, .scalar _ => .error .typeError
  | .whole xs, .whole ys => .ok (xs.flatMap (fun x => ys.map (fun y => (x, y))))
  | .scalar a, .whole ys => .ok (ys.map (fun y => (a, y)))
  | .whole xs, .scalar b => .ok (xs.map (fun x => (x, b)))

/-! ## `Guard` -/

/-- The registered substitute: an ordinary value or `...`. -/
inductive Subst (α : Type _) where
  | value (a : α)
  | args
  deriving DecidableEq

/-- What the guarded call hands back. -/
inductive Guarded (ρ σ α κ : Type _) where
  | result (r : ρ)
  | substitute (s : σ)
  | oneArg (a : α)
  | posArgs (as : List α)
  | kwArgs (ks : κ)
  | bothArgs (as : List α) (ks : κ)
  deriving DecidableEq

/-- The exception that leaves `Guard.call`: the callable's own, or the `KeyError` raised by
`self._substitutions[type(err)]`. -/
inductive GuardErr (ε : Type _) where
  | own (e : ε)
  | keyError
  deriving DecidableEq

/-- `Guard.catch` (iterables.py 1616-1632). -/
def guardCatch {ε σ : Type _} [DecidableEq ε] (subs : Dict ε (Subst σ)) (e : ε) (v : Subst σ) :
    Dict ε (Subst σ) := subs.set e v

/-- `Guard.call` (iterables.py 1637-1683).  `isSub a b` says that exception class `a` is `b` or
one of its subclasses; `outcome` is what the callable does; the keyword arguments are kept
abstract apart from whether there are any. -/
def guardCall {ε ρ σ α κ : Type _} [DecidableEq ε] (isSub : ε → ε → Bool)
    (subs : Dict ε (Subst σ)) (args : List α) (kwargs : Option κ) (outcome : Except ε ρ) :
    Except (GuardErr ε) (Guarded ρ σ α κ) :=
  match outcome with
  | .ok r => .ok (.result r)
  | .error e =>
    if subs.keys.any (fun k => isSub e k) then
      match subs.get? e with
      | none => .error .keyError
      | some (.value v) => .ok (.substitute v)
      | some .args =>
        match kwargs with
        | none =>
          match args with
          | [a] => .ok (.oneArg a)
          | _ => .ok (.posArgs args)
        | some ks =>
          match args with
          | [] => .ok (.kwArgs ks)
          | _ => .ok (.bothArgs args ks)
    else .error (.own e)

end Verif.Iterables
