import Verif.Py.Chars
import Verif.Iterables.Model
import Verif.Metric.UnitProps

/-!
# Model of `src/goats/core/measurable.py` and of the unit attribute in `metadata.py`
-/

namespace Verif.Measurable

open Verif.Py Verif.Iterables Verif.Symbolic Verif.Metric

/-! ## `parse_measurable` -/

/-- What can be measured: nested lists and tuples of numbers, strings and `None`. -/
abbrev Arg := Obj Rat

def isNumber : Arg → Bool
  | .atom _ => true
  | _ => false

def isString : Arg → Bool
  | .str _ => true
  | _ => false

/-- `isinstance(arg, iterables.whole)`. -/
def isWhole : Arg → Bool
  | .list _ => true
  | .tuple _ => true
  | _ => false

/-- The members of an iterable object; those of a string are its characters. -/
def members : Arg → List Arg
  | .list xs => xs
  | .tuple xs => xs
  | .str s => s.map (fun c => .str [c])
  | _ => []

/-- `ensure_unit` (measurable.py 431-438); `text` is `str` for objects that are not strings. -/
def ensureUnit (text : Arg → Str) (xs : List Arg) : Str :=
  if ¬ xs.any isString then c!"1"
  else match xs.getLast? with
    | some (.str s) => s
    | some o => text o
    | none => c!"1"

/-- Values and unit; `none` when the function ends without `return`. -/
abbrev Parsed := Option (List Arg × Str)

/-- The end of `_callback_parse` (measurable.py 412-421), after the items are parsed. `None` cannot be
indexed. -/
def combine (parsed : List Parsed) : Res Parsed :=
  match parsed.mapM id with
  | none => .error .typeError
  | some items =>
    if (items.map (·.2)).any (fun u => some u ≠ (items.map (·.2)).head?) then
      .error (.named "MeasuringTypeError")
    else .ok (some ((items.map (·.1)).flatten, (items.map (·.2)).head?.getD c!"1"))

/-- The cases of `parse_measurable` for an iterable object, by its members
(measurable.py 360-394); `recurse` parses a member. -/
def parseMembers (text : Arg → Str) (recurse : Arg → Res Parsed) (xs : List Arg) : Res Parsed :=
  if xs = [] then .error (.named "Unmeasurable")
  else if (xs.filter isString).length > 1 then .error (.named "MeasuringTypeError")
  else if xs.all isNumber then .ok (some (xs, c!"1"))
  else if xs.all isWhole then do combine (← xs.mapM recurse)
  else if xs.dropLast.all isNumber then .ok (some (xs.dropLast, ensureUnit text xs))
  else match xs.head? with
    | some (.list ys) => .ok (some (ys, ensureUnit text xs))
    | some (.tuple ys) => .ok (some (ys, ensureUnit text xs))
    | _ => .ok none

/-- `parse_measurable(args, distribute=False)` (measurable.py 351-401) up to a depth of nesting. -/
def parse (text : Arg → Str) : Nat → Arg → Res Parsed
  | 0, _ => .error (.named "fuel")
  | fuel + 1, o =>
    match unwrap o with
    | .none => .error (.named "Unmeasurable")
    | .atom q => .ok (some ([.atom q], c!"1"))
    | u => parseMembers text (parse text fuel) (members u)

/-! ## The unit attribute -/

/-- `self.dimensions == other.dimensions` for units. -/
def sameDimensions (b : Book) (u v : List Term) : Res Bool := do
  let same (x y : Option (List Term)) : Bool := match x, y with
    | some x, some y => exprEq x y
    | none, none => true
    | _, _ => false
  let m := same (← unitDimension b u .mks) (← unitDimension b v .mks)
  let c := same (← unitDimension b u .cgs) (← unitDimension b v .cgs)
  return m && c

/-- `Unit._add_sub` (metadata.py 594-609) for another unit; `conv` as in `unitEq`. -/
def addSub (b : Book) (conv : Str → Str → Res Rat) (u v : List Term) : Res (List Term) := do
  if ← unitEq b conv u v then return u
  else if ← sameDimensions b u v then .error (.named "ScaleMismatch")
  else .error (.named "DimensionMismatch")

/-- `Unit.__mul__` (metric.py 2065-2069): units that are equal as expressions are squared without
decomposing them. -/
def unitTimes (b : Book) (u v : List Term) : Res (List Term) :=
  if exprEq u v then exprPow u 2 else unitMul b u v

/-- `Unit.__truediv__` (metric.py 2071-2075, 2081-2092). -/
def unitOver (b : Book) (u v : List Term) : Res (List Term) :=
  if exprEq u v then .ok [⟨1, one, 1⟩]
  else do exprDiv (← decompose b u) (← decompose b v)

/-- The operations on two quantities. -/
inductive Op where
  | add | sub | mul | div

/-- A measured quantity (measurable.py 146-186): data and unit. -/
structure Quantity where
  data : Rat
  unit : List Term
  deriving DecidableEq

/-- `func(*args)` for the data. -/
def opData : Op → Rat → Rat → Res Rat
  | .add, x, y => .ok (x + y)
  | .sub, x, y => .ok (x - y)
  | .mul, x, y => .ok (x * y)
  | .div, x, y => if y = 0 then .error .zeroDivision else .ok (x / y)

/-- `self.meta[name].evaluate(*operands)` for the unit. -/
def opUnit (b : Book) (conv : Str → Str → Res Rat) : Op → List Term → List Term → Res (List Term)
  | .add, u, v => addSub b conv u v
  | .sub, u, v => addSub b conv u v
  | .mul, u, v => unitTimes b u v
  | .div, u, v => unitOver b u v

/-- `Quantified.implement` in mode `'forward'` (measurable.py 127-130). -/
def forward (b : Book) (conv : Str → Str → Res Rat) (o : Op) (x y : Quantity) : Res Quantity := do
  let data ← opData o x.data y.data
  return ⟨data, ← opUnit b conv o x.unit y.unit⟩

/-- `for k, v in meta: setattr(self, k, v)` (measurable.py 141-142): iterating over a dictionary gives
its keys, and only a string of two characters can be unpacked into `k` and `v`. Attributes named by
one character are not part of the state. -/
def assignMeta : List Str → Option Err
  | [] => none
  | key :: rest => if key.length = 2 then assignMeta rest else some .valueError

/-- `Quantified.implement` in mode `'inplace'` (measurable.py 137-143): the state of the object, and the
exception, if any. `params` are the names of its metadata attributes. -/
def inplace (b : Book) (conv : Str → Str → Res Rat) (params : List Str) (o : Op) (x y : Quantity) :
    Quantity × Option Err :=
  match forward b conv o x y with
  | .error e => (x, some e)
  | .ok r => (⟨r.data, x.unit⟩, assignMeta params)

end Verif.Measurable
