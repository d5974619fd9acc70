import Verif.Py.Basic
import Verif.Py.Chars

/-!
# How objects show themselves

`iterables.DisplayString`, `Display`, `DisplayMap` and `ReprStrMixin`, and the classes that use them:
measurable, named and array quantities, and options.

Texts are lists of characters. The attributes of an object are given by the text that `str` makes of
them; an attribute that is callable is called first. Format strings have replacement fields with
plain names only (no attribute access, index, conversion or format specification), which is what the
code uses.
-/

set_option linter.unusedVariables false

namespace Verif.Display

open Verif.Py

abbrev Str := List Char

/-! ## `str.split`, `str.join`, `list.insert` -/

/-- `s.split(sep)` after `cur`, with `k` characters of a separator still to pass over. -/
def splitGo (sep : Str) : Str → Nat → Str → List Str
  | [], _, cur => [cur]
  | _ :: cs, k + 1, cur => splitGo sep cs k cur
  | c :: cs, 0, cur =>
    if sep.isPrefixOf (c :: cs) then cur :: splitGo sep cs (sep.length - 1) []
    else splitGo sep cs 0 (cur ++ [c])

/-- `s.split(sep)` of Python, for a separator that is not empty. -/
def split (sep s : Str) : List Str := splitGo sep s 0 []

/-- `sep.join(parts)` of Python. -/
def join (sep : Str) : List Str → Str
  | [] => []
  | [p] => p
  | p :: q :: ps => p ++ sep ++ join sep (q :: ps)

/-- The position at which `list.insert(i, x)` puts `x` in a list of length `n`. -/
def insertAt (n : Nat) (i : Int) : Nat :=
  if i < 0 then (i + n).toNat else min i.toNat n

/-- `parts.insert(i, x)` of Python. -/
def insertPart (parts : List Str) (i : Int) (x : Str) : List Str :=
  parts.take (insertAt parts.length i) ++ x :: parts.drop (insertAt parts.length i)

/-! ## `DisplayString` -/

/-- A `DisplayString` (iterables.py 259-284): a text and a separator. -/
structure DString where
  data : Str
  separator : Str
  deriving DecidableEq, Repr

/-- `DisplayString(seq)` (iterables.py 262-264). -/
def DString.ofText (s : Str) : DString := ⟨s, c!" "⟩

/-- The parts of a display (iterables.py 268, 273, 279). -/
def DString.parts (d : DString) : List Str := split d.separator d.data

/-- `DisplayString.__getitem__` for an integer (iterables.py 266-269). -/
def DString.getItem (d : DString) (i : Int) : Res Str :=
  let n := d.parts.length
  let j := if i < 0 then i + n else i
  if j < 0 then .error .indexError
  else match d.parts[j.toNat]? with
    | some p => .ok p
    | none => .error .indexError

/-- `DisplayString.append` (iterables.py 271-275). -/
def DString.append (d : DString) (x : Str) : DString :=
  { d with data := join d.separator (d.parts ++ [x]) }

/-- `DisplayString.insert` (iterables.py 277-281). -/
def DString.insert (d : DString) (i : Int) (x : Str) : DString :=
  { d with data := join d.separator (insertPart d.parts i x) }

/-! ## `str.format_map` -/

/-- `str.format_map` of Python for plain replacement fields; the second argument is the name of the
field that is being read, if any. -/
def formatGo (look : Str → Res Str) : Str → Option Str → Res Str
  | [], none => .ok []
  | [], some _ => .error .valueError
  | '{' :: '{' :: cs, none => (formatGo look cs none).map ('{' :: ·)
  | '}' :: '}' :: cs, none => (formatGo look cs none).map ('}' :: ·)
  | '{' :: cs, none => formatGo look cs (some [])
  | '}' :: _, none => .error .valueError
  | c :: cs, none => (formatGo look cs none).map (c :: ·)
  | '}' :: cs, some f => do
    let v ← look f
    (formatGo look cs none).map (v ++ ·)
  | '{' :: _, some _ => .error .valueError
  | c :: cs, some f => formatGo look cs (some (f ++ [c]))

/-- `DisplayString.format_map` (iterables.py 283-284). -/
def DString.formatMap (d : DString) (look : Str → Res Str) : Res Str := formatGo look d.data none

/-! ## `Display` and `ReprStrMixin` -/

/-- An attribute of an object: a value, by its text, or a method, by the text of what it returns. -/
inductive Attr where
  | value (s : Str)
  | method (s : Str)
  deriving DecidableEq, Repr

/-- A `Display` (iterables.py 287-327): the display strings and the names of the attributes to show.
(The code keeps both in one dictionary.) -/
structure Display where
  str : DString
  repr : DString
  fields : Dict Str Str
  deriving Repr

/-- `Display()` (iterables.py 290-292). -/
def Display.new : Display := ⟨.ofText [], .ofText [], []⟩

/-- `Display.register(*names, **pairs)` (iterables.py 311-327). -/
def Display.register (d : Display) (names : List Str) (pairs : List (Str × Str)) : Display :=
  { d with fields := (d.fields.update (names.map fun n => (n, n))).update pairs }

/-- `DisplayMap.__getitem__` (iterables.py 252-256) for an object with the given display and
attributes. -/
def lookAttr (fields : Dict Str Str) (attrs : Dict Str Attr) (name : Str) : Res Str :=
  match fields.get? name with
  | none => .error .keyError
  | some a =>
    match attrs.get? a with
    | none => .error .attributeError
    | some (.value s) => .ok s
    | some (.method s) => .ok s

/-- An object that uses `ReprStrMixin`. -/
structure Obj where
  /-- The module (without `goats.`) and the class. -/
  module : Str
  cls : Str
  display : Display
  attrs : Dict Str Attr

/-- `ReprStrMixin.__str__` (iterables.py 342-344, 353-356). -/
def Obj.str (o : Obj) : Res Str :=
  o.display.str.formatMap (lookAttr o.display.fields o.attrs)

/-- `ReprStrMixin.__repr__` (iterables.py 346-356). -/
def Obj.repr (o : Obj) : Res Str := do
  let s ← o.display.repr.formatMap (lookAttr o.display.fields o.attrs)
  let t ← if s = [] then o.str else .ok s
  .ok (o.module ++ c!"." ++ o.cls ++ c!"(" ++ t ++ c!")")

/-! ## Quantities and options -/

/-- The display of a measurable quantity (measurable.py 181-184). -/
def quantified : Display :=
  let d := Display.new.register [c!"data", c!"unit"] []
  let d := { d with str := .ofText c!"{data} [{unit}]" }
  let d := { d with repr := .ofText c!"{data}, unit='{unit}'" }
  { d with repr := { d.repr with separator := c!", " } }

/-- The display of a named quantity (physical.py 44-47); `named` is `bool(self._name)`. -/
def physical (named : Bool) : Display :=
  if named then
    let d := quantified.register [c!"name"] []
    let d := { d with str := d.str.insert 0 c!"'{name}':" }
    { d with repr := d.repr.insert 2 c!"name='{name}'" }
  else quantified

/-- The display of an array (physical.py 247). -/
def array (named : Bool) : Display := (physical named).register [] [(c!"data", c!"_get_data_type")]

/-- The display of an option (constant.py 63-70). -/
def option (named : Bool) : Display :=
  let d := Display.new.register [c!"value"] []
  let d := { d with str := .ofText c!"{value}" }
  let d := { d with repr := .ofText c!"{value}" }
  let d := { d with repr := { d.repr with separator := c!", " } }
  if named then
    let d := d.register [c!"name"] []
    let d := { d with str := d.str.insert 0 c!"'{name}': " }
    { d with repr := d.repr.insert 1 c!"'{name}'" }
  else d

/-- `repr` of a text without quotes, backslashes or characters that are not printable. -/
def quote (s : Str) : Str := c!"'" ++ s ++ c!"'"

/-- `str` of a name (metadata.py 775-776, aliased.py 80-82, 91-94). The order of the aliases, which is
that of a Python set, is an input. -/
def nameText (aliases : List Str) : Str := join c!" = " (aliases.map quote)

/-- `Name.__bool__` (metadata.py 744-753). -/
def nameTrue (aliases : List Str) : Bool := aliases ≠ [[]]

/-- A named quantity (physical.py 39-47): `data` and `unit` are texts, `kind` is the text of the class
of the data. -/
structure Quantity where
  data : Str
  kind : Str
  unit : Str
  aliases : List Str
  display : Display

/-- `physical.Scalar(data, unit=unit, name=aliases)` or `physical.Vector` (physical.py 39-47). -/
def Quantity.scalar (data kind unit : Str) (aliases : List Str) : Quantity :=
  ⟨data, kind, unit, aliases, physical (nameTrue aliases)⟩

/-- `physical.Array(data, unit=unit, name=aliases)` (physical.py 240-247). -/
def Quantity.array (data kind unit : Str) (aliases : List Str) : Quantity :=
  ⟨data, kind, unit, aliases, Display.array (nameTrue aliases)⟩

/-- `alias(*updates, reset=True)` (metadata.py 897-901). -/
def Quantity.rename (q : Quantity) (aliases : List Str) : Quantity := { q with aliases := aliases }

/-- A quantity as an object with attributes (measurable.py 192-195; metadata.py 892-895; physical.py
250-262). -/
def Quantity.obj (q : Quantity) (module cls : Str) : Obj :=
  { module := module, cls := cls, display := q.display
    attrs := [(c!"data", .value q.data), (c!"unit", .value q.unit),
      (c!"name", .value (nameText q.aliases)), (c!"_get_data_type", .method q.kind)] }

/-- `constant.Option(value, name=aliases)` (constant.py 55-70). The group of aliases is never empty, so
it is always true (aliased.py 55-60). -/
def optionObj (value : Str) (aliases : List Str) : Obj :=
  { module := c!"core.constant", cls := c!"Option", display := option true
    attrs := [(c!"value", .value value), (c!"name", .value (nameText aliases))] }

end Verif.Display
