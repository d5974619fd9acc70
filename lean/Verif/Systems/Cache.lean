import Verif.Systems.Model

/-!
# The instances of `Unit`

`_UnitMeta` (goats/core/metric.py 1930-1991) keeps one mapping with aliases for all units that were ever created.  What
`Unit(arg)` returns depends on its contents, and thereby on all earlier calls.

An instance is a pair: a number that stands for the identity of the object, and the terms of the expression.  Every run
of `super().__call__` takes a new number, as every run makes a new object.
-/

set_option linter.unusedSimpArgs false

namespace Verif.Systems

open Verif.Py Verif.Symbolic Verif.Metric Verif.Aliased

/-- An instance of `Unit`: which object it is, and its terms. -/
abbrev Instance := Nat × List Term

/-- What the process holds: `_UnitMeta._instances` (metric.py 1937), `_NamedUnitMeta._instances` (metric.py 1075), and
the number of the next object. -/
structure Caches where
  units : AMap Str Instance
  named : AMap Str NamedUnit
  next : Nat

/-- The caches of a fresh process. -/
def Caches.empty : Caches := ⟨[], [], 0⟩

/-- The string that stands for a single unit (metric.py 1955-1962): `None` for an expression of several terms. -/
def Target.single : Target → Option Str
  | .text s => some s
  | .expr [t] => some (termStr t)
  | .expr _ => none

/-- The key under which a new unit that is not a named unit is stored (metric.py 1984-1987): `(name, string) if string
else name`. -/
def storeOther (m : AMap Str Instance) (name : Str) (single : Option Str) (v : Instance) : AMap Str Instance :=
  match single with
  | some (c :: s) => setTuple m [name, c :: s] v
  | _ => setItem m name v

/-- `_UnitMeta.__call__` after `super().__call__(arg)` (metric.py 1968-1990); `e` holds the terms of the new object. -/
def register (ident : Str → Res NamedUnit) (c : Caches) (a : Target) (e : List Term) : Caches × Res Instance :=
  match getItem c.units (exprStr e) with
  | .ok u =>
    match a with
    | .text s =>
      match addAliases c.units (exprStr e) [s] with
      | (m, none) => (⟨m, c.named, c.next + 1⟩, .ok u)
      | (m, some x) => (⟨m, c.named, c.next + 1⟩, .error x)
    | .expr _ => (⟨c.units, c.named, c.next + 1⟩, .ok u)
  | .error _ =>
    match callIn ident c.named (exprStr e) with
    | (named, .ok n) => (⟨setTuple c.units [n.name, n.symbol] (c.next, e), named, c.next + 1⟩, .ok (c.next, e))
    | (named, .error x) =>
      if x = .named "UnitParsingError" then
        (⟨storeOther c.units (exprStr e) a.single (c.next, e), named, c.next + 1⟩, .ok (c.next, e))
      else (⟨c.units, named, c.next + 1⟩, .error x)

/-- `_UnitMeta.__call__` when no instance is stored under the string of the argument (metric.py 1966-1990). -/
def create (ident : Str → Res NamedUnit) (c : Caches) (a : Target) : Caches × Res Instance :=
  match a.terms with
  | .error x => (c, .error x)
  | .ok e => register ident c a e

/-- `_UnitMeta.__call__` (metric.py 1939-1991), for an argument that is not yet a unit. -/
def callUnitIn (ident : Str → Res NamedUnit) (c : Caches) (a : Target) : Caches × Res Instance :=
  match a.single with
  | none => create ident c a
  | some s =>
    match getItem c.units s with
    | .ok u => (c, .ok u)
    | .error _ => create ident c a

/-- A call that a process can make: `Unit(arg)` or `NamedUnit(string)`. -/
inductive Call where
  | unit (a : Target)
  | named (s : Str)

/-- The caches after a call. -/
def Call.run (ident : Str → Res NamedUnit) (c : Caches) : Call → Caches
  | .unit a => (callUnitIn ident c a).1
  | .named s => ⟨c.units, (callIn ident c.named s).1, c.next⟩

/-- The caches after a history of calls. -/
def runAll (ident : Str → Res NamedUnit) (c : Caches) (h : List Call) : Caches := h.foldl (Call.run ident) c

/-- `Unit(arg)` with the table of named units. -/
def callUnit (c : Caches) (a : Target) : Caches × Res Instance := callUnitIn identify c a

/-- The caches of a process after a history of calls. -/
def cachesAfter (h : List Call) : Caches := runAll identify .empty h

end Verif.Systems
