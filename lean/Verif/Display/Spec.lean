import Verif.Display.Model

/-!
# What a display should show
-/

namespace Verif.Display

open Verif.Py

/-- A piece of a format string: a character that stands for itself, or a field. -/
inductive Seg where
  | lit (c : Char)
  | field (name : Str)

/-- How a piece is written: braces that stand for themselves are doubled. -/
def Seg.text : Seg → Str
  | .lit c => if c = '{' ∨ c = '}' then [c, c] else [c]
  | .field name => '{' :: name ++ ['}']

/-- A field whose name has no braces. -/
def Seg.Plain : Seg → Prop
  | .lit _ => True
  | .field name => '{' ∉ name ∧ '}' ∉ name

/-- `out` is the template with every field replaced by its value. -/
inductive Filled (value : Str → Str → Prop) : List Seg → Str → Prop
  | nil : Filled value [] []
  | lit {c segs out} : Filled value segs out → Filled value (.lit c :: segs) (c :: out)
  | field {name v segs out} : value name v → Filled value segs out →
      Filled value (.field name :: segs) (v ++ out)

/-- The attribute that an object shows for a field has the given text. -/
def Shows (fields : Dict Str Str) (attrs : Dict Str Attr) (name v : Str) : Prop :=
  ∃ a, fields.get? name = some a ∧ (attrs.get? a = some (.value v) ∨ attrs.get? a = some (.method v))

/-- The separator does not begin within the part. -/
def Apart (sep part : Str) : Prop := ∀ c ∈ sep.head?, c ∉ part

end Verif.Display
