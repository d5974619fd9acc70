import Verif.Py.Basic
import Verif.Py.Chars

/-!
# Model of `src/goats/core/spelling.py`

Words are lists of characters.  The set of known words is a list; the order in which Python's sets
are enumerated only affects the order of suggestions.
-/

namespace Verif.Spelling

open Verif.Py

/-- Words. -/
abbrev Word := List Char

/-- `self.letters` (spelling.py 34-35). -/
def letters : List Char := c!"abcdefghijklmnopqrstuvwxyzABCDEFGHIJKLMNOPQRSTUVWXYZ"

/-- `splits` (spelling.py 77-82): `range(len(word))` stops before the end of the word. -/
def splits (w : Word) : List (Word × Word) :=
  (List.range w.length).map (fun i => (w.take i, w.drop i))

/-- `deletes` (spelling.py 84-89). -/
def deletes (w : Word) : List Word :=
  ((splits w).filter (fun p => p.2 ≠ [])).map (fun p => p.1 ++ p.2.drop 1)

/-- The two letters at the split exchanged. -/
def swapAt (p : Word × Word) : Word :=
  match p.2 with
  | a :: b :: rest => p.1 ++ b :: a :: rest
  | _ => p.1 ++ p.2

/-- `transposes` (spelling.py 91-96). -/
def transposes (w : Word) : List Word :=
  ((splits w).filter (fun p => 1 < p.2.length)).map swapAt

/-- `replaces` (spelling.py 98-103). -/
def replaces (w : Word) : List Word :=
  ((splits w).filter (fun p => p.2 ≠ [])).flatMap
    (fun p => letters.map (fun c => p.1 ++ c :: p.2.drop 1))

/-- `inserts` (spelling.py 105-110). -/
def inserts (w : Word) : List Word :=
  (splits w).flatMap (fun p => letters.map (fun c => p.1 ++ c :: p.2))

/-- `edits` (spelling.py 68-75). -/
def edits (w : Word) : List Word := deletes w ++ transposes w ++ replaces w ++ inserts w

/-- `get_suggestions` (spelling.py 60-62). -/
def suggestionsIn (words : List Word) (es : List Word) : List Word := words.filter (· ∈ es)

/-- `_check` (spelling.py 49-58). -/
def suggestions (words : List Word) (name : Word) : List Word :=
  if name ∈ words then []
  else
    let first := suggestionsIn words (edits name)
    if first = [] then suggestionsIn words ((edits name).flatMap edits) else first

/-- Results of `check`. -/
inductive Outcome where
  | suggested (ws : List Word)
  | truth (b : Bool)
  | nothing
  deriving DecidableEq

/-- `check` (spelling.py 37-47). -/
def check (words : List Word) (name : Word) (mode : Option Word) : Res Outcome :=
  let found := suggestions words name
  if mode = some c!"suggest" then .ok (.suggested found)
  else if mode = some c!"truth" then .ok (.truth (found = []))
  else if mode ≠ none then .error .valueError
  else if found ≠ [] then .error (.named "SpellingError")
  else .ok .nothing

end Verif.Spelling
