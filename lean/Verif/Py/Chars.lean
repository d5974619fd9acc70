import Lean.Elab.Command

/-!
# Strings as lists of characters
-/

namespace Verif.Py

open Lean in
/-- A string literal as a list of characters. -/
macro:max "c!" s:str : term => do
  let cs := s.getString.toList.toArray.map (fun c => (Syntax.mkCharLit c : TSyntax `term))
  `(([$cs,*] : List Char))

end Verif.Py
