import Verif.Files.Model

/-!
# Model of `SourceFile` in `src/goats/eprem/runtime.py`

Which text the parameters and the constants of EPREM are read from: a file in the given source directory,
or the database that comes with the package. What reading a file gives is a parameter; reading a
directory raises.
-/

namespace Verif.Files

open Verif.Py

/-- `SourceFile.build_path` (runtime.py 128-140); no source raises `TypeError` within, which is caught. -/
def buildPath (fs : FS) (filename : Str) : Option Path → Res (Option Path)
  | none => .ok none
  | some source =>
    match readOnly fs source with
    | .error e => .error e
    | .ok path => .ok (some (if fs.isDir path then path ++ [filename] else path))

/-- `iotools.TextFile(path)` and what is read from it (iotools.py 102-119). -/
def readText {α : Type} (fs : FS) (read : Path → α) (p : Path) : Res α :=
  if fs.isDir p then .error (.named "IsADirectoryError") else .ok (read p)

/-- `SourceFile.__init__` (runtime.py 103-117), before the definitions are standardised: `package` is what
the database of the package has (runtime.py 142-147). -/
def loadSource {α : Type} (fs : FS) (read : Path → α) (package : α) (filename : Str)
    (source : Option Path) : Res α :=
  match buildPath fs filename source with
  | .error e => .error e
  | .ok none => .ok package
  | .ok (some path) => if fs.exist path then readText fs read path else .ok package

/-- The constants and the parameters of a runtime interface (runtime.py 653-658, 670-675; 168-171,
398-399). -/
def loadBoth {α β : Type} (fs : FS) (readConstants : Path → α) (readParameters : Path → β)
    (package : α × β) (source : Option Path) : Res (α × β) :=
  match loadSource fs readConstants package.1 c!"baseTypes.h" source with
  | .error e => .error e
  | .ok a =>
    match loadSource fs readParameters package.2 c!"configuration.c" source with
    | .error e => .error e
    | .ok b => .ok (a, b)

end Verif.Files
