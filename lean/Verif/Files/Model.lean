import Verif.Py.Basic
import Verif.Py.Chars

/-!
# Model of `src/goats/core/iotools.py` (paths and searches), of the instance cache in
`src/goats/core/iterables.py`, and of the viewers in `src/goats/core/datafile.py`

A file system is a finite set of directories and files, each named by its resolved path (the list of
its components).  Expansion of `~`, symbolic links and relative paths are left out: path arguments are
taken to be resolved already.
-/

set_option linter.unusedSectionVars false

namespace Verif.Files

open Verif.Py

/-- Strings. -/
abbrev Str := List Char

/-- Resolved paths. -/
abbrev Path := List Str

/-- A state of the file system. -/
structure FS where
  dirs : List Path
  files : List Path

/-- `path.exists()`. -/
def FS.exist (fs : FS) (p : Path) : Bool := decide (p ∈ fs.dirs ∨ p ∈ fs.files)

/-- `path.is_dir()`. -/
def FS.isDir (fs : FS) (p : Path) : Bool := decide (p ∈ fs.dirs)

/-- `ReadOnlyPath(p)` (iotools.py 72-82). -/
def readOnly (fs : FS) (p : Path) : Res Path :=
  if fs.exist p then .ok p else .error (.named "NonExistentPathError")

/-- `search` (iotools.py 177-199). -/
def search (fs : FS) : List Path → Path → Res (Option Path)
  | [], _ => .ok none
  | p :: ps, file =>
    match readOnly fs p with
    | .error e => .error e
    | .ok path =>
      if fs.isDir path then
        if fs.exist (path ++ file) then .ok (some (path ++ file)) else search fs ps file
      else search fs ps file

/-- The loop of `find_file_by_template` (iotools.py 209-212). -/
def tryTemplates {ι : Type} (fs : FS) (d : Path) (name : ι) : List (ι → Str) → Option Path
  | [] => none
  | t :: ts => if fs.exist (d ++ [t name]) then some (d ++ [t name]) else tryTemplates fs d name ts

/-- `find_file_by_template` (iotools.py 202-212). -/
def findByTemplate {ι : Type} (fs : FS) (templates : List (ι → Str)) (name : ι) (directory : Path) :
    Res (Option Path) :=
  match readOnly fs directory with
  | .error e => .error e
  | .ok d => .ok (tryTemplates fs d name templates)

/-! ## Read-only paths -/

/-- The classes of path objects that matter here. -/
inductive PathClass where
  | readOnly
  | posix
  deriving DecidableEq

/-- The class of what `ReadOnlyPath(…)` gives (iotools.py 72-82): `__new__` creates an instance of
`PosixPath` (`WindowsPath` on Windows) and returns what `resolve` gives, again a `PosixPath`. -/
def classOfNew : PathClass := .posix

/-- Ways to write to a path. -/
inductive Write where
  | bytes
  | text
  | openPositional (mode : Str)
  | openKeyword (mode : Str)
  deriving DecidableEq

/-- Whether the method raises `ReadOnlyPathError` before doing anything (iotools.py 84-93 for
`ReadOnlyPath`; `pathlib` has no such check).  `'w' in args` compares the arguments with `'w'`, and
does not look at keyword arguments. -/
def refuses : PathClass → Write → Bool
  | .readOnly, .bytes => true
  | .readOnly, .text => true
  | .readOnly, .openPositional mode => decide (mode = c!"w")
  | .readOnly, .openKeyword _ => false
  | .posix, _ => false

/-! ## One instance for each path -/

/-- Arguments of a constructor call: one string, one path object, or anything else. -/
inductive Arg where
  | str (s : Str)
  | path (p : Path)
  | other
  deriving DecidableEq

/-- `PathSet._generate_key` (iotools.py 25-30): the argument itself.  In the remaining case the call
`super()._generate_key()` raises `TypeError`. -/
def generateKey : Arg → Res Arg
  | .other => .error .typeError
  | a => .ok a

/-- An object: the number of the creation, and its class. -/
structure Obj (κ : Type) where
  serial : Nat
  cls : κ
  deriving DecidableEq

/-- The cache of the metaclass, one for all classes (iotools.py 23), and the number of objects
created so far. -/
structure Pool (κ : Type) where
  instances : Dict Arg (Obj κ)
  created : Nat

/-- Nothing created. -/
def Pool.empty {κ : Type} : Pool κ := ⟨[], 0⟩

/-- A constructor call (iterables.py 1231-1236).  `init` says whether `__init__` raises. -/
def Pool.call {κ : Type} (init : κ → Arg → Option Err) (pool : Pool κ) (cls : κ) (a : Arg) :
    Res (Obj κ) × Pool κ :=
  match generateKey a with
  | .error e => (.error e, pool)
  | .ok key =>
    match pool.instances.get? key with
    | some o => (.ok o, pool)
    | none =>
      match init cls a with
      | some e => (.error e, pool)
      | none =>
        let o : Obj κ := ⟨pool.created, cls⟩
        (.ok o, ⟨pool.instances.set key o, pool.created + 1⟩)

/-- A history of constructor calls. -/
def Pool.run {κ : Type} (init : κ → Arg → Option Err) (pool : Pool κ) (calls : List (κ × Arg)) :
    Pool κ :=
  calls.foldl (fun p c => (p.call init c.1 c.2).2) pool

/-! ## Viewers -/

section
variable {ν : Type}

/-- The class-level table of viewers by file type (datafile.py 135-140). -/
abbrev ViewerMap (ν : Type) := Dict Str (Dict Str ν)

/-- A dataset: the suffix of its path.  `_get_viewers` (datafile.py 158-172) gives the inner
dictionary of the class-level table itself, so the suffix is all there is to know. -/
abbrev Suffix := Str

/-- `ViewerFactory.__getitem__` (datafile.py 174-179).  For an unknown file type the table entry is
`None` (the exception in line 164 is created but not raised), and `group in None` raises
`TypeError`. -/
def getViewer (m : ViewerMap ν) (s : Suffix) (group : Str) : Res ν :=
  match m.get? s with
  | none => .error .typeError
  | some vs =>
    match vs.get? group with
    | some v => .ok v
    | none => .error .keyError

/-- `ViewerFactory.__init__` (datafile.py 148-150, 152-167): no exception for any path. -/
def createViewers (_m : ViewerMap ν) (_s : Suffix) : Res Unit := .ok ()

/-- `Interface.use` (datafile.py 265-268): `MutableMapping.update`, which sets the items one by
one. -/
def use (m : ViewerMap ν) (s : Suffix) (vs : List (Str × ν)) : Res Unit × ViewerMap ν :=
  match m.get? s with
  | none => if vs = [] then (.ok (), m) else (.error .typeError, m)
  | some d => (.ok (), m.set s (d.update vs))

/-- A history of updates; each names the dataset's suffix. -/
def useAll (m : ViewerMap ν) (us : List (Suffix × List (Str × ν))) : ViewerMap ν :=
  us.foldl (fun m u => (use m u.1 u.2).2) m

end

end Verif.Files
