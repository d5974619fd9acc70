import Verif.Files.Model

/-!
# Model of `Observer` in `src/goats/eprem/__init__.py`: paths and updates

The context of an observer is represented by what it is built from: the data file, the configuration
file and the metric system.  The file system does not change.
-/

set_option linter.unusedSectionVars false

namespace Verif.Eprem

open Verif.Py Verif.Files

/-- A configuration file as the user names it: a file name without directory, or a resolved path
(eprem/__init__.py 719-720). -/
inductive ConfArg where
  | name (n : Str)
  | path (p : Path)
  deriving DecidableEq

/-- What a context is built from (eprem/__init__.py 698-704). -/
structure Content where
  data : Path
  config : Path
  system : Str
  deriving DecidableEq

/-- What is fixed for an observer and its surroundings: the file system, the working directory, the
templates of the class (811-814, 820-822), and the observer's number. -/
structure Site (ι : Type) where
  fs : FS
  cwd : Path
  templates : List (ι → Str)
  id : ι

/-- The attributes of an observer (eprem/__init__.py 656-666). -/
structure Observer where
  source : Path
  config : Option ConfArg
  system : Str
  datapath : Option Path
  confpath : Option Path
  context : Option Content
  deriving DecidableEq

variable {ι : Type}

/-- `_build_datapath` (eprem/__init__.py 743-762).  If no file matches, `ReadOnlyPath(None)` raises
`TypeError`, which is suppressed. -/
def buildDatapath (S : Site ι) (source : Path) : Res (Option Path) :=
  match readOnly S.fs source with
  | .error e => .error e
  | .ok this =>
    if S.fs.isDir this then findByTemplate S.fs S.templates S.id this
    else .error .typeError

/-- `_build_confpath` (eprem/__init__.py 713-734), given the data path.  A missing file raises
`NonExistentPathError` in `ReadOnlyPath`. -/
def buildConfpath (S : Site ι) (config : Option ConfArg) (datapath : Path) : Res (Option Path) :=
  match config with
  | none => .ok none
  | some (.path p) =>
    match readOnly S.fs p with
    | .error e => .error e
    | .ok this => .ok (some this)
  | some (.name n) =>
    let full := datapath.dropLast ++ [n]
    if S.fs.exist full then .ok (some full)
    else
      match readOnly S.fs (S.cwd ++ [n]) with
      | .error e => .error e
      | .ok this => .ok (some this)

/-- `datapath` (eprem/__init__.py 736-741). -/
def Observer.getDatapath (S : Site ι) (o : Observer) : Res (Option Path) × Observer :=
  match o.datapath with
  | some p => (.ok (some p), o)
  | none =>
    match buildDatapath S o.source with
    | .error e => (.error e, o)
    | .ok r => (.ok r, { o with datapath := r })

/-- `confpath` (eprem/__init__.py 706-711), after the data path `d` was found. -/
def Observer.getConfpath (S : Site ι) (o : Observer) (d : Path) : Res (Option Path) × Observer :=
  match o.confpath with
  | some p => (.ok (some p), o)
  | none =>
    match buildConfpath S o.config d with
    | .error e => (.error e, o)
    | .ok r => (.ok r, { o with confpath := r })

/-- The assignments at the start of `_build_context` (eprem/__init__.py 693-698). -/
def Observer.assign (o : Observer) (source : Option Path) (config : Option ConfArg) : Observer :=
  let o1 := match config with
    | some c => { o with config := some c, confpath := none }
    | none => o
  match source with
  | some s => { o1 with source := s, datapath := none }
  | none => o1

/-- `_build_context` (eprem/__init__.py 691-704). -/
def Observer.buildContext (S : Site ι) (o : Observer) (source : Option Path)
    (config : Option ConfArg) (system : Option Str) : Res (Option Content) × Observer :=
  match (o.assign source config).getDatapath S with
  | (.error e, o2) => (.error e, o2)
  | (.ok none, o2) => (.ok none, o2)
  | (.ok (some d), o2) =>
    match o2.getConfpath S d with
    | (.error e, o3) => (.error e, o3)
    | (.ok none, o3) => (.ok none, o3)
    | (.ok (some c), o3) => (.ok (some ⟨d, c, system.getD c!"mks"⟩), o3)

/-- `Observer.__init__` (eprem/__init__.py 649-666). -/
def Observer.create (S : Site ι) (config : Option ConfArg) (source : Option Path)
    (system : Option Str) : Res Observer :=
  let o : Observer := ⟨source.getD S.cwd, config, system.getD c!"mks", none, none, none⟩
  match o.buildContext S none none system with
  | (.error e, _) => .error e
  | (.ok c, o') => .ok { o' with context := c }

/-- `Observer.update` (eprem/__init__.py 668-689). -/
def Observer.update (S : Site ι) (o : Observer) (source : Option Path) (config : Option ConfArg) :
    Res Unit × Observer :=
  match o.buildContext S source config none with
  | (.error e, o') => (.error e, o')
  | (.ok none, o') => (.ok (), o')
  | (.ok (some c), o') => (.ok (), { o' with context := some c })

/-- A history of updates. -/
def Observer.updates (S : Site ι) (o : Observer) (us : List (Option Path × Option ConfArg)) :
    Observer :=
  us.foldl (fun o u => (o.update S u.1 u.2).2) o

end Verif.Eprem
