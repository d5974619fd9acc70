import Verif.Defaults.Tables
import Verif.Symbolic.Parser
import Verif.Aliased.Model

/-!
# Model of the definitions behind runtime parameters in `src/goats/eprem/runtime.py`

The constants of `baseTypes.h`, the patterns that read them and the calls in `configuration.c`,
and the generation of the packaged database.  Numbers are elements of a field `K`; rounding,
overflow and the difference between integers, floats and fractions are not modelled.  Character
classes (`\w`, `\d`) are the ASCII ones.
-/

set_option linter.unusedSectionVars false

namespace Verif.Defaults

open Verif.Py Verif.Runtime

/-! ## Constants -/

/-- What a `BaseTypesH` object computes with: the texts of the definitions (runtime.py 119-120), the
types in the metadata (210-215), and the language's readers and power. -/
structure Bases (K : Type) where
  definitions : Dict Str Str
  types : Dict Str Typ
  readInt : Str → Option K
  readFloat : Str → Option K
  pow : K → Rat → Res K

/-- `p in s` for texts. -/
def contains (p : Str) : Str → Bool
  | [] => p.isEmpty
  | c :: s => p.isPrefixOf (c :: s) || contains p s

/-- `any(c in target for c in {'*', '/', 'sqrt'})` (runtime.py 204). -/
def isExpression (s : Str) : Bool := contains ['*'] s || contains ['/'] s || contains c!"sqrt" s

section
variable {K : Type} [Field K] [DecidableEq K]

/-- `term(value)` followed by `float` (symbolic.py 326-351, 169-172; runtime.py 222): the new
coefficient is `coefficient or 1`, so that zero becomes one. -/
def callTerm (B : Bases K) (t : Symbolic.Term) (x : K) : Res K :=
  if t.base = Symbolic.one then .error .typeError
  else match B.pow x t.exp with
    | .error e => .error e
    | .ok y => .ok (if (t.coef : K) * y = 0 then 1 else (t.coef : K) * y)

/-- The loop of `BaseTypesH._evaluate` (runtime.py 217-225), given `_compute`.  A term whose base is
neither defined nor `'1'` is passed over. -/
def evaluateTerms (B : Bases K) (compute : Str → Res K) : List Symbolic.Term → K → Res K
  | [], v => .ok v
  | t :: ts, v =>
    if B.definitions.has t.base then
      match compute t.base with
      | .error e => .error e
      | .ok x => match callTerm B t x with
        | .error e => .error e
        | .ok c => evaluateTerms B compute ts (v * c)
    else if t.base = Symbolic.one then evaluateTerms B compute ts (v * (t.coef : K))
    else evaluateTerms B compute ts v

/-- `realtype(target)` (runtime.py 206-207). The metadata has only integers and floats. -/
def readAs (B : Bases K) (s : Str) : Typ → Res K
  | .int => match B.readInt s with
    | some x => .ok x
    | none => .error .valueError
  | .float => match B.readFloat s with
    | some x => .ok x
    | none => .error .valueError
  | _ => .error .typeError

/-- `BaseTypesH._compute` (runtime.py 198-208), with a bound on the depth of recursion.  A constant
without metadata has the type `None`, on which `isinstance` raises `TypeError`. -/
def compute (B : Bases K) : Nat → Str → Res K
  | 0, _ => .error .recursionError
  | fuel + 1, key =>
    match B.definitions.get? key with
    | none => .error .keyError
    | some target =>
      match B.types.get? key with
      | none => .error .typeError
      | some t =>
        if isExpression target then
          match Symbolic.ofString target with
          | .error e => .error e
          | .ok ts => evaluateTerms B (compute B fuel) ts 1
        else readAs B target t

/-- `BaseTypesH.__getitem__` (runtime.py 188-196), without the cache. -/
def getConstant (B : Bases K) (fuel : Nat) (key : Str) : Res K :=
  if B.definitions.has key then compute B fuel key else .error .keyError

end

/-- The types of the constants (runtime.py 210-215). -/
def baseTypes : Dict Str Typ := baseMeta.map (fun e => (e.1, e.2.1))

/-! ## Reading `baseTypes.h` -/

/-- The rest of a text after a prefix. -/
def afterPrefix (p s : Str) : Option Str :=
  if p.isPrefixOf s then some (s.drop p.length) else none

/-- `[A-Z_]` (runtime.py 81). -/
def isNameChar (c : Char) : Bool := c.isUpper || c == '_'

/-- `[-+\.\*\/\d\w\s\(\)]` (runtime.py 85). -/
def isValueChar (c : Char) : Bool :=
  isWord c || isSpace c || c == '-' || c == '+' || c == '.' || c == '*' || c == '/'
    || c == '(' || c == ')'

/-- `BaseTypeDef.match` and `parse` (runtime.py 71-97).  The classes of the name and the white space
after it are disjoint and the line has been stripped, so that matching needs no backtracking. -/
def matchDefine (line : Str) : Option (Str × Str) :=
  match afterPrefix c!"#define" (strip line) with
  | none => none
  | some r =>
    if r.takeWhile isSpace = [] then none
    else
      let s := r.dropWhile isSpace
      let name := s.takeWhile isNameChar
      let t := s.dropWhile isNameChar
      let value := t.dropWhile isSpace
      if name ≠ [] ∧ t.takeWhile isSpace ≠ [] ∧ value ≠ [] ∧ value.all isValueChar
      then some (name, value) else none

/-- `TextFile.extract` (iotools.py 131-155): a dictionary of the parsed lines. -/
def extract {α : Type} (f : Str → Option (Str × α)) : List Str → Dict Str α → Dict Str α
  | [], d => d
  | line :: lines, d =>
    match f line with
    | none => extract f lines d
    | some (k, v) => extract f lines (d.set k v)

/-- `BaseTypesH.load_from_source` (runtime.py 176-178). -/
def loadBases (lines : List Str) : Dict Str Str := extract matchDefine lines []

/-! ## Reading `configuration.c` -/

/-- The attributes of a parameter, as a dictionary of texts. -/
abbrev Attrs := Dict Str Str

/-- `read(?:Int|Double|DoubleArray|String)` followed by `\(` (runtime.py 251-253). -/
def matchMode (s : Str) : Option (Mode × Str) :=
  match afterPrefix c!"readInt(" s with
  | some r => some (.readInt, r)
  | none => match afterPrefix c!"readDouble(" s with
    | some r => some (.readDouble, r)
    | none => match afterPrefix c!"readDoubleArray(" s with
      | some r => some (.readDoubleArray, r)
      | none => match afterPrefix c!"readString(" s with
        | some r => some (.readString, r)
        | none => none

/-- The groups of `FunctionCall.pattern` (runtime.py 265-268). -/
structure Call where
  name : Str
  mode : Mode
  label : Str
  args : Str
  deriving DecidableEq

/-- The end of the pattern: `(?P<args>.*?)\)\;\s*\Z` on a stripped line (runtime.py 258-264). -/
def beforeEnd (s : Str) : Option Str :=
  match s.reverse with
  | ';' :: ')' :: r => some r.reverse
  | _ => none

/-- `(?P<alias>\"\w*\")\s*\,` (runtime.py 254-257): the text between the quotes and the rest. -/
def matchAlias (s : Str) : Option (Str × Str) :=
  match s with
  | '"' :: r =>
    match r.dropWhile isWord with
    | '"' :: t =>
      match t.dropWhile isSpace with
      | ',' :: u => some (r.takeWhile isWord, u)
      | _ => none
    | _ => none
  | _ => none

/-- `(?:\(char\*\))?` (runtime.py 249): an optional cast. -/
def skipCast (s : Str) : Str := (afterPrefix c!"(char*)" s).getD s

/-- `FunctionCall.match` (runtime.py 238-271).  As the line has been stripped, matching needs no
backtracking except over the optional cast, which no mode starts with. -/
def matchCall (line : Str) : Option Call :=
  match afterPrefix c!"config." (strip line) with
  | none => none
  | some r =>
    let name := r.takeWhile isWord
    match (r.dropWhile isWord).dropWhile isSpace with
    | '=' :: s =>
      match matchMode (skipCast (s.dropWhile isSpace)) with
      | none => none
      | some (mode, t) =>
        match matchAlias t with
        | none => none
        | some (a, u) =>
          match beforeEnd u with
          | none => none
          | some args => if name = [] then none else some ⟨name, mode, a, args⟩
    | _ => none

/-- `_keys` (runtime.py 287-292). -/
def modeKeys : Mode → List Str
  | .readInt => [c!"default", c!"minimum", c!"maximum"]
  | .readDouble => [c!"default", c!"minimum", c!"maximum"]
  | .readString => [c!"default"]
  | .readDoubleArray => [c!"size", c!"default"]

/-- The name of a mode, as in the source. -/
def modeName : Mode → Str
  | .readInt => c!"readInt"
  | .readDouble => c!"readDouble"
  | .readString => c!"readString"
  | .readDoubleArray => c!"readDoubleArray"

/-- The characters removed by `arg.strip(' "')` (runtime.py 295). -/
def isQuoteOrBlank (c : Char) : Bool := c == ' ' || c == '"'

/-- `arg.strip(' "')` (runtime.py 295). -/
def stripArg (s : Str) : Str :=
  ((s.dropWhile isQuoteOrBlank).reverse.dropWhile isQuoteOrBlank).reverse

/-- `_normalize` (runtime.py 294-297): later keys override `mode`, but no key is named so. -/
def normalize (mode : Mode) (args : List Str) : Attrs :=
  (c!"mode", modeName mode) :: (modeKeys mode).zip (args.map stripArg)

/-- `FunctionCall.parse` (runtime.py 273-284). -/
def parseCall (c : Call) : Str × Attrs :=
  let body := normalize c.mode (splitChar ',' c.args)
  (c.name, if c.label ≠ c.name then (c!"alias", c.label) :: body else body)

/-- `_get_assignments` (runtime.py 432-435). -/
def assignments (lines : List Str) : Dict Str Attrs :=
  extract (fun l => (matchCall l).map parseCall) lines []

/-- `\d*(?:\.\d+)?` as a whole (runtime.py 325). -/
def isPlainValue (s : Str) : Bool :=
  match s.dropWhile Char.isDigit with
  | [] => true
  | '.' :: t => t ≠ [] && t.all Char.isDigit
  | _ => false

/-- `VariableDefinition.match` and `parse` (runtime.py 310-343): the name, and the text of the
array; the size is not used. -/
def matchArray (line : Str) : Option (Str × Str) :=
  match afterPrefix c!"Scalar_t" (strip line) with
  | none => none
  | some r =>
    let s := r.dropWhile isSpace
    let name := s.takeWhile isWord
    match s.dropWhile isWord with
    | '[' :: t =>
      let size := t.takeWhile Char.isDigit
      match t.dropWhile Char.isDigit with
      | ']' :: u =>
        match u.dropWhile isSpace with
        | '=' :: w =>
          match w.dropWhile isSpace with
          | '{' :: x =>
            match x.reverse with
            | ';' :: '}' :: v =>
              if name ≠ [] ∧ size ≠ [] ∧ isPlainValue v.reverse
              then some (name, '[' :: v.reverse ++ [']']) else none
            | _ => none
          | _ => none
        | _ => none
      | _ => none
    | _ => none

/-- `_get_array_defaults` (runtime.py 437-440), values only. -/
def arrayDefaults (lines : List Str) : Dict Str Str := extract matchArray lines []

/-- One entry of `ConfigurationC.load_from_source` (runtime.py 407-417): an entry whose default is
the name of an array keeps only its mode.  Every call has a default (there is at least one
argument), except an array without a second argument, on which the code raises `KeyError`. -/
def substitute (arrays : Dict Str Str) (attrs : Attrs) : Res Attrs :=
  match attrs.get? c!"default", attrs.get? c!"mode" with
  | some d, some m =>
    match arrays.get? d with
    | some v => .ok [(c!"mode", m), (c!"default", v)]
    | none => .ok attrs
  | _, _ => .error .keyError

/-- All entries of a dictionary, or the first error. -/
def mapDict {α β : Type} (f : α → Res β) : Dict Str α → Res (Dict Str β)
  | [] => .ok []
  | (k, a) :: d =>
    match f a with
    | .error e => .error e
    | .ok b => match mapDict f d with
      | .error e => .error e
      | .ok d' => .ok ((k, b) :: d')

/-- `ConfigurationC.load_from_source` (runtime.py 404-417). -/
def loadConfiguration (lines : List Str) : Res (Dict Str Attrs) :=
  mapDict (substitute (arrayDefaults lines)) (assignments lines)

/-! ## Standard definitions and the packaged database -/

/-- A value in the standardised attributes: a text or a type. -/
inductive Attr where
  | text (s : Str)
  | typ (t : Typ)
  deriving DecidableEq

/-- The bijection `_types` (runtime.py 389-396). -/
def typeOfMode (a : Attr) : Res Attr :=
  if a = .text c!"readInt" then .ok (.typ .int)
  else if a = .text c!"readDouble" then .ok (.typ .float)
  else if a = .text c!"readString" then .ok (.typ .str)
  else if a = .text c!"readDoubleArray" then .ok (.typ .list)
  else .error .keyError

/-- The inverse of `_types` (runtime.py 427). -/
def modeOfType (a : Attr) : Res Attr :=
  if a = .typ .int then .ok (.text c!"readInt")
  else if a = .typ .float then .ok (.text c!"readDouble")
  else if a = .typ .str then .ok (.text c!"readString")
  else if a = .typ .list then .ok (.text c!"readDoubleArray")
  else .error .keyError

/-- `{new: value, **others}` (runtime.py 451-454): an entry named `new` among the others wins. -/
def withFirst (new : Str) (v : Attr) (others : Dict Str Attr) : Dict Str Attr :=
  match others.get? new with
  | some w => (new, w) :: others.del new
  | none => (new, v) :: others

/-- One interior mapping of `_replace` (runtime.py 450-455). -/
def replaceOne (old new : Str) (conv : Attr → Res Attr) (interior : Dict Str Attr) :
    Res (Dict Str Attr) :=
  match interior.get? old with
  | none => .error .keyError
  | some a => (conv a).map (fun b => withFirst new b (interior.filter (fun e => e.1 ≠ old)))

/-- `_replace` (runtime.py 442-455). -/
def replace (old new : Str) (conv : Attr → Res Attr) (m : Dict Str (Dict Str Attr)) :
    Res (Dict Str (Dict Str Attr)) := mapDict (replaceOne old new conv) m

/-- `standardize` (runtime.py 401-402). -/
def standardize (m : Dict Str (Dict Str Attr)) : Res (Dict Str (Dict Str Attr)) :=
  replace c!"mode" c!"type" typeOfMode m

/-- `format('json')` of a `ConfigurationC` (runtime.py 160-162, 425-430). -/
def formatJson (defs : Dict Str (Dict Str Attr)) : Res (Dict Str (Dict Str Attr)) :=
  replace c!"type" c!"mode" modeOfType defs

/-- `generate_defaults` on the contents of the database (runtime.py 1627-1648): `new` is the object
built from the source, `old` the file's contents.  In mode `append`, `obj.update(old)`. -/
def generateDefaults {β : Type} (append : Bool) (new old : Dict Str β) : Dict Str β :=
  if append then new.update old else new

end Verif.Defaults
