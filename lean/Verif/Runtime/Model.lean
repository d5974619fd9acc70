import Mathlib.Data.List.Sort
import Mathlib.Data.Rat.Cast.Defs
import Mathlib.Data.List.Dedup
import Verif.Py.Seq
import Verif.Py.Chars
import Verif.Symbolic.Parser

/-!
# Model of `src/goats/eprem/runtime.py` (configuration files and runtime parameters)
and of `strip_inline_comments` in `src/goats/core/iotools.py`

Strings are lists of characters.  Text files are their contents, with every line end already read
as `'\n'` (Python opens text files with universal newlines).  Numbers are elements of a field `K`:
integers, floats and fractions are not told apart, and rounding is not modelled.  The readers of
numerals (`int`, `float`) are parameters of the model, so that every theorem holds for any reader;
`decimalInt` and `decimalFloat` below are readers of plain ASCII decimals, used in examples.
-/

set_option linter.unusedSectionVars false

namespace Verif.Runtime

open Verif.Py

/-- Strings. -/
abbrev Str := List Char

/-- The characters that `str.strip()` removes (the characters with `str.isspace()`). -/
def isSpace (c : Char) : Bool :=
  (9 ≤ c.toNat && c.toNat ≤ 13) || (28 ≤ c.toNat && c.toNat ≤ 32) || c.toNat == 0x85
    || c.toNat == 0xa0 || c.toNat == 0x1680 || (0x2000 ≤ c.toNat && c.toNat ≤ 0x200a)
    || c.toNat == 0x2028 || c.toNat == 0x2029 || c.toNat == 0x202f || c.toNat == 0x205f
    || c.toNat == 0x3000

/-- `s.strip()`. -/
def strip (s : Str) : Str := ((s.dropWhile isSpace).reverse.dropWhile isSpace).reverse

/-- `s.split(c)` for a single character. -/
def splitChar (c : Char) : Str → List Str
  | [] => [[]]
  | x :: xs =>
    if x = c then [] :: splitChar c xs
    else match splitChar c xs with
      | [] => [[x]]
      | w :: ws => (x :: w) :: ws

/-- One iteration of the loop of `strip_inline_comments` (iotools.py 171-173): `split(c)[0]`. -/
def cutAt (s : Str) (c : Char) : Str := (splitChar c s).headD []

/-- `strip_inline_comments` (iotools.py 169-174), for single-character markers. -/
def stripComments (s : Str) (comments : List Char) : Str := strip (comments.foldl cutAt s)

/-! ## Configuration files -/

/-- The body of the loop of `ConfigFile._parse` on a line without its line end
(runtime.py 568-572): nothing for a blank or comment line, otherwise a key and a value.
Unpacking `line.split('=')` raises `ValueError` unless there is exactly one `=`. -/
def parseLine (comments : List Char) (line : Str) : Res (Option (Str × Str)) :=
  match line with
  | [] => .ok none
  | c :: _ =>
    if c ∈ comments then .ok none
    else match splitChar '=' line with
      | [k, v] => .ok (some (k, stripComments v comments))
      | _ => .error .valueError

/-- `pairs[key] = value` when the line holds a pair (runtime.py 573). -/
def store (pairs : Dict Str Str) : Option (Str × Str) → Dict Str Str
  | none => pairs
  | some (k, v) => pairs.set k v

/-- The loop of `ConfigFile._parse` over the lines (runtime.py 565-574). -/
def parseLines (comments : List Char) : List Str → Dict Str Str → Res (Dict Str Str)
  | [], pairs => .ok pairs
  | line :: lines, pairs =>
    match parseLine comments line with
    | .error e => .error e
    | .ok p => parseLines comments lines (store pairs p)

/-- The lines of a text, without line ends.  (A text ending in a line end yields one more, blank,
line here than in Python; blank lines are skipped.) -/
def linesOf (text : Str) : List Str := splitChar '\n' text

/-- `ConfigFile(path).parsed` for a file with the given contents (runtime.py 512-516, 557-574). -/
def parseConfig (comments : List Char) (text : Str) : Res (Dict Str Str) :=
  parseLines comments (linesOf text) []

/-- `ConfigFile.__getitem__` (runtime.py 551-555). -/
def configItem (d : Dict Str Str) (k : Str) : Res Str :=
  match d.get? k with
  | some v => .ok v
  | none => .error (.named "ConfigKeyError")

/-- `diff(other)['keys']` (runtime.py 530-533). -/
def diffKeys (a b : Dict Str Str) : List Str × List Str :=
  (a.keys.filter (· ∉ b.keys), b.keys.filter (· ∉ a.keys))

/-- `sorted(set(df0) | set(df1))` (runtime.py 523); strings compare by code points. -/
def unionKeys (a b : Dict Str Str) : List Str :=
  ((a.keys ++ b.keys).dedup).insertionSort (· ≤ ·)

/-- `ConfigFile.compare` (runtime.py 518-524).  `dict(set(items))` is the same dictionary up to
its order, which `compare` does not use. -/
def compare (a b : Dict Str Str) : Dict Str (Option Str × Option Str) :=
  (unionKeys a b).map (fun k => (k, (a.get? k, b.get? k)))

/-! ## Runtime parameters -/

/-- The parameter types (runtime.py 389-396). -/
inductive Typ where
  | int | float | str | list
  deriving DecidableEq, Repr

/-- Values of parameters. -/
inductive Val (K : Type) where
  | num (x : K)
  | text (s : Str)
  | list (xs : List K)
  | nothing
  deriving DecidableEq, Repr

/-- Outcome of `_convert` together with the test `isinstance(definition, type)`
(runtime.py 693): a final value, or a text to be evaluated further. -/
inductive Arg (K : Type) where
  | done (v : Val K)
  | again (s : Str)
  deriving DecidableEq, Repr

/-- What a `Runtime` object evaluates with: the entries of `configuration.c` (default and type),
the user's configuration file, the constants of `baseTypes.h`, and the language's readers.
`readInt`, `readFloat`: `int(s)`, `float(s)`, nothing if they raise `ValueError`; `readList`:
`iterables.string_to_list` (iterables.py 198-206), nothing if it raises; `pow`: `x ** q`.
The values of `baseTypes.h` are taken as numbers already computed. -/
structure Params (K : Type) where
  reference : Dict Str (Str × Typ)
  user : Dict Str Str
  basetypes : Dict Str K
  readInt : Str → Option K
  readFloat : Str → Option K
  readList : Str → Option (List K)
  pow : K → Rat → Res K

section
variable {K : Type} [Field K] [DecidableEq K]

/-- `numerical.cast(s, strict=False)` (numerical.py 130-166).  Texts that only `complex` can read
are taken as not readable. -/
def Params.cast (P : Params K) (s : Str) : Option K :=
  match P.readInt s with
  | some x => some x
  | none => P.readFloat s

/-- The test `if value := …` (runtime.py 686): zero and `None` are false. -/
def truthy (x : Option K) : Option K :=
  match x with
  | some x => if x = 0 then none else some x
  | none => none

/-- `_special_cases` (runtime.py 677-680). -/
def special (s : Str) : Option (Val K) :=
  if s = c!"N_PROCS" then some .nothing
  else if s = c!"third" then some (.num (1 / 3))
  else none

/-- `_convert` (runtime.py 755-763, with `soft_convert` 347-383). -/
def Params.convert (P : Params K) (s : Str) : Typ → Arg K
  | .int => match P.readInt s with
    | some x => .done (.num x)
    | none => .again s
  | .float => match P.readFloat s with
    | some x => .done (.num x)
    | none => .again s
  | .str => .done (.text s)
  | .list => match P.readList s with
    | some xs => .done (.list xs)
    | none => .again s

/-- `self.user.get(key) or parameter['default']` (runtime.py 739): the empty string is false. -/
def orDefault (u : Option Str) (d : Str) : Str :=
  match u with
  | some (c :: s) => c :: s
  | _ => d

/-- `_get_argument` (runtime.py 734-753; `Interface._get_argument` 951-970 is the same). -/
def Params.getArgument (P : Params K) (n : Str) : Option (Arg K) :=
  match P.reference.get? n with
  | some (d, t) => some (P.convert (orDefault (P.user.get? n) d) t)
  | none => match P.basetypes.get? n with
    | some x => some (.done (.num x))
    | none => none

/-- `\w`, for ASCII characters. -/
def isWord (c : Char) : Bool := c.isAlphanum || c == '_'

/-- `\Aconfig\.\w*\Z` (runtime.py 700) and `replace('config.', '')` (705): the member's name. -/
def structMember (s : Str) : Option Str :=
  if s.take 7 = c!"config." ∧ (s.drop 7).all isWord then some (s.drop 7) else none

/-- The sum or difference of two values; anything but two numbers raises `TypeError`. -/
def addVal (sign : K) : Val K → Val K → Res (Val K)
  | .num x, .num y => .ok (.num (x + sign * y))
  | _, _ => .error .typeError

/-- All values of a list of texts, or the first error. -/
def evalAll (ev : Str → Res (Val K)) : List Str → Res (List (Val K))
  | [] => .ok []
  | s :: ss =>
    match ev s with
    | .error e => .error e
    | .ok v => match evalAll ev ss with
      | .error e => .error e
      | .ok vs => .ok (v :: vs)

/-- `terms[0] + float('±1')*terms[1]` (runtime.py 728-732): further terms are dropped. -/
def sumTerms (ev : Str → Res (Val K)) (sign : K) (parts : List Str) : Res (Val K) :=
  match evalAll ev (parts.map strip) with
  | .error e => .error e
  | .ok (x :: y :: _) => addVal sign x y
  | .ok _ => .error .indexError

/-- `_compute_sum` (runtime.py 717-732). -/
def computeSum (ev : Str → Res (Val K)) (s : Str) : Res (Option (Val K)) :=
  if '+' ∈ s then (sumTerms ev 1 (splitChar '+' s)).map some
  else if '-' ∈ s then (sumTerms ev (-1) (splitChar '-' s)).map some
  else .ok none

/-- `term.coefficient * self._evaluate(term.base)**term.exponent` (runtime.py 711). -/
def termVal (P : Params K) (ev : Str → Res (Val K)) (t : Symbolic.Term) : Res K :=
  match ev t.base with
  | .error e => .error e
  | .ok (.num x) => (P.pow x t.exp).map (fun y => (t.coef : K) * y)
  | .ok _ => .error .typeError

/-- `functools.reduce(lambda x, y: x*y, evaluated)` after the list comprehension
(runtime.py 710-714). -/
def productVal (P : Params K) (ev : Str → Res (Val K)) : List Symbolic.Term → Res K
  | [] => .error .typeError
  | [t] => termVal P ev t
  | t :: ts =>
    match termVal P ev t with
    | .error e => .error e
    | .ok x => (productVal P ev ts).map (fun y => x * y)

/-- The last branches of `_resolve` (runtime.py 708-715). -/
def resolveProduct (P : Params K) (ev : Str → Res (Val K)) (s : Str) : Res (Val K) :=
  if '*' ∈ s ∨ '/' ∈ s then
    match Symbolic.ofString s with
    | .error e => .error e
    | .ok ts => (productVal P ev ts).map .num
  else .error .typeError

/-- Truth of a value: `None`, zero, empty text and empty list are false (runtime.py 706). -/
def Val.truth : Val K → Bool
  | .num x => x ≠ 0
  | .text s => s ≠ []
  | .list xs => xs ≠ []
  | .nothing => false

/-- `_resolve` (runtime.py 702-715; `Interface._decompose` 919-932 is the same). -/
def resolve (P : Params K) (ev : Str → Res (Val K)) (s : Str) : Res (Val K) :=
  match structMember s with
  | some n => ev n
  | none =>
    match computeSum ev s with
    | .error e => .error e
    | .ok (some v) => if v.truth then .ok v else resolveProduct P ev s
    | .ok none => resolveProduct P ev s

/-- `_evaluate` on a text (runtime.py 682-698; `Interface._evaluate` 899-915 is the same), with
the given `_get_argument` and a bound on the depth of recursion; Python raises `RecursionError` at
some depth. -/
def evaluateWith (R : Params K) (arg : Str → Option (Arg K)) : Nat → Str → Res (Val K)
  | 0, _ => .error .recursionError
  | fuel + 1, s =>
    match truthy (R.cast s) with
    | some x => .ok (.num x)
    | none =>
      match special s with
      | some v => .ok v
      | none =>
        match arg s with
        | some (.done v) => .ok v
        | some (.again d) => evaluateWith R arg fuel d
        | none => resolve R (evaluateWith R arg fuel) s

/-- `_evaluate` on a text, from the files' contents (runtime.py 682-698). -/
def evaluate (P : Params K) (fuel : Nat) (s : Str) : Res (Val K) :=
  evaluateWith P P.getArgument fuel s

/-- `Runtime.__getitem__` (runtime.py 623-627). -/
def Params.lookup (P : Params K) (fuel : Nat) (n : Str) : Res (Val K) :=
  if P.reference.has n then evaluate P fuel n else .error .keyError

end

/-! ## Paths and caches -/

/-- What is on disk: the contents of configuration files and of source directories
(`ConfigFile`, `ConfigurationC`, `BaseTypesH`), which may fail to load.  `none` stands for the
missing path; the packaged definitions are then used. -/
structure World (K : Type) where
  config : Str → Res (Dict Str Str)
  reference : Option Str → Res (Dict Str (Str × Typ))
  basetypes : Option Str → Res (Dict Str K)

/-- A `Runtime` object (runtime.py 612-621). `keys` is the tuple handed to `MappingBase`. -/
structure RT (K : Type) where
  source : Option Str
  conf : Option Str
  user : Option (Dict Str Str)
  basetypes : Option (Dict Str K)
  reference : Option (Dict Str (Str × Typ))
  current : Option (Dict Str (Arg K))
  keys : List Str

section
variable {K : Type} [Field K] [DecidableEq K]

/-- `self._paths['config']` read by `user` (runtime.py 660-668): no path, or the empty path, means
no user parameters. -/
def World.user (W : World K) : Option Str → Res (Dict Str Str)
  | none => .ok []
  | some [] => .ok []
  | some p => W.config p

/-- `Runtime.__init__` (runtime.py 588-621). -/
def RT.create (W : World K) (source conf : Option Str) : Res (RT K) :=
  match W.reference source with
  | .error e => .error e
  | .ok r => .ok ⟨source, conf, none, none, some r, none, r.keys⟩

/-- A path update: `path_to(source=…)`, `path_to(config=…)` or both (runtime.py 629-641). -/
structure Update where
  source : Option (Option Str)
  conf : Option (Option Str)
  deriving DecidableEq

/-- `path_to(**new)` followed by `_reset` (runtime.py 643-651). -/
def RT.pathTo (s : RT K) (u : Update) : RT K :=
  { source := u.source.getD s.source
    conf := u.conf.getD s.conf
    user := if u.conf.isSome then none else s.user
    basetypes := if u.source.isSome then none else s.basetypes
    reference := if u.source.isSome then none else s.reference
    current := none
    keys := s.keys }

/-- The property `reference` (runtime.py 670-675). -/
def RT.getReference (W : World K) (s : RT K) : Res (Dict Str (Str × Typ) × RT K) :=
  match s.reference with
  | some r => .ok (r, s)
  | none => (W.reference s.source).map (fun r => (r, { s with reference := some r }))

/-- The property `user` (runtime.py 660-668). -/
def RT.getUser (W : World K) (s : RT K) : Res (Dict Str Str × RT K) :=
  match s.user with
  | some r => .ok (r, s)
  | none => (W.user s.conf).map (fun r => (r, { s with user := some r }))

/-- The property `basetypes` (runtime.py 653-658). -/
def RT.getBasetypes (W : World K) (s : RT K) : Res (Dict Str K × RT K) :=
  match s.basetypes with
  | some r => .ok (r, s)
  | none => (W.basetypes s.source).map (fun r => (r, { s with basetypes := some r }))

/-- The dictionary built by `_get_argument` (runtime.py 737-743). -/
def buildCurrent (P : Params K) : Dict Str (Arg K) :=
  P.reference.map (fun e => (e.1, P.convert (orDefault (P.user.get? e.1) e.2.1) e.2.2))

/-- `_current`, built when missing (runtime.py 736-743); `R` supplies the language's readers. -/
def RT.getCurrent (W : World K) (R : Params K) (s : RT K) : Res (Dict Str (Arg K) × RT K) :=
  match s.current with
  | some c => .ok (c, s)
  | none =>
    match s.getReference W with
    | .error e => .error e
    | .ok (r, s1) =>
      match s1.getUser W with
      | .error e => .error e
      | .ok (u, s2) =>
        let c := buildCurrent { R with reference := r, user := u }
        .ok (c, { s2 with current := some c })

/-- `_get_argument` from the two dictionaries (runtime.py 744-753). -/
def argumentOf (c : Dict Str (Arg K)) (b : Dict Str K) (n : Str) : Option (Arg K) :=
  match c.get? n with
  | some a => some a
  | none => match b.get? n with
    | some x => some (.done (.num x))
    | none => none

/-- `runtime[name]` (runtime.py 623-627) on an object with caches.  The dictionary of arguments and
the base types are loaded up front; the code loads them when first needed. -/
def RT.read (W : World K) (R : Params K) (fuel : Nat) (s : RT K) (n : Str) :
    Res (Val K) × RT K :=
  match s.getReference W with
  | .error e => (.error e, s)
  | .ok (r, s1) =>
    if r.has n then
      match s1.getCurrent W R with
      | .error e => (.error e, s1)
      | .ok (c, s2) =>
        match s2.getBasetypes W with
        | .error e => (.error e, s2)
        | .ok (b, s3) => (evaluateWith R (argumentOf c b) fuel n, s3)
    else (.error .keyError, s1)

/-- What a user does with a runtime object. -/
inductive Event where
  | update (u : Update)
  | read (n : Str)

/-- The object after an event. -/
def RT.after (W : World K) (R : Params K) (fuel : Nat) (s : RT K) : Event → RT K
  | .update u => s.pathTo u
  | .read n => (s.read W R fuel n).2

/-- The object after a history of events. -/
def RT.afterAll (W : World K) (R : Params K) (fuel : Nat) (s : RT K) (es : List Event) : RT K :=
  es.foldl (RT.after W R fuel) s

end

/-! ## Readers of plain decimals (for examples) -/

/-- The value of a digit. -/
def digit (c : Char) : Option Nat := if c.isDigit then some (c.toNat - '0'.toNat) else none

/-- Digits to a natural number. -/
def digits : Str → Nat → Option Nat
  | [], acc => some acc
  | c :: cs, acc => match digit c with
    | some d => digits cs (acc * 10 + d)
    | none => none

/-- Non-empty digits. -/
def natural : Str → Option Nat
  | [] => none
  | s => digits s 0

/-- `int(s)` for ASCII decimals without underscores. -/
def decimalInt (s : Str) : Option Rat :=
  match strip s with
  | '-' :: t => (natural t).map (fun n => -(n : Rat))
  | '+' :: t => (natural t).map (fun n => (n : Rat))
  | t => (natural t).map (fun n => (n : Rat))

/-- Unsigned decimal with an optional point. -/
def pointed (s : Str) : Option Rat :=
  match splitChar '.' s with
  | [a] => (natural a).map (fun n => (n : Rat))
  | [[], b] => (natural b).map (fun n => (n : Rat) / 10 ^ b.length)
  | [a, []] => (natural a).map (fun n => (n : Rat))
  | [a, b] => match natural a, natural b with
    | some m, some n => some ((m : Rat) + (n : Rat) / 10 ^ b.length)
    | _, _ => none
  | _ => none

/-- Unsigned decimal with an optional exponent. -/
def scientific (s : Str) : Option Rat :=
  match splitChar 'e' s with
  | [m] => pointed m
  | [m, x] => match pointed m, decimalInt x with
    | some y, some k => some (if k < 0 then y / 10 ^ k.num.natAbs else y * 10 ^ k.num.natAbs)
    | _, _ => none
  | _ => none

/-- ASCII decimals without underscores, exactly. -/
def decimalExact (s : Str) : Option Rat :=
  match strip s with
  | '-' :: t => (scientific t).map (fun x => -x)
  | '+' :: t => scientific t
  | t => scientific t

/-- `float(s)` for ASCII decimals without underscores: the nearest float. Decimals too large to be finite floats, for which
Python gives infinity, are not read. -/
def decimalFloat (s : Str) : Option Rat := (decimalExact s).bind (fun x => (toFloat x).toOption)

/-- `x ** q` for integral powers of rationals. -/
def ratPow (x q : Rat) : Res Rat :=
  if q.den = 1 then
    if x = 0 ∧ q < 0 then .error .zeroDivision else .ok (x ^ q.num)
  else .error (.named "inexact")

/-- `string_to_list` (iterables.py 198-206) for lists of plain decimals. -/
def decimalList (s : Str) : Option (List Rat) :=
  match s with
  | '[' :: t =>
    match t.reverse with
    | ']' :: u =>
      if u = [] then some [] else
        (splitChar ',' u.reverse).mapM (fun i => (decimalInt (strip i)).or (decimalFloat (strip i)))
    | _ => none
  | _ => none

end Verif.Runtime
