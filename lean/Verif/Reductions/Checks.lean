import Verif.Reductions.Props

/-!
# The definitions of units, and checks of the tables (C212)
-/

set_option linter.unusedSimpArgs false

namespace Verif.Reductions

open Verif.Py Verif.Symbolic Verif.Metric Verif.Systems

/-! ## Specification -/

/-- How a unit is defined: a number and powers of base units. -/
structure Definition where
  symbol : Str
  value : Rat
  powers : List (Str × Rat)

/-- The SI definitions of the units, in terms of m, kg, s, A, K, mol. -/
def siDefinitions : List Definition :=
  [⟨c!"m", 1, [(c!"m", 1)]⟩, ⟨c!"g", 1/1000, [(c!"kg", 1)]⟩, ⟨c!"s", 1, [(c!"s", 1)]⟩, ⟨c!"A", 1, [(c!"A", 1)]⟩,
   ⟨c!"K", 1, [(c!"K", 1)]⟩, ⟨c!"mol", 1, [(c!"mol", 1)]⟩, ⟨c!"rad", 1, [(c!"rad", 1)]⟩, ⟨c!"sr", 1, [(c!"sr", 1)]⟩,
   ⟨c!"Hz", 1, [(c!"s", -1)]⟩, ⟨c!"Bq", 1, [(c!"s", -1)]⟩,
   ⟨c!"N", 1, [(c!"kg", 1), (c!"m", 1), (c!"s", -2)]⟩, ⟨c!"J", 1, [(c!"kg", 1), (c!"m", 2), (c!"s", -2)]⟩,
   ⟨c!"W", 1, [(c!"kg", 1), (c!"m", 2), (c!"s", -3)]⟩, ⟨c!"Pa", 1, [(c!"kg", 1), (c!"m", -1), (c!"s", -2)]⟩,
   ⟨c!"C", 1, [(c!"A", 1), (c!"s", 1)]⟩, ⟨c!"V", 1, [(c!"kg", 1), (c!"m", 2), (c!"s", -3), (c!"A", -1)]⟩,
   ⟨c!"Ω", 1, [(c!"kg", 1), (c!"m", 2), (c!"s", -3), (c!"A", -2)]⟩,
   ⟨c!"S", 1, [(c!"kg", -1), (c!"m", -2), (c!"s", 3), (c!"A", 2)]⟩,
   ⟨c!"F", 1, [(c!"kg", -1), (c!"m", -2), (c!"s", 4), (c!"A", 2)]⟩,
   ⟨c!"Wb", 1, [(c!"kg", 1), (c!"m", 2), (c!"s", -2), (c!"A", -1)]⟩,
   ⟨c!"H", 1, [(c!"kg", 1), (c!"m", 2), (c!"s", -2), (c!"A", -2)]⟩,
   ⟨c!"T", 1, [(c!"kg", 1), (c!"s", -2), (c!"A", -1)]⟩, ⟨c!"Gy", 1, [(c!"m", 2), (c!"s", -2)]⟩, ⟨c!"1", 1, []⟩]

/-- The Gaussian definitions of the units, in terms of cm, g, s, K, mol. -/
def gaussianDefinitions : List Definition :=
  [⟨c!"m", 100, [(c!"cm", 1)]⟩, ⟨c!"g", 1, [(c!"g", 1)]⟩, ⟨c!"s", 1, [(c!"s", 1)]⟩, ⟨c!"K", 1, [(c!"K", 1)]⟩,
   ⟨c!"mol", 1, [(c!"mol", 1)]⟩, ⟨c!"rad", 1, [(c!"rad", 1)]⟩, ⟨c!"sr", 1, [(c!"sr", 1)]⟩,
   ⟨c!"Hz", 1, [(c!"s", -1)]⟩, ⟨c!"Ci", 37000000000, [(c!"s", -1)]⟩,
   ⟨c!"dyn", 1, [(c!"g", 1), (c!"cm", 1), (c!"s", -2)]⟩, ⟨c!"erg", 1, [(c!"g", 1), (c!"cm", 2), (c!"s", -2)]⟩,
   ⟨c!"P", 1, [(c!"g", 1), (c!"cm", -1), (c!"s", -1)]⟩,
   ⟨c!"statC", 1, [(c!"g", 1/2), (c!"cm", 3/2), (c!"s", -1)]⟩,
   ⟨c!"statA", 1, [(c!"g", 1/2), (c!"cm", 3/2), (c!"s", -2)]⟩,
   ⟨c!"statV", 1, [(c!"g", 1/2), (c!"cm", 1/2), (c!"s", -1)]⟩,
   ⟨c!"Mx", 1, [(c!"g", 1/2), (c!"cm", 3/2), (c!"s", -1)]⟩,
   ⟨c!"G", 1, [(c!"g", 1/2), (c!"cm", -1/2), (c!"s", -1)]⟩,
   ⟨c!"Oe", 1, [(c!"g", 1/2), (c!"cm", -1/2), (c!"s", -1)]⟩, ⟨c!"1", 1, []⟩]

/-- The definitions in a system. -/
def definitions : System → List Definition
  | .mks => siDefinitions
  | .cgs => gaussianDefinitions

/-- The exponent of a base unit in a definition. -/
def Definition.exp (d : Definition) (x : Str) : Rat := ((d.powers.filter (fun p => p.1 = x)).map (·.2)).sum

/-- The reduction is what the definition says, for a unit with the given prefix. -/
def Agrees (d : Definition) (factor : Rat) (r : Reduction) : Prop :=
  r.scale = factor * d.value ∧ ∀ x, totalExp r.units x = d.exp x

/-- The units for which the claim is false: the listed dimension of the ohm is wrong, and hertz, becquerel and curie are
left as they are. The candela is left out since its symbol denotes the centiday. -/
def exceptions : List Str := [c!"Ω", c!"Hz", c!"Bq", c!"Ci", c!"cd"]

/-! ## Check of the tables

What the prefix of a unit has to do with its reduction is proved; the rest is checked for each base unit. -/

/-- The unit without a prefix. -/
def plain (u : BaseUnit) : NamedUnit := ⟨⟨[], [], 1⟩, u⟩

/-- Whether the expression is one that can be printed. -/
def exprB (e : List Term) : Bool :=
  e ≠ [] && e.all (fun t => t.coef = 1 && t.exp ≠ 0 && t.base ≠ [] && t.exp.den < 10 && (t.base = one || nameOk t.base))
    && (match reduce e with | .ok r => r = e | .error _ => false)

/-- The powers of a definition are the exponents of the terms. -/
def powersB (d : Definition) (e : List Term) : Bool :=
  (e.map (·.base) ++ d.powers.map (·.1)).all (fun x => x = one || totalExp e x == d.exp x) && d.powers.all (fun p => p.1 ≠ one)

/-- The terms of the reduction of a base unit, which are those of the canonical unit if its dimension has one term, and
the value that the definition must have. -/
def rowTerms (b : Book) (s : System) (u : BaseUnit) : Res (Option (List Term × Rat)) := do
  if ← isDefinedIn b s (plain u) then
    let e := (← dimensionsOf b (plain u)).get s
    if e.length = 1 then
      let canonical ← canonicalUnit b s (plain u)
      let n ← b.ident canonical
      return some ([mkOperand 1 canonical 1], if n.base = u then 1 / n.scale else 0)
    else return some (← inBaseUnits s e, 1)
  else return none

/-- The check of one base unit in one system. -/
def rowCheck (b : Book) (s : System) (u : BaseUnit) : Bool :=
  match rowTerms b s u with
  | .ok (some (ts, v)) =>
    v ≠ 0 && (match ofTerms ts with
      | .ok e => exprB e && (definitions s).any (fun d => d.symbol = u.symbol && d.value == v && powersB d e)
      | .error _ => false)
  | _ => (definitions s).all (fun d => d.symbol ≠ u.symbol)

/-- A name that is the canonical unit denotes the unit. -/
def nameCheck (b : Book) (s : System) (u : BaseUnit) : Bool :=
  match canonicalUnit b s (plain u) with
  | .ok c => prefixes.all (fun p =>
      if p.symbol ++ u.symbol = c || p.name ++ u.name = c then
        (match b.ident c with | .ok n => n = ⟨p, u⟩ | .error _ => false) else true)
  | .error _ => true

theorem rowCheck_all : ∀ u ∈ units, u.symbol ∉ exceptions →
    rowCheck fastBook .mks u = true ∧ rowCheck fastBook .cgs u = true := by decide +kernel

theorem nameCheck_all : ∀ u ∈ units, u.symbol ∉ exceptions →
    nameCheck fastBook .mks u = true ∧ nameCheck fastBook .cgs u = true := by decide +kernel

end Verif.Reductions
