import Verif.Iterables.Model
import Verif.Metric.Actual
import Verif.Metric.ConversionProps
import Mathlib.Algebra.Order.Round

/-!
# `src/goats/core/fundamental.py` and `src/goats/core/plasma.py`

The two tables are copied from the source by a script; decimal fractions are exact (Python: rounded to
floats), `numpy.pi` is `numpyPi`. Arguments of `elements` are lists of rational numbers (Python:
anything that `numpy.array(…, ndmin=1)` turns into a one-dimensional array of numbers).
-/

namespace Verif.Fundamental

open Verif.Py Verif.Metric

/-- A row of `_elements`. -/
structure Element where
  symbol : Str
  name : Str
  mass : ℚ
deriving DecidableEq

/-- `_elements` (fundamental.py 163-272). -/
def elementTable : List Element := [
   ⟨c!"H", c!"Hydrogen", 100797/100000⟩,
   ⟨c!"He", c!"Helium", 20013/5000⟩,
   ⟨c!"Li", c!"Lithium", 6941/1000⟩,
   ⟨c!"Be", c!"Beryllium", 450609/50000⟩,
   ⟨c!"B", c!"Boron", 1081/100⟩,
   ⟨c!"C", c!"Carbon", 12011/1000⟩,
   ⟨c!"N", c!"Nitrogen", 140067/10000⟩,
   ⟨c!"O", c!"Oxygen", 79997/5000⟩,
   ⟨c!"F", c!"Fluorine", 18998403/1000000⟩,
   ⟨c!"Ne", c!"Neon", 20179/1000⟩,
   ⟨c!"Na", c!"Sodium", 2298977/100000⟩,
   ⟨c!"Mg", c!"Magnesium", 4861/200⟩,
   ⟨c!"Al", c!"Aluminum", 1349077/50000⟩,
   ⟨c!"Si", c!"Silicon", 56171/2000⟩,
   ⟨c!"P", c!"Phosphorus", 96793/3125⟩,
   ⟨c!"S", c!"Sulfur", 1603/50⟩,
   ⟨c!"Cl", c!"Chlorine", 35453/1000⟩,
   ⟨c!"K", c!"Potassium", 390983/10000⟩,
   ⟨c!"Ar", c!"Argon", 9987/250⟩,
   ⟨c!"Ca", c!"Calcium", 1002/25⟩,
   ⟨c!"Sc", c!"Scandium", 449559/10000⟩,
   ⟨c!"Ti", c!"Titanium", 479/10⟩,
   ⟨c!"V", c!"Vanadium", 101883/2000⟩,
   ⟨c!"Cr", c!"Chromium", 12999/250⟩,
   ⟨c!"Mn", c!"Manganese", 27469/500⟩,
   ⟨c!"Fe", c!"Iron", 55847/1000⟩,
   ⟨c!"Ni", c!"Nickel", 587/10⟩,
   ⟨c!"Co", c!"Cobalt", 147333/2500⟩,
   ⟨c!"Cu", c!"Copper", 31773/500⟩,
   ⟨c!"Zn", c!"Zinc", 3269/50⟩,
   ⟨c!"Ga", c!"Gallium", 1743/25⟩,
   ⟨c!"Ge", c!"Germanium", 7259/100⟩,
   ⟨c!"As", c!"Arsenic", 46826/625⟩,
   ⟨c!"Se", c!"Selenium", 1974/25⟩,
   ⟨c!"Br", c!"Bromine", 9988/125⟩,
   ⟨c!"Kr", c!"Krypton", 419/5⟩,
   ⟨c!"Rb", c!"Rubidium", 427339/5000⟩,
   ⟨c!"Sr", c!"Strontium", 4381/50⟩,
   ⟨c!"Y", c!"Yttrium", 889059/10000⟩,
   ⟨c!"Zr", c!"Zirconium", 4561/50⟩,
   ⟨c!"Nb", c!"Niobium", 116133/1250⟩,
   ⟨c!"Mo", c!"Molybdenum", 4797/50⟩,
   ⟨c!"Tc", c!"Technetium", 98⟩,
   ⟨c!"Ru", c!"Ruthenium", 10107/100⟩,
   ⟨c!"Rh", c!"Rhodium", 205811/2000⟩,
   ⟨c!"Pd", c!"Palladium", 532/5⟩,
   ⟨c!"Ag", c!"Silver", 26967/250⟩,
   ⟨c!"Cd", c!"Cadmium", 11241/100⟩,
   ⟨c!"In", c!"Indium", 5741/50⟩,
   ⟨c!"Sn", c!"Tin", 11869/100⟩,
   ⟨c!"Sb", c!"Antimony", 487/4⟩,
   ⟨c!"I", c!"Iodine", 253809/2000⟩,
   ⟨c!"Te", c!"Tellurium", 638/5⟩,
   ⟨c!"Xe", c!"Xenon", 1313/10⟩,
   ⟨c!"Cs", c!"Cesium", 664527/5000⟩,
   ⟨c!"Ba", c!"Barium", 13733/100⟩,
   ⟨c!"La", c!"Lanthanum", 277811/2000⟩,
   ⟨c!"Ce", c!"Cerium", 3503/25⟩,
   ⟨c!"Pr", c!"Praseodymium", 1409077/10000⟩,
   ⟨c!"Nd", c!"Neodymium", 3606/25⟩,
   ⟨c!"Pm", c!"Promethium", 145⟩,
   ⟨c!"Sm", c!"Samarium", 752/5⟩,
   ⟨c!"Eu", c!"Europium", 3799/25⟩,
   ⟨c!"Gd", c!"Gadolinium", 629/4⟩,
   ⟨c!"Tb", c!"Terbium", 794627/5000⟩,
   ⟨c!"Dy", c!"Dysprosium", 325/2⟩,
   ⟨c!"Ho", c!"Holmium", 206163/1250⟩,
   ⟨c!"Er", c!"Erbium", 8363/50⟩,
   ⟨c!"Tm", c!"Thulium", 844671/5000⟩,
   ⟨c!"Yb", c!"Ytterbium", 4326/25⟩,
   ⟨c!"Lu", c!"Lutetium", 174967/1000⟩,
   ⟨c!"Hf", c!"Hafnium", 17849/100⟩,
   ⟨c!"Ta", c!"Tantalum", 1809479/10000⟩,
   ⟨c!"W", c!"Tungsten", 3677/20⟩,
   ⟨c!"Re", c!"Rhenium", 186207/1000⟩,
   ⟨c!"Os", c!"Osmium", 951/5⟩,
   ⟨c!"Ir", c!"Iridium", 9611/50⟩,
   ⟨c!"Pt", c!"Platinum", 19509/100⟩,
   ⟨c!"Au", c!"Gold", 393933/2000⟩,
   ⟨c!"Hg", c!"Mercury", 20059/100⟩,
   ⟨c!"Tl", c!"Thallium", 20437/100⟩,
   ⟨c!"Pb", c!"Lead", 1036/5⟩,
   ⟨c!"Bi", c!"Bismuth", 522451/2500⟩,
   ⟨c!"Po", c!"Polonium", 209⟩,
   ⟨c!"At", c!"Astatine", 210⟩,
   ⟨c!"Rn", c!"Radon", 222⟩,
   ⟨c!"Fr", c!"Francium", 223⟩,
   ⟨c!"Ra", c!"Radium", 1130127/5000⟩,
   ⟨c!"Ac", c!"Actinium", 1135139/5000⟩,
   ⟨c!"Pa", c!"Protactinium", 2310359/10000⟩,
   ⟨c!"Th", c!"Thorium", 2320381/10000⟩,
   ⟨c!"Np", c!"Neptunium", 1185241/5000⟩,
   ⟨c!"U", c!"Uranium", 238029/1000⟩,
   ⟨c!"Pu", c!"Plutonium", 242⟩,
   ⟨c!"Am", c!"Americium", 243⟩,
   ⟨c!"Bk", c!"Berkelium", 247⟩,
   ⟨c!"Cm", c!"Curium", 247⟩,
   ⟨c!"No", c!"Nobelium", 250⟩,
   ⟨c!"Cf", c!"Californium", 251⟩,
   ⟨c!"Es", c!"Einsteinium", 252⟩,
   ⟨c!"Hs", c!"Hassium", 255⟩,
   ⟨c!"Mt", c!"Meitnerium", 256⟩,
   ⟨c!"Fm", c!"Fermium", 257⟩,
   ⟨c!"Md", c!"Mendelevium", 258⟩,
   ⟨c!"Lr", c!"Lawrencium", 260⟩,
   ⟨c!"Rf", c!"Rutherfordium", 261⟩,
   ⟨c!"Bh", c!"Bohrium", 262⟩,
   ⟨c!"Db", c!"Dubnium", 262⟩,
   ⟨c!"Sg", c!"Seaborgium", 263⟩]

/-- `round` of a number (Python, to the nearest integer, ties to the even one). -/
def pyRound (x : ℚ) : Int :=
  let n := ⌊x⌋
  let f := x - n
  if f < 1/2 then n else if 1/2 < f then n + 1 else if n % 2 = 0 then n else n + 1

/-- `_nucleons` (fundamental.py 276-279); the symbols are distinct, hence one entry for each. -/
def nucleons : List (Str × Int) := elementTable.map (fun e => (e.symbol, pyRound e.mass))

/-- `get_index` (fundamental.py 314-318). -/
def getIndex (values : List Int) (target : Int) : Res Nat :=
  match values.idxOf? target with
  | some i => .ok i
  | none => .error (.named "MassValueError")

/-- `get_mass_indices` (fundamental.py 309-321). -/
def getMassIndices (targets : List ℚ) : Res (List Nat) :=
  targets.mapM (fun t => getIndex (nucleons.map (·.2)) (pyRound t))

/-- `int(i)`: towards zero. -/
def trunc (x : ℚ) : Int := x.num.tdiv x.den

/-- `('+' if i > 0 else '-') * abs(int(i))` (fundamental.py 296). -/
def signs (i : ℚ) : Str := List.replicate (trunc i).natAbs (if 0 < i then '+' else '-')

/-- `elements` (fundamental.py 281-297). -/
def elements (mass charge : List ℚ) : Res (List Str) :=
  if mass.length ≠ charge.length then .error .typeError
  else do
    let idx ← getMassIndices mass
    return (idx.map (fun m => ((nucleons.map (·.1))[m]?).getD [])).zipWith (· ++ ·) (charge.map signs)

/-! ## `plasma.Species` -/

/-- `s.rstrip(chars)`. -/
def rstrip (chars s : Str) : Str := (s.reverse.dropWhile (· ∈ chars)).reverse

/-- `s.lstrip(chars)`. -/
def lstrip (chars s : Str) : Str := s.dropWhile (· ∈ chars)

/-- `float(f"{s}1.0")` for one character; other signs raise `ValueError`, other digits give a number
that begins with them, which is not modelled. -/
def signValue (c : Char) : Res ℚ :=
  if c = '+' then .ok 1 else if c = '-' then .ok (-1) else .error .valueError

/-- `sum(float(f"{s}1.0") for s in sign)`. -/
def sumSigns : List Char → Res ℚ
  | [] => .ok 0
  | c :: cs => do return (← signValue c) + (← sumSigns cs)

/-- `Species(symbol).charge`, in units of `e` (plasma.py 46-56). -/
def chargeOf (symbol : Str) : Res ℚ :=
  let base := rstrip c!"+-" symbol
  sumSigns (lstrip base symbol)

/-- A value in a row of the table of elements. -/
inductive Cell
  | text (s : Str)
  | number (q : ℚ)
deriving DecidableEq

/-- The rows as dictionaries. -/
def elementRows : List (Dict Str Cell) :=
  elementTable.map (fun e =>
    [(c!"symbol", .text e.symbol), (c!"name", .text e.name), (c!"mass", .number e.mass)])

/-- `Species(symbol).mass`, in nucleons (plasma.py 29-39). -/
def massOf (symbol : Str) : Res ℚ :=
  match Iterables.tableFind elementRows (.text (rstrip c!"+-" symbol)) true with
  | .error e => .error e
  | .ok [] => .error .indexError
  | .ok (row :: _) =>
    match row.get? c!"mass" with
    | some (.number q) => .ok q
    | _ => .error .keyError

/-! ## Constants -/

/-- A constant with its units and values in both systems. -/
structure Constant where
  name : Str
  mksUnit : Str
  mks : ℚ
  cgsUnit : Str
  cgs : ℚ
deriving DecidableEq

/-- `CONSTANTS` (fundamental.py 10-160): `_constants` after `_normalize`. -/
def constants : List Constant := [
   ⟨c!"pi", c!"1", numpyPi, c!"1", numpyPi⟩,
   ⟨c!"k", c!"J / K", 13807/1000000000000000000000000000, c!"erg / K", 13807/100000000000000000000⟩,
   ⟨c!"e", c!"C", 8011/50000000000000000000000, c!"statC", 1501/3125000000000⟩,
   ⟨c!"me", c!"kg", 45547/50000000000000000000000000000000000, c!"g", 45547/50000000000000000000000000000000⟩,
   ⟨c!"mp", c!"kg", 8363/5000000000000000000000000000000, c!"g", 8363/5000000000000000000000000000⟩,
   ⟨c!"G", c!"m^3 / (s^2 * kg)", 33363/500000000000000, c!"dyn * cm^2 / g^2", 33363/500000000000⟩,
   ⟨c!"g", c!"m / s^2", 98067/10000, c!"cm / s^2", 98067/100⟩,
   ⟨c!"h", c!"J * s", 66261/100000000000000000000000000000000000000, c!"erg * s", 66261/10000000000000000000000000000000⟩,
   ⟨c!"c", c!"m / s", 299790000, c!"cm / s", 29979000000⟩,
   ⟨c!"epsilon0", c!"F / m", 44271/5000000000000000, c!"1", 1⟩,
   ⟨c!"mu0", c!"H / m", 4 * numpyPi * (1/10000000), c!"1", 1⟩,
   ⟨c!"Rinfinity", c!"1 / m", 10974000, c!"1 / cm", 109740⟩,
   ⟨c!"a0", c!"m", 26459/500000000000000, c!"cm", 26459/5000000000000⟩,
   ⟨c!"re", c!"m", 28179/10000000000000000000, c!"cm", 28179/100000000000000000⟩,
   ⟨c!"alpha", c!"1", 36487/5000000, c!"1", 36487/5000000⟩,
   ⟨c!"c1", c!"W * m^2", 18709/50000000000000000000, c!"erg * cm^2 / s", 18709/50000000000000000000⟩,
   ⟨c!"c2", c!"m * K", 3597/250000, c!"cm * K", 3597/2500⟩,
   ⟨c!"sigma", c!"W / (m^2 * K^4)", 11341/200000000000, c!"(erg / s) / (cm^2 * K^4)", 11341/200000000⟩,
   ⟨c!"eV", c!"J", 8011/50000000000000000000000, c!"erg", 8011/5000000000000000⟩,
   ⟨c!"amu", c!"kg", 3321/2000000000000000000000000000000, c!"g", 3321/2000000000000000000000000000⟩,
   ⟨c!"au", c!"m", 149597870700, c!"cm", 14959787070000⟩,
   ⟨c!"H+", c!"J", (68/5) * (8011/50000000000000000000000), c!"erg", (68/5) * (8011/5000000000000000)⟩]

end Verif.Fundamental
