import Verif.Py.Chars
import Verif.Py.Seq
import Mathlib.Data.Rat.Defs

/-!
# Tables of `src/goats/core/metric.py`

The tables are copied from the source by a script.
-/

namespace Verif.Metric

abbrev Str := List Char

/-- An entry of `_prefixes`, and `Prefix` (metric.py 14-37, 961-966). -/
structure Prefix where
  symbol : Str
  name : Str
  factor : Rat
  deriving DecidableEq

/-- An entry of `_units`, and `BaseUnit` (metric.py 50-286, 969-974). -/
structure BaseUnit where
  symbol : Str
  name : Str
  quantity : Str
  deriving DecidableEq

/-- `_prefixes` (metric.py 14-37). The name `None` is formatted as `'None'` in `build_unit_aliases` (908). -/
def prefixes : List Prefix :=
  [⟨c!"Y", c!"yotta", 1000000000000000000000000⟩,
   ⟨c!"Z", c!"zetta", 1000000000000000000000⟩,
   ⟨c!"E", c!"exa", 1000000000000000000⟩,
   ⟨c!"P", c!"peta", 1000000000000000⟩,
   ⟨c!"T", c!"tera", 1000000000000⟩,
   ⟨c!"G", c!"giga", 1000000000⟩,
   ⟨c!"M", c!"mega", 1000000⟩,
   ⟨c!"k", c!"kilo", 1000⟩,
   ⟨c!"h", c!"hecto", 100⟩,
   ⟨c!"da", c!"deca", 10⟩,
   ⟨c!"", c!"", 1⟩,
   ⟨c!" ", c!"None", 0⟩,
   ⟨c!"d", c!"deci", 1/10⟩,
   ⟨c!"c", c!"centi", 1/100⟩,
   ⟨c!"m", c!"milli", 1/1000⟩,
   ⟨c!"μ", c!"micro", 1/1000000⟩,
   ⟨c!"n", c!"nano", 1/1000000000⟩,
   ⟨c!"p", c!"pico", 1/1000000000000⟩,
   ⟨c!"f", c!"femto", 1/1000000000000000⟩,
   ⟨c!"a", c!"atto", 1/1000000000000000000⟩,
   ⟨c!"z", c!"zepto", 1/1000000000000000000000⟩,
   ⟨c!"y", c!"yocto", 1/1000000000000000000000000⟩]

/-- `_units` (metric.py 50-286). -/
def units : List BaseUnit :=
  [⟨c!"m", c!"meter", c!"length"⟩,
   ⟨c!"au", c!"astronomical unit", c!"length"⟩,
   ⟨c!"g", c!"gram", c!"mass"⟩,
   ⟨c!"nuc", c!"nucleon", c!"mass number"⟩,
   ⟨c!"amu", c!"atomic mass unit", c!"mass number"⟩,
   ⟨c!"s", c!"second", c!"time"⟩,
   ⟨c!"min", c!"minute", c!"time"⟩,
   ⟨c!"h", c!"hour", c!"time"⟩,
   ⟨c!"d", c!"day", c!"time"⟩,
   ⟨c!"A", c!"ampere", c!"current"⟩,
   ⟨c!"K", c!"kelvin", c!"temperature"⟩,
   ⟨c!"mol", c!"mole", c!"amount"⟩,
   ⟨c!"#", c!"count", c!"number"⟩,
   ⟨c!"cd", c!"candela", c!"luminous intensity"⟩,
   ⟨c!"rad", c!"radian", c!"plane angle"⟩,
   ⟨c!"deg", c!"degree", c!"plane angle"⟩,
   ⟨c!"sr", c!"steradian", c!"solid angle"⟩,
   ⟨c!"Hz", c!"hertz", c!"frequency"⟩,
   ⟨c!"J", c!"joule", c!"energy"⟩,
   ⟨c!"erg", c!"erg", c!"energy"⟩,
   ⟨c!"eV", c!"electronvolt", c!"energy"⟩,
   ⟨c!"N", c!"newton", c!"force"⟩,
   ⟨c!"dyn", c!"dyne", c!"force"⟩,
   ⟨c!"Pa", c!"pascal", c!"pressure"⟩,
   ⟨c!"W", c!"watt", c!"power"⟩,
   ⟨c!"C", c!"coulomb", c!"charge"⟩,
   ⟨c!"statC", c!"statcoulomb", c!"charge"⟩,
   ⟨c!"statA", c!"statampere", c!"current"⟩,
   ⟨c!"statV", c!"statvolt", c!"potential"⟩,
   ⟨c!"e", c!"fundamental charge", c!"charge"⟩,
   ⟨c!"V", c!"volt", c!"potential"⟩,
   ⟨c!"Ω", c!"ohm", c!"resistance"⟩,
   ⟨c!"S", c!"seimens", c!"conductance"⟩,
   ⟨c!"F", c!"farad", c!"capacitance"⟩,
   ⟨c!"Wb", c!"weber", c!"magnetic flux"⟩,
   ⟨c!"Mx", c!"maxwell", c!"magnetic flux"⟩,
   ⟨c!"Oe", c!"Oersted", c!"magnetic intensity"⟩,
   ⟨c!"H", c!"henry", c!"inductance"⟩,
   ⟨c!"T", c!"tesla", c!"induction"⟩,
   ⟨c!"G", c!"gauss", c!"induction"⟩,
   ⟨c!"lm", c!"lumen", c!"luminous flux"⟩,
   ⟨c!"lx", c!"lux", c!"illuminance"⟩,
   ⟨c!"Bq", c!"becquerel", c!"radioactivity"⟩,
   ⟨c!"Ci", c!"Curie", c!"radioactivity"⟩,
   ⟨c!"Gy", c!"gray", c!"dosage"⟩,
   ⟨c!"P", c!"poise", c!"viscosity"⟩,
   ⟨c!"1", c!"unitless", c!"identity"⟩]

/-- A value that depends on the metric system: the one for `'mks'` and the one for `'cgs'`. -/
structure PerSystem (α : Type) where
  mks : α
  cgs : α
  deriving DecidableEq

inductive System where
  | mks | cgs
  deriving DecidableEq

def PerSystem.get {α : Type} (p : PerSystem α) : System → α
  | .mks => p.mks
  | .cgs => p.cgs

/-- An entry of `_QUANTITIES`: explicit dimensions and units, or a string (metric.py 322-719). -/
inductive Quantity where
  | explicit (dimensions units : PerSystem Str)
  | derived (definition : Str)

/-- `_QUANTITIES` (metric.py 322-719). -/
def quantities : List (Str × Quantity) :=
  [(c!"acceleration", .derived c!"velocity / time"),
   (c!"amount", .explicit ⟨c!"N", c!"N"⟩ ⟨c!"mol", c!"mol"⟩),
   (c!"area", .derived c!"length^2"),
   (c!"capacitance", .explicit ⟨c!"(T^2 * I)^2 / (M * L^2)", c!"L"⟩ ⟨c!"F", c!"cm"⟩),
   (c!"charge", .explicit ⟨c!"I * T", c!"(M^1/2 * L^3/2) / T"⟩ ⟨c!"C", c!"statC"⟩),
   (c!"charge density", .derived c!"charge / volume"),
   (c!"conductance", .explicit ⟨c!"(T^3 * I^2) / (M * L^2)", c!"L / T"⟩ ⟨c!"S", c!"cm / s"⟩),
   (c!"conductivity", .derived c!"conductance / length"),
   (c!"current", .explicit ⟨c!"I", c!"(M^1/2 * L^3/2) / T^2"⟩ ⟨c!"A", c!"statA"⟩),
   (c!"current density", .derived c!"current / area"),
   (c!"displacement", .explicit ⟨c!"I * T / L^2", c!"M^1/2 / (L^1/2 * T)"⟩ ⟨c!"C / m^2", c!"statC / m^2"⟩),
   (c!"dosage", .explicit ⟨c!"L^2 / T^2", c!"L^2 / T^2"⟩ ⟨c!"Gy", c!"erg / g"⟩),
   (c!"electric charge", .derived c!"charge"),
   (c!"electric field", .derived c!"potential / length"),
   (c!"electromotance", .derived c!"potential"),
   (c!"energy", .explicit ⟨c!"(M * L^2) / T^2", c!"(M * L^2) / T^2"⟩ ⟨c!"J", c!"erg"⟩),
   (c!"energy density", .derived c!"energy / volume"),
   (c!"fluence", .derived c!"particle fluence"),
   (c!"flux", .derived c!"particle flux"),
   (c!"force", .explicit ⟨c!"(M * L) / T^2", c!"(M * L) / T^2"⟩ ⟨c!"N", c!"dyn"⟩),
   (c!"frequency", .explicit ⟨c!"1 / T", c!"1 / T"⟩ ⟨c!"Hz", c!"Hz"⟩),
   (c!"identity", .explicit ⟨c!"1", c!"1"⟩ ⟨c!"1", c!"1"⟩),
   (c!"illumunance", .explicit ⟨c!"J / L^2", c!"J / L^2"⟩ ⟨c!"cd * sr / m^2", c!"cd * sr / cm^2"⟩),
   (c!"impedance", .explicit ⟨c!"(M * L^2) / (T^3 * I)", c!"T / L"⟩ ⟨c!"ohm", c!"s / cm"⟩),
   (c!"inductance", .explicit ⟨c!"(M * L^2) / (I * T)^2", c!"T^2 / L"⟩ ⟨c!"H", c!"s^2 / cm"⟩),
   (c!"induction", .derived c!"magnetic induction"),
   (c!"integral flux", .derived c!"flux * energy"),
   (c!"length", .explicit ⟨c!"L", c!"L"⟩ ⟨c!"m", c!"cm"⟩),
   (c!"luminous flux", .explicit ⟨c!"J", c!"J"⟩ ⟨c!"cd * sr", c!"cd * sr"⟩),
   (c!"luminous intensity", .explicit ⟨c!"J", c!"J"⟩ ⟨c!"cd", c!"cd"⟩),
   (c!"magnetic field", .derived c!"magnetic induction"),
   (c!"magnetic flux", .explicit ⟨c!"(M * L^2) / (T^2 * I)", c!"(M^1/2 * L^3/2) / T"⟩ ⟨c!"Wb", c!"Mx"⟩),
   (c!"magnetic induction", .explicit ⟨c!"M / (T^2 * I)", c!"M^1/2 / (L^1/2 * T)"⟩ ⟨c!"T", c!"G"⟩),
   (c!"magnetic intensity", .explicit ⟨c!"I / L", c!"M^1/2 / (L^1/2 * T)"⟩ ⟨c!"A / m", c!"Oe"⟩),
   (c!"magnetic moment", .explicit ⟨c!"I * L^2", c!"(M^1/2 * L^5/2) / T"⟩ ⟨c!"A * m^2", c!"Oe * cm^3"⟩),
   (c!"magnetization", .derived c!"magnetic intensity"),
   (c!"magnetomotance", .derived c!"current"),
   (c!"mass", .explicit ⟨c!"M", c!"M"⟩ ⟨c!"kg", c!"g"⟩),
   (c!"mass density", .derived c!"mass / volume"),
   (c!"mass number", .derived c!"number"),
   (c!"momentum", .explicit ⟨c!"(M * L) / T", c!"(M * L) / T"⟩ ⟨c!"kg * m / s", c!"g * cm / s"⟩),
   (c!"momentum density", .derived c!"momentum / volume"),
   (c!"number", .derived c!"identity"),
   (c!"number density", .derived c!"1 / volume"),
   (c!"particle distribution", .derived c!"1 / (length * velocity)^3"),
   (c!"particle fluence", .derived c!"number / (area * solid_angle * energy / mass_number)"),
   (c!"particle flux", .derived c!"fluence / time"),
   (c!"permeability", .explicit ⟨c!"(M * L) / (I * T)^2", c!"1"⟩ ⟨c!"H / m", c!"1"⟩),
   (c!"permittivity", .explicit ⟨c!"T^4 * I / (M * L^3)", c!"1"⟩ ⟨c!"F / m", c!"1"⟩),
   (c!"plane angle", .explicit ⟨c!"1", c!"1"⟩ ⟨c!"rad", c!"rad"⟩),
   (c!"polarization", .derived c!"charge / area"),
   (c!"potential", .explicit ⟨c!"(M * L^2) / (T^3 * I)", c!"(M^1/2 * L^1/2) / T"⟩ ⟨c!"V", c!"statV"⟩),
   (c!"power", .explicit ⟨c!"M * L^2 / T^3", c!"M * L^2 / T^3"⟩ ⟨c!"W", c!"erg / s"⟩),
   (c!"power density", .derived c!"power / volume"),
   (c!"pressure", .explicit ⟨c!"M / (L * T^2)", c!"M / (L * T^2)"⟩ ⟨c!"Pa", c!"dyn / cm^2"⟩),
   (c!"radioactivity", .explicit ⟨c!"1 / T", c!"1 / T"⟩ ⟨c!"Bq", c!"Ci"⟩),
   (c!"ratio", .derived c!"identity"),
   (c!"reluctance", .explicit ⟨c!"(I * T)^2 / (M * L^2)", c!"1 / L"⟩ ⟨c!"A / Wb", c!"1 / cm"⟩),
   (c!"resistance", .derived c!"impedance"),
   (c!"resistivity", .derived c!"resistance * length"),
   (c!"temperature", .explicit ⟨c!"H", c!"H"⟩ ⟨c!"K", c!"K"⟩),
   (c!"thermal conductivity", .derived c!"power / (length * temperature)"),
   (c!"time", .explicit ⟨c!"T", c!"T"⟩ ⟨c!"s", c!"s"⟩),
   (c!"solid angle", .explicit ⟨c!"1", c!"1"⟩ ⟨c!"sr", c!"sr"⟩),
   (c!"speed", .derived c!"velocity"),
   (c!"vector potential", .explicit ⟨c!"(M * L) / (T^2 * I)", c!"(M^1/2 * L^1/2) / T"⟩ ⟨c!"Wb / m", c!"G * cm"⟩),
   (c!"velocity", .derived c!"length / time"),
   (c!"viscosity", .explicit ⟨c!"M / (L * T)", c!"M / (L * T)"⟩ ⟨c!"kg / (m * s)", c!"P"⟩),
   (c!"volume", .derived c!"length^3"),
   (c!"vorticity", .derived c!"frequency"),
   (c!"wavenumber", .derived c!"1 / length"),
   (c!"work", .derived c!"energy")]

/-- `_BASE_QUANTITIES`: name, dimension, unit (metric.py 309-320). -/
def baseQuantities : List (Str × Str × Str) :=
  [(c!"identity", c!"1", c!"1"),
   (c!"amount", c!"N", c!"mol"),
   (c!"current", c!"I", c!"A"),
   (c!"length", c!"L", c!"m"),
   (c!"luminous intensity", c!"J", c!"cd"),
   (c!"mass", c!"M", c!"kg"),
   (c!"temperature", c!"H", c!"K"),
   (c!"time", c!"T", c!"s")]

end Verif.Metric
