import Verif.Metric.Quantities

/-!
# The canonical dimensions and units

`CANONICAL` (metric.py 903-907) evaluated, and the proof that this is what the model of `_Property`
computes from the table of quantities.
-/

namespace Verif.Metric

open Verif.Py Verif.Symbolic

/-- `DIMENSIONS` (metric.py 889-889, 902-912) for all defined quantities. -/
def canonicalDimensions : List (Str × PerSystem Str) :=
  [(c!"acceleration", ⟨c!"L T^-2", c!"L T^-2"⟩),
   (c!"amount", ⟨c!"N", c!"N"⟩),
   (c!"area", ⟨c!"L^2", c!"L^2"⟩),
   (c!"capacitance", ⟨c!"(T^2 * I)^2 / (M * L^2)", c!"L"⟩),
   (c!"charge", ⟨c!"I * T", c!"(M^1/2 * L^3/2) / T"⟩),
   (c!"charge density", ⟨c!"I T L^-3", c!"M^1/2 T^-1 L^-3/2"⟩),
   (c!"conductance", ⟨c!"(T^3 * I^2) / (M * L^2)", c!"L / T"⟩),
   (c!"conductivity", ⟨c!"T^3 I^2 M^-1 L^-3", c!"T^-1"⟩),
   (c!"current", ⟨c!"I", c!"(M^1/2 * L^3/2) / T^2"⟩),
   (c!"current density", ⟨c!"I L^-2", c!"M^1/2 L^-1/2 T^-2"⟩),
   (c!"displacement", ⟨c!"I * T / L^2", c!"M^1/2 / (L^1/2 * T)"⟩),
   (c!"dosage", ⟨c!"L^2 / T^2", c!"L^2 / T^2"⟩),
   (c!"electric charge", ⟨c!"I T", c!"L^3/2 M^1/2 T^-1"⟩),
   (c!"electric field", ⟨c!"L M I^-1 T^-3", c!"M^1/2 L^-1/2 T^-1"⟩),
   (c!"electromotance", ⟨c!"L^2 M I^-1 T^-3", c!"L^1/2 M^1/2 T^-1"⟩),
   (c!"energy", ⟨c!"(M * L^2) / T^2", c!"(M * L^2) / T^2"⟩),
   (c!"energy density", ⟨c!"M L^-1 T^-2", c!"M L^-1 T^-2"⟩),
   (c!"fluence", ⟨c!"T^2 M^-1 L^-4", c!"T^2 M^-1 L^-4"⟩),
   (c!"flux", ⟨c!"T M^-1 L^-4", c!"T M^-1 L^-4"⟩),
   (c!"force", ⟨c!"(M * L) / T^2", c!"(M * L) / T^2"⟩),
   (c!"frequency", ⟨c!"1 / T", c!"1 / T"⟩),
   (c!"identity", ⟨c!"1", c!"1"⟩),
   (c!"illumunance", ⟨c!"J / L^2", c!"J / L^2"⟩),
   (c!"impedance", ⟨c!"(M * L^2) / (T^3 * I)", c!"T / L"⟩),
   (c!"inductance", ⟨c!"(M * L^2) / (I * T)^2", c!"T^2 / L"⟩),
   (c!"induction", ⟨c!"M I^-1 T^-2", c!"M^1/2 L^-1/2 T^-1"⟩),
   (c!"integral flux", ⟨c!"T^-1 L^-2", c!"T^-1 L^-2"⟩),
   (c!"length", ⟨c!"L", c!"L"⟩),
   (c!"luminous flux", ⟨c!"J", c!"J"⟩),
   (c!"luminous intensity", ⟨c!"J", c!"J"⟩),
   (c!"magnetic field", ⟨c!"M I^-1 T^-2", c!"M^1/2 L^-1/2 T^-1"⟩),
   (c!"magnetic flux", ⟨c!"(M * L^2) / (T^2 * I)", c!"(M^1/2 * L^3/2) / T"⟩),
   (c!"magnetic induction", ⟨c!"M / (T^2 * I)", c!"M^1/2 / (L^1/2 * T)"⟩),
   (c!"magnetic intensity", ⟨c!"I / L", c!"M^1/2 / (L^1/2 * T)"⟩),
   (c!"magnetic moment", ⟨c!"I * L^2", c!"(M^1/2 * L^5/2) / T"⟩),
   (c!"magnetization", ⟨c!"I L^-1", c!"M^1/2 L^-1/2 T^-1"⟩),
   (c!"magnetomotance", ⟨c!"I", c!"L^3/2 M^1/2 T^-2"⟩),
   (c!"mass", ⟨c!"M", c!"M"⟩),
   (c!"mass density", ⟨c!"M L^-3", c!"M L^-3"⟩),
   (c!"mass number", ⟨c!"1", c!"1"⟩),
   (c!"momentum", ⟨c!"(M * L) / T", c!"(M * L) / T"⟩),
   (c!"momentum density", ⟨c!"M T^-1 L^-2", c!"M T^-1 L^-2"⟩),
   (c!"number", ⟨c!"1", c!"1"⟩),
   (c!"number density", ⟨c!"L^-3", c!"L^-3"⟩),
   (c!"particle distribution", ⟨c!"T^3 L^-6", c!"T^3 L^-6"⟩),
   (c!"particle fluence", ⟨c!"T^2 M^-1 L^-4", c!"T^2 M^-1 L^-4"⟩),
   (c!"particle flux", ⟨c!"T M^-1 L^-4", c!"T M^-1 L^-4"⟩),
   (c!"permeability", ⟨c!"(M * L) / (I * T)^2", c!"1"⟩),
   (c!"permittivity", ⟨c!"T^4 * I / (M * L^3)", c!"1"⟩),
   (c!"plane angle", ⟨c!"1", c!"1"⟩),
   (c!"polarization", ⟨c!"I T L^-2", c!"M^1/2 L^-1/2 T^-1"⟩),
   (c!"potential", ⟨c!"(M * L^2) / (T^3 * I)", c!"(M^1/2 * L^1/2) / T"⟩),
   (c!"power", ⟨c!"M * L^2 / T^3", c!"M * L^2 / T^3"⟩),
   (c!"power density", ⟨c!"M L^-1 T^-3", c!"M L^-1 T^-3"⟩),
   (c!"pressure", ⟨c!"M / (L * T^2)", c!"M / (L * T^2)"⟩),
   (c!"radioactivity", ⟨c!"1 / T", c!"1 / T"⟩),
   (c!"ratio", ⟨c!"1", c!"1"⟩),
   (c!"reluctance", ⟨c!"(I * T)^2 / (M * L^2)", c!"1 / L"⟩),
   (c!"resistance", ⟨c!"L^2 M I^-1 T^-3", c!"T L^-1"⟩),
   (c!"resistivity", ⟨c!"L^3 M I^-1 T^-3", c!"T"⟩),
   (c!"temperature", ⟨c!"H", c!"H"⟩),
   (c!"thermal conductivity", ⟨c!"L M H^-1 T^-3", c!"L M H^-1 T^-3"⟩),
   (c!"time", ⟨c!"T", c!"T"⟩),
   (c!"solid angle", ⟨c!"1", c!"1"⟩),
   (c!"speed", ⟨c!"L T^-1", c!"L T^-1"⟩),
   (c!"vector potential", ⟨c!"(M * L) / (T^2 * I)", c!"(M^1/2 * L^1/2) / T"⟩),
   (c!"velocity", ⟨c!"L T^-1", c!"L T^-1"⟩),
   (c!"viscosity", ⟨c!"M / (L * T)", c!"M / (L * T)"⟩),
   (c!"volume", ⟨c!"L^3", c!"L^3"⟩),
   (c!"vorticity", ⟨c!"T^-1", c!"T^-1"⟩),
   (c!"wavenumber", ⟨c!"L^-1", c!"L^-1"⟩),
   (c!"work", ⟨c!"L^2 M T^-2", c!"L^2 M T^-2"⟩)]

/-- `UNITS` (metric.py 896-896, 902-912) for all defined quantities. -/
def canonicalUnits : List (Str × PerSystem Str) :=
  [(c!"acceleration", ⟨c!"m s^-2", c!"cm s^-2"⟩),
   (c!"amount", ⟨c!"mol", c!"mol"⟩),
   (c!"area", ⟨c!"m^2", c!"cm^2"⟩),
   (c!"capacitance", ⟨c!"F", c!"cm"⟩),
   (c!"charge", ⟨c!"C", c!"statC"⟩),
   (c!"charge density", ⟨c!"C m^-3", c!"statC cm^-3"⟩),
   (c!"conductance", ⟨c!"S", c!"cm / s"⟩),
   (c!"conductivity", ⟨c!"S m^-1", c!"s^-1"⟩),
   (c!"current", ⟨c!"A", c!"statA"⟩),
   (c!"current density", ⟨c!"A m^-2", c!"statA cm^-2"⟩),
   (c!"displacement", ⟨c!"C / m^2", c!"statC / m^2"⟩),
   (c!"dosage", ⟨c!"Gy", c!"erg / g"⟩),
   (c!"electric charge", ⟨c!"C", c!"statC"⟩),
   (c!"electric field", ⟨c!"V m^-1", c!"statV cm^-1"⟩),
   (c!"electromotance", ⟨c!"V", c!"statV"⟩),
   (c!"energy", ⟨c!"J", c!"erg"⟩),
   (c!"energy density", ⟨c!"J m^-3", c!"erg cm^-3"⟩),
   (c!"fluence", ⟨c!"J^-1 sr^-1 m^-2", c!"erg^-1 sr^-1 cm^-2"⟩),
   (c!"flux", ⟨c!"J^-1 s^-1 sr^-1 m^-2", c!"erg^-1 s^-1 sr^-1 cm^-2"⟩),
   (c!"force", ⟨c!"N", c!"dyn"⟩),
   (c!"frequency", ⟨c!"Hz", c!"Hz"⟩),
   (c!"identity", ⟨c!"1", c!"1"⟩),
   (c!"illumunance", ⟨c!"cd * sr / m^2", c!"cd * sr / cm^2"⟩),
   (c!"impedance", ⟨c!"ohm", c!"s / cm"⟩),
   (c!"inductance", ⟨c!"H", c!"s^2 / cm"⟩),
   (c!"induction", ⟨c!"T", c!"G"⟩),
   (c!"integral flux", ⟨c!"s^-1 sr^-1 m^-2", c!"s^-1 sr^-1 cm^-2"⟩),
   (c!"length", ⟨c!"m", c!"cm"⟩),
   (c!"luminous flux", ⟨c!"cd * sr", c!"cd * sr"⟩),
   (c!"luminous intensity", ⟨c!"cd", c!"cd"⟩),
   (c!"magnetic field", ⟨c!"T", c!"G"⟩),
   (c!"magnetic flux", ⟨c!"Wb", c!"Mx"⟩),
   (c!"magnetic induction", ⟨c!"T", c!"G"⟩),
   (c!"magnetic intensity", ⟨c!"A / m", c!"Oe"⟩),
   (c!"magnetic moment", ⟨c!"A * m^2", c!"Oe * cm^3"⟩),
   (c!"magnetization", ⟨c!"A m^-1", c!"Oe"⟩),
   (c!"magnetomotance", ⟨c!"A", c!"statA"⟩),
   (c!"mass", ⟨c!"kg", c!"g"⟩),
   (c!"mass density", ⟨c!"kg m^-3", c!"g cm^-3"⟩),
   (c!"mass number", ⟨c!"1", c!"1"⟩),
   (c!"momentum", ⟨c!"kg * m / s", c!"g * cm / s"⟩),
   (c!"momentum density", ⟨c!"kg s^-1 m^-2", c!"g s^-1 cm^-2"⟩),
   (c!"number", ⟨c!"1", c!"1"⟩),
   (c!"number density", ⟨c!"m^-3", c!"cm^-3"⟩),
   (c!"particle distribution", ⟨c!"s^3 m^-6", c!"s^3 cm^-6"⟩),
   (c!"particle fluence", ⟨c!"J^-1 sr^-1 m^-2", c!"erg^-1 sr^-1 cm^-2"⟩),
   (c!"particle flux", ⟨c!"J^-1 s^-1 sr^-1 m^-2", c!"erg^-1 s^-1 sr^-1 cm^-2"⟩),
   (c!"permeability", ⟨c!"H / m", c!"1"⟩),
   (c!"permittivity", ⟨c!"F / m", c!"1"⟩),
   (c!"plane angle", ⟨c!"rad", c!"rad"⟩),
   (c!"polarization", ⟨c!"C m^-2", c!"statC cm^-2"⟩),
   (c!"potential", ⟨c!"V", c!"statV"⟩),
   (c!"power", ⟨c!"W", c!"erg / s"⟩),
   (c!"power density", ⟨c!"W m^-3", c!"erg s^-1 cm^-3"⟩),
   (c!"pressure", ⟨c!"Pa", c!"dyn / cm^2"⟩),
   (c!"radioactivity", ⟨c!"Bq", c!"Ci"⟩),
   (c!"ratio", ⟨c!"1", c!"1"⟩),
   (c!"reluctance", ⟨c!"A / Wb", c!"1 / cm"⟩),
   (c!"resistance", ⟨c!"ohm", c!"s cm^-1"⟩),
   (c!"resistivity", ⟨c!"m ohm", c!"s"⟩),
   (c!"temperature", ⟨c!"K", c!"K"⟩),
   (c!"thermal conductivity", ⟨c!"W K^-1 m^-1", c!"erg K^-1 cm^-1 s^-1"⟩),
   (c!"time", ⟨c!"s", c!"s"⟩),
   (c!"solid angle", ⟨c!"sr", c!"sr"⟩),
   (c!"speed", ⟨c!"m s^-1", c!"cm s^-1"⟩),
   (c!"vector potential", ⟨c!"Wb / m", c!"G * cm"⟩),
   (c!"velocity", ⟨c!"m s^-1", c!"cm s^-1"⟩),
   (c!"viscosity", ⟨c!"kg / (m * s)", c!"P"⟩),
   (c!"volume", ⟨c!"m^3", c!"cm^3"⟩),
   (c!"vorticity", ⟨c!"Hz", c!"Hz"⟩),
   (c!"wavenumber", ⟨c!"m^-1", c!"cm^-1"⟩),
   (c!"work", ⟨c!"J", c!"erg"⟩)]

/-- The evaluated table agrees with `_Property('dimensions')`. -/
theorem canonicalDimensions_eq :
    quantities.map (fun e => (e.1, getProperty quantities .dimensions 8 e.1))
      = canonicalDimensions.map (fun e => (e.1, .ok e.2)) := by
  decide +kernel

/-- The evaluated table agrees with `_Property('units')`. -/
theorem canonicalUnits_eq :
    quantities.map (fun e => (e.1, getProperty quantities .units 8 e.1))
      = canonicalUnits.map (fun e => (e.1, .ok e.2)) := by
  decide +kernel

end Verif.Metric
