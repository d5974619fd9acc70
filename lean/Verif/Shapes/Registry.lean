import Verif.Eprem.Model
import Verif.Defaults.Tables
import Verif.Metric.Canonical

/-!
# The functions registered in `src/goats/core/computed.py`
-/

namespace Verif.Shapes

open Verif.Py
open Verif.Metric (Str)
open Verif.Defaults (referenceBase)

/-- `computed.registry` (computed.py 24-378): for each registered function its parameters and the dimensions it removes
and adds. -/
def registry : Dict Str Eprem.Method :=
  [(c!"x", ⟨[c!"r", c!"theta", c!"phi"], [], []⟩),
   (c!"y", ⟨[c!"r", c!"theta", c!"phi"], [], []⟩),
   (c!"z", ⟨[c!"r", c!"theta"], [], []⟩),
   (c!"b_mag", ⟨[c!"br", c!"bt", c!"bp"], [], []⟩),
   (c!"v_mag", ⟨[c!"vr", c!"vt", c!"vp"], [], []⟩),
   (c!"bv_mag", ⟨[c!"br", c!"bt", c!"bp", c!"vr", c!"vt", c!"vp"], [], []⟩),
   (c!"flow_angle", ⟨[c!"br", c!"bt", c!"bp", c!"vr", c!"vt", c!"vp"], [], []⟩),
   (c!"v_para", ⟨[c!"vr", c!"vt", c!"vp", c!"br", c!"bt", c!"bp"], [], []⟩),
   (c!"v_perp", ⟨[c!"vr", c!"vt", c!"vp", c!"br", c!"bt", c!"bp"], [], []⟩),
   (c!"div_v", ⟨[c!"rho", c!"time"], [], []⟩),
   (c!"density_ratio", ⟨[c!"rho"], [], []⟩),
   (c!"rigidity", ⟨[c!"energy", c!"mass", c!"charge"], [], []⟩),
   (c!"mean_free_path", ⟨[c!"r", c!"energy", c!"mass", c!"charge", c!"mfp_radial_power", c!"rigidity_power", c!"lambda0"],
     [], []⟩),
   (c!"acceleration_rate", ⟨[c!"vr", c!"vtheta", c!"vphi", c!"vparticle", c!"angle", c!"mfp", c!"kper_kpar"], [], []⟩),
   (c!"energy_density", ⟨[c!"speed", c!"isodist"], [c!"energy"], []⟩),
   (c!"average_energy", ⟨[c!"speed", c!"isodist"], [c!"energy"], []⟩),
   (c!"isotropic_distribution", ⟨[c!"dist"], [c!"mu"], []⟩),
   (c!"flux", ⟨[c!"energy", c!"isodist"], [], []⟩),
   (c!"fluence", ⟨[c!"flux", c!"time"], [c!"time"], []⟩),
   (c!"integral_flux", ⟨[c!"energies", c!"flux", c!"minimum_energy"], [c!"energy"], [c!"minimum energy"]⟩)]

/-- `reference.ALIASES.find(name)`: the names of a quantity (reference.py 149). -/
def namesOf (name : Str) : List Str := (((referenceBase.map (·.1)).find? (·.contains name))).getD [name]

/-- A mapping under all names of its keys, as `aliased.Mapping` with `reference.ALIASES` provides it
(eprem/__init__.py 273; `Verif.Aliased`). -/
def underAllNames {ν : Type} (d : Dict Str ν) : Dict Str ν := d.flatMap (fun e => (namesOf e.1).map (fun n => (n, e.2)))

/-- The dimensions of the variables of an EPREM dataset without particle distribution. -/
def baseVariables : Dict Str (List Str) :=
  [(c!"time", [c!"time"]), (c!"shell", [c!"shell"]), (c!"mu", [c!"mu"]),
   (c!"mass", [c!"species"]), (c!"charge", [c!"species"]),
   (c!"energy", [c!"species", c!"energy"]), (c!"speed", [c!"species", c!"energy"]),
   (c!"radius", [c!"time", c!"shell"]), (c!"theta", [c!"time", c!"shell"]), (c!"phi", [c!"time", c!"shell"]),
   (c!"Br", [c!"time", c!"shell"]), (c!"Bt", [c!"time", c!"shell"]), (c!"Bp", [c!"time", c!"shell"]),
   (c!"Vr", [c!"time", c!"shell"]), (c!"Vt", [c!"time", c!"shell"]), (c!"Vp", [c!"time", c!"shell"]),
   (c!"rho", [c!"time", c!"shell"])]

/-- The particle distribution or the flux, which EPREM writes as configured. -/
def distribution : Str × List Str := (c!"dist", [c!"time", c!"shell", c!"species", c!"energy", c!"mu"])
def fluxVariable : Str × List Str := (c!"flux", [c!"time", c!"shell", c!"species", c!"energy"])

/-- The tables of an EPREM dataset with the given order of axes and further variables. -/
def fileTables (axes : List Str) (more : Dict Str (List Str)) : Eprem.Tables :=
  ⟨axes, underAllNames (baseVariables ++ more), underAllNames registry⟩

/-- The dimensions that `Functions` declares for a name in a new session. -/
def declared (axes : List Str) (more : Dict Str (List Str)) (key : Str) : Res (List Str) :=
  (Eprem.getDimensions (fileTables axes more) 8 [] key).1

/-- The order in which the model expects the dimensions of a file. -/
def usualAxes : List Str := [c!"time", c!"shell", c!"species", c!"energy", c!"mu"]

end Verif.Shapes
