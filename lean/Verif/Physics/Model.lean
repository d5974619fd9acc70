import Mathlib.Analysis.SpecialFunctions.Pow.Real
import Mathlib.Analysis.SpecialFunctions.Complex.Arg
import Mathlib.Algebra.BigOperators.Group.Finset.Basic
import Verif.Fundamental.Model
import Verif.Numerical.Model

/-!
# Model of the functions in `src/goats/core/computed.py` that compute physical quantities, and of
`xyz2rtp`, `rtp2xyz` in `src/goats/core/numerical.py`

Numbers are real numbers (or members of an ordered field where no root, logarithm or angle occurs);
rounding, NaN and infinities are not modelled: `x / 0` is 0 here and NaN or infinite in numpy, so
theorems exclude it.  numpy applies arithmetic element by element: a function built from such operations
is modelled by its action on one element.  An axis along which elements are combined is a function of
the position together with the number of elements.
-/

set_option linter.unusedSectionVars false

namespace Verif.Physics

open Verif.Py Real

/-- The value of a constant in MKS units: `float(MKS[name])` (computed.py 28; physical.py 88-112). -/
def mks (name : List Char) : ℚ :=
  ((Fundamental.constants.find? (fun c => c.name = name)).map (·.mks)).getD 0

noncomputable section

/-! ## Positions -/

/-- `x` (computed.py 30-37). -/
def x (r theta phi : ℝ) : ℝ := r * sin theta * cos phi

/-- `y` (computed.py 40-47). -/
def y (r theta phi : ℝ) : ℝ := r * sin theta * sin phi

/-- `z` (computed.py 50-56). -/
def z (r theta : ℝ) : ℝ := r * cos theta

/-- `sys.float_info.epsilon`. -/
def epsilon : ℝ := 1 / 2 ^ 52

/-- `zero_floor` on one number (numerical.py 280-291). -/
def zeroFloor (v : ℝ) : ℝ := if |v| < epsilon then 0 else v

/-- `rtp2xyz` on one point (numerical.py 262-277). -/
def rtp2xyz (r t p : ℝ) : ℝ × ℝ × ℝ :=
  (zeroFloor (r * sin t * cos p), zeroFloor (r * sin t * sin p), zeroFloor (r * cos t))

/-- `numpy.arctan2(y, x)`: the argument of `x + iy`, 0 at the origin. -/
def arctan2 (y x : ℝ) : ℝ := Complex.arg ⟨x, y⟩

/-- The computed radius of one point (numerical.py 216-217). -/
def radiusOf (x y z : ℝ) : ℝ :=
  let r := √(x * x + y * y + z * z)
  if |r| < epsilon then 0 else r

/-- The computed polar angle of one point (numerical.py 218-219). -/
def polarOf (x y z : ℝ) : ℝ :=
  if radiusOf x y z = 0 then 0 else arccos (z / radiusOf x y z)

/-- The computed azimuth of one point (numerical.py 220-227). -/
def azimuthOf (x y : ℝ) : ℝ :=
  let p := arctan2 y x
  let p1 := if p < 0 then p + 2 * π else p
  let p2 := if x = 0 ∧ 0 ≤ y then 0.5 * π else p1
  if x = 0 ∧ y < 0 then -0.5 * π else p2

/-- Arguments of `xyz2rtp`: plain numbers or arrays (as lists of points). -/
inductive Points where
  | plain (x y z : ℝ)
  | arrays (ps : List (ℝ × ℝ × ℝ))

/-- `xyz2rtp` (numerical.py 177-228).  The result of `numpy.sqrt` on a plain number does not support
assignment to its items (217), which raises `TypeError`. -/
def xyz2rtp : Points → Res (List (ℝ × ℝ × ℝ))
  | .plain _ _ _ => .error .typeError
  | .arrays ps => .ok (ps.map (fun p =>
      (radiusOf p.1 p.2.1 p.2.2, polarOf p.1 p.2.1 p.2.2, azimuthOf p.1 p.2.1)))

/-! ## Fields -/

/-- `b_mag` (computed.py 60-66) and `v_mag` (69-76), which are the same function. -/
def mag (a b c : ℝ) : ℝ := √(a ^ 2 + b ^ 2 + c ^ 2)

/-- `bv_mag` (computed.py 79-89). -/
def bvMag (br bt bp vr vt vp : ℝ) : ℝ := mag br bt bp * mag vr vt vp

/-- `v_para` (computed.py 110-120), with its order of arguments. -/
def vPara (vr vt vp br bt bp : ℝ) : ℝ := (br * vr + bt * vt + bp * vp) / mag br bt bp

/-- `v_perp` (computed.py 123-135). -/
def vPerp (vr vt vp br bt bp : ℝ) : ℝ :=
  √(mag vr vt vp ^ 2 - vPara vr vt vp br bt bp ^ 2)

/-- The assignments to `arg[arg < -1.0]` and `arg[arg > +1.0]` (computed.py 105-106). -/
def clip (a : ℝ) : ℝ :=
  let a1 := if a < -1 then -1 else a
  if 1 < a1 then 1 else a1

/-- `flow_angle` (computed.py 92-107): `v_para` is called with the fields exchanged (102). -/
def flowAngle (br bt bp vr vt vp : ℝ) : ℝ :=
  arccos (clip (vPara br bt bp vr vt vp / bvMag br bt bp vr vt vp))

/-! ## Derivatives and ratios -/

/-- `numpy.gradient(f, t, axis=0)` for `n` values at the given places (numpy's second-order formula for
uneven spacing, first-order differences at the ends); fewer than two values raise `ValueError`. -/
def gradientAt (n : Nat) (f t : Nat → ℝ) (i : Nat) : Res ℝ :=
  if n < 2 then .error .valueError
  else if i = 0 then .ok ((f 1 - f 0) / (t 1 - t 0))
  else if i + 1 = n then .ok ((f i - f (i - 1)) / (t i - t (i - 1)))
  else
    let h := t i - t (i - 1)
    let k := t (i + 1) - t i
    .ok ((h ^ 2 * f (i + 1) + (k ^ 2 - h ^ 2) * f i - k ^ 2 * f (i - 1)) / (h * k * (h + k)))

/-- `div_v` (computed.py 138-160) at one position in space, for `n` times. -/
def divV (n : Nat) (rho time : Nat → ℝ) (i : Nat) : Res ℝ :=
  (gradientAt n (fun j => log (rho j)) time i).map (fun g => -1 * g)

/-- `density_ratio` (computed.py 163-168) at one position in space. -/
def densityRatio (rho : Nat → ℝ) (i : Nat) : ℝ := rho i / rho 0

/-! ## Particles -/

/-- `rigidity` (computed.py 171-188) for the speed of light `c`. -/
def rigidityAt (c energy mass charge : ℝ) : ℝ :=
  let total := energy + mass * c ^ 2
  let rest := mass * c ^ 2
  √(total ^ 2 - rest ^ 2) / c / charge

/-- `rigidity` (computed.py 171-188). -/
def rigidity (energy mass charge : ℝ) : ℝ := rigidityAt (mks c!"c" : ℚ) energy mass charge

/-- `mean_free_path` (computed.py 191-209) for one position and one energy: `tensordot` with
`axes=0` multiplies every value of the one array with every value of the other. -/
def meanFreePath (r energy mass charge radialPower rigidityPower lambda0 : ℝ) : ℝ :=
  (r / (mks c!"au" : ℚ)) ^ radialPower
    * (rigidity energy mass charge / rigidity (10 ^ 6 * (mks c!"eV" : ℚ)) mass charge) ^ rigidityPower
    * lambda0

/-- `flux` (computed.py 310-317). -/
def flux (energy isodist : ℝ) : ℝ := 2 * energy / (mks c!"mp" : ℚ) ^ 2 * isodist

/-! ## Acceleration -/

/-- `_ahead` for `n` shells (computed.py 241-245). -/
def ahead (n : Nat) (a : Nat → ℝ) (i : Nat) : ℝ := if i + 1 < n then a (i + 1) else a (n - 1)

/-- `_behind` for `n` shells (computed.py 247-251). -/
def behind (a : Nat → ℝ) (i : Nat) : ℝ := if i = 0 then a 0 else a (i - 1)

/-- `acceleration_rate` (computed.py 213-239) for one time, species and energy, along `n` shells: the
arrays are multiplied element by element (`tensordot` with `axes=0` and the transpositions only align
them). -/
def accelerationRate (n : Nat) (vr vt vp angle mfp : Nat → ℝ) (vparticle kper : ℝ) (i : Nat) : ℝ :=
  let dot := ahead n vr i * behind vr i + ahead n vt i * behind vt i + ahead n vp i * behind vp i
  let v := fun j => mag (vr j) (vt j) (vp j)
  let v1 := ahead n v i
  let deltaV := v1 * |1 - dot / (v1 * v1)|
  let kxx := fun j => cos (angle j) ^ 2 + kper * sin (angle j) ^ 2
  let kxxVx := fun j => mfp j * (kxx j * vparticle / 3) / v j
  let deltaX := 3 * (ahead n kxxVx i + behind kxxVx i)
  deltaV / deltaX

end

/-! ## Sums over an axis -/

section
variable {K : Type _} [Field K] [LinearOrder K] [IsStrictOrderedRing K]

/-- `numpy.gradient(v, axis=-1)` for `n` values and unit spacing. -/
def steps (n : Nat) (v : Nat → K) (i : Nat) : K :=
  if i = 0 then v 1 - v 0 else if i + 1 = n then v i - v (i - 1) else (v (i + 1) - v (i - 1)) / 2

/-- `energy_density` (computed.py 254-271) for `n` speeds; fewer than two raise `ValueError`. -/
def energyDensity (mass : K) (n : Nat) (v f : Nat → K) : Res K :=
  if n < 2 then .error .valueError
  else .ok (mass * ∑ i ∈ Finset.range n, v i ^ 4 * f i * steps n v i)

/-- `average_energy` (computed.py 274-294) for `n` speeds. -/
def averageEnergy (mass : K) (n : Nat) (v f : Nat → K) : Res K :=
  (energyDensity mass n v f).map
    (fun e => 1 / 2 * e / ∑ i ∈ Finset.range n, v i ^ 2 * f i * steps n v i)

/-- `isotropic_distribution` (computed.py 297-307): the mean over `n` pitch angles. -/
def isotropic (n : Nat) (dist : Nat → K) : K := (∑ i ∈ Finset.range n, dist i) / n

/-- One panel of `scipy.integrate.simpson` for uneven spacing: two neighbouring intervals. -/
def panel (x y : Nat → K) (j : Nat) : K :=
  let h0 := x (j + 1) - x j
  let h1 := x (j + 2) - x (j + 1)
  (h0 + h1) / 6 * (y j * (2 - h1 / h0) + y (j + 1) * ((h0 + h1) * (h0 + h1) / (h0 * h1))
    + y (j + 2) * (2 - h0 / h1))

/-- `_basic_simpson` of scipy: the sum of `m` panels, the first of which begins at point `s`. -/
def panels (s m : Nat) (x y : Nat → K) : K := ∑ k ∈ Finset.range m, panel x y (s + 2 * k)

/-- `scipy.integrate.simpson(y, x)` for `n ≥ 1` points, in scipy 1.9.3 (poetry.lock 253-254). For an even number it is
the mean of two results: panels that begin at the first point with a trapezium at the end, and panels that begin at
the second point with a trapezium at the beginning. -/
def simpson (n : Nat) (x y : Nat → K) : K :=
  if n % 2 = 1 then panels 0 (n / 2) x y
  else (panels 0 (n / 2 - 1) x y + panels 1 (n / 2 - 1) x y) / 2
    + (1 / 2 * (x (n - 1) - x (n - 2)) * (y (n - 1) + y (n - 2)) + 1 / 2 * (x 1 - x 0) * (y 1 + y 0)) / 2

/-- `fluence` (computed.py 320-326) at one position in space and energy, for `n ≥ 1` times. -/
def fluence (n : Nat) (flux time : Nat → K) : K := simpson n time flux

end

/-! ## Integral flux -/

noncomputable section

/-- `sys.float_info.min`. -/
def floatMin : ℝ := 1 / 2 ^ 1022

/-- `_interpolate` (computed.py 380-402) for one series of fluxes at ascending energies; reading past
the end raises `IndexError`. -/
def interpolate (f x : List ℝ) (m : ℝ) : Res (List ℝ × List ℝ) :=
  match Numerical.findNearest x m .upper with
  | .error e => .error e
  | .ok (i, x0) =>
    let i0 := i.toNat
    match f[i0]?, f[i0 + 1]?, x[i0 + 1]? with
    | some f0, some f1, some x1 =>
      let beta := log (f1 / f0) / log (x1 / x0)
      .ok ((f.set i0 (f0 * (m / x0) ^ beta)).drop i0, (x.set i0 m).drop i0)
    | _, _, _ => .error .indexError

/-- `integrate.simpson` on lists; without points the first one is missing. -/
def simpsonList (y x : List ℝ) : Res ℝ :=
  if x.length = 0 then .error .indexError
  else .ok (simpson x.length (x.getD · 0) (y.getD · 0))

/-- The body of the loops of `integral_flux` (computed.py 370-377) for one species with energies `e`
and fluxes `f`, where `lowest` is the least energy of all species. -/
def integralFlux (e f : List ℝ) (lowest bound : ℝ) : Res ℝ :=
  let m := max bound floatMin
  if m < lowest then simpsonList f e
  else match interpolate f e m with
    | .error err => .error err
    | .ok (f', e') => simpsonList f' e'

end

end Verif.Physics
