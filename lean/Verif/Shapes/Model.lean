import Verif.Physics.Model

/-!
# Model of the functions in `src/goats/core/computed.py` on whole arrays

A numpy array is its shape together with its entries, indexed by lists of positions. `numpy` is modelled by the
operations below: broadcasting, outer products, transposition, and reduction along an axis. Entries at positions outside
of the shape have no meaning. Numbers are real, as in `Verif.Physics`.
-/

namespace Verif.Shapes

open Verif.Py Real
open Verif.Physics (mks)

/-- A numpy array. -/
structure Arr (K : Type) where
  shape : List Nat
  entry : List Nat → K

variable {K : Type}

/-! ## numpy -/

/-- The size that two sizes of one axis broadcast to. -/
def joinDim (m n : Nat) : Option Nat :=
  if m = n then some m else if m = 1 then some n else if n = 1 then some m else none

/-- Broadcasting of shapes that are listed from the last axis. -/
def joinRev : List Nat → List Nat → Option (List Nat)
  | [], bs => some bs
  | as, [] => some as
  | a :: as, b :: bs =>
    match joinDim a b, joinRev as bs with
    | some d, some ds => some (d :: ds)
    | _, _ => none

/-- `numpy.broadcast_shapes`: shapes are aligned at the last axis. -/
def broadcastShape (a b : List Nat) : Option (List Nat) := (joinRev a.reverse b.reverse).map List.reverse

/-- The position in an array of the given shape that takes part in the entry at `i` of a broadcast result. -/
def locate (shape i : List Nat) : List Nat :=
  List.zipWith (fun n k => if n = 1 then 0 else k) shape (i.drop (i.length - shape.length))

/-- A binary operation of two arrays, element by element; shapes that cannot be broadcast raise `ValueError`. -/
def Arr.map2 {A B : Type} (f : A → B → K) (a : Arr A) (b : Arr B) : Res (Arr K) :=
  match broadcastShape a.shape b.shape with
  | none => .error .valueError
  | some s => .ok ⟨s, fun i => f (a.entry (locate a.shape i)) (b.entry (locate b.shape i))⟩

/-- An operation on every element. -/
def Arr.map {A : Type} (f : A → K) (a : Arr A) : Arr K := ⟨a.shape, fun i => f (a.entry i)⟩

/-- `numpy.tensordot(a, b, axes=0)`. -/
def outer [Mul K] (a b : Arr K) : Arr K :=
  ⟨a.shape ++ b.shape, fun i => a.entry (i.take a.shape.length) * b.entry (i.drop a.shape.length)⟩

/-- `a.transpose(perm)`: axis `k` of the result is axis `perm[k]` of `a`. -/
def transpose (perm : List Nat) (a : Arr K) : Res (Arr K) :=
  if perm.length ≠ a.shape.length then .error .valueError
  else .ok ⟨perm.map (fun p => a.shape.getD p 0),
    fun i => a.entry ((List.range perm.length).map (fun d => i.getD (perm.idxOf d) 0))⟩

/-- A reduction along the last axis: `f n v` for the `n` values `v` along it. A scalar has no last axis. -/
def reduceLast (f : Nat → (Nat → K) → K) (a : Arr K) : Res (Arr K) :=
  match a.shape.getLast? with
  | none => .error (.named "AxisError")
  | some n => .ok ⟨a.shape.dropLast, fun i => f n (fun e => a.entry (i ++ [e]))⟩

/-- An operation along the last axis that keeps it: `f n v e`. -/
def alongLast (f : Nat → (Nat → K) → Nat → K) (a : Arr K) : Res (Arr K) :=
  match a.shape.getLast? with
  | none => .error (.named "AxisError")
  | some n => .ok ⟨a.shape, fun i => f n (fun e => a.entry (i.dropLast ++ [e])) (i.getLast?.getD 0)⟩

/-- `a[0, ...]`. -/
def first (a : Arr K) : Res (Arr K) :=
  match a.shape with
  | [] | 0 :: _ => .error .indexError
  | _ :: s => .ok ⟨s, fun i => a.entry (0 :: i)⟩

/-- `arr[:, idx, ...]` for `idx` given by a function of the position. -/
def pick (idx : Nat → Nat → Nat) (a : Arr K) : Res (Arr K) :=
  match a.shape with
  | _ :: 0 :: _ => .error .indexError
  | t :: n :: s => .ok ⟨t :: n :: s, fun i => a.entry (i.set 1 (idx n (i.getD 1 0)))⟩
  | _ => .error .indexError

noncomputable section

def add (a b : Arr ℝ) : Res (Arr ℝ) := Arr.map2 (· + ·) a b
def sub (a b : Arr ℝ) : Res (Arr ℝ) := Arr.map2 (· - ·) a b
def mul (a b : Arr ℝ) : Res (Arr ℝ) := Arr.map2 (· * ·) a b
def div (a b : Arr ℝ) : Res (Arr ℝ) := Arr.map2 (· / ·) a b

/-- `numpy.gradient(v, axis=-1)`; fewer than two values raise `ValueError`. -/
def gradientLast (a : Arr ℝ) : Res (Arr ℝ) :=
  match a.shape.getLast? with
  | none => .error .indexError
  | some n => if n < 2 then .error .valueError else alongLast Physics.steps a

/-- `numpy.array(value, ndmin=1)`. -/
def atleast1 (a : Arr K) : Arr K :=
  if a.shape = [] then ⟨[1], fun _ => a.entry []⟩ else a

/-- A number, as an array without axes. -/
def scalar (x : K) : Arr K := ⟨[], fun _ => x⟩

/-! ## computed.py -/

/-- `b_mag`, `v_mag` (computed.py 59-76): `sqrt(a**2 + b**2 + c**2)`. -/
def magArr (a b c : Arr ℝ) : Res (Arr ℝ) := do
  return (← add (← add (a.map (· ^ 2)) (b.map (· ^ 2))) (c.map (· ^ 2))).map (√·)

/-- `x` and `y` (computed.py 30-47), for `f` the cosine and the sine. -/
def planeArr (f : ℝ → ℝ) (r theta phi : Arr ℝ) : Res (Arr ℝ) := do
  mul (← mul r (theta.map sin)) (phi.map f)

/-- `z` (computed.py 50-56). -/
def zArr (r theta : Arr ℝ) : Res (Arr ℝ) := mul r (theta.map cos)

/-- `bv_mag` (computed.py 79-89). -/
def bvMagArr (br bt bp vr vt vp : Arr ℝ) : Res (Arr ℝ) := do
  mul (← magArr br bt bp) (← magArr vr vt vp)

/-- `v_para` (computed.py 110-120). -/
def vParaArr (vr vt vp br bt bp : Arr ℝ) : Res (Arr ℝ) := do
  div (← add (← add (← mul br vr) (← mul bt vt)) (← mul bp vp)) (← magArr br bt bp)

/-- `v_perp` (computed.py 123-135). -/
def vPerpArr (vr vt vp br bt bp : Arr ℝ) : Res (Arr ℝ) := do
  let mag ← magArr vr vt vp
  let para ← vParaArr vr vt vp br bt bp
  return (← sub (mag.map (· ^ 2)) (para.map (· ^ 2))).map (√·)

/-- `flow_angle` (computed.py 93-107). -/
def flowAngleArr (br bt bp vr vt vp : Arr ℝ) : Res (Arr ℝ) := do
  let dot ← vParaArr br bt bp vr vt vp
  let bv ← bvMagArr br bt bp vr vt vp
  return (← div dot bv).map (fun x => arccos (Physics.clip x))

/-- `density_ratio` (computed.py 163-168). -/
def densityRatioArr (rho : Arr ℝ) : Res (Arr ℝ) := do
  div rho (← first rho)

/-- `rigidity` (computed.py 171-188). -/
def rigidityArr (energy mass charge : Arr ℝ) : Res (Arr ℝ) := do
  let c : ℝ := (mks c!"c" : ℚ)
  let rest := mass.map (· * c ^ 2)
  let total ← add (atleast1 energy) rest
  let p := (← sub (total.map (· ^ 2)) (rest.map (· ^ 2))).map (fun x => √x / c)
  div p charge

/-- `mean_free_path` (computed.py 191-209). -/
def meanFreePathArr (r energy mass charge : Arr ℝ) (radialPower rigidityPower lambda0 : ℝ) : Res (Arr ℝ) := do
  let rg ← rigidityArr energy mass charge
  let rg0 ← rigidityArr (scalar (10 ^ 6 * ((mks c!"eV" : ℚ) : ℝ))) mass charge
  let mfp := outer (r.map (fun x => (x / ((mks c!"au" : ℚ) : ℝ)) ^ radialPower))
    ((← div rg rg0).map (· ^ rigidityPower))
  return mfp.map (· * lambda0)

/-- `_ahead` (computed.py 241-245). -/
def aheadArr (a : Arr ℝ) : Res (Arr ℝ) := pick (fun n i => if i + 1 < n then i + 1 else n - 1) a

/-- `_behind` (computed.py 247-251). -/
def behindArr (a : Arr ℝ) : Res (Arr ℝ) := pick (fun _ i => if i = 0 then 0 else i - 1) a

/-- `(2, 3, 0, 1)` (computed.py 233). -/
def forward : List Nat := [2, 3, 0, 1]

/-- `acceleration_rate` (computed.py 212-239). -/
def accelerationArr (vr vt vp vparticle angle mfp : Arr ℝ) (kper : ℝ) : Res (Arr ℝ) := do
  let dot ← add (← add (← mul (← aheadArr vr) (← behindArr vr)) (← mul (← aheadArr vt) (← behindArr vt)))
    (← mul (← aheadArr vp) (← behindArr vp))
  let v ← magArr vr vt vp
  let v1 ← aheadArr v
  let deltaV ← mul v1 ((← div dot (← mul v1 v1)).map (fun x => |1 - x|))
  let kxx := angle.map (fun x => cos x ^ 2 + kper * sin x ^ 2)
  let kappa ← mul mfp ((outer kxx vparticle).map (· / 3))
  let kxxVx ← transpose forward (← div (← transpose forward kappa) v)
  let deltaX := (← add (← aheadArr kxxVx) (← behindArr kxxVx)).map (3 * ·)
  transpose forward (← div deltaV (← transpose forward deltaX))

/-- `energy_density` (computed.py 254-271). -/
def energyDensityArr (speed isodist : Arr ℝ) : Res (Arr ℝ) := do
  let v := atleast1 speed
  let dv ← gradientLast v
  let sum ← reduceLast (fun n f => ∑ e ∈ Finset.range n, f e) (← mul (← mul (v.map (· ^ 4)) isodist) dv)
  return sum.map (fun x => (mks c!"mp" : ℚ) * x)

/-- `average_energy` (computed.py 274-294). -/
def averageEnergyArr (speed isodist : Arr ℝ) : Res (Arr ℝ) := do
  let v := atleast1 speed
  let dv ← gradientLast v
  let norm ← reduceLast (fun n f => ∑ e ∈ Finset.range n, f e) (← mul (← mul (v.map (· ^ 2)) isodist) dv)
  let eps ← energyDensityArr v isodist
  div (eps.map (1 / 2 * ·)) norm

/-- `isotropic_distribution` (computed.py 297-307). -/
def isotropicArr (dist : Arr ℝ) : Res (Arr ℝ) := reduceLast Physics.isotropic dist

/-- `flux` (computed.py 310-317). -/
def fluxArr (energy isodist : Arr ℝ) : Res (Arr ℝ) :=
  mul ((atleast1 energy).map (fun e => 2 * e / (mks c!"mp" : ℚ) ^ 2)) isodist

/-- `div_v` (computed.py 138-160): `numpy.gradient` needs at least two times, and as many times as densities along the
first axis. -/
def divVArr (rho time : Arr ℝ) : Res (Arr ℝ) :=
  match rho.shape with
  | [] => .error (.named "AxisError")
  | n :: s =>
    if time.shape ≠ [n] then .error .valueError
    else if n < 2 then .error .valueError
    else .ok ⟨n :: s, fun i =>
      match Physics.divV n (fun t => rho.entry (t :: i.tail)) (fun t => time.entry [t]) (i.getD 0 0) with
      | .ok x => x
      | .error _ => 0⟩

/-- `fluence` (computed.py 320-326). Without times the first interval is missing. -/
def fluenceArr (flux time : Arr ℝ) : Res (Arr ℝ) :=
  match flux.shape with
  | [] => .error (.named "AxisError")
  | n :: s =>
    if time.shape ≠ [n] then .error .valueError
    else if n = 0 then .error .indexError
    else .ok ⟨s, fun i => Physics.fluence n (fun t => flux.entry (t :: i)) (fun t => time.entry [t])⟩

/-! ## Integral flux -/

/-- The entries `a[i..., 0], a[i..., 1], …` along a last axis of size `n`. -/
def series (a : Arr ℝ) (i : List Nat) (n : Nat) : List ℝ := (List.range n).map (fun e => a.entry (i ++ [e]))

/-- `numpy.min(energies)` for `s` species and `n` energies, at least one of each. -/
def lowest (energies : Arr ℝ) (s n : Nat) : ℝ :=
  ((List.range s).flatMap (fun k => series energies [k] n)).foldl min (energies.entry [0, 0])

/-- The entry of `integral_flux` for a position, species and bound (computed.py 369-377). -/
def integralEntry (energies flux : Arr ℝ) (species n : Nat) (bounds : List ℝ) (t k s i : Nat) : Res ℝ :=
  Physics.integralFlux (series energies [s] n) (series flux [t, k, s] n) (lowest energies species n) (bounds.getD i 0)

/-- `integral_flux` (computed.py 352-378) for energies of every species. Species without energies keep the initial
value 0 (368), species without flux raise `IndexError`. -/
def integralFluxArr (energies flux : Arr ℝ) (bounds : List ℝ) : Res (Arr ℝ) :=
  match energies.shape, flux.shape with
  | [species, n], [t, k, s, n'] =>
    if n ≠ n' ∨ n = 0 ∨ species = 0 then .error .valueError
    else if s < species then .error .indexError
    else do
      let _ ← (List.range bounds.length).mapM (fun i => (List.range species).mapM (fun j =>
        (List.range t).mapM (fun a => (List.range k).mapM (fun b => integralEntry energies flux species n bounds a b j i))))
      return ⟨[t, k, s, bounds.length], fun idx =>
        match idx with
        | [a, b, j, i] =>
          if j < species then
            match integralEntry energies flux species n bounds a b j i with
            | .ok x => x
            | .error _ => 0
          else 0
        | _ => 0⟩
  | _, _ => .error (.named "shape")

end

end Verif.Shapes
